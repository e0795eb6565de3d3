import Verif.Props.BasicExact
import Verif.Props.Decode
import Verif.Props.Reopen
import Verif.Props.Space
import Verif.Props.Copy

/-!
# C110: a program that is copied to a NakedOS disk
-/

set_option autoImplicit false

namespace Verif.Applesoft

open Verif Verif.Spec.Basic Verif.Basic

theorem lineBytes_append (t : Bytes) : ∀ (d bs : Bytes), lineBytes d = .ok bs → lineBytes (d ++ t) = .ok bs := by
  intro d
  induction d with
  | nil => intro bs h; simp [lineBytes] at h
  | cons c rest ih =>
    intro bs h
    rw [List.cons_append]
    unfold lineBytes at h ⊢
    by_cases h0 : c = 0
    · rw [if_pos h0] at h ⊢
      exact h
    rw [if_neg h0] at h ⊢
    have key : (lineBytes rest >>= fun bs => Out.ok (c :: bs)) = .ok bs →
        (lineBytes (rest ++ t) >>= fun bs => Out.ok (c :: bs)) = .ok bs := by
      intro hb
      cases hr : lineBytes rest with
      | ok b => rw [hr] at hb; rw [ih b hr]; exact hb
      | err k => rw [hr] at hb; cases hb
      | panic => rw [hr] at hb; cases hb
      | timeout => rw [hr] at hb; cases hb
    by_cases h1 : c < 0x80
    · rw [if_pos h1] at h ⊢; exact key h
    · rw [if_neg h1] at h ⊢
      by_cases h2 : tokenByCode c = []
      · rw [if_pos h2] at h; cases h
      · rw [if_neg h2] at h ⊢; exact key h

theorem getD_app {d : Bytes} (t : Bytes) {i : Nat} (h : i < d.length) : (d ++ t).getD i 0 = d.getD i 0 := by
  rw [List.getD_eq_getElem?_getD, List.getD_eq_getElem?_getD, List.getElem?_append_left h]

/-- What decodes still does with something after it. -/
theorem decodeLoop_append (d t : Bytes) (loc : Int) : ∀ (n : Nat) (next : Int) (ls : List Line),
    decodeLoop d loc n next = .ok ls → decodeLoop (d ++ t) loc n next = .ok ls := by
  intro n
  induction n with
  | zero =>
    intro next ls h
    unfold decodeLoop at h ⊢
    exact h
  | succ n ih =>
    intro next ls h
    unfold decodeLoop at h ⊢
    by_cases h0 : next = 0
    · rw [if_pos h0] at h ⊢; exact h
    rw [if_neg h0] at h ⊢
    dsimp only at h ⊢
    by_cases h1 : next - loc < -1 ∨ next - loc + 1 ≥ (d.length : Int)
    · rw [if_pos h1] at h; cases h
    rw [if_neg h1] at h
    rw [if_neg (by rw [List.length_append]; omega)]
    by_cases h2 : next - loc < 0
    · rw [if_pos h2] at h; cases h
    rw [if_neg h2] at h ⊢
    have ho : (next - loc).toNat + 1 < d.length := by omega
    generalize (next - loc).toNat = o at ho h ⊢
    rw [getD_app t (by omega), getD_app t ho]
    by_cases h3 : ((d.getD o 0).toNat : Int) + 256 * ((d.getD (o + 1) 0).toNat : Int) = 0
    · rw [if_pos h3] at h ⊢; exact h
    rw [if_neg h3] at h ⊢
    by_cases h4 : o + 3 ≥ d.length
    · rw [if_pos h4] at h; cases h
    rw [if_neg h4] at h
    rw [if_neg (by rw [List.length_append]; omega), getD_app t (by omega), getD_app t (by omega),
      List.drop_append_of_le_length (by omega)]
    cases hb : lineBytes (d.drop (o + 4)) with
    | ok bs =>
      rw [hb] at h
      rw [lineBytes_append t _ _ hb]
      simp only [Out.bind_ok] at h ⊢
      cases hr : decodeLoop d loc n (((d.getD o 0).toNat : Int) + 256 * ((d.getD (o + 1) 0).toNat : Int)) with
      | ok r => rw [hr] at h; rw [ih _ _ hr]; exact h
      | err k => rw [hr] at h; cases h
      | panic => rw [hr] at h; cases h
      | timeout => rw [hr] at h; cases h
    | err k => rw [hb] at h; cases h
    | panic => rw [hb] at h; cases h
    | timeout => rw [hb] at h; cases h

theorem decode_append {n : Nat} {d t : Bytes} {loc : UInt16} {ls : List Line} (h1 : ¬ LooksHeadered d)
    (h2 : ¬ LooksHeadered (d ++ t)) (h : decode n d loc = .ok ls) : decode n (d ++ t) loc = .ok ls := by
  unfold decode at h ⊢
  rw [(stripHeader_spec _).2 h1] at h
  rw [(stripHeader_spec _).2 h2]
  exact decodeLoop_append _ _ _ _ _ _ h

/-- Data that starts with a number between 0 and the location is not a program there. -/
theorem decodeLoop_low {d : Bytes} {loc : Nat} (h0 : 0 < (d.getD 0 0).toNat + 256 * (d.getD 1 0).toNat)
    (h1 : (d.getD 0 0).toNat + 256 * (d.getD 1 0).toNat + 1 < loc) (n : Nat) (ls : List Line) :
    decodeLoop d (loc : Int) n (loc : Int) ≠ .ok ls := by
  intro h
  unfold decodeLoop at h
  rw [if_neg (by omega)] at h
  cases n with
  | zero => cases h
  | succ n =>
    simp only [Int.sub_self] at h
    by_cases h2 : (0 : Int) < -1 ∨ (0 : Int) + 1 ≥ (d.length : Int)
    · rw [if_pos h2] at h; cases h
    rw [if_neg h2, if_neg (by omega)] at h
    simp only [Int.toNat_zero, Nat.zero_add] at h
    rw [if_neg (by omega)] at h
    split at h
    · cases h
    obtain ⟨bs, hb, h⟩ := Out.bind_eq_ok.1 h
    obtain ⟨r, hr, h⟩ := Out.bind_eq_ok.1 h
    unfold decodeLoop at hr
    rw [if_neg (by omega)] at hr
    cases n with
    | zero => cases hr
    | succ n =>
      dsimp only at hr
      rw [if_pos (Or.inl (by omega))] at hr
      cases hr

end Verif.Applesoft

namespace Verif.Integer

open Verif Verif.Spec.Basic Verif.Basic

theorem afterLines_layout (t : Bytes) : ∀ (lines : List Line), (∀ l ∈ lines, IntegerLine l) → AfterLines (integerLayout lines ++ t) t := by
  intro lines
  induction lines with
  | nil => intro _; exact .none
  | cons l rest ih =>
    intro hl
    have h1 := hl l List.mem_cons_self
    have hs : lineSize (integerLayout (l :: rest) ++ t) = l.bytes.length + 4 := by
      unfold lineSize
      simp only [integerLayout, List.cons_append, List.getD_cons_zero]
      have := h1.2
      rw [UInt8.toNat_ofNat_of_lt' (by show l.bytes.length + 4 < 256; omega)]
    have e : integerLayout (l :: rest) ++ t =
        (UInt8.ofNat (l.bytes.length + 4) :: (word16 l.num ++ (l.bytes ++ [1]))) ++ (integerLayout rest ++ t) := by
      simp [integerLayout, List.append_assoc]
    have hlen : (UInt8.ofNat (l.bytes.length + 4) :: (word16 l.num ++ (l.bytes ++ [1]))).length = l.bytes.length + 4 := by
      simp [word16]
    refine .line ?_ (by omega) ?_ ?_ ?_
    · rw [e, List.length_append, hlen]; omega
    · rw [hs, e, List.length_append, hlen]; omega
    · rw [hs, e, List.getD_eq_getElem?_getD, List.getElem?_append_left (by rw [hlen]; omega)]
      simp [word16]
    · rw [hs, e, List.drop_append_of_le_length (by rw [hlen]), List.drop_of_length_le (by rw [hlen]), List.nil_append]
      exact ih fun x hx => hl x (List.mem_cons_of_mem _ hx)

end Verif.Integer

namespace Verif.Cmd

open Disk Spec Spec.Basic Verif.Basic

/-- After command `c` the image has a file number `f` that `dump` prints as `out`, under every name of that number. -/
def Keeps (env : Env) (w : World) (c : Command) (image : Str) (f : UInt8) (out : Bytes) : Prop :=
  ∃ ord, ord ∈ [str "do", str "po"] ∧ ∀ name, NumericName name f → ∀ w', w'.files image = (run env c w).2.files image →
    run env (.dump ord (str "nakedos") image name) w' = (.ok (), { w' with stdout := w'.stdout ++ out })

theorem decode_of_prints {env : Env} {w : World} {filename : Str} {loc : UInt16} {raw : Bool} {text : Str} {b : Bytes}
    (hg : given w filename = some b) (h : Prints env w filename loc raw text) :
    ∃ lines, Applesoft.decode env.budget b loc = .ok lines ∧
      (if raw = true then text else escaped text) =
        if raw = true then Applesoft.Listing.string lines else escaped (Applesoft.Listing.string lines) := by
  obtain ⟨w', h1, h2, h3⟩ := contentsOf_given hg
  have e := decode_eq (env := env) (location := loc) h1 raw
  obtain ⟨w2, r1, r2, r3⟩ := h
  rw [r1] at e
  cases hd : Applesoft.decode env.budget b loc with
  | ok lines =>
    rw [hd] at e
    have := (Prod.mk.inj e).2
    rw [this] at r3
    dsimp only at r3
    rw [h3, C54_names] at r3
    exact ⟨lines, rfl, (List.append_cancel_left r3).symm⟩
  | err k => rw [hd] at e; cases e
  | panic => rw [hd] at e; cases e
  | timeout => rw [hd] at e; cases e

/-- C110: a file that `decode` reads from its first byte on, put on a NakedOS disk under a number and dumped from there, is printed by
`decode` as before, unless the length of the copy makes its first two bytes look like a length. -/
theorem C110_bare_partial {env : Env} {order : DiskOrder} {system ty : Str} {ow : Bool} {a : UInt16} {image name source : Str} {w : World}
    (hi : image ≠ str "-") (h : (run env (.put order system ty ow a image name source) w).1 = .ok ())
    {f : UInt8} (hn : NumericName name f) {data : Bytes} (hg : given w source = some data) (hd : data ≠ [])
    (hb : ¬ LooksHeadered data) (hp : ¬ LooksHeadered (padded data)) :
    ∃ out, Keeps env w (.put order system ty ow a image name source) image f out ∧
      ∀ (w1 w2 : World) (file1 file2 : Str) (loc : UInt16) (raw : Bool) (text : Str), given w1 file1 = some data → given w2 file2 = some out →
        Prints env w1 file1 loc raw text → Prints env w2 file2 loc raw text := by
  refine ⟨padded data, C63_put_then_dump hi h hn hg hd, ?_⟩
  intro w1 w2 file1 file2 loc raw text g1 g2 ht
  obtain ⟨lines, e1, e2⟩ := decode_of_prints g1 ht
  obtain ⟨w3, r1, r2, r3⟩ := decode_prints g2 (Applesoft.decode_append hb hp e1) raw
  exact ⟨w3, r1, r2, by rw [e2]; exact r3⟩

/-- Neither looks like a length if the program is shorter than the memory before it. -/
theorem bare_short {loc : Nat} {l : Line} {rest : List Line} (hfit : loc + (applesoftLayout loc (l :: rest)).length ≤ 65536)
    (hs : (padded (applesoftLayout loc (l :: rest))).length ≤ loc) :
    ¬ LooksHeadered (applesoftLayout loc (l :: rest)) ∧ ¬ LooksHeadered (padded (applesoftLayout loc (l :: rest))) := by
  have hlen : (applesoftLayout loc (l :: rest)).length =
      l.bytes.length + 5 + (applesoftLayout (loc + (l.bytes.length + 5)) rest).length := by
    simp only [applesoftLayout, word16, List.length_append, List.length_cons, List.length_nil]; omega
  have e0 : ∀ t, (applesoftLayout loc (l :: rest) ++ t).getD 0 0 = loByte (loc + (l.bytes.length + 5)) := fun _ => rfl
  have e1 : ∀ t, (applesoftLayout loc (l :: rest) ++ t).getD 1 0 = hiByte (loc + (l.bytes.length + 5)) := fun _ => rfl
  have key : ∀ t, (applesoftLayout loc (l :: rest) ++ t).length ≤ loc → ¬ LooksHeadered (applesoftLayout loc (l :: rest) ++ t) := by
    rintro t ht ⟨_, h⟩
    have := Applesoft.layout_length_pos (loc + (l.bytes.length + 5)) rest
    rw [List.length_append] at ht
    rw [List.length_append, e0, e1, word_back (by omega)] at h
    omega
  unfold padded at hs ⊢
  rw [List.length_append] at hs
  refine ⟨?_, key _ (by rw [List.length_append]; exact hs)⟩
  have := key [] (by rw [List.append_nil]; omega)
  rwa [List.append_nil] at this

/-- C110: so a program without its length, at most as long as the memory before it, is listed from the NakedOS disk as from the file. -/
theorem C110_bare_short {env : Env} {order : DiskOrder} {system ty : Str} {ow : Bool} {a : UInt16} {image name source : Str} {w : World}
    (hi : image ≠ str "-") (h : (run env (.put order system ty ow a image name source) w).1 = .ok ())
    {f : UInt8} (hn : NumericName name f) (loc : UInt16) (l : Line) (rest : List Line) (hl : ∀ x ∈ l :: rest, ApplesoftLine x)
    (hfit : loc.toNat + (applesoftLayout loc.toNat (l :: rest)).length ≤ 65536)
    (hs : sectorsNeeded (applesoftLayout loc.toNat (l :: rest)).length * 256 ≤ loc.toNat)
    (hg : given w source = some (applesoftLayout loc.toNat (l :: rest))) (hb : (l :: rest).length < env.budget) :
    ∃ out, Keeps env w (.put order system ty ow a image name source) image f out ∧
      ∃ keyword text, (∀ c, c ∉ misnamed → keyword c = applesoftKeyword c) ∧ IsListing keyword (l :: rest) text ∧
        ∀ (w2 : World) (file2 : Str) (raw : Bool), given w2 file2 = some out → Prints env w2 file2 loc raw text := by
  have hlen : (padded (applesoftLayout loc.toNat (l :: rest))).length ≤ loc.toNat := by
    rw [Supermon.padded_length]
    unfold sectorsNeeded at hs
    split at hs <;> omega
  obtain ⟨b1, b2⟩ := bare_short hfit hlen
  have hpos : 1 ≤ loc.toNat := by
    rw [Supermon.padded_length] at hlen
    have : 0 < (applesoftLayout loc.toNat (l :: rest)).length := by
      simp only [applesoftLayout, word16, List.length_append, List.length_cons]; omega
    omega
  obtain ⟨out, k1, k2⟩ := C110_bare_partial hi h hn hg (by intro e; exact absurd (congrArg List.length e) (by
    simp [applesoftLayout, word16])) b1 b2
  obtain ⟨kw, h2, h3⟩ := listing_shown (l :: rest)
  have hd := Applesoft.C50_without_header_partial (l :: rest) hl loc hpos hfit [] (by rw [List.append_nil]; exact b1) env.budget hb
  rw [List.append_nil] at hd
  exact ⟨out, k1, kw, _, h2, h3, fun w2 file2 raw g2 => k2 w w2 source file2 loc raw _ hg g2 (decode_prints hg hd raw)⟩

/-- C110, exactly, for a program saved with its length: the copy on the NakedOS disk is listed as the file if and only if its length modulo
256 is 0 or 255; otherwise `decode` fails on it. -/
theorem C110_saved_exact {env : Env} {order : DiskOrder} {system ty : Str} {ow : Bool} {a : UInt16} {image name source : Str} {w : World}
    (hi : image ≠ str "-") (h : (run env (.put order system ty ow a image name source) w).1 = .ok ())
    {f : UInt8} (hn : NumericName name f) (loc : UInt16) (lines : List Line) (hl : ∀ x ∈ lines, ApplesoftLine x)
    (hfit : loc.toNat + (applesoftLayout loc.toNat lines).length ≤ 65536)
    {data : Bytes} (hdata : data = withLength (applesoftLayout loc.toNat lines)) (hs : data.length ≤ loc.toNat)
    (hg : given w source = some data) (hb : lines.length < env.budget) :
    ∃ out, Keeps env w (.put order system ty ow a image name source) image f out ∧
      ∃ keyword text, (∀ c, c ∉ misnamed → keyword c = applesoftKeyword c) ∧ IsListing keyword lines text ∧
        ∀ (w2 : World) (file2 : Str) (raw : Bool), given w2 file2 = some out →
          Prints env w source loc raw text ∧
          (data.length % 256 = 0 ∨ data.length % 256 = 255 → Prints env w2 file2 loc raw text) ∧
          (¬ (data.length % 256 = 0 ∨ data.length % 256 = 255) → (run env (.decode file2 loc raw) w2).1 ≠ .ok ()) := by
  have hlen : data.length = (applesoftLayout loc.toNat lines).length + 2 := by
    rw [hdata]; simp only [withLength, word16, List.length_append, List.length_cons, List.length_nil]; omega
  have hp0 : 2 ≤ (applesoftLayout loc.toNat lines).length := Applesoft.layout_length_pos _ _
  obtain ⟨kw, h2, h3⟩ := listing_shown lines
  refine ⟨padded data, C63_put_then_dump hi h hn hg (by intro e; rw [e] at hlen; simp at hlen), kw, _, h2, h3, ?_⟩
  intro w2 file2 raw g2
  have hwith := fun extra (he : List.length extra ≤ 1) =>
    Applesoft.C50_with_header lines hl loc (by omega) hfit extra he env.budget hb
  refine ⟨decode_prints hg (by have := hwith [] (by simp); rwa [List.append_nil, ← hdata] at this) raw, fun hm => ?_, fun hm hok => ?_⟩
  · refine decode_prints g2 ?_ raw
    unfold padded
    have := hwith (List.replicate ((256 - data.length % 256) % 256) 0) (by rw [List.length_replicate]; omega)
    rwa [← hdata] at this
  · obtain ⟨w', h1, _, _⟩ := contentsOf_given g2
    have e := decode_eq (env := env) (location := loc) h1 raw
    have hnot : ¬ LooksHeadered (padded data) := by
      rintro ⟨_, hh⟩
      have e0 : (padded data).getD 0 0 = loByte (applesoftLayout loc.toNat lines).length := by rw [hdata]; rfl
      have e1 : (padded data).getD 1 0 = hiByte (applesoftLayout loc.toNat lines).length := by rw [hdata]; rfl
      rw [e0, e1, word_back (by omega), Supermon.padded_length] at hh
      omega
    have hne : ∀ ls, Applesoft.decode env.budget (padded data) loc ≠ .ok ls := by
      intro ls
      unfold Applesoft.decode
      rw [(stripHeader_spec _).2 hnot]
      have e0 : (padded data).getD 0 0 = loByte (applesoftLayout loc.toNat lines).length := by rw [hdata]; rfl
      have e1 : (padded data).getD 1 0 = hiByte (applesoftLayout loc.toNat lines).length := by rw [hdata]; rfl
      refine Applesoft.decodeLoop_low ?_ ?_ _ _ <;> rw [e0, e1, word_back (by omega)] <;> omega
    cases hd : Applesoft.decode env.budget (padded data) loc with
    | ok ls => exact hne ls hd
    | err k => rw [hd] at e; rw [e] at hok; cases hok
    | panic => rw [hd] at e; rw [e] at hok; cases hok
    | timeout => rw [hd] at e; rw [e] at hok; cases hok

/-- C110: an Integer BASIC program that is read from its first byte on cannot be read back from a NakedOS disk at all if more than three
bytes of the last sector are left: decoding what `dump` prints is a crash. -/
theorem C110_integer {env : Env} {order : DiskOrder} {system ty : Str} {ow : Bool} {a : UInt16} {image name source : Str} {w : World}
    (hi : image ≠ str "-") (h : (run env (.put order system ty ow a image name source) w).1 = .ok ())
    {f : UInt8} (hn : NumericName name f) {lines : List Line} (hl : ∀ x ∈ lines, IntegerLine x) (h0 : lines ≠ [])
    {data : Bytes} (hdata : data = integerLayout lines) (hg : given w source = some data)
    (hp : ¬ LooksHeadered (padded data)) :
    ∃ out, Keeps env w (.put order system ty ow a image name source) image f out ∧
      (data.length % 256 = 0 ∨ 253 ≤ data.length % 256 → Integer.decode out = .ok lines) ∧
      (¬ (data.length % 256 = 0 ∨ 253 ≤ data.length % 256) → Integer.decode out = .panic) := by
  have hd : data ≠ [] := by
    rw [hdata]
    cases lines with
    | nil => exact absurd rfl h0
    | cons l rest => simp [integerLayout]
  refine ⟨padded data, C63_put_then_dump hi h hn hg hd, fun hm => ?_, fun hm => ?_⟩
  · have := Integer.C52_without_header_partial lines hl (List.replicate ((256 - data.length % 256) % 256) 0)
      (by rw [List.length_replicate]; omega) (by rw [← hdata]; exact hp)
    rwa [← hdata] at this
  · refine ((Integer.C53_exact_partial _ _ (Or.inr ⟨hp, rfl⟩)).2.1).2
      ⟨List.replicate ((256 - data.length % 256) % 256) 0, ?_, ?_⟩
    · unfold padded
      have := Integer.afterLines_layout (List.replicate ((256 - data.length % 256) % 256) 0) lines hl
      rwa [← hdata] at this
    · have hk : 4 ≤ (256 - data.length % 256) % 256 := by omega
      generalize (256 - data.length % 256) % 256 = k at hk
      refine ⟨by rw [List.length_replicate]; omega, Or.inl ?_⟩
      obtain ⟨k, rfl⟩ : ∃ j, k = j + 1 := ⟨k - 1, by omega⟩
      rfl

theorem hi_lines : ∀ l ∈ hiProgram, ApplesoftLine l := by
  intro l hl
  simp only [hiProgram, List.mem_cons, List.not_mem_nil, or_false] at hl
  rcases hl with rfl | rfl <;> exact ⟨by decide, by decide +kernel⟩

/-- A put of a short file on a fresh disk. -/
theorem put_fresh (env : Env) {d : Bytes} (hd : d ≠ []) (hl : d.length ≤ 256) :
    (run env (.put (str "do") (str "nakedos") (str "B") false 0 (str "a.do") (str "DF05") (str "x")) (copyWorld Supermon.freshImg d)).1 = .ok () ∧
    given (copyWorld Supermon.freshImg d) (str "x") = some d := by
  refine ⟨(C85_fresh (copyWorld_a _ _) (copyWorld_x _ _) hd).2 ?_, by unfold given; rw [if_neg (by decide +kernel), copyWorld_x]⟩
  unfold sectorsNeeded
  split <;> omega

/-- C110 fails: a program of two lines, saved with its length, is listed from the file, but not from the NakedOS disk it was put on. -/
theorem C110_violated (env : Env) (hb : 2 < env.budget) : ∃ (w : World) (data out : Bytes),
    given w (str "x") = some data ∧
    (run env (.put (str "do") (str "nakedos") (str "B") false 0 (str "a.do") (str "DF05") (str "x")) w).1 = .ok () ∧
    Keeps env w (.put (str "do") (str "nakedos") (str "B") false 0 (str "a.do") (str "DF05") (str "x")) (str "a.do") 5 out ∧
    (∃ text, text ≠ [] ∧ Prints env w (str "x") 0x801 false text) ∧
    ∀ (w2 : World) (file2 : Str) (raw : Bool), given w2 file2 = some out → (run env (.decode file2 0x801 raw) w2).1 ≠ .ok () := by
  have hlen : (withLength (applesoftLayout 0x801 hiProgram)).length = 22 := by decide +kernel
  obtain ⟨h1, h2⟩ := put_fresh env (d := withLength (applesoftLayout 0x801 hiProgram)) (by decide +kernel) (by omega)
  obtain ⟨out, k1, kw, text, _, k2, k3⟩ := C110_saved_exact (env := env) (by decide +kernel) h1 numeric5 0x801 hiProgram hi_lines
    (by decide +kernel) rfl (by decide +kernel) h2 hb
  refine ⟨_, _, out, h2, h1, k1, ⟨text, ?_, (k3 ⟨fun _ => none, out, []⟩ (str "-") false rfl).1⟩, fun w2 file2 raw g => ?_⟩
  · rintro rfl
    obtain ⟨_, _, e⟩ := k2
    have := congrArg List.length e
    have h1 : (str "\n").length = 1 := by decide +kernel
    simp [hiProgram] at this
    omega
  · exact (k3 w2 file2 raw g).2.2 (by
      have : (withLength (applesoftLayout (UInt16.toNat 0x801) hiProgram)).length = 22 := hlen
      omega)

/-- Non-vacuity of the other half: the same program without its length is listed from the disk. -/
example (env : Env) (hb : 2 < env.budget) : ∃ (w : World) (out : Bytes),
    Keeps env w (.put (str "do") (str "nakedos") (str "B") false 0 (str "a.do") (str "DF05") (str "x")) (str "a.do") 5 out ∧
    ∃ keyword text, (∀ c, c ∉ misnamed → keyword c = applesoftKeyword c) ∧ IsListing keyword hiProgram text ∧
      ∀ (w2 : World) (file2 : Str) (raw : Bool), given w2 file2 = some out → Prints env w2 file2 0x801 raw text := by
  obtain ⟨h1, h2⟩ := put_fresh env (d := applesoftLayout 0x801 hiProgram) (by decide +kernel) (by decide +kernel)
  exact ⟨_, C110_bare_short (env := env) (by decide +kernel) h1 numeric5 0x801 _ _ hi_lines (by decide +kernel) (by decide +kernel) h2 hb⟩

/-- Non-vacuity for Integer BASIC: a program of one line. -/
example (env : Env) : ∃ (w : World) (out : Bytes),
    Keeps env w (.put (str "do") (str "nakedos") (str "B") false 0 (str "a.do") (str "DF05") (str "x")) (str "a.do") 5 out ∧
    Integer.decode (integerLayout [⟨10, [0x61]⟩]) = .ok [⟨10, [0x61]⟩] ∧ Integer.decode out = .panic := by
  have hl : ∀ x ∈ [(⟨10, [0x61]⟩ : Line)], IntegerLine x := by
    intro x hx
    rw [List.mem_singleton] at hx
    subst hx
    exact ⟨by decide, by decide⟩
  obtain ⟨h1, h2⟩ := put_fresh env (d := integerLayout [⟨10, [0x61]⟩]) (by decide +kernel) (by decide +kernel)
  obtain ⟨out, k1, _, k2⟩ := C110_integer (env := env) (by decide +kernel) h1 numeric5 hl (by simp) rfl h2 (by
    unfold LooksHeadered; decide +kernel)
  refine ⟨_, out, k1, ?_, k2 (by decide +kernel)⟩
  have := Integer.C52_without_header_partial [(⟨10, [0x61]⟩ : Line)] hl [] (by simp) (by unfold LooksHeadered; decide +kernel)
  rwa [List.append_nil] at this

end Verif.Cmd
