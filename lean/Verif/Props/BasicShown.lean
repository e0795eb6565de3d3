import Verif.Props.Decode

/-!
# C55, C75: exactly which Applesoft programs are listed with Applesoft's keywords
-/

set_option autoImplicit false

namespace Verif.Applesoft

open Verif Verif.Basic Verif.Spec.Basic

theorem isDecimal_unique (s : Str) : ∀ n : Nat, IsDecimal s n → s = decimal n := by
  induction hk : s.length using Nat.strongRecOn generalizing s with
  | _ k ih =>
    intro n ⟨h1, h2, h3, h4⟩
    obtain ⟨t, c, rfl⟩ : ∃ t c, s = t ++ [c] := ⟨s.dropLast, s.getLast h1, (List.dropLast_append_getLast h1).symm⟩
    have hc := h2 c (by simp)
    rw [List.foldl_append] at h4
    simp only [List.foldl_cons, List.foldl_nil] at h4
    have hcc : ∀ d, c.toNat = 48 + d → c = UInt8.ofNat (48 + d) := by
      intro d hd
      rw [← hd]
      exact (UInt8.ofNat_toNat).symm
    cases t with
    | nil =>
      rw [decimal, if_pos (by simp at h4; omega)]
      simp at h4
      simp only [List.nil_append, List.cons.injEq, and_true]
      exact hcc n (by omega)
    | cons a t =>
      have hne : a ≠ 48 := by
        intro h
        have := h3 (by simp [h])
        simp at this
      have hd : IsDecimal (a :: t) (n / 10) := by
        refine ⟨by simp, fun d hd => h2 d (List.mem_append_left _ hd), fun h => ?_, ?_⟩
        · simp only [List.head?_cons, Option.some.injEq] at h
          exact absurd h hne
        · omega
      have e := ih (a :: t).length (by rw [← hk]; simp) (a :: t) rfl (n / 10) hd
      have h10 : ¬ n < 10 := by
        intro hn
        have : n / 10 = 0 := by omega
        rw [this, decimal, if_pos (by decide)] at e
        simp only [List.cons.injEq] at e
        exact hne e.1
      rw [decimal, if_neg h10, ← e]
      exact congrArg (fun x => a :: t ++ [x]) (hcc (n % 10) (by omega))

/-- Text as it is printed, with control characters as they are or not. -/
def printed (raw : Bool) (s : Str) : Str := if raw = true then s else escaped s

theorem printed_append (raw : Bool) (s t : Str) : printed raw (s ++ t) = printed raw s ++ printed raw t := by
  unfold printed escaped
  cases raw <;> simp

theorem printed_flatten (raw : Bool) (l : List Str) : printed raw l.flatten = (l.map (printed raw)).flatten := by
  induction l with
  | nil => cases raw <;> rfl
  | cons a l ih => rw [List.flatten_cons, printed_append, ih, List.map_cons, List.flatten_cons]

/-- A byte of a line as it is printed. -/
def piece (raw : Bool) (keyword : UInt8 → Str) (c : UInt8) : Str :=
  printed raw (if c.toNat < 128 then [c] else str " " ++ keyword c ++ str " ")

/-- The characters of `FN ` -/
def inFN (c : UInt8) : Bool := c = 0x46 || c = 0x4E || c = 0x20

theorem piece_eq : ∀ (raw : Bool) (c : UInt8), c ∉ Cmd.misnamed → piece raw tokenByCode c = piece raw applesoftKeyword c := by decide +kernel

theorem piece_shift : ∀ (raw : Bool) (c : UInt8),
    ((piece raw applesoftKeyword c).all inFN = true → c ∉ Cmd.misnamed) ∧
    ((piece raw applesoftKeyword c).takeWhile inFN).isPrefixOf (piece raw tokenByCode c) = true := by decide +kernel

theorem takeWhile_split (p : UInt8 → Bool) (w : Str) (h : w.all p = false) : ∃ b q, w = w.takeWhile p ++ b :: q ∧ p b = false := by
  induction w with
  | nil => simp at h
  | cons a w ih =>
    cases ha : p a with
    | false => exact ⟨a, w, by simp [List.takeWhile, ha], ha⟩
    | true =>
      obtain ⟨b, q, e, hb⟩ := ih (by simpa [ha] using h)
      refine ⟨b, q, ?_, hb⟩
      rw [List.takeWhile_cons_of_pos ha, List.cons_append, ← e]

theorem takeWhile_all (p : UInt8 → Bool) (w : Str) : ∀ x ∈ w.takeWhile p, p x = true := by
  intro x hx
  exact List.all_eq_true.1 (List.all_takeWhile) x hx

/-- Characters of `FN ` too many are never made up for within a line. -/
theorem shifted_line (raw : Bool) (bs : Bytes) : ∀ (e : Str) (x y : Str), e ≠ [] → (∀ c ∈ e, inFN c = true) →
    e ++ ((bs.map (piece raw tokenByCode)).flatten ++ 0x0A :: x) ≠ (bs.map (piece raw applesoftKeyword)).flatten ++ 0x0A :: y := by
  induction bs with
  | nil =>
    intro e x y he hE heq
    obtain ⟨a, e', rfl⟩ := List.exists_cons_of_ne_nil he
    have : a = 0x0A := by simpa using congrArg List.head? heq
    exact absurd (hE a List.mem_cons_self) (by rw [this]; decide)
  | cons c bs ih =>
    intro e x y he hE heq
    rw [List.map_cons, List.flatten_cons, List.map_cons, List.flatten_cons, List.append_assoc, List.append_assoc] at heq
    obtain ⟨h1, h2⟩ := piece_shift raw c
    cases hall : (piece raw applesoftKeyword c).all inFN with
    | true =>
      rw [piece_eq raw c (h1 hall)] at heq
      rw [List.all_eq_true] at hall
      generalize piece raw applesoftKeyword c = w at heq hall
      have hlen : w.length ≤ (e ++ w).length := by simp
      have hE' : ∀ d ∈ (e ++ w).drop w.length, inFN d = true := by
        intro d hd
        rcases List.mem_append.1 (List.mem_of_mem_drop hd) with h | h
        · exact hE d h
        · exact hall d h
      refine ih ((e ++ w).drop w.length) x y ?_ hE' ?_
      · intro h
        have := congrArg List.length h
        rw [List.length_drop, List.length_append, List.length_nil] at this
        have : e.length ≠ 0 := by simpa using he
        omega
      · have h3 := congrArg (List.drop w.length) heq
        rw [List.drop_left, ← List.append_assoc e, List.drop_append_of_le_length hlen] at h3
        exact h3
    | false =>
      obtain ⟨b, q, hw, hb⟩ := takeWhile_split inFN _ hall
      obtain ⟨q', hw'⟩ := List.isPrefixOf_iff_prefix.1 h2
      have hp := takeWhile_all inFN (piece raw applesoftKeyword c)
      generalize (piece raw applesoftKeyword c).takeWhile inFN = p at hw hw' hp
      rw [hw, ← hw'] at heq
      have h3 : (e ++ p ++ (q' ++ ((bs.map (piece raw tokenByCode)).flatten ++ 0x0A :: x)))[p.length]? = some b := by
        have : e ++ p ++ (q' ++ ((bs.map (piece raw tokenByCode)).flatten ++ 0x0A :: x)) =
            p ++ (b :: (q ++ ((bs.map (piece raw applesoftKeyword)).flatten ++ 0x0A :: y))) := by simpa using heq
        rw [this]
        simp
      have he0 : e.length ≠ 0 := by simpa using he
      rw [List.getElem?_append_left (by rw [List.length_append]; omega)] at h3
      rcases List.mem_append.1 (List.mem_of_getElem? h3) with h | h
      · rw [hE b h] at hb; cases hb
      · rw [hp b h] at hb; cases hb

theorem bad_line (raw : Bool) (bs : Bytes) (x y : Str) (hb : ∃ c ∈ bs, c ∈ Cmd.misnamed) :
    (bs.map (piece raw tokenByCode)).flatten ++ 0x0A :: x ≠ (bs.map (piece raw applesoftKeyword)).flatten ++ 0x0A :: y := by
  induction bs with
  | nil => simp at hb
  | cons c bs ih =>
    intro heq
    rw [List.map_cons, List.flatten_cons, List.map_cons, List.flatten_cons, List.append_assoc, List.append_assoc] at heq
    by_cases hm : c ∈ Cmd.misnamed
    · by_cases hdef : c = 0xB8
      · subst hdef
        have e1 : piece raw tokenByCode 0xB8 = piece raw applesoftKeyword 0xB8 ++ str "FN " := by cases raw <;> decide +kernel
        rw [e1, List.append_assoc] at heq
        exact shifted_line raw bs (str "FN ") x y (by decide +kernel) (by decide +kernel) (List.append_cancel_left heq)
      · have key : ∀ c ∈ Cmd.misnamed, c ≠ 0xB8 → ∃ k : Fin 7, k.val < (piece raw tokenByCode c).length ∧ k.val < (piece raw applesoftKeyword c).length ∧
            (piece raw tokenByCode c)[k.val]? ≠ (piece raw applesoftKeyword c)[k.val]? := by cases raw <;> decide +kernel
        obtain ⟨k, hk1, hk2, hk⟩ := key c hm hdef
        have := congrArg (fun l => l[k.val]?) heq
        rw [List.getElem?_append_left hk1, List.getElem?_append_left hk2] at this
        exact hk this
    · rw [piece_eq raw c hm] at heq
      obtain ⟨d, hd, hdm⟩ := hb
      rcases List.mem_cons.1 hd with rfl | hd
      · exact hm hdm
      · exact ih ⟨d, hd, hdm⟩ (List.append_cancel_left heq)

/-- The number of a line as it is printed. -/
theorem printed_listing (raw : Bool) (keyword : UInt8 → Str) (ls : List Line) (text : Str) (h : IsListing keyword ls text) :
    printed raw text = (ls.map fun l => printed raw (decimal l.num ++ str " ") ++ ((l.bytes.map (piece raw keyword)).flatten ++ [0x0A])).flatten := by
  obtain ⟨number, h1, rfl⟩ := h
  rw [printed_flatten, List.map_map]
  refine congrArg List.flatten (List.map_congr_left fun l _ => ?_)
  show printed raw (number l ++ str " " ++ _ ++ str "\n") = _
  rw [isDecimal_unique _ _ (h1 l), printed_append, printed_append, List.append_assoc, printed_flatten, List.map_map]
  have hn : printed raw (str "\n") = [0x0A] := by cases raw <;> decide +kernel
  rw [hn]
  rfl

/-- Printed texts of the two kinds are the same exactly if none of the six tokens is there. -/
theorem printed_iff (raw : Bool) (ls : List Line) :
    (ls.map fun l => printed raw (decimal l.num ++ str " ") ++ ((l.bytes.map (piece raw tokenByCode)).flatten ++ [0x0A])).flatten =
        (ls.map fun l => printed raw (decimal l.num ++ str " ") ++ ((l.bytes.map (piece raw applesoftKeyword)).flatten ++ [0x0A])).flatten ↔
      ∀ l ∈ ls, ∀ c ∈ l.bytes, c ∉ Cmd.misnamed := by
  constructor
  · intro h
    induction ls with
    | nil => simp
    | cons l ls ih =>
      rw [List.map_cons, List.flatten_cons, List.map_cons, List.flatten_cons] at h
      simp only [List.append_assoc (printed raw (decimal l.num ++ str " "))] at h
      have h3 := List.append_cancel_left h
      simp only [List.append_assoc (List.flatten _)] at h3
      have hgood : ∀ c ∈ l.bytes, c ∉ Cmd.misnamed := by
        intro c hc hm
        exact bad_line raw l.bytes _ _ ⟨c, hc, hm⟩ h3
      have h4 : l.bytes.map (piece raw tokenByCode) = l.bytes.map (piece raw applesoftKeyword) :=
        List.map_congr_left fun c hc => piece_eq raw c (hgood c hc)
      rw [h4] at h3
      have h5 := ih (List.append_cancel_left (List.append_cancel_left h3))
      intro m hm
      rcases List.mem_cons.1 hm with rfl | hm
      · exact hgood
      · exact h5 m hm
  · intro hg
    refine congrArg List.flatten (List.map_congr_left fun l hl => ?_)
    have h4 : l.bytes.map (piece raw tokenByCode) = l.bytes.map (piece raw applesoftKeyword) :=
      List.map_congr_left fun c hc => piece_eq raw c (hg l hl c hc)
    rw [h4]

theorem isListing_of (keyword : UInt8 → Str) (ls : List Line) : ∃ text, IsListing keyword ls text :=
  ⟨_, fun l => decimal l.num, fun l => decimal_spec l.num, rfl⟩

/-- C55, exactly: the listing of a program shows every token as its Applesoft keyword if and only if
the program has none of the six tokens $8A, $8B, $B8, $C0, $CC and $D7. -/
theorem C55_exact (ls : List Line) :
    IsListing applesoftKeyword ls (Listing.string ls) ↔
      ∀ l ∈ ls, ∀ c ∈ l.bytes, c ∉ [(0x8A : UInt8), 0x8B, 0xD7, 0xB8, 0xC0, 0xCC] := by
  have h1 := printed_listing true tokenByCode ls _ (C55_listing ls)
  obtain ⟨text, ht⟩ := isListing_of applesoftKeyword ls
  have h2 := printed_listing true applesoftKeyword ls text ht
  refine Iff.trans ?_ (printed_iff true ls)
  rw [← h1, ← h2]
  constructor
  · intro h
    rw [printed_listing true applesoftKeyword ls _ h, ← h2]
  · intro h
    have h : Listing.string ls = text := h
    rw [h]
    exact ht

/-- Non-vacuity: `10 DEF` with the letters `FN FN ` after it has one of the six tokens and is shown with one FN
too many; `10 PRINT "^"` has none. -/
example : Listing.string [⟨10, [0xB8] ++ str "FN FN "⟩] = str "10  DEF FN FN FN \n" ∧
    IsListing applesoftKeyword [⟨10, [0xBA] ++ str "\"^\""⟩] (Listing.string [⟨10, [0xBA] ++ str "\"^\""⟩]) := by
  refine ⟨by decide +kernel, (C55_exact _).2 ?_⟩
  intro l hl
  simp only [List.mem_singleton] at hl
  subst hl
  decide +kernel

end Verif.Applesoft

namespace Verif.Cmd

open Disk Spec.Basic Verif.Basic Applesoft

theorem prints_iff {env : Env} {w : World} {filename : Str} {loc : UInt16} {b : Bytes} {lines : List Line}
    (hg : given w filename = some b) (hd : Applesoft.decode env.budget b loc = .ok lines) (raw : Bool) :
    (∃ text, IsListing applesoftKeyword lines text ∧ Prints env w filename loc raw text) ↔
      ∀ l ∈ lines, ∀ c ∈ l.bytes, c ∉ misnamed := by
  have h1 := printed_listing raw tokenByCode lines _ (Applesoft.C55_listing lines)
  obtain ⟨w', hr, hf, ho⟩ := decode_prints hg hd raw
  rw [← printed_iff raw lines, ← h1]
  constructor
  · rintro ⟨text, ht, w'', hr', _, ho'⟩
    rw [hr, Prod.mk.injEq] at hr'
    rw [← hr'.2, ho] at ho'
    have : printed raw (Listing.string lines) = printed raw text := List.append_cancel_left ho'
    rw [this, printed_listing raw applesoftKeyword lines text ht]
  · intro h
    obtain ⟨text, ht⟩ := isListing_of applesoftKeyword lines
    rw [← printed_listing raw applesoftKeyword lines text ht] at h
    refine ⟨text, ht, w', hr, hf, ?_⟩
    rw [ho]
    exact congrArg (w.stdout ++ ·) h

/-- C75, exactly, for saved programs: `decode` prints the listing with Applesoft's keywords if and
only if the program has none of the six misnamed tokens. -/
theorem C75_saved_exact {env : Env} {w : World} {filename : Str} (loc : UInt16) (lines : List Line)
    (hl : ∀ l ∈ lines, ApplesoftLine l) (h1 : 1 ≤ loc.toNat)
    (hfit : loc.toNat + (applesoftLayout loc.toNat lines).length ≤ 65536) (extra : Bytes) (he : extra.length ≤ 1)
    (hg : given w filename = some (withLength (applesoftLayout loc.toNat lines) ++ extra))
    (hb : lines.length < env.budget) (rawControlCodes : Bool) :
    (∃ text, IsListing applesoftKeyword lines text ∧ Prints env w filename loc rawControlCodes text) ↔
      ∀ l ∈ lines, ∀ c ∈ l.bytes, c ∉ [(0x8A : UInt8), 0x8B, 0xD7, 0xB8, 0xC0, 0xCC] :=
  prints_iff hg (Applesoft.C50_with_header lines hl loc h1 hfit extra he env.budget hb) rawControlCodes

/-- C75, exactly, for programs without the length whose first two bytes do not look like one. -/
theorem C75_bare_exact {env : Env} {w : World} {filename : Str} (loc : UInt16) (lines : List Line)
    (hl : ∀ l ∈ lines, ApplesoftLine l) (h1 : 1 ≤ loc.toNat)
    (hfit : loc.toNat + (applesoftLayout loc.toNat lines).length ≤ 65536) (tail : Bytes)
    (hamb : ¬ LooksHeadered (applesoftLayout loc.toNat lines ++ tail))
    (hg : given w filename = some (applesoftLayout loc.toNat lines ++ tail))
    (hb : lines.length < env.budget) (rawControlCodes : Bool) :
    (∃ text, IsListing applesoftKeyword lines text ∧ Prints env w filename loc rawControlCodes text) ↔
      ∀ l ∈ lines, ∀ c ∈ l.bytes, c ∉ [(0x8A : UInt8), 0x8B, 0xD7, 0xB8, 0xC0, 0xCC] :=
  prints_iff hg (Applesoft.C50_without_header_partial lines hl loc h1 hfit tail hamb env.budget hb) rawControlCodes

end Verif.Cmd
