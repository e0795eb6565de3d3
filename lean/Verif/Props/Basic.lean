import Verif.Proofs.Basic

/-!
# C50-C55: BASIC programs and listings
-/

set_option autoImplicit false
set_option maxRecDepth 20000

namespace Verif.Applesoft

open Verif Verif.Spec.Basic Verif.Basic

/-! ## C50 -/

/-- An Applesoft program stored with its length decodes to its lines, also if one more byte follows. -/
theorem C50_with_header (lines : List Line) (hl : ∀ l ∈ lines, ApplesoftLine l) (loc : UInt16) (h1 : 1 ≤ loc.toNat)
    (hfit : loc.toNat + (applesoftLayout loc.toNat lines).length ≤ 65536) (extra : Bytes) (he : extra.length ≤ 1)
    (n : Nat) (hn : lines.length < n) :
    decode n (withLength (applesoftLayout loc.toNat lines) ++ extra) loc = .ok lines := by
  unfold decode
  rw [strip_withLength _ _ (by omega) he]
  exact decodeLoop_layout loc.toNat extra lines hl [] loc.toNat rfl h1 hfit n hn

/-- An Applesoft program without the length, possibly followed by other bytes, decodes to its lines
if its first two bytes do not happen to look like a length. -/
theorem C50_without_header_partial (lines : List Line) (hl : ∀ l ∈ lines, ApplesoftLine l) (loc : UInt16)
    (h1 : 1 ≤ loc.toNat) (hfit : loc.toNat + (applesoftLayout loc.toNat lines).length ≤ 65536) (tail : Bytes)
    (hamb : ¬ LooksHeadered (applesoftLayout loc.toNat lines ++ tail)) (n : Nat) (hn : lines.length < n) :
    decode n (applesoftLayout loc.toNat lines ++ tail) loc = .ok lines := by
  unfold decode
  rw [(stripHeader_spec _).2 hamb]
  exact decodeLoop_layout loc.toNat tail lines hl [] loc.toNat rfl h1 hfit n hn

/-- A program shorter than its own load address can only be mistaken if it is empty. -/
theorem C50_short_programs (l : Line) (rest : List Line) (hl : ∀ x ∈ l :: rest, ApplesoftLine x) (loc : UInt16)
    (h1 : 1 ≤ loc.toNat) (hfit : loc.toNat + (applesoftLayout loc.toNat (l :: rest)).length ≤ 65536)
    (hs : (applesoftLayout loc.toNat (l :: rest)).length ≤ loc.toNat) (n : Nat) (hn : (l :: rest).length < n) :
    decode n (applesoftLayout loc.toNat (l :: rest)) loc = .ok (l :: rest) := by
  have h := C50_without_header_partial (l :: rest) hl loc h1 hfit [] (by
    rw [List.append_nil]
    rintro ⟨_, h⟩
    have e0 : (applesoftLayout loc.toNat (l :: rest)).getD 0 0 = loByte (loc.toNat + (l.bytes.length + 5)) := rfl
    have e1 : (applesoftLayout loc.toNat (l :: rest)).getD 1 0 = hiByte (loc.toNat + (l.bytes.length + 5)) := rfl
    have hlen : (applesoftLayout loc.toNat (l :: rest)).length =
        l.bytes.length + 5 + (applesoftLayout (loc.toNat + (l.bytes.length + 5)) rest).length := by
      simp only [applesoftLayout, word16, List.length_append, List.length_cons, List.length_nil]; omega
    have hp := layout_length_pos (loc.toNat + (l.bytes.length + 5)) rest
    rw [e0, e1, word_back (by omega)] at h
    omega) n hn
  rwa [List.append_nil] at h

/-- Non-vacuity: `10 PRINT "HI"` and `20 GOTO 10` at $801. -/
example : let lines : List Line := [⟨10, [0xBA] ++ str "\"HI\""⟩, ⟨20, [0xAB] ++ str "10"⟩]
    (∀ l ∈ lines, ApplesoftLine l) ∧ (applesoftLayout 0x801 lines).length ≤ 0x801 ∧
      decode 3 (applesoftLayout 0x801 lines) 0x801 = .ok lines := by
  intro lines
  have hl : ∀ l ∈ lines, ApplesoftLine l := by
    intro l hl
    simp only [lines, List.mem_cons, List.not_mem_nil, or_false] at hl
    rcases hl with rfl | rfl <;> exact ⟨by decide, by decide +kernel⟩
  have hlen : (applesoftLayout 0x801 lines).length = 20 := by decide +kernel
  refine ⟨hl, by rw [hlen]; decide, ?_⟩
  have e : (0x801 : UInt16).toNat = 0x801 := rfl
  exact C50_short_programs _ _ hl 0x801 (by decide) (by rw [e]; exact Nat.le_trans (Nat.add_le_add_left (Nat.le_of_eq hlen) _) (by decide))
    (by rw [e]; exact Nat.le_trans (Nat.le_of_eq hlen) (by decide)) 3 (by decide)

/-- A program of nine lines, none longer than 255 bytes. -/
def ambiguous : List Line :=
  ⟨10, [0x41]⟩ :: (List.replicate 7 ⟨20, List.replicate 251 0x42⟩ ++ [⟨30, List.replicate 123 0x42⟩, ⟨40, List.replicate 124 0x42⟩])

/-- C50 fails without the length header: a program at $801 whose first pointer equals its length
less 2 is taken to have a header, and is rejected. -/
theorem C50_violated : (∀ l ∈ ambiguous, ApplesoftLine l ∧ l.bytes.length ≤ 255) ∧
    ∀ n, 2 ≤ n → decode n (applesoftLayout 0x801 ambiguous) 0x801 = .err .other := by
  constructor
  · intro l hl
    unfold ambiguous at hl
    simp only [List.mem_cons, List.mem_append, List.mem_replicate, List.not_mem_nil, or_false] at hl
    rcases hl with rfl | ⟨_, rfl⟩ | rfl | rfl
    · exact ⟨⟨by decide, by decide +kernel⟩, by decide +kernel⟩
    · exact ⟨⟨by decide, by decide +kernel⟩, by decide +kernel⟩
    · exact ⟨⟨by decide, by decide +kernel⟩, by decide +kernel⟩
    · exact ⟨⟨by decide, by decide +kernel⟩, by decide +kernel⟩
  · intro n hn
    have hlen : (applesoftLayout 0x801 ambiguous).length = 2057 := by decide +kernel
    have hh : LooksHeadered (applesoftLayout 0x801 ambiguous) := by
      unfold LooksHeadered
      rw [hlen]
      decide +kernel
    obtain ⟨m, rfl⟩ : ∃ m, n = m + 2 := ⟨n - 2, by omega⟩
    unfold decode
    rw [(stripHeader_spec _).1 hh]
    have e : ((0x801 : UInt16).toNat : Int) = 2049 := rfl
    rw [e]
    have hlen' : ((applesoftLayout 0x801 ambiguous).drop 2).length = 2055 := by rw [List.length_drop, hlen]
    have g0 : (((applesoftLayout 0x801 ambiguous).drop 2).getD 0 0) = 10 := by decide +kernel
    have g1 : (((applesoftLayout 0x801 ambiguous).drop 2).getD (0 + 1) 0) = 0 := by decide +kernel
    generalize (applesoftLayout 0x801 ambiguous).drop 2 = d at hlen' g0 g1
    rw [decodeLoop.eq_def, if_neg (by decide)]
    simp only
    rw [if_neg (by rw [hlen']; decide), if_neg (by decide), show ((2049 : Int) - 2049).toNat = 0 from rfl, g0, g1,
      if_neg (by decide), if_neg (by rw [hlen']; decide)]
    rcases lineBytes_cases (d.drop (0 + 4)) with ⟨bs, rest, _, h, _⟩ | h
    · rw [h, Out.bind_ok, decodeLoop.eq_def, if_neg (by decide)]
      simp only
      rw [if_pos (Or.inl (by decide))]
      rfl
    · rw [h]; rfl

/-- C50 fails for the empty program without a header: its two zero bytes are taken for a length. -/
theorem C50_violated_empty (n : Nat) (loc : UInt16) (h : 1 ≤ loc.toNat) :
    decode (n + 1) (applesoftLayout loc.toNat []) loc = .err .other := by
  unfold decode
  have : stripHeader (applesoftLayout loc.toNat []) = [] := rfl
  rw [this, decodeLoop.eq_def, if_neg (by omega)]
  simp only
  rw [if_pos (Or.inr (by simp))]

/-- C50 fails at location 0: every file decodes to an empty listing. -/
theorem C50_violated_location_zero (n : Nat) (raw : Bytes) : decode n raw 0 = .ok [] := by
  unfold decode
  rw [decodeLoop.eq_def]
  exact if_pos rfl

/-! ## C51 -/

theorem body_eq {raw d : Bytes} (h : Body raw d) : stripHeader raw = d := by
  rcases h with ⟨h, rfl⟩ | ⟨h, rfl⟩
  · exact (stripHeader_spec _).1 h
  · exact (stripHeader_spec _).2 h

theorem decodeLoop_step (d : Bytes) (loc a n : Nat) (ha : a ≠ 0) (hne : a + 1 ≠ loc) (hin : InData d loc a) :
    decodeLoop d (loc : Int) (n + 1) (a : Int) = .err .other ∨ decodeLoop d (loc : Int) (n + 1) (a : Int) = .ok [] ∨
      ∃ l, decodeLoop d (loc : Int) (n + 1) (a : Int) =
        (decodeLoop d (loc : Int) n (storedAt d loc a : Int) >>= fun rest => .ok (l :: rest)) := by
  obtain ⟨h1, h2⟩ := hin
  rw [decodeLoop.eq_def, if_neg (by omega)]
  simp only
  rw [if_neg (by omega), if_neg (by omega)]
  have ho : ((a : Int) - (loc : Int)).toNat = a - loc := by omega
  rw [ho]
  split
  · exact Or.inr (Or.inl rfl)
  · split
    · exact Or.inl rfl
    · rcases lineBytes_cases (d.drop (a - loc + 4)) with ⟨bs, rest, _, h, _⟩ | h
      · rw [h, Out.bind_ok]
        exact Or.inr (Or.inr ⟨_, by unfold storedAt; push_cast; rfl⟩)
      · rw [h]; exact Or.inl rfl

theorem decodeLoop_outside (d : Bytes) (loc a n : Nat) (ha : a ≠ 0) (hne : a + 1 ≠ loc) (hin : ¬ InData d loc a) :
    decodeLoop d (loc : Int) (n + 1) (a : Int) = .err .other := by
  unfold InData at hin
  rw [decodeLoop.eq_def, if_neg (by omega)]
  simp only
  rw [if_pos (by omega)]

theorem lineAddr_shift (d : Bytes) (loc k : Nat) {b : Nat} (f : Nat → Nat) (h0 : f 0 = b)
    (hs : ∀ i, f (i + 1) = storedAt d loc (f i)) (hb : b = lineAddr d loc k) (i : Nat) : f i = lineAddr d loc (k + i) := by
  induction i with
  | zero => rw [h0, hb]; rfl
  | succ i ih => rw [hs, ih]; rfl

theorem decodeLoop_returns (d : Bytes) (loc : Nat) (hne : ∀ k, lineAddr d loc k + 1 ≠ loc) (j : Nat) :
    ∀ k, (lineAddr d loc (k + j) = 0 ∨ ¬ InData d loc (lineAddr d loc (k + j))) → ∀ n, j < n →
      (decodeLoop d (loc : Int) n (lineAddr d loc k : Int)).returns := by
  induction j with
  | zero =>
    intro k h n hn
    obtain ⟨m, rfl⟩ : ∃ m, n = m + 1 := ⟨n - 1, by omega⟩
    rw [Nat.add_zero] at h
    by_cases h0 : lineAddr d loc k = 0
    · rw [h0, decodeLoop.eq_def]; exact congrArg Out.returns (if_pos rfl)
    · rw [decodeLoop_outside d loc _ m h0 (hne k) (h.resolve_left h0)]; rfl
  | succ j ih =>
    intro k h n hn
    obtain ⟨m, rfl⟩ : ∃ m, n = m + 1 := ⟨n - 1, by omega⟩
    by_cases h0 : lineAddr d loc k = 0
    · rw [h0, decodeLoop.eq_def]; exact congrArg Out.returns (if_pos rfl)
    · by_cases hin : InData d loc (lineAddr d loc k)
      · rcases decodeLoop_step d loc _ m h0 (hne k) hin with h' | h' | ⟨l, h'⟩
        · rw [h']; rfl
        · rw [h']; rfl
        · rw [h']
          have := ih (k + 1) (by rwa [Nat.add_assoc, Nat.add_comm 1 j]) m (by omega)
          have e : lineAddr d loc (k + 1) = storedAt d loc (lineAddr d loc k) := rfl
          rw [e] at this
          cases hr : decodeLoop d (loc : Int) m (storedAt d loc (lineAddr d loc k) : Int) with
          | ok r => rfl
          | err e => rfl
          | panic => rw [hr] at this; simp at this
          | timeout => rw [hr] at this; simp at this
      · rw [decodeLoop_outside d loc _ m h0 (hne k) hin]; rfl

/-- Decoding ends, with a listing or an error, unless the line pointers never end or lead to the
byte just below the program. -/
theorem C51_terminates_partial (raw d : Bytes) (hb : Body raw d) (loc : UInt16)
    (hend : ∃ k, lineAddr d loc.toNat k = 0 ∨ ¬ InData d loc.toNat (lineAddr d loc.toNat k))
    (hne : ∀ k, lineAddr d loc.toNat k + 1 ≠ loc.toNat) :
    ∃ n₀, ∀ n, n₀ ≤ n → (decode n raw loc).returns := by
  obtain ⟨k, hk⟩ := hend
  refine ⟨k + 1, fun n hn => ?_⟩
  unfold decode
  rw [body_eq hb]
  exact decodeLoop_returns d loc.toNat hne k 0 (by rwa [Nat.zero_add]) n (by omega)

/-- In particular decoding ends if every line pointer leads forwards or is 0. -/
theorem C51_forward (raw d : Bytes) (hb : Body raw d) (loc : UInt16)
    (hf : ∀ a, InData d loc.toNat a → storedAt d loc.toNat a = 0 ∨ a < storedAt d loc.toNat a)
    (n : Nat) (hn : d.length + 2 ≤ n) : (decode n raw loc).returns := by
  unfold decode
  rw [body_eq hb]
  have key : ∀ m a, 1 ≤ m → loc.toNat ≤ a → loc.toNat + d.length + 2 ≤ a + m → (decodeLoop d (loc.toNat : Int) m (a : Int)).returns := by
    intro m
    induction m with
    | zero =>
      intro a h h1 h2
      exact absurd h (by omega)
    | succ m ih =>
      intro a _ h1 h2
      by_cases h0 : a = 0
      · rw [h0, decodeLoop.eq_def]; exact congrArg Out.returns (if_pos rfl)
      · by_cases hin : InData d loc.toNat a
        · rcases decodeLoop_step d loc.toNat a m h0 (by omega) hin with h' | h' | ⟨l, h'⟩
          · rw [h']; rfl
          · rw [h']; rfl
          · rw [h']
            have : (decodeLoop d (loc.toNat : Int) m (storedAt d loc.toNat a : Int)).returns := by
              rcases hf a hin with e | e
              · rw [e, decodeLoop.eq_def]; exact congrArg Out.returns (if_pos rfl)
              · exact ih _ (by unfold InData at hin; omega) (by omega) (by omega)
            cases hr : decodeLoop d (loc.toNat : Int) m (storedAt d loc.toNat a : Int) with
            | ok r => rfl
            | err e => rfl
            | panic => rw [hr] at this; simp at this
            | timeout => rw [hr] at this; simp at this
        · rw [decodeLoop_outside d loc.toNat a m h0 (by omega) hin]; rfl
  exact key n loc.toNat (by omega) (Nat.le_refl _) (by omega)

/-- C51 fails: a line pointer to the byte just below the program crashes. -/
theorem C51_violated_crash (n : Nat) : decode (n + 2) [0x00, 0x08, 10, 0, 0] 0x801 = .panic := by
  unfold decode
  have hs : stripHeader [0x00, 0x08, 10, 0, 0] = [0x00, 0x08, 10, 0, 0] := by decide
  have e : ((0x801 : UInt16).toNat : Int) = 2049 := rfl
  rw [hs, e, decodeLoop.eq_def, if_neg (by decide)]
  simp only
  rw [if_neg (by decide), if_neg (by decide), if_neg (by decide), if_neg (by decide)]
  have hb : lineBytes (([0x00, 0x08, 10, 0, 0] : Bytes).drop (((2049 : Int) - 2049).toNat + 4)) = .ok [] := by decide
  rw [hb, Out.bind_ok, decodeLoop.eq_def, if_neg (by decide)]
  simp only
  rw [if_neg (by decide), if_pos (by decide)]
  rfl

/-- C51 fails: a line that is its own successor is decoded for ever. -/
theorem C51_violated_loop (n : Nat) : decode n [0x01, 0x08, 10, 0, 0] 0x801 = .timeout := by
  unfold decode
  have hs : stripHeader [0x01, 0x08, 10, 0, 0] = [0x01, 0x08, 10, 0, 0] := by decide
  have e : ((0x801 : UInt16).toNat : Int) = 2049 := rfl
  rw [hs, e]
  induction n with
  | zero => rw [decodeLoop.eq_def, if_neg (by decide)]
  | succ n ih =>
    rw [decodeLoop.eq_def, if_neg (by decide)]
    simp only
    rw [if_neg (by decide), if_neg (by decide), if_neg (by decide), if_neg (by decide)]
    have hb : lineBytes (([0x01, 0x08, 10, 0, 0] : Bytes).drop (((2049 : Int) - 2049).toNat + 4)) = .ok [] := by decide
    have hn : ((([0x01, 0x08, 10, 0, 0] : Bytes).getD ((2049 : Int) - 2049).toNat 0).toNat : Int) +
        256 * ((([0x01, 0x08, 10, 0, 0] : Bytes).getD (((2049 : Int) - 2049).toNat + 1) 0).toNat : Int) = 2049 := by decide
    rw [hb, hn, Out.bind_ok, ih]
    rfl

/-! ## C55 -/

theorem decimal_spec (n : Nat) : IsDecimal (decimal n) n := by
  induction n using Nat.strongRecOn with
  | _ n ih =>
    rw [decimal]
    have hval : ∀ k, k < 10 → (UInt8.ofNat (48 + k)).toNat = 48 + k := fun k hk =>
      UInt8.toNat_ofNat_of_lt' (by show 48 + k < 256; omega)
    by_cases h : n < 10
    · rw [if_pos h]
      refine ⟨by simp, fun c hc => ?_, fun he => ?_, ?_⟩
      · rw [List.mem_singleton] at hc
        rw [hc, hval n h]; omega
      · simpa using he
      · simp only [List.foldl_cons, List.foldl_nil]
        rw [hval n h]; omega
    · rw [if_neg h]
      obtain ⟨h1, h2, h3, h4⟩ := ih (n / 10) (by omega)
      refine ⟨by simp, fun c hc => ?_, fun he => ?_, ?_⟩
      · rcases List.mem_append.1 hc with hc | hc
        · exact h2 c hc
        · rw [List.mem_singleton] at hc
          rw [hc, hval _ (by omega)]; omega
      · exfalso
        cases hd : decimal (n / 10) with
        | nil => exact h1 hd
        | cons c cs =>
          rw [hd] at he h3 h4
          simp only [List.cons_append, List.head?_cons, Option.some.injEq] at he
          have := h3 (by simpa using he)
          rw [this] at h4
          simp at h4
          omega
      · rw [List.foldl_append, h4]
        simp only [List.foldl_cons, List.foldl_nil]
        rw [hval _ (by omega)]; omega

/-- A listing is its lines, each followed by a newline; a line is its number in decimal, a space,
and then each plain character as it is and each token as its keyword between two spaces. -/
theorem C55_listing (ls : List Line) : ∃ number : Line → Str, (∀ l, IsDecimal (number l) l.num) ∧
    Listing.string ls = (ls.map fun l => number l ++ str " " ++
      (l.bytes.map fun c => if c.toNat < 128 then [c] else str " " ++ tokenByCode c ++ str " ").flatten ++ str "\n").flatten := by
  refine ⟨fun l => decimal l.num, fun l => decimal_spec l.num, ?_⟩
  unfold Listing.string
  rw [List.flatMap_def]
  refine congrArg List.flatten (List.map_congr_left fun l _ => ?_)
  unfold Line.string
  rw [List.flatMap_def]
  have hn : str "\n" = [0x0A] := by decide
  rw [hn]
  refine congrArg (fun x => decimal l.num ++ str " " ++ List.flatten x ++ [0x0A]) (List.map_congr_left fun c _ => ?_)
  have hc : c < 0x80 ↔ c.toNat < 128 := UInt8.lt_iff_toNat_lt
  by_cases h : c.toNat < 128
  · rw [if_pos h, if_pos (hc.2 h)]
  · rw [if_neg h, if_neg (fun e => h (hc.1 e))]

theorem decodeLoop_lines (d : Bytes) (loc : Int) (n : Nat) (a : Int) (ls : List Line)
    (h : decodeLoop d loc n a = .ok ls) : ∀ l ∈ ls, ApplesoftLine l := by
  induction n generalizing a ls with
  | zero =>
    rw [decodeLoop.eq_def] at h
    split at h
    · simp only [Out.ok.injEq] at h; subst h; simp
    · simp at h
  | succ n ih =>
    rw [decodeLoop.eq_def] at h
    split at h
    · simp only [Out.ok.injEq] at h; subst h; simp
    · simp only at h
      split at h
      · simp at h
      · split at h
        · simp at h
        · split at h
          · simp only [Out.ok.injEq] at h; subst h; simp
          · split at h
            · simp at h
            · rcases lineBytes_cases (d.drop ((a - loc).toNat + 4)) with ⟨bs, rest, _, hb, hok⟩ | hb
              · rw [hb, Out.bind_ok, Out.bind_eq_ok] at h
                obtain ⟨r, hr, h⟩ := h
                simp only [Out.ok.injEq] at h
                subst h
                intro l hl
                rcases List.mem_cons.1 hl with rfl | hl
                · refine ⟨?_, hok⟩
                  have h1 := (d.getD ((a - loc).toNat + 2) 0).toNat_lt
                  have h2 := (d.getD ((a - loc).toNat + 3) 0).toNat_lt
                  show _ + 256 * _ < 65536
                  omega
                · exact ih _ _ hr l hl
              · rw [hb] at h; simp at h

/-- Every line that is accepted has a 16-bit number and consists of plain characters and tokens that
have a keyword. -/
theorem C55_every_token_has_a_keyword (n : Nat) (raw : Bytes) (loc : UInt16) (ls : List Line)
    (h : decode n raw loc = .ok ls) : ∀ l ∈ ls, ApplesoftLine l ∧ ∀ c ∈ l.bytes, 128 ≤ c.toNat → tokenByCode c ≠ [] := by
  intro l hl
  have := decodeLoop_lines _ _ _ _ _ h l hl
  refine ⟨this, fun c hc h8 e => ?_⟩
  have h1 := (token_known c h8).1 e
  have h2 := (this.2 c hc).2
  omega

/-- There are keywords for exactly the 107 tokens $80 to $EA, and all but three are shown as the
Applesoft keyword, up to blanks in the keyword; all but six exactly. -/
theorem C55_keywords_partial : (∀ c : UInt8, tokenByCode c ≠ [] ↔ 0x80 ≤ c.toNat ∧ c.toNat ≤ 0xEA) ∧
    (∀ c : UInt8, c ∉ [(0x8A : UInt8), 0x8B, 0xD7, 0xB8, 0xC0, 0xCC] → tokenByCode c = applesoftKeyword c) ∧
    (∀ c : UInt8, c ∉ [(0xB8 : UInt8), 0xC0, 0xCC] → (tokenByCode c).filter (· ≠ 0x20) = applesoftKeyword c) := by
  decide +kernel

/-- The other six. In particular the power operator is shown as a semicolon: two different programs,
`10 PRINT 2^3` and `10 PRINT 2 ; 3`, have the same listing; `TAB(` loses its parenthesis and `DEF` gains
an `FN`. -/
theorem C55_violated_keywords :
    (tokenByCode 0xCC = str ";" ∧ applesoftKeyword 0xCC = str "^") ∧
    (tokenByCode 0xC0 = str "TAB" ∧ applesoftKeyword 0xC0 = str "TAB(") ∧
    (tokenByCode 0xB8 = str "DEF FN" ∧ applesoftKeyword 0xB8 = str "DEF") ∧
    (tokenByCode 0x8A = str "PR #" ∧ tokenByCode 0x8B = str "IN #" ∧ tokenByCode 0xD7 = str "SCRN (") ∧
    Listing.string [⟨10, [0xBA] ++ str "2" ++ [0xCC] ++ str "3"⟩] = Listing.string [⟨10, [0xBA] ++ str "2 ; 3"⟩] := by
  decide +kernel

example : Listing.string [⟨10, [0xBA] ++ str "\"HI\""⟩, ⟨20, [0xAB] ++ str "10"⟩] =
    str "10  PRINT \"HI\"\n20  GOTO 10\n" := by decide +kernel

end Verif.Applesoft

namespace Verif.Integer

open Verif Verif.Spec.Basic Verif.Basic

/-! ## C52 -/

/-- An Integer BASIC program stored with its length decodes to its lines. -/
theorem C52_with_header (lines : List Line) (hl : ∀ l ∈ lines, IntegerLine l) (hfit : (integerLayout lines).length < 65536)
    (extra : Bytes) (he : extra.length ≤ 1) : decode (withLength (integerLayout lines) ++ extra) = .ok lines := by
  unfold decode
  rw [strip_withLength _ _ hfit he]
  exact decodeLoop_layout lines hl extra (by omega)

/-- An Integer BASIC program without the length, possibly followed by up to three bytes, decodes to
its lines if its first two bytes do not happen to look like a length. -/
theorem C52_without_header_partial (lines : List Line) (hl : ∀ l ∈ lines, IntegerLine l) (tail : Bytes)
    (ht : tail.length ≤ 3) (hamb : ¬ LooksHeadered (integerLayout lines ++ tail)) :
    decode (integerLayout lines ++ tail) = .ok lines := by
  unfold decode
  rw [(stripHeader_spec _).2 hamb]
  exact decodeLoop_layout lines hl tail ht

/-- Non-vacuity. -/
example : decode (integerLayout [⟨10, [0x61]⟩, ⟨20, [0x5F, 0xB1, 10, 0]⟩]) = .ok [⟨10, [0x61]⟩, ⟨20, [0x5F, 0xB1, 10, 0]⟩] := by
  have := C52_without_header_partial [⟨10, [0x61]⟩, ⟨20, [0x5F, 0xB1, 10, 0]⟩] (by
    intro l hl
    simp only [List.mem_cons, List.not_mem_nil, or_false] at hl
    rcases hl with rfl | rfl <;> exact ⟨by decide, by decide⟩) [] (by decide) (by unfold LooksHeadered; decide)
  rwa [List.append_nil] at this

/-- A program of three lines. -/
def ambiguous : List Line := [⟨1, [0x61]⟩, ⟨2, List.replicate 125 0x61⟩, ⟨3, List.replicate 125 0x61⟩]

/-- C52 fails without the length header: a program whose first length and line number look like a
header crashes the decoder. -/
theorem C52_violated : (∀ l ∈ ambiguous, IntegerLine l) ∧ decode (integerLayout ambiguous) = .panic := by
  constructor
  · intro l hl
    unfold ambiguous at hl
    simp only [List.mem_cons, List.not_mem_nil, or_false] at hl
    rcases hl with rfl | rfl | rfl <;> exact ⟨by decide, by decide +kernel⟩
  · have hlen : (integerLayout ambiguous).length = 263 := by decide +kernel
    have hh : LooksHeadered (integerLayout ambiguous) := by
      unfold LooksHeadered
      rw [hlen]
      decide +kernel
    unfold decode
    rw [(stripHeader_spec _).1 hh]
    have hl : ((integerLayout ambiguous).drop 2).length = 261 := by rw [List.length_drop, hlen]
    have g0 : ((integerLayout ambiguous).drop 2).getD 0 0 = 0 := by decide +kernel
    generalize (integerLayout ambiguous).drop 2 = d at hl g0
    rw [decodeLoop, if_neg (by rw [hl]; decide)]
    simp only
    rw [g0, if_neg (by rw [hl]; decide), dif_pos (by decide)]

/-! ## C53 -/

theorem decodeLoop_exact (m : Nat) : ∀ d : Bytes, d.length ≤ m → decodeLoop d ≠ .timeout ∧
    (decodeLoop d = .panic ↔ ∃ e, AfterLines d e ∧ BadLength e) := by
  induction m with
  | zero =>
    intro d hd
    have : d = [] := List.length_eq_zero_iff.1 (by omega)
    subst this
    rw [decodeLoop, if_pos (by decide)]
    refine ⟨by simp, ⟨fun h => by simp at h, ?_⟩⟩
    rintro ⟨e, ha, hb⟩
    cases ha with
    | none => exact absurd hb.1 (by simp)
    | line h _ _ _ _ => exact absurd h (by simp)
  | succ m ih =>
    intro d hd
    rw [decodeLoop]
    by_cases h3 : d.length ≤ 3
    · rw [if_pos h3]
      refine ⟨by simp, ⟨fun h => by simp at h, ?_⟩⟩
      rintro ⟨e, ha, hb⟩
      cases ha with
      | none => exact absurd hb.1 (by omega)
      | line h _ _ _ _ => exact absurd h (by omega)
    · rw [if_neg h3]
      simp only
      have hs : (d.getD 0 0).toNat = lineSize d := rfl
      rw [hs]
      by_cases hl : d.length < lineSize d
      · rw [if_pos hl]
        refine ⟨by simp, ⟨fun h => by simp at h, ?_⟩⟩
        rintro ⟨e, ha, hb⟩
        cases ha with
        | none => rcases hb.2 with h | h <;> omega
        | line _ _ h _ _ => omega
      · rw [if_neg hl]
        by_cases hz : lineSize d = 0
        · rw [dif_pos hz]
          exact ⟨by simp, ⟨fun _ => ⟨d, .none, by omega, Or.inl hz⟩, fun _ => rfl⟩⟩
        · rw [dif_neg hz]
          by_cases h1 : d.getD (lineSize d - 1) 0 = 1
          · rw [if_neg (by simpa using h1)]
            by_cases h4 : lineSize d - 1 < 3
            · rw [if_pos h4]
              exact ⟨by simp, ⟨fun _ => ⟨d, .none, by omega, Or.inr ⟨by omega, h1⟩⟩, fun _ => rfl⟩⟩
            · rw [if_neg h4]
              obtain ⟨i1, i2⟩ := ih (d.drop (lineSize d)) (by rw [List.length_drop]; omega)
              have hiff : (∃ e, AfterLines d e ∧ BadLength e) ↔ ∃ e, AfterLines (d.drop (lineSize d)) e ∧ BadLength e := by
                constructor
                · rintro ⟨e, ha, hb⟩
                  cases ha with
                  | none => rcases hb.2 with h | h <;> omega
                  | line _ _ _ _ h => exact ⟨e, h, hb⟩
                · rintro ⟨e, ha, hb⟩
                  exact ⟨e, .line (by omega) (by omega) (by omega) h1 ha, hb⟩
              rw [hiff, ← i2]
              cases hr : decodeLoop (d.drop (lineSize d)) with
              | ok r => exact ⟨by simp, by simp⟩
              | err e => exact ⟨by simp, by simp⟩
              | panic => exact ⟨by simp, by simp⟩
              | timeout => exact absurd hr i1
          · rw [if_pos (by simpa using h1)]
            refine ⟨by simp, ⟨fun h => by simp at h, ?_⟩⟩
            rintro ⟨e, ha, hb⟩
            cases ha with
            | none => rcases hb.2 with h | h
                      · exact absurd h hz
                      · exact absurd h.2 h1
            | line _ _ _ h _ => exact absurd h h1

/-- Decoding always ends.  It crashes exactly if, after some complete lines, a length byte is 0, or
is 1, 2 or 3 and the line it describes ends in 1; otherwise it gives a listing or an error. -/
theorem C53_exact_partial (raw d : Bytes) (hb : Body raw d) :
    decode raw ≠ .timeout ∧ (decode raw = .panic ↔ ∃ e, AfterLines d e ∧ BadLength e) ∧
      ((¬ ∃ e, AfterLines d e ∧ BadLength e) → (decode raw).returns) := by
  unfold decode
  rw [Applesoft.body_eq hb]
  obtain ⟨h1, h2⟩ := decodeLoop_exact d.length d (Nat.le_refl _)
  refine ⟨h1, h2, fun h => ?_⟩
  cases hr : decodeLoop d with
  | ok r => rfl
  | err e => rfl
  | panic => exact absurd (h2.1 hr) h
  | timeout => exact absurd hr h1

/-- C53 fails: four zero bytes crash the decoder. -/
theorem C53_violated : decode [0, 0, 0, 0] = .panic := by
  have hb : Body [0, 0, 0, 0] [0, 0, 0, 0] := Or.inr ⟨by unfold LooksHeadered; decide, rfl⟩
  exact ((C53_exact_partial _ _ hb).2.1).2 ⟨_, .none, by unfold BadLength lineSize; decide⟩

/-- Non-vacuity: a program of one line leads to no bad length byte. -/
example : (decode [5, 10, 0, 0x61, 1]).returns := by
  have hb : Body [5, 10, 0, 0x61, 1] [5, 10, 0, 0x61, 1] := Or.inr ⟨by unfold LooksHeadered; decide, rfl⟩
  refine (C53_exact_partial _ _ hb).2.2 ?_
  rintro ⟨e, ha, h⟩
  cases ha with
  | none => revert h; unfold BadLength lineSize; decide
  | line _ _ _ _ ha =>
    cases ha with
    | none => revert h; unfold BadLength lineSize; decide
    | line h _ _ _ _ => revert h; decide

end Verif.Integer

namespace Verif.Basic

open Verif Verif.Spec.Basic

/-! ## C54 -/

/-- The name a control character is shown by. -/
def controlName (c : UInt8) : Str :=
  if 1 ≤ c.toNat ∧ c.toNat ≤ 26 then str "ctrl-" ++ [UInt8.ofNat (64 + c.toNat)] else codeName c

theorem chevron_byte : ∀ c : UInt8, (if c < 0x20 then chevron c else [c]) =
    if IsControl c then chevroned (controlName c) else [c] := by decide +kernel

/-- Every control character other than tab and newline is replaced by its name in chevrons, every
other byte stays as it is, in place and in order; different control characters have different names. -/
theorem C54_bytewise : ∃ name : UInt8 → Str,
    (∀ s, chevronControlCodes s = s.flatMap fun c => if IsControl c then chevroned (name c) else [c]) ∧
    (∀ c d, IsControl c → IsControl d → name c = name d → c = d) ∧
    name 4 = str "ctrl-D" ∧ name 0 = str "NUL" ∧ name 0x1C = str "FS" := by
  refine ⟨controlName, fun s => ?_, ?_, by decide, by decide, by decide⟩
  · unfold chevronControlCodes
    rw [List.flatMap_def, List.flatMap_def]
    exact congrArg List.flatten (List.map_congr_left fun c _ => chevron_byte c)
  · have key : ∀ c d : Fin 32, controlName (UInt8.ofNat c.val) = controlName (UInt8.ofNat d.val) → c = d := by decide +kernel
    intro c d hc hd h
    have h1 := hc.1
    have h2 := hd.1
    have := key ⟨c.toNat, h1⟩ ⟨d.toNat, h2⟩ (by simpa using h)
    simp only [Fin.mk.injEq] at this
    exact UInt8.toNat_inj.1 this

/-- The result has no control characters other than tab and newline. -/
theorem C54_no_control_characters (s : Str) : ∀ c ∈ chevronControlCodes s, ¬ IsControl c := by
  intro c hc
  unfold chevronControlCodes at hc
  obtain ⟨d, _, hc⟩ := List.mem_flatMap.1 hc
  have key : ∀ d : UInt8, (if d < 0x20 then chevron d else [d]).all (fun c => decide (¬ IsControl c)) = true := by decide +kernel
  exact of_decide_eq_true (List.all_eq_true.1 (key d) c hc)

/-- Text without control characters is unchanged. -/
theorem C54_identity (s : Str) (h : ∀ c ∈ s, ¬ IsControl c) : chevronControlCodes s = s := by
  unfold chevronControlCodes
  induction s with
  | nil => rfl
  | cons c s ih =>
    rw [List.flatMap_cons, ih fun d hd => h d (List.mem_cons_of_mem _ hd), chevron_byte,
      if_neg (h c List.mem_cons_self)]
    rfl

/-- Escaping twice is the same as escaping once. -/
theorem C54_idempotent (s : Str) : chevronControlCodes (chevronControlCodes s) = chevronControlCodes s :=
  C54_identity _ (C54_no_control_characters s)

/-- The copy of the function for Integer BASIC does the same. -/
theorem C54_integer_copy (s : Str) : Integer.chevronControlCodes s = chevronControlCodes s := by
  unfold Integer.chevronControlCodes chevronControlCodes
  rfl

example : chevronControlCodes (str "PRINT \"" ++ [4] ++ str "CATALOG\"\n") =
    str "PRINT \"" ++ [0xC2, 0xAB] ++ str "ctrl-D" ++ [0xC2, 0xBB] ++ str "CATALOG\"\n" := by decide +kernel

end Verif.Basic
