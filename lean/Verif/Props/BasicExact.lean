import Verif.Props.Basic

/-!
# C50 and C52: exactly which programs stored without a length decode to their lines
-/

set_option autoImplicit false

namespace Verif.Applesoft

open Verif Verif.Spec.Basic Verif.Basic

/-- The text of a line that was read is followed by a zero. -/
theorem lineBytes_inv : ∀ (d bs : Bytes), lineBytes d = .ok bs → ∃ z, d = bs ++ 0 :: z := by
  intro d
  induction d with
  | nil => intro bs h; simp [lineBytes] at h
  | cons c rest ih =>
    intro bs h
    unfold lineBytes at h
    by_cases h0 : c = 0
    · rw [if_pos h0] at h
      cases h
      exact ⟨rest, by rw [h0]; rfl⟩
    · rw [if_neg h0] at h
      have key : ∀ r : Out Bytes, (r = lineBytes rest) → (r >>= fun bs => Out.ok (c :: bs)) = .ok bs →
          ∃ z, c :: rest = bs ++ 0 :: z := by
        intro r hr hb
        cases r with
        | ok b =>
          obtain ⟨z, hz⟩ := ih b hr.symm
          cases hb
          exact ⟨z, by rw [hz]; rfl⟩
        | err k => cases hb
        | panic => cases hb
        | timeout => cases hb
      by_cases h1 : c < 0x80
      · rw [if_pos h1] at h; exact key _ rfl h
      · rw [if_neg h1] at h
        by_cases h2 : tokenByCode c = []
        · rw [if_pos h2] at h; cases h
        · rw [if_neg h2] at h; exact key _ rfl h

/-- The first two bytes of a program: zero at its end, otherwise an address of at least 256. -/
theorem layout_head (loc : Nat) (lines : List Line) (h1 : 256 ≤ loc)
    (hfit : loc + (applesoftLayout loc lines).length ≤ 65536) :
    ∃ y0 y1 z, applesoftLayout loc lines = y0 :: y1 :: z ∧ (y1 = 0 → y0 = 0) := by
  cases lines with
  | nil => exact ⟨0, 0, [], rfl, fun _ => rfl⟩
  | cons l rest =>
    refine ⟨loByte (loc + (l.bytes.length + 5)), hiByte (loc + (l.bytes.length + 5)), _, rfl, fun h => ?_⟩
    have hlen : (applesoftLayout loc (l :: rest)).length =
        l.bytes.length + 5 + (applesoftLayout (loc + (l.bytes.length + 5)) rest).length := by
      simp only [applesoftLayout, word16, List.length_append, List.length_cons, List.length_nil]; omega
    have hp := layout_length_pos (loc + (l.bytes.length + 5)) rest
    have h' := congrArg UInt8.toNat h
    unfold hiByte at h'
    rw [UInt8.toNat_ofNat'] at h'
    simp only [UInt8.toNat_zero] at h'
    omega

/-- A program read from its third byte on does not decode to its lines. -/
theorem decodeLoop_mistaken (l : Line) (rest : List Line) (hl : ApplesoftLine l) (loc : Nat) (h1 : 256 ≤ loc)
    (hfit : loc + (applesoftLayout loc (l :: rest)).length ≤ 65536) (tail : Bytes) (n : Nat) :
    decodeLoop ((applesoftLayout loc (l :: rest) ++ tail).drop 2) (loc : Int) n (loc : Int) ≠ .ok (l :: rest) := by
  have hlen : (applesoftLayout loc (l :: rest)).length =
      l.bytes.length + 5 + (applesoftLayout (loc + (l.bytes.length + 5)) rest).length := by
    simp only [applesoftLayout, word16, List.length_append, List.length_cons, List.length_nil]; omega
  obtain ⟨y0, y1, z, hy, hyz⟩ := layout_head (loc + (l.bytes.length + 5)) rest (by omega) (by omega)
  have hd : (applesoftLayout loc (l :: rest) ++ tail).drop 2 =
      loByte l.num :: hiByte l.num :: (l.bytes ++ 0 :: y0 :: y1 :: (z ++ tail)) := by
    simp only [applesoftLayout, word16, hy, List.cons_append, List.nil_append, List.append_assoc, List.drop_succ_cons,
      List.drop_zero]
  rw [hd]
  intro h
  unfold decodeLoop at h
  rw [if_neg (by omega)] at h
  cases n with
  | zero => cases h
  | succ n =>
    simp only [Int.sub_self] at h
    rw [if_neg (by simp only [List.length_cons, List.length_append]; omega), if_neg (by omega)] at h
    simp only [Int.toNat_zero, Nat.zero_add, List.getD_cons_zero, List.getD_cons_succ] at h
    have hw := word_back hl.1
    split at h
    · cases h
    rename_i hnum
    split at h
    · cases h
    have hx : lineBytes ((l.bytes ++ 0 :: y0 :: y1 :: (z ++ tail)).drop 2) = .ok l.bytes ∧
        ((l.bytes ++ 0 :: y0 :: y1 :: (z ++ tail)).getD 0 0).toNat +
          256 * ((l.bytes ++ 0 :: y0 :: y1 :: (z ++ tail)).getD 1 0).toNat = l.num := by
      simp only [List.drop_succ_cons] at h
      cases hb : lineBytes ((l.bytes ++ 0 :: y0 :: y1 :: (z ++ tail)).drop 2) with
      | ok bs =>
        rw [hb] at h
        simp only [Out.bind_ok] at h
        cases hr : decodeLoop (loByte l.num :: hiByte l.num :: (l.bytes ++ 0 :: y0 :: y1 :: (z ++ tail))) (loc : Int) n
            (((loByte l.num).toNat : Int) + 256 * ((hiByte l.num).toNat : Int)) with
        | ok ls =>
          rw [hr] at h
          simp only [Out.bind_ok, Out.ok.injEq, List.cons.injEq] at h
          obtain ⟨h1, -⟩ := h
          have e1 := congrArg Line.num h1
          have e2 := congrArg Line.bytes h1
          simp only at e1 e2
          exact ⟨by rw [e2], e1⟩
        | err k => rw [hr] at h; cases h
        | panic => rw [hr] at h; cases h
        | timeout => rw [hr] at h; cases h
      | err k => rw [hb] at h; cases h
      | panic => rw [hb] at h; cases h
      | timeout => rw [hb] at h; cases h
    obtain ⟨hb, hn⟩ := hx
    obtain ⟨w, hz⟩ := lineBytes_inv _ _ hb
    have hpos := hl.2
    match hbs : l.bytes with
    | [] =>
      rw [hbs] at hz hn
      simp only [List.nil_append, List.drop_succ_cons, List.drop_zero, List.cons.injEq, List.getD_cons_zero,
        List.getD_cons_succ] at hz hn
      rw [hyz hz.1] at hn
      simp only [UInt8.toNat_zero] at hn
      omega
    | [c] =>
      rw [hbs] at hz
      simp only [List.cons_append, List.nil_append, List.drop_succ_cons, List.drop_zero, List.cons.injEq] at hz
      have := (hpos c (by rw [hbs]; exact List.mem_cons_self ..)).1
      rw [← hz.1, hyz hz.2.1] at this
      simp at this
    | c1 :: c2 :: t =>
      rw [hbs] at hz
      simp only [List.cons_append, List.drop_succ_cons, List.drop_zero] at hz
      have hg := congrArg (fun d : Bytes => d.getD t.length 0) hz
      have hm : (c1 :: c2 :: t).getD t.length 0 ∈ l.bytes := by
        have ht : t.length < (c1 :: c2 :: t).length := by simp only [List.length_cons]; omega
        rw [hbs, List.getD_eq_getElem?_getD, List.getElem?_eq_getElem ht]
        exact List.getElem_mem ht
      have h0 := (hpos _ hm).1
      have e1 : (t ++ 0 :: y0 :: y1 :: (z ++ tail)).getD t.length 0 = 0 := by
        rw [List.getD_eq_getElem?_getD, List.getElem?_append_right (Nat.le_refl _), Nat.sub_self]; rfl
      have e2 : (c1 :: c2 :: (t ++ 0 :: w)).getD t.length 0 = (c1 :: c2 :: t).getD t.length 0 := by
        rw [← List.cons_append, ← List.cons_append, List.getD_eq_getElem?_getD,
          List.getElem?_append_left (by simp only [List.length_cons]; omega), List.getD_eq_getElem?_getD]
      simp only [e1, e2] at hg
      rw [← hg] at h0
      simp at h0

/-- C50, exactly: a program at an address of at least 256 that is stored without its length, possibly followed by other
bytes, decodes to its lines if and only if its first two bytes do not look like a length. -/
theorem C50_exact (lines : List Line) (hl : ∀ l ∈ lines, ApplesoftLine l) (loc : UInt16)
    (h1 : 256 ≤ loc.toNat) (hfit : loc.toNat + (applesoftLayout loc.toNat lines).length ≤ 65536) (tail : Bytes)
    (n : Nat) (hn : lines.length < n) :
    decode n (applesoftLayout loc.toNat lines ++ tail) loc = .ok lines ↔
      ¬ LooksHeadered (applesoftLayout loc.toNat lines ++ tail) := by
  constructor
  · intro h hh
    unfold decode at h
    rw [(stripHeader_spec _).1 hh] at h
    cases lines with
    | nil =>
      obtain ⟨-, hh⟩ := hh
      simp only [applesoftLayout, List.cons_append, List.nil_append, List.length_cons, List.getD_cons_zero,
        List.getD_cons_succ, UInt8.toNat_zero, Nat.mul_zero, List.drop_succ_cons, List.drop_zero] at hh h
      unfold decodeLoop at h
      rw [if_neg (by omega)] at h
      cases n with
      | zero => cases h
      | succ n =>
        simp only [Int.sub_self] at h
        rw [if_pos (Or.inr (by omega))] at h
        cases h
    | cons l rest => exact decodeLoop_mistaken l rest (hl l (List.mem_cons_self ..)) loc.toNat h1 hfit tail n h
  · intro h
    exact C50_without_header_partial lines hl loc (by omega) hfit tail h n hn

/-- Both sides occur at $801: `10 PRINT "HI"` decodes to its line, the program of `C50_violated` does not. -/
example : decode 2 (applesoftLayout 0x801 [⟨10, [0xBA] ++ str "\"HI\""⟩]) 0x801 = .ok [⟨10, [0xBA] ++ str "\"HI\""⟩] ∧
    LooksHeadered (applesoftLayout 0x801 ambiguous) := by
  constructor
  · have h := (C50_exact [⟨10, [0xBA] ++ str "\"HI\""⟩] (by
      intro l hl
      simp only [List.mem_cons, List.not_mem_nil, or_false] at hl
      subst hl
      exact ⟨by decide, by decide +kernel⟩) 0x801 (by decide) (by decide +kernel) [] 2 (by decide)).2
      (by unfold LooksHeadered; decide +kernel)
    rwa [List.append_nil] at h
  · refine Classical.byContradiction fun h => ?_
    have hlen : (applesoftLayout (0x801 : UInt16).toNat ambiguous).length = 2057 := by decide +kernel
    have := (C50_exact ambiguous (fun l hl => (C50_violated.1 l hl).1) 0x801 (by decide)
      (Nat.le_trans (Nat.add_le_add_left (Nat.le_of_eq hlen) _) (by decide)) [] 100 (by decide +kernel)).2
      (by rw [List.append_nil]; exact h)
    rw [List.append_nil] at this
    have e : decode 100 (applesoftLayout (0x801 : UInt16).toNat ambiguous) 0x801 = .err .other := C50_violated.2 100 (by decide)
    rw [e] at this
    cases this

end Verif.Applesoft

namespace Verif.Integer

open Verif Verif.Spec.Basic Verif.Basic

/-- The first line that was read: its length byte, and what follows it. -/
theorem decodeLoop_cons (d : Bytes) (l : Line) (ls : List Line) (h : decodeLoop d = .ok (l :: ls)) :
    (d.getD 0 0).toNat ≤ d.length ∧ l.bytes.length + 4 = (d.getD 0 0).toNat ∧
      decodeLoop (d.drop (d.getD 0 0).toNat) = .ok ls := by
  rw [decodeLoop.eq_def] at h
  split at h
  · cases h
  simp only at h
  split at h
  · cases h
  split at h
  · cases h
  split at h
  · cases h
  split at h
  · cases h
  cases hr : decodeLoop (d.drop (d.getD 0 0).toNat) with
  | ok r =>
    rw [hr] at h
    simp only [Out.bind_ok, Out.ok.injEq, List.cons.injEq] at h
    obtain ⟨rfl, rfl⟩ := h
    refine ⟨by omega, ?_, rfl⟩
    simp only [List.length_take, List.length_drop]
    omega
  | err k => rw [hr] at h; cases h
  | panic => rw [hr] at h; cases h
  | timeout => rw [hr] at h; cases h

/-- A program read from its third byte on does not decode to its lines. -/
theorem decodeLoop_mistaken : ∀ (rest : List Line) (l : Line),
    decodeLoop ((integerLayout (l :: rest)).drop 2) ≠ .ok (l :: rest) := by
  intro rest
  induction rest with
  | nil =>
    intro l h
    obtain ⟨h1, h2, -⟩ := decodeLoop_cons _ _ _ h
    simp only [integerLayout, word16, List.cons_append, List.nil_append, List.drop_succ_cons, List.drop_zero,
      List.length_cons, List.length_append, List.length_nil] at h1 h2
    omega
  | cons m rest ih =>
    intro l h
    obtain ⟨-, h2, h3⟩ := decodeLoop_cons _ _ _ h
    rw [← h2] at h3
    have e : ((integerLayout (l :: m :: rest)).drop 2).drop (l.bytes.length + 4) = (integerLayout (m :: rest)).drop 2 := by
      rw [List.drop_drop]
      have : integerLayout (l :: m :: rest) =
          (UInt8.ofNat (l.bytes.length + 4) :: (word16 l.num ++ (l.bytes ++ [1]))) ++ integerLayout (m :: rest) := by
        rw [integerLayout]
        simp only [List.cons_append, List.append_assoc, List.nil_append]
      rw [this, List.drop_append, List.drop_eq_nil_of_le, List.nil_append]
      · congr 1
        simp only [word16, List.length_cons, List.length_append, List.length_nil]; omega
      · simp only [word16, List.length_cons, List.length_append, List.length_nil]; omega
    rw [e] at h3
    exact ih m h3

/-- C52, exactly: a program stored without its length decodes to its lines if and only if its first two bytes do not look
like a length. -/
theorem C52_exact (lines : List Line) (hl : ∀ l ∈ lines, IntegerLine l) :
    decode (integerLayout lines) = .ok lines ↔ ¬ LooksHeadered (integerLayout lines) := by
  constructor
  · intro h hh
    unfold decode at h
    rw [(stripHeader_spec _).1 hh] at h
    cases lines with
    | nil => exact absurd hh.1 (by simp [integerLayout])
    | cons l rest => exact decodeLoop_mistaken rest l h
  · intro h
    have := C52_without_header_partial lines hl [] (by simp) (by rwa [List.append_nil])
    rwa [List.append_nil] at this

/-- Both sides occur: a program of two lines decodes to them, the one of `C52_violated` does not. -/
example : ¬ LooksHeadered (integerLayout [⟨10, [0x61]⟩, ⟨20, [0x5F, 0xB1, 10, 0]⟩]) ∧ LooksHeadered (integerLayout ambiguous) := by
  refine ⟨by unfold LooksHeadered; decide, ?_⟩
  refine Classical.byContradiction fun h => ?_
  have := (C52_exact ambiguous C52_violated.1).2 h
  rw [C52_violated.2] at this
  cases this

end Verif.Integer
