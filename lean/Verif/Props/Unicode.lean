import Verif.Spec.Unicode
import Verif.Props.ListNames
import Verif.Props.Copy

/-!
# C111: names that are not ASCII
-/

set_option autoImplicit false

namespace Verif.Unicode

open Verif Verif.Spec

/-! ## Runes -/

theorem cont_nat {c : UInt8} (h : isCont c = true) : 0x80 ≤ c.toNat ∧ c.toNat ≤ 0xBF := by
  unfold isCont at h
  simp only [Bool.and_eq_true, decide_eq_true_eq, UInt8.le_iff_toNat_le] at h
  exact h

/-- A valid sequence: its bytes after the first are not ASCII, its rune is not, and the three letters are only got from their bytes. -/
theorem multi_spec {b : UInt8} {rest : Bytes} {r k : Nat} (h : multi b rest = some (r, k)) :
    0x80 ≤ r ∧ (∀ c ∈ rest.take k, 0x80 ≤ c.toNat) ∧ (r = 0x131 → dotlessI <+: b :: rest) ∧
      (r = 0x17F → longS <+: b :: rest) ∧ (r = 0x212A → kelvin <+: b :: rest) := by
  unfold multi at h
  split at h
  · rename_i hb
    simp only [UInt8.le_iff_toNat_le] at hb
    have hb1 : 0xC2 ≤ b.toNat := hb.1
    have hb2 : b.toNat ≤ 0xDF := hb.2
    split at h
    · rename_i c z
      split at h
      · rename_i hc
        obtain ⟨c1, c2⟩ := cont_nat hc
        simp only [Option.some.injEq, Prod.mk.injEq] at h
        obtain ⟨rfl, rfl⟩ := h
        refine ⟨by omega, ?_, ?_, ?_, ?_⟩
        · intro x hx
          simp only [List.take_succ_cons, List.take_zero, List.mem_singleton] at hx
          subst hx; exact c1
        · intro he
          have e1 : b = 0xC4 := UInt8.toNat_inj.1 (by show b.toNat = 0xC4; omega)
          have e2 : c = 0xB1 := UInt8.toNat_inj.1 (by show c.toNat = 0xB1; omega)
          subst e1 e2; exact ⟨z, rfl⟩
        · intro he
          have e1 : b = 0xC5 := UInt8.toNat_inj.1 (by show b.toNat = 0xC5; omega)
          have e2 : c = 0xBF := UInt8.toNat_inj.1 (by show c.toNat = 0xBF; omega)
          subst e1 e2; exact ⟨z, rfl⟩
        · intro he; omega
      · cases h
    · cases h
  split at h
  · rename_i hb
    simp only [UInt8.le_iff_toNat_le] at hb
    have hb1 : 0xE0 ≤ b.toNat := hb.1
    have hb2 : b.toNat ≤ 0xEF := hb.2
    split at h
    · rename_i c d z
      split at h
      · rename_i hc
        obtain ⟨h1, h2, h3, h4⟩ := hc
        obtain ⟨c1, c2⟩ := cont_nat h1
        obtain ⟨d1, d2⟩ := cont_nat h4
        have h2' : b.toNat = 0xE0 → 0xA0 ≤ c.toNat := fun e => by
          have := h2 (UInt8.toNat_inj.1 e)
          rw [UInt8.le_iff_toNat_le] at this
          exact this
        simp only [Option.some.injEq, Prod.mk.injEq] at h
        obtain ⟨rfl, rfl⟩ := h
        refine ⟨?_, ?_, ?_, ?_, ?_⟩
        · by_cases e : b.toNat = 0xE0
          · have := h2' e; omega
          · omega
        · intro x hx
          simp only [List.take_succ_cons, List.take_zero, List.mem_cons, List.not_mem_nil, or_false] at hx
          rcases hx with rfl | rfl
          · exact c1
          · exact d1
        · intro he
          by_cases e : b.toNat = 0xE0
          · have := h2' e; omega
          · omega
        · intro he
          by_cases e : b.toNat = 0xE0
          · have := h2' e; omega
          · omega
        · intro he
          have e1 : b = 0xE2 := UInt8.toNat_inj.1 (by show b.toNat = 0xE2; omega)
          have e2 : c = 0x84 := UInt8.toNat_inj.1 (by show c.toNat = 0x84; omega)
          have e3 : d = 0xAA := UInt8.toNat_inj.1 (by show d.toNat = 0xAA; omega)
          subst e1 e2 e3; exact ⟨z, rfl⟩
      · cases h
    · cases h
  split at h
  · rename_i hb
    simp only [UInt8.le_iff_toNat_le] at hb
    have hb1 : 0xF0 ≤ b.toNat := hb.1
    have hb2 : b.toNat ≤ 0xF4 := hb.2
    split at h
    · rename_i c d e z
      split at h
      · rename_i hc
        obtain ⟨h1, h2, h3, h4, h5⟩ := hc
        obtain ⟨c1, c2⟩ := cont_nat h1
        obtain ⟨d1, d2⟩ := cont_nat h4
        obtain ⟨e1, e2⟩ := cont_nat h5
        have h2' : b.toNat = 0xF0 → 0x90 ≤ c.toNat := fun e => by
          have := h2 (UInt8.toNat_inj.1 e)
          rw [UInt8.le_iff_toNat_le] at this
          exact this
        simp only [Option.some.injEq, Prod.mk.injEq] at h
        obtain ⟨rfl, rfl⟩ := h
        have hbig : 0x10000 ≤ (b.toNat - 0xF0) * 262144 + (c.toNat - 0x80) * 4096 + (d.toNat - 0x80) * 64 + (e.toNat - 0x80) := by
          by_cases e0 : b.toNat = 0xF0
          · have := h2' e0; omega
          · omega
        refine ⟨by omega, ?_, by omega, by omega, by omega⟩
        intro x hx
        simp only [List.take_succ_cons, List.take_zero, List.mem_cons, List.not_mem_nil, or_false] at hx
        rcases hx with rfl | rfl | rfl
        · exact c1
        · exact d1
        · exact e1
      · cases h
    · cases h
  · cases h

theorem runes_nil : runes [] = [] := by rw [runes]

theorem runes_ascii_cons {b : UInt8} (h : b.toNat < 0x80) (rest : Bytes) : runes (b :: rest) = b.toNat :: runes rest := by
  rw [runes, if_pos (by rw [UInt8.lt_iff_toNat_lt]; exact h)]

/-- The same with the bytes of the three letters. -/
theorem runes_other_bytes {b : UInt8} (h : 0x80 ≤ b.toNat) (rest : Bytes) : ∃ r k, runes (b :: rest) = r :: runes (rest.drop k) ∧
    0x80 ≤ r ∧ (r = 0x17F → longS <+: b :: rest ∧ k = 1) ∧ (r = 0x212A → kelvin <+: b :: rest ∧ k = 2) := by
  rw [runes, if_neg (by rw [UInt8.lt_iff_toNat_lt]; exact Nat.not_lt.2 h)]
  cases hm : multi b rest with
  | none => exact ⟨0xFFFD, 0, by simp, by omega, fun e => by omega, fun e => by omega⟩
  | some p =>
    obtain ⟨r, k⟩ := p
    obtain ⟨h1, h2, h3, h4, h5⟩ := multi_spec hm
    refine ⟨r, k, rfl, h1, fun e => ⟨h4 e, ?_⟩, fun e => ⟨h5 e, ?_⟩⟩
    · obtain ⟨z, hz⟩ := h4 e
      cases hz
      revert hm
      simp [multi, isCont]
      intro _ e; exact e.symm
    · obtain ⟨z, hz⟩ := h5 e
      cases hz
      revert hm
      simp [multi, isCont]
      intro _ e; exact e.symm

/-- A first byte that is not ASCII starts a rune that is not, whose bytes are not. -/
theorem runes_other_cons {b : UInt8} (h : 0x80 ≤ b.toNat) (rest : Bytes) : ∃ r k, runes (b :: rest) = r :: runes (rest.drop k) ∧
    0x80 ≤ r ∧ (∀ c ∈ rest.take k, 0x80 ≤ c.toNat) ∧ (PlainName (b :: rest) → r ≠ 0x131 ∧ r ≠ 0x17F ∧ r ≠ 0x212A) := by
  rw [runes, if_neg (by rw [UInt8.lt_iff_toNat_lt]; exact Nat.not_lt.2 h)]
  cases hm : multi b rest with
  | none => exact ⟨0xFFFD, 0, by simp, by omega, by simp, fun _ => by omega⟩
  | some p =>
    obtain ⟨r, k⟩ := p
    obtain ⟨h1, h2, h3, h4, h5⟩ := multi_spec hm
    exact ⟨r, k, rfl, h1, h2, fun hp => ⟨fun e => hp.1 (h3 e).isInfix, fun e => hp.2.1 (h4 e).isInfix, fun e => hp.2.2 (h5 e).isInfix⟩⟩

theorem plain_suffix {s t : Str} (h : PlainName s) (hs : t <:+: s) : PlainName t :=
  ⟨fun e => h.1 (e.trans hs), fun e => h.2.1 (e.trans hs), fun e => h.2.2 (e.trans hs)⟩

theorem plain_drop {b : UInt8} {rest : Bytes} (h : PlainName (b :: rest)) (k : Nat) : PlainName (rest.drop k) :=
  plain_suffix h ((List.drop_suffix k rest).trans (List.suffix_cons b rest)).isInfix

/-! ## EqualFold -/

theorem sameRune_comm (T : Tables) (a b : Nat) : sameRune T a b = sameRune T b a := by
  unfold sameRune
  by_cases h : a = b
  · rw [if_pos h, if_pos h.symm]
  · rw [if_neg h, if_neg (Ne.symm h), Nat.min_comm, Nat.max_comm]

theorem sameRunes_comm (T : Tables) : ∀ s t, sameRunes T s t = sameRunes T t s := by
  intro s
  induction s with
  | nil => intro t; cases t <;> rfl
  | cons a s ih =>
    intro t
    cases t with
    | nil => rfl
    | cons b t =>
      unfold sameRunes
      rw [sameRune_comm, ih]

theorem equalFold_comm (T : Tables) (s t : Str) : equalFold T s t = equalFold T t s := sameRunes_comm T _ _

theorem sameRune_ascii (T : Tables) {a b : UInt8} (ha : a.toNat < 0x80) (hb : b.toNat < 0x80) :
    sameRune T a.toNat b.toNat = decide (upperByte a = upperByte b) := by
  have h1 : ∀ x y : Fin 128, sameRune ⟨id, id, id⟩ x.val y.val =
      decide (upperByte (UInt8.ofNat x.val) = upperByte (UInt8.ofNat y.val)) := by decide +kernel
  have h2 := h1 ⟨a.toNat, ha⟩ ⟨b.toNat, hb⟩
  simp only [UInt8.ofNat_toNat] at h2
  rw [← h2]
  unfold sameRune
  by_cases h : a.toNat = b.toNat
  · rw [if_pos h, if_pos h]
  · rw [if_neg h, if_neg h]
    dsimp only
    rw [if_pos (by omega), if_pos (by omega)]

/-- A character that is not ASCII is not an ASCII one but for case, unless it is one of two. -/
theorem sameRune_other {T : Tables} (hT : IsUnicode T) {a b : Nat} (ha : 0x80 ≤ a) (hb : b < 0x80) (hs : a ≠ 0x17F) (hk : a ≠ 0x212A)
    (hcap : ¬ (0x61 ≤ b ∧ b ≤ 0x7A)) : sameRune T a b = false := by
  unfold sameRune
  rw [if_neg (by omega)]
  dsimp only
  rw [Nat.max_eq_left (by omega), Nat.min_eq_right (by omega), if_neg (by omega), hT.fold_ascii b hb, if_neg (by omega), if_neg (by omega)]
  by_cases h1 : 0x41 ≤ b ∧ b ≤ 0x5A
  · rw [if_pos h1]
    unfold foldFind
    rw [if_pos ⟨by omega, by omega⟩, hT.fold_ascii _ (by omega)]
    by_cases h2 : b + 0x20 = 0x6B
    · rw [if_pos h2]
      unfold foldFind
      split
      · rw [hT.fold_k]
        unfold foldFind
        rw [if_neg (by omega)]
        simp only [decide_eq_false_iff_not]; omega
      · simp only [decide_eq_false_iff_not]; omega
    · rw [if_neg h2]
      by_cases h3 : b + 0x20 = 0x73
      · rw [if_pos h3]
        unfold foldFind
        split
        · rw [hT.fold_s]
          unfold foldFind
          rw [if_neg (by omega)]
          simp only [decide_eq_false_iff_not]; omega
        · simp only [decide_eq_false_iff_not]; omega
      · rw [if_neg h3, if_neg (by omega), if_pos (by omega)]
        unfold foldFind
        rw [if_neg (by omega)]
        simp only [decide_eq_false_iff_not]; omega
  · rw [if_neg h1, if_neg hcap]
    unfold foldFind
    rw [if_neg (by omega)]
    simp only [decide_eq_false_iff_not]; omega

/-- Go's comparison with a name of capitals and digits is the ASCII one. -/
theorem equalFold_plain {T : Tables} (hT : IsUnicode T) : ∀ (s t : Str), PlainName s → Capitals t →
    equalFold T s t = Supermon.equalFold s t := by
  intro s
  induction s with
  | nil =>
    intro t _ hc
    cases t with
    | nil => simp [equalFold, runes_nil, sameRunes, Supermon.equalFold]
    | cons c t =>
      have := hc c List.mem_cons_self
      unfold equalFold
      rw [runes_nil, runes_ascii_cons (by omega)]
      simp [sameRunes, Supermon.equalFold, Verif.toUpper]
  | cons b s ih =>
    intro t hp hc
    by_cases hb : b.toNat < 0x80
    · unfold equalFold
      rw [runes_ascii_cons hb]
      cases t with
      | nil => simp [runes_nil, sameRunes, Supermon.equalFold, Verif.toUpper]
      | cons c t =>
        have h1 := hc c List.mem_cons_self
        rw [runes_ascii_cons (by omega)]
        unfold sameRunes
        rw [sameRune_ascii T hb (by omega)]
        have h2 := ih t (by have := plain_drop hp 0; simpa using this) fun x hx => hc x (List.mem_cons_of_mem _ hx)
        unfold equalFold at h2
        rw [h2]
        unfold Supermon.equalFold Verif.toUpper
        simp only [List.map_cons, List.cons.injEq, Bool.decide_and]
    · obtain ⟨r, k, e, h1, h2, h3⟩ := runes_other_cons (Nat.not_lt.1 hb) s
      have h3 := h3 hp
      unfold equalFold
      rw [e]
      cases t with
      | nil => simp [runes_nil, sameRunes, Supermon.equalFold, Verif.toUpper]
      | cons c t =>
        have h4 := hc c List.mem_cons_self
        rw [runes_ascii_cons (by omega)]
        unfold sameRunes
        rw [sameRune_other hT h1 (by omega) h3.2.1 h3.2.2 (by omega), Bool.false_and]
        symm
        unfold Supermon.equalFold Verif.toUpper
        simp only [List.map_cons, List.cons.injEq, decide_eq_false_iff_not, not_and]
        intro he
        exfalso
        have hall : ∀ x y : UInt8, 0x80 ≤ x.toNat → y.toNat < 0x80 → upperByte x ≠ upperByte y := by
          have := (by decide +kernel : ∀ x : Fin 256, (0x80 ≤ x.val → upperByte (UInt8.ofNat x.val) = UInt8.ofNat x.val) ∧
            (x.val < 0x80 → (upperByte (UInt8.ofNat x.val)).toNat < 0x80))
          intro x y hx hy he
          have e1 := (this ⟨x.toNat, x.toNat_lt⟩).1 hx
          have e2 := (this ⟨y.toNat, y.toNat_lt⟩).2 hy
          simp only [UInt8.ofNat_toNat] at e1 e2
          rw [← he, e1] at e2
          omega
        exact hall b c (by omega) (by omega) he

theorem capitals_plain {s : Str} (h : Capitals s) : PlainName s := by
  have key : ∀ (t : Str) (c : UInt8), c ∈ t → 0x80 ≤ c.toNat → ¬ t <:+: s := by
    intro t c hc hh hi
    have := h c (hi.subset hc)
    omega
  exact ⟨key _ 0xC4 (by decide) (by decide), key _ 0xC5 (by decide) (by decide), key _ 0xE2 (by decide) (by decide)⟩

theorem spell_ascii {b : UInt8} (h : b.toNat < 0x80) (rest : Str) : spell (b :: rest) = b :: spell rest := by
  rw [spell]
  · rintro s rfl; exact absurd h (by decide)
  · rintro s rfl; exact absurd h (by decide)

theorem spell_other {b : UInt8} {rest : Str} (h1 : ¬ longS <+: b :: rest) (h2 : ¬ kelvin <+: b :: rest) :
    spell (b :: rest) = b :: spell rest := by
  rw [spell]
  · rintro s rfl rfl; exact h1 ⟨s, rfl⟩
  · rintro s rfl rfl; exact h2 ⟨s, rfl⟩

theorem high_differs : ∀ x y : UInt8, 0x80 ≤ x.toNat → y.toNat < 0x80 → upperByte x ≠ upperByte y := by
  have := (by decide +kernel : ∀ x : Fin 256, (0x80 ≤ x.val → upperByte (UInt8.ofNat x.val) = UInt8.ofNat x.val) ∧
    (x.val < 0x80 → (upperByte (UInt8.ofNat x.val)).toNat < 0x80))
  intro x y hx hy he
  have e1 := (this ⟨x.toNat, x.toNat_lt⟩).1 hx
  have e2 := (this ⟨y.toNat, y.toNat_lt⟩).2 hy
  simp only [UInt8.ofNat_toNat] at e1 e2
  rw [← he, e1] at e2
  omega

theorem sameRune_s {T : Tables} (hT : IsUnicode T) {c : UInt8} (hc : c.toNat < 0x80) (hcap : ¬ (0x61 ≤ c.toNat ∧ c.toNat ≤ 0x7A)) :
    sameRune T 0x17F c.toNat = decide (upperByte 0x73 = upperByte c) := by
  have hu : upperByte c = c := by
    have := (by decide +kernel : ∀ x : Fin 256, ¬ (0x61 ≤ x.val ∧ x.val ≤ 0x7A) → upperByte (UInt8.ofNat x.val) = UInt8.ofNat x.val)
      ⟨c.toNat, c.toNat_lt⟩ hcap
    simpa using this
  rw [hu, show upperByte 0x73 = 0x53 by decide]
  by_cases he : c = 0x53
  · subst he
    have : (0x53 : UInt8).toNat = 0x53 := rfl
    rw [this]
    simp [sameRune, foldFind, hT.fold_ascii]
  · have hn : c.toNat ≠ 0x53 := fun e => he (UInt8.toNat_inj.1 e)
    rw [decide_eq_false (fun e => he e.symm)]
    unfold sameRune
    rw [if_neg (by omega)]
    dsimp only
    rw [Nat.max_eq_left (by omega), Nat.min_eq_right (by omega), if_neg (by omega), hT.fold_ascii _ hc, if_neg (by omega), if_neg (by omega)]
    by_cases h1 : 0x41 ≤ c.toNat ∧ c.toNat ≤ 0x5A
    · rw [if_pos h1]
      unfold foldFind
      rw [if_pos ⟨by omega, by omega⟩, hT.fold_ascii _ (by omega)]
      by_cases h2 : c.toNat + 0x20 = 0x6B
      · rw [if_pos h2]
        unfold foldFind
        rw [if_neg (by omega)]
        simp
      · rw [if_neg h2, if_neg (by omega), if_neg (by omega), if_pos (by omega)]
        unfold foldFind
        rw [if_neg (by omega)]
        simp only [decide_eq_false_iff_not]; omega
    · rw [if_neg h1, if_neg hcap]
      unfold foldFind
      rw [if_neg (by omega)]
      simp only [decide_eq_false_iff_not]; omega

theorem sameRune_k {T : Tables} (hT : IsUnicode T) {c : UInt8} (hc : c.toNat < 0x80) (hcap : ¬ (0x61 ≤ c.toNat ∧ c.toNat ≤ 0x7A)) :
    sameRune T 0x212A c.toNat = decide (upperByte 0x6B = upperByte c) := by
  have hu : upperByte c = c := by
    have := (by decide +kernel : ∀ x : Fin 256, ¬ (0x61 ≤ x.val ∧ x.val ≤ 0x7A) → upperByte (UInt8.ofNat x.val) = UInt8.ofNat x.val)
      ⟨c.toNat, c.toNat_lt⟩ hcap
    simpa using this
  rw [hu, show upperByte 0x6B = 0x4B by decide]
  by_cases he : c = 0x4B
  · subst he
    have : (0x4B : UInt8).toNat = 0x4B := rfl
    rw [this]
    simp [sameRune, foldFind, hT.fold_ascii]
  · have hn : c.toNat ≠ 0x4B := fun e => he (UInt8.toNat_inj.1 e)
    rw [decide_eq_false (fun e => he e.symm)]
    unfold sameRune
    rw [if_neg (by omega)]
    dsimp only
    rw [Nat.max_eq_left (by omega), Nat.min_eq_right (by omega), if_neg (by omega), hT.fold_ascii _ hc, if_neg (by omega), if_neg (by omega)]
    by_cases h1 : 0x41 ≤ c.toNat ∧ c.toNat ≤ 0x5A
    · rw [if_pos h1]
      unfold foldFind
      rw [if_pos ⟨by omega, by omega⟩, hT.fold_ascii _ (by omega), if_neg (by omega)]
      by_cases h2 : c.toNat + 0x20 = 0x73
      · rw [if_pos h2]
        unfold foldFind
        rw [if_pos (by omega), hT.fold_s]
        unfold foldFind
        rw [if_neg (by omega)]
        simp
      · rw [if_neg h2, if_neg (by omega), if_pos (by omega)]
        unfold foldFind
        rw [if_neg (by omega)]
        simp only [decide_eq_false_iff_not]; omega
    · rw [if_neg h1, if_neg hcap]
      unfold foldFind
      rw [if_neg (by omega)]
      simp only [decide_eq_false_iff_not]; omega

/-- Go's comparison with a name of capitals and digits, exactly: it is the ASCII one, once the long s and the Kelvin sign are
written as s and k. -/
theorem equalFold_spell {T : Tables} (hT : IsUnicode T) : ∀ (n : Nat) (s t : Str), s.length ≤ n → Capitals t →
    equalFold T s t = Supermon.equalFold (spell s) t := by
  intro n
  induction n with
  | zero =>
    intro s t hn hc
    cases s with
    | cons => simp at hn
    | nil => rw [spell]; exact equalFold_plain hT [] t (capitals_plain (by intro c hc; simp at hc)) hc
  | succ n ih =>
    intro s t hn hc
    cases s with
    | nil => exact ih [] t (by simp) hc
    | cons b s =>
      simp only [List.length_cons] at hn
      cases t with
      | nil =>
        have h1 : equalFold T (b :: s) [] = false := by
          unfold equalFold
          by_cases hb : b.toNat < 0x80
          · rw [runes_ascii_cons hb, runes_nil]; rfl
          · obtain ⟨r, k, e, _⟩ := runes_other_bytes (Nat.not_lt.1 hb) s
            rw [e, runes_nil]; rfl
        rw [h1]
        symm
        unfold Supermon.equalFold Verif.toUpper
        have : spell (b :: s) ≠ [] := by
          unfold spell
          split <;> simp_all
        simpa using this
      | cons c t =>
        have h1 := hc c List.mem_cons_self
        have hct : Capitals t := fun x hx => hc x (List.mem_cons_of_mem _ hx)
        have step : ∀ (a : UInt8) (s' : Str), s'.length ≤ n → sameRunes T (runes s') (runes t) = Supermon.equalFold (spell s') t → 
            (decide (upperByte a = upperByte c) && sameRunes T (runes s') (runes t)) = Supermon.equalFold (a :: spell s') (c :: t) := by
          intro a s' _ h2
          rw [h2]
          unfold Supermon.equalFold Verif.toUpper
          simp only [List.map_cons, List.cons.injEq, Bool.decide_and]
        by_cases hb : b.toNat < 0x80
        · unfold equalFold
          rw [runes_ascii_cons hb, runes_ascii_cons (by omega), spell_ascii hb]
          unfold sameRunes
          rw [sameRune_ascii T hb (by omega)]
          exact step b s (by omega) (ih s t (by omega) hct)
        · obtain ⟨r, k, e, h2, h3, h4⟩ := runes_other_bytes (Nat.not_lt.1 hb) s
          unfold equalFold
          rw [e, runes_ascii_cons (by omega)]
          unfold sameRunes
          by_cases hs : r = 0x17F
          · obtain ⟨⟨z, hz⟩, rfl⟩ := h3 hs
            cases hz
            subst hs
            rw [sameRune_s hT (by omega) (by omega)]
            exact step 0x73 z (by simp at hn; omega) (ih z t (by simp at hn; omega) hct)
          by_cases hk : r = 0x212A
          · obtain ⟨⟨z, hz⟩, rfl⟩ := h4 hk
            cases hz
            subst hk
            rw [sameRune_k hT (by omega) (by omega)]
            exact step 0x6B z (by simp at hn; omega) (ih z t (by simp at hn; omega) hct)
          rw [sameRune_other hT h2 (by omega) hs hk (by omega), Bool.false_and]
          have hl : ¬ longS <+: b :: s := by
            rintro ⟨z, hz⟩
            cases hz
            revert e
            rw [runes]
            simp [multi, isCont]
            intro e; omega
          have hv : ¬ kelvin <+: b :: s := by
            rintro ⟨z, hz⟩
            cases hz
            revert e
            rw [runes]
            simp [multi, isCont]
            intro e; omega
          rw [spell_other hl hv]
          symm
          unfold Supermon.equalFold Verif.toUpper
          simp only [List.map_cons, List.cons.injEq, decide_eq_false_iff_not, not_and]
          intro he
          exact absurd he (high_differs b c (by omega) (by omega))

/-! ## ToUpper -/

/-- The characters that `encodeSymbol` looks at. -/
def counts (c : UInt8) : Bool := (0x41 ≤ c && c ≤ 0x5A) || (0x30 ≤ c && c ≤ 0x39)

theorem counts_ascii {c : UInt8} (h : 0x80 ≤ c.toNat) : counts c = false := by
  have := (by decide +kernel : ∀ x : Fin 256, 0x80 ≤ x.val → counts (UInt8.ofNat x.val) = false) ⟨c.toNat, c.toNat_lt⟩ h
  simpa only [UInt8.ofNat_toNat] using this

theorem upperByte_high {c : UInt8} (h : 0x80 ≤ c.toNat) : upperByte c = c := by
  have := (by decide +kernel : ∀ x : Fin 256, 0x80 ≤ x.val → upperByte (UInt8.ofNat x.val) = UInt8.ofNat x.val) ⟨c.toNat, c.toNat_lt⟩ h
  simpa only [UInt8.ofNat_toNat] using this

theorem ofNat_high {n : Nat} (h1 : 0x80 ≤ n) (h2 : n < 256) : 0x80 ≤ (UInt8.ofNat n).toNat := by
  rw [UInt8.toNat_ofNat_of_lt' (by show n < 256; exact h2)]; exact h1

/-- The bytes of a character that is not ASCII are not. -/
theorem encodeRune_high {r : Nat} (h : 0x80 ≤ r) : ∀ c ∈ encodeRune r, 0x80 ≤ c.toNat := by
  unfold encodeRune
  rw [if_neg (by omega)]
  intro c hc
  split at hc
  · simp only [List.mem_cons, List.not_mem_nil, or_false] at hc
    rcases hc with rfl | rfl <;> exact ofNat_high (by omega) (by omega)
  split at hc
  · simp only [List.mem_cons, List.not_mem_nil, or_false] at hc
    rcases hc with rfl | rfl | rfl <;> decide
  split at hc
  · simp only [List.mem_cons, List.not_mem_nil, or_false] at hc
    rcases hc with rfl | rfl | rfl <;> exact ofNat_high (by omega) (by omega)
  · simp only [List.mem_cons, List.not_mem_nil, or_false] at hc
    rcases hc with rfl | rfl | rfl | rfl <;> exact ofNat_high (by omega) (by omega)

theorem filter_high {s : Bytes} (h : ∀ c ∈ s, 0x80 ≤ c.toNat) : s.filter counts = [] := by
  rw [List.filter_eq_nil_iff]
  intro c hc
  rw [counts_ascii (h c hc)]
  simp

/-- Go's upper case has the same letters and digits, in the same order, as the ASCII one. -/
theorem toUpper_plain {T : Tables} (hT : IsUnicode T) : ∀ (n : Nat) (s : Str), s.length ≤ n → PlainName s →
    (toUpper T s).filter counts = (Verif.toUpper s).filter counts := by
  intro n
  induction n with
  | zero =>
    intro s hs _
    obtain rfl : s = [] := List.length_eq_zero_iff.1 (by omega)
    unfold toUpper
    rw [runes_nil]; rfl
  | succ n ih =>
    intro s hs hp
    cases s with
    | nil => unfold toUpper; rw [runes_nil]; rfl
    | cons b s =>
      rw [List.length_cons] at hs
      by_cases hb : b.toNat < 0x80
      · have h1 := ih s (by omega) (by have := plain_drop hp 0; simpa using this)
        unfold toUpper at h1 ⊢
        rw [runes_ascii_cons hb, List.flatMap_cons, List.filter_append, h1]
        have h2 : encodeRune (T.upper b.toNat) = [upperByte b] := by
          rw [hT.upper_ascii _ hb]
          have := (by decide +kernel : ∀ x : Fin 128, encodeRune (if 0x61 ≤ x.val ∧ x.val ≤ 0x7A then x.val - 0x20 else x.val) =
            [upperByte (UInt8.ofNat x.val)]) ⟨b.toNat, hb⟩
          simpa only [UInt8.ofNat_toNat] using this
        rw [h2]
        unfold Verif.toUpper
        rw [List.map_cons, List.filter_cons (xs := s.map upperByte), List.filter_cons, List.filter_nil]
        split <;> rfl
      · obtain ⟨r, k, e, h1, h2, h3⟩ := runes_other_cons (Nat.not_lt.1 hb) s
        have h3 := h3 hp
        have h4 := ih (s.drop k) (by rw [List.length_drop]; omega) (plain_drop hp k)
        unfold toUpper at h4 ⊢
        have h5 : 0x80 ≤ T.upper r := by
          refine Nat.not_lt.1 fun hlt => ?_
          rcases (hT.upper_other r h1).1 hlt with e | e
          · exact h3.1 e
          · exact h3.2.1 e
        rw [e, List.flatMap_cons, List.filter_append, filter_high (encodeRune_high h5), List.nil_append, h4]
        have hsplit : b :: s = b :: (s.take k ++ s.drop k) := by rw [List.take_append_drop]
        rw [hsplit]
        unfold Verif.toUpper
        have hhigh : ∀ c ∈ upperByte b :: (s.take k).map upperByte, 0x80 ≤ c.toNat := ?_
        · rw [List.map_cons, List.map_append, ← List.cons_append, List.filter_append, filter_high hhigh, List.nil_append]
        intro c hc
        rcases List.mem_cons.1 hc with rfl | hc
        · rw [upperByte_high (Nat.not_lt.1 hb)]; omega
        · obtain ⟨x, hx, rfl⟩ := List.mem_map.1 hc
          rw [upperByte_high (h2 x hx)]; exact h2 x hx

theorem encodeStep_skip {c : UInt8} (h : counts c = false) (v b : Nat) : Supermon.encodeStep v b c = (v, b) := by
  unfold counts at h
  simp only [Bool.or_eq_false_iff, Bool.and_eq_false_iff, decide_eq_false_iff_not] at h
  unfold Supermon.encodeStep
  simp only [UInt8.le_iff_toNat_le] at h ⊢
  have e1 : (0x41 : UInt8).toNat = 0x41 := rfl
  have e2 : (0x5A : UInt8).toNat = 0x5A := rfl
  have e3 : (0x30 : UInt8).toNat = 0x30 := rfl
  have e4 : (0x39 : UInt8).toNat = 0x39 := rfl
  have e5 : (0x34 : UInt8).toNat = 0x34 := rfl
  have e6 : (0x35 : UInt8).toNat = 0x35 := rfl
  rw [if_neg (by omega), if_neg (by omega), if_neg (by omega)]

theorem encodeLoop_filter : ∀ (s : Str) (v b : Nat), b ≤ 48 → Supermon.encodeLoop s v b = Supermon.encodeLoop (s.filter counts) v b := by
  intro s
  induction s with
  | nil => intro v b _; rfl
  | cons c s ih =>
    intro v b hb
    cases hc : counts c with
    | false =>
      rw [List.filter_cons_of_neg (by rw [hc]; simp), ← ih v b hb]
      rw [Supermon.encodeLoop, encodeStep_skip hc, if_neg (by dsimp only; omega)]
    | true =>
      rw [List.filter_cons_of_pos hc]
      unfold Supermon.encodeLoop
      split
      · rfl
      · exact ih _ _ (by omega)

theorem encode_plain {T : Tables} (hT : IsUnicode T) {s : Str} (hp : PlainName s) : (Supermon.unicode T).encode s = Supermon.encodeSymbol s := by
  unfold Supermon.unicode Supermon.encodeSymbol
  dsimp only
  rw [encodeLoop_filter _ 0 0 (by omega), encodeLoop_filter (Verif.toUpper s).reverse 0 0 (by omega), List.filter_reverse, List.filter_reverse,
    toUpper_plain hT s.length s (Nat.le_refl _) hp]

end Verif.Unicode

namespace Verif.Supermon

open Spec Unicode

/-! ## The operator -/

namespace Naming

/-- A naming that compares one name to the names of a table as the ASCII one compares another, and encodes those as it does. -/
structure Finds (N : Naming) (st : SymbolTable) (name other : Str) : Prop where
  same : ∀ s ∈ st, N.same name s.name = equalFold other s.name
  same' : ∀ s ∈ st, N.same s.name name = equalFold s.name other
  parse : parseAddressFilename other = parseAddressFilename name
  encodes : ∀ s ∈ st, N.encode s.name = encodeSymbol s.name
  empty : N.encode [] = encodeSymbol []

/-- A naming that compares and encodes as the ASCII one does, for the names of a table and one more. -/
structure Agrees (N : Naming) (st : SymbolTable) (name : Str) : Prop extends Finds N st name name where
  encode : N.encode name = encodeSymbol name

variable {N : Naming} {st : SymbolTable} {name other : Str}

theorem fillTables_eq : ∀ (st : SymbolTable) (i : Nat) (t1 t2 : Bytes), (∀ s ∈ st, N.encode s.name = encodeSymbol s.name) →
    N.fillTables st i t1 t2 = Supermon.fillTables st i t1 t2 := by
  intro st
  induction st with
  | nil => intro i t1 t2 _; rfl
  | cons s rest ih =>
    intro i t1 t2 h
    unfold fillTables Supermon.fillTables
    rw [h s List.mem_cons_self]
    have : ∀ i t1 t2, N.fillTables rest i t1 t2 = Supermon.fillTables rest i t1 t2 :=
      fun i t1 t2 => ih i t1 t2 fun x hx => h x (List.mem_cons_of_mem _ hx)
    simp only [this]

theorem writeSymbolTable_eq (sm : SectorMap) (img : Bytes) (h : ∀ s ∈ st, N.encode s.name = encodeSymbol s.name) :
    N.writeSymbolTable sm img st = Supermon.writeSymbolTable sm img st := by
  unfold writeSymbolTable Supermon.writeSymbolTable
  rw [fillTables_eq st _ _ _ h]
  rfl

theorem findName_eq : ∀ (st : SymbolTable), (∀ s ∈ st, N.same name s.name = equalFold other s.name) →
    N.findName st name = Supermon.findName st other := by
  intro st h
  unfold findName Supermon.findName
  induction st with
  | nil => rfl
  | cons s rest ih =>
    rw [List.findIdx?_cons, List.findIdx?_cons, h s List.mem_cons_self, ih fun x hx => h x (List.mem_cons_of_mem _ hx)]

theorem deleteSymbol_eq (h : ∀ s ∈ st, N.same name s.name = equalFold other s.name) :
    N.deleteSymbol st name = Supermon.deleteSymbol st other := by
  unfold deleteSymbol Supermon.deleteSymbol
  rw [findName_eq st h]
  rfl

theorem addScan_eq (hash : UInt8) : ∀ (st : SymbolTable) (j : Nat) (pos : Option Nat), (∀ s ∈ st, N.same name s.name = equalFold name s.name) →
    N.addScan name hash st j pos = Supermon.addScan name hash st j pos := by
  intro st
  induction st with
  | nil => intro j pos _; rfl
  | cons s rest ih =>
    intro j pos h
    unfold addScan Supermon.addScan
    rw [h s List.mem_cons_self]
    have : ∀ j pos, N.addScan name hash rest j pos = Supermon.addScan name hash rest j pos :=
      fun j pos => ih j pos fun x hx => h x (List.mem_cons_of_mem _ hx)
    simp only [this]

theorem addSymbol_eq (a : UInt16) (h : ∀ s ∈ st, N.same name s.name = equalFold name s.name) :
    N.addSymbol st name a = Supermon.addSymbol st name a := by
  unfold addSymbol Supermon.addSymbol
  rw [addScan_eq _ st _ _ h, deleteSymbol_eq h]
  rfl

theorem fileForSymbol_eq : ∀ (st : SymbolTable), (∀ s ∈ st, N.same s.name name = equalFold s.name other) →
    N.fileForSymbol name st = Supermon.fileForSymbol other st := by
  intro st
  induction st with
  | nil => intro _; rfl
  | cons s rest ih =>
    intro h
    unfold fileForSymbol Supermon.fileForSymbol
    rw [h s List.mem_cons_self, ih fun x hx => h x (List.mem_cons_of_mem _ hx)]

theorem fileForName_eq (h : Finds N st name other) : N.fileForName st name = Supermon.fileForName st other := by
  unfold fileForName Supermon.fileForName
  rw [fileForSymbol_eq st h.same', h.parse]
  rfl

theorem getFile_eq {o : Operator} (h : Finds N o.table name other) : N.getFile o name = o.getFile other := by
  unfold getFile Operator.getFile
  rw [fileForName_eq h]
  rfl

theorem relink_names (i : Nat) (l : Int) : ∀ (st : SymbolTable) (j : Nat), ∀ s ∈ relink i l st j, ∃ s' ∈ st, s.name = s'.name := by
  intro st
  induction st with
  | nil => intro j s hs; simp [relink] at hs
  | cons x rest ih =>
    intro j s hs
    unfold relink at hs
    split at hs
    · rcases List.mem_cons.1 hs with rfl | hs
      · exact ⟨_, List.mem_cons_self, rfl⟩
      · obtain ⟨y, hy, e⟩ := ih _ s hs
        exact ⟨y, List.mem_cons_of_mem _ hy, e⟩
    split at hs
    · rcases List.mem_cons.1 hs with rfl | hs
      · exact ⟨_, List.mem_cons_self, rfl⟩
      · exact ⟨s, List.mem_cons_of_mem _ hs, rfl⟩
    · rcases List.mem_cons.1 hs with rfl | hs
      · exact ⟨_, List.mem_cons_self, rfl⟩
      · obtain ⟨y, hy, e⟩ := ih _ s hs
        exact ⟨y, List.mem_cons_of_mem _ hy, e⟩

theorem linkTail_names (hash : UInt8) (pos : Nat) : ∀ (st : SymbolTable), ∀ s ∈ linkTail hash pos st, ∃ s' ∈ st, s.name = s'.name := by
  intro st
  induction st with
  | nil => intro s hs; simp [linkTail] at hs
  | cons x rest ih =>
    intro s hs
    unfold linkTail at hs
    split at hs
    · rcases List.mem_cons.1 hs with rfl | hs
      · exact ⟨_, List.mem_cons_self, rfl⟩
      · exact ⟨s, List.mem_cons_of_mem _ hs, rfl⟩
    · rcases List.mem_cons.1 hs with rfl | hs
      · exact ⟨_, List.mem_cons_self, rfl⟩
      · obtain ⟨y, hy, e⟩ := ih s hs
        exact ⟨y, List.mem_cons_of_mem _ hy, e⟩

theorem deleteSymbol_names (st : SymbolTable) (name : Str) :
    ∀ s ∈ (Supermon.deleteSymbol st name).2, s.name = [] ∨ ∃ s' ∈ st, s.name = s'.name := by
  unfold Supermon.deleteSymbol
  intro s hs
  split at hs
  · exact Or.inr ⟨s, hs, rfl⟩
  split at hs
  · exact Or.inr ⟨s, hs, rfl⟩
  · rcases List.mem_or_eq_of_mem_set hs with hs | rfl
    · exact Or.inr (relink_names _ _ _ _ s hs)
    · exact Or.inl rfl

theorem insertAt_names (st : SymbolTable) (name : Str) (a : UInt16) (pos : Nat) :
    ∀ s ∈ insertAt st name a pos, s.name = name ∨ ∃ s' ∈ st, s.name = s'.name := by
  unfold insertAt
  intro s hs
  rcases List.mem_or_eq_of_mem_set hs with hs | rfl
  · exact Or.inr (linkTail_names _ _ _ s hs)
  · exact Or.inl rfl

theorem addSymbol_names (st : SymbolTable) (name : Str) (a : UInt16) :
    ∀ s ∈ (Supermon.addSymbol st name a).2, s.name = [] ∨ s.name = name ∨ ∃ s' ∈ st, s.name = s'.name := by
  unfold Supermon.addSymbol
  intro s hs
  split at hs
  · exact Or.inr (Or.inr ⟨s, hs, rfl⟩)
  split at hs
  · split at hs
    · rename_i x hx
      rcases List.mem_or_eq_of_mem_set hs with hs | rfl
      · exact Or.inr (Or.inr ⟨s, hs, rfl⟩)
      · exact Or.inr (Or.inr ⟨x, List.mem_of_getElem? hx, rfl⟩)
    · exact Or.inr (Or.inr ⟨s, hs, rfl⟩)
  · rcases insertAt_names _ _ _ _ s hs with h | ⟨y, hy, e⟩
    · exact Or.inr (Or.inl h)
    · rcases deleteSymbol_names _ _ y hy with h | ⟨z, hz, e'⟩
      · exact Or.inl (e.trans h)
      · exact Or.inr (Or.inr ⟨z, hz, e.trans e'⟩)
  · exact Or.inr (Or.inr ⟨s, hs, rfl⟩)
  · rcases insertAt_names _ _ _ _ s hs with h | h
    · exact Or.inr (Or.inl h)
    · exact Or.inr (Or.inr h)

theorem delete_eq {o : Operator} (h : Finds N o.table name other) : N.delete o name = o.delete other := by
  unfold delete Operator.delete
  rw [fileForName_eq h]
  cases Supermon.fileForName o.table other with
  | err k => rfl
  | panic => rfl
  | timeout => rfl
  | ok file =>
    dsimp only
    generalize persist (deleteFile o.sm file) o.data = q
    obtain ⟨r, data⟩ := q
    cases r with
    | err k => rfl
    | panic => rfl
    | timeout => rfl
    | ok u =>
      dsimp only
      cases hst : o.st with
      | none => rfl
      | some st =>
        have ht : o.table = st := by unfold Operator.table; rw [hst]; rfl
        rw [ht] at h
        dsimp only
        rw [deleteSymbol_eq h.same]
        have hn := deleteSymbol_names st other
        generalize Supermon.deleteSymbol st other = p at hn
        obtain ⟨b, st2⟩ := p
        cases b with
        | false => rfl
        | true =>
          dsimp only
          rw [writeSymbolTable_eq _ _ fun s hs => by
            rcases hn s hs with e | ⟨y, hy, e⟩
            · rw [e]; exact h.empty
            · rw [e]; exact h.encodes y hy]

theorem putNumbered_eq {o : Operator} (f nf : UInt8) {sym : Str} (h : sym ≠ [] → Agrees N o.table sym) (data : Bytes) (ow : Bool) :
    N.putNumbered o f nf sym data ow = o.putNumbered f nf sym data ow := by
  unfold putNumbered Operator.putNumbered
  dsimp only
  generalize writeFile o.sm o.data f data ow = r
  cases r.out with
  | err k => rfl
  | panic => rfl
  | timeout => rfl
  | ok u =>
    dsimp only
    by_cases hc : nf ≠ f ∧ sym ≠ []
    · have h := h hc.2
      rw [if_pos hc, if_pos hc]
      cases hst : o.st with
      | none => rfl
      | some st =>
        have ht : o.table = st := by unfold Operator.table; rw [hst]; rfl
        rw [ht] at h
        dsimp only
        rw [addSymbol_eq _ h.same]
        have hn := addSymbol_names st sym (0xDF00 + f.toUInt16)
        generalize Supermon.addSymbol st sym (0xDF00 + f.toUInt16) = p at hn
        obtain ⟨b, st2⟩ := p
        cases b with
        | err k => rfl
        | panic => rfl
        | timeout => rfl
        | ok u =>
          dsimp only
          rw [writeSymbolTable_eq _ _ fun s hs => by
            rcases hn s hs with e | e | ⟨y, hy, e⟩
            · rw [e]; exact h.empty
            · rw [e]; exact h.encode
            · rw [e]; exact h.encodes y hy]
    · rw [if_neg hc, if_neg hc]

theorem filesForCompoundName_eq (h : ∀ p, p ∈ splitColon name ∨ p = name → Agrees N st p) :
    N.filesForCompoundName st name = Supermon.filesForCompoundName st name := by
  unfold filesForCompoundName Supermon.filesForCompoundName
  match hx : splitColon name with
  | [] => rfl
  | [x] =>
    dsimp only
    rw [fileForName_eq (h name (Or.inr rfl)).toFinds]
    split
    · rfl
    · cases Supermon.fileForName st name <;> rfl
  | [p0, p1] =>
    dsimp only
    rw [fileForName_eq (h p1 (Or.inl (by rw [hx]; simp))).toFinds]
    split
    · rfl
    split
    · rfl
    · cases Supermon.fileForName st p1 <;> rfl
  | _ :: _ :: _ :: _ => rfl

theorem compound_symbol {f nf : UInt8} {sym : Str} (h : Supermon.filesForCompoundName st name = .ok (f, nf, sym)) :
    sym = [] ∨ sym ∈ splitColon name ∨ sym = name := by
  unfold Supermon.filesForCompoundName at h
  match hx : splitColon name with
  | [] => rw [hx] at h; cases h
  | [x] =>
    rw [hx] at h
    dsimp only at h
    split at h
    · cases h; exact Or.inl rfl
    · split at h
      · cases h; exact Or.inr (Or.inr rfl)
      · cases h; exact Or.inr (Or.inr rfl)
  | [p0, p1] =>
    rw [hx] at h
    dsimp only at h
    split at h
    · cases h
    split at h
    · cases h
    · split at h
      · cases h; exact Or.inr (Or.inl (by simp))
      · cases h; exact Or.inr (Or.inl (by simp))
  | _ :: _ :: _ :: _ => rw [hx] at h; cases h

theorem putFile_eq {o : Operator} {fi : FileInfo} (h : ∀ p, p ∈ splitColon fi.descriptor.name ∨ p = fi.descriptor.name → Agrees N o.table p)
    (ow : Bool) : N.putFile o fi ow = o.putFile fi ow := by
  unfold putFile Operator.putFile
  rw [filesForCompoundName_eq h]
  split
  · rfl
  split
  · rfl
  cases hc : Supermon.filesForCompoundName o.table fi.descriptor.name with
  | err k => rfl
  | panic => rfl
  | timeout => rfl
  | ok p =>
    obtain ⟨f, nf, sym⟩ := p
    have hs : sym ≠ [] → Agrees N o.table sym := fun hne => h sym ((compound_symbol hc).resolve_left hne)
    dsimp only
    split
    · rfl
    by_cases hne : sym = []
    · rw [if_neg (show ¬ (sym ≠ [] ∧ (N.encode sym).isErr = true) from fun hh => hh.1 hne),
        if_neg (show ¬ (sym ≠ [] ∧ (encodeSymbol sym).isErr = true) from fun hh => hh.1 hne), putNumbered_eq _ _ hs]
    · rw [(hs hne).encode, putNumbered_eq _ _ hs]

end Naming

/-! ## The names of an opened disk -/

theorem decodeLoop_capitals (v : Nat) : Capitals (decodeLoop v) := by
  induction v using Nat.strongRecOn with
  | ind v ih =>
    rw [decodeLoop]
    split
    · rename_i h
      have key : ∀ (k n : Nat), (0x41 ≤ k ∧ k ≤ 0x5A) ∨ (0x30 ≤ k ∧ k ≤ 0x39) → n < v → Capitals (UInt8.ofNat k :: decodeLoop n) := by
        intro k n hk hn c hc
        rcases List.mem_cons.1 hc with rfl | hc
        · rw [UInt8.toNat_ofNat']
          omega
        · exact ih n hn c hc
      split
      · exact key _ _ (by omega) (by omega)
      · split
        · exact key _ _ (by omega) (by omega)
        · exact key _ _ (by omega) (by omega)
    · intro c hc; simp at hc

theorem parseSymbols_capitals {a b : Vector UInt8 0x1000} : ∀ (n : Nat) (h : n ≤ 819) {st : SymbolTable}, parseSymbols a b n h = .ok st →
    ∀ s ∈ st, Capitals s.name := by
  intro n
  induction n with
  | zero =>
    intro h st e s hs
    simp only [parseSymbols, Out.ok.injEq] at e
    subst e
    simp at hs
  | succ n ih =>
    intro h st e s hs
    unfold parseSymbols at e
    obtain ⟨table, e1, e⟩ := Out.bind_eq_ok.1 e
    obtain ⟨sym, e2, e⟩ := Out.bind_eq_ok.1 e
    simp only [Out.ok.injEq] at e
    subst e
    rcases List.mem_append.1 hs with hs | hs
    · exact ih _ e1 s hs
    · rw [List.mem_singleton] at hs
      subst hs
      have hd : ∀ f x, Capitals (decodeSymbol f x) := fun f x => decodeLoop_capitals _
      unfold parseSymbol at e2
      simp only at e2
      split at e2
      · cases e2; intro c hc; simp [Symbol.empty] at hc
      · split at e2
        · split at e2
          · simp at e2
          · split at e2
            · simp at e2
            · cases e2; exact hd _ _
        · cases e2; exact hd _ _

/-- Every symbol read from a disk has a name of capitals and digits. -/
theorem opened_capitals {img : Bytes} {o : Operator} (h : openOperator img = .ok o) : ∀ s ∈ o.table, Capitals s.name := by
  unfold openOperator at h
  obtain ⟨sm, _, h⟩ := Out.bind_eq_ok.1 h
  obtain ⟨_, _, h⟩ := Out.bind_eq_ok.1 h
  cases hr : readSymbolTable sm img with
  | ok st =>
    rw [hr] at h
    cases h
    show ∀ s ∈ st, _
    unfold readSymbolTable at hr
    obtain ⟨t1, _, hr⟩ := Out.bind_eq_ok.1 hr
    split at hr
    · obtain ⟨t2, _, hr⟩ := Out.bind_eq_ok.1 hr
      split at hr
      · obtain ⟨table, hp, hr⟩ := Out.bind_eq_ok.1 hr
        obtain ⟨_, _, hr⟩ := Out.bind_eq_ok.1 hr
        cases hr
        exact parseSymbols_capitals _ _ hp
      · simp at hr
    · simp at hr
  | err k => rw [hr] at h; cases h; intro s hs; simp [Operator.table] at hs
  | panic => rw [hr] at h; simp at h
  | timeout => rw [hr] at h; simp at h

/-! ## The theorems -/

theorem digit_none {c : UInt8} (h : hexVal c = none) (s : Str) (a : Nat) : hexAcc (c :: s) a = none := by
  simp [hexAcc, h]

theorem hexAcc_spell : ∀ (n : Nat) (s : Str) (a : Nat), s.length ≤ n → hexAcc (spell s) a = hexAcc s a := by
  intro n
  induction n with
  | zero =>
    intro s a hn
    cases s with
    | cons => simp at hn
    | nil => rw [spell]
  | succ n ih =>
    intro s a hn
    unfold spell
    split
    · rw [digit_none (by decide), digit_none (by decide)]
    · rw [digit_none (by decide), digit_none (by decide)]
    · rename_i c z _ _
      simp only [List.length_cons] at hn
      simp only [hexAcc, ih z _ (by omega)]
    · rfl

theorem parse_spell (s : Str) : parseAddressFilename (spell s) = parseAddressFilename s := by
  have h0 : spell s = [] ↔ s = [] := by
    unfold spell
    split <;> simp
  unfold parseAddressFilename parseHex16
  simp only [h0, hexAcc_spell s.length s 0 (Nat.le_refl _)]

theorem finds_spell {T : Tables} (hT : IsUnicode T) {img : Bytes} {o : Operator} (ho : openOperator img = .ok o) (name : Str) :
    Naming.Finds (unicode T) o.table name (spell name) where
  same s hs := equalFold_spell hT _ _ _ (Nat.le_refl _) (opened_capitals ho s hs)
  same' s hs := by
    show Unicode.equalFold T s.name name = _
    rw [Unicode.equalFold_comm, equalFold_spell hT _ _ _ (Nat.le_refl _) (opened_capitals ho s hs)]
    unfold equalFold
    exact decide_eq_decide.2 eq_comm
  parse := parse_spell name
  encodes s hs := encode_plain hT (capitals_plain (opened_capitals ho s hs))
  empty := encode_plain hT (capitals_plain (by intro c hc; simp at hc))

/-- C111: a NakedOS file is read under any name, of whatever bytes, as under the name with each long s written as s and each Kelvin sign as k.
Of all other characters only A–Z are matched with other letters, a–z. -/
theorem C111_get {T : Tables} (hT : IsUnicode T) {img : Bytes} {o : Operator} (ho : openOperator img = .ok o) (name : Str) :
    (unicode T).getFile o name = o.getFile (spell name) := Naming.getFile_eq (finds_spell hT ho name)

/-- C111: and is deleted in the same way. -/
theorem C111_delete {T : Tables} (hT : IsUnicode T) {img : Bytes} {o : Operator} (ho : openOperator img = .ok o) (name : Str) :
    (unicode T).delete o name = o.delete (spell name) := Naming.delete_eq (finds_spell hT ho name)

theorem splitColon_infix : ∀ (s : Str), ∀ p ∈ splitColon s, p <:+: s := by
  have key : ∀ (s : Str), (∃ p ps, splitColon s = p :: ps ∧ p <+: s) ∧ ∀ p ∈ splitColon s, p <:+: s := by
    intro s
    induction s with
    | nil => exact ⟨⟨[], [], rfl, List.nil_prefix⟩, by intro p hp; simp [splitColon] at hp; subst hp; exact List.infix_refl _⟩
    | cons c s ih =>
      obtain ⟨⟨p, ps, e, hp⟩, h⟩ := ih
      unfold splitColon
      split
      · exact ⟨⟨_, _, rfl, List.nil_prefix⟩, fun q hq => by
          rcases List.mem_cons.1 hq with rfl | hq
          · exact List.nil_infix
          · exact (h q hq).trans (List.suffix_cons c s).isInfix⟩
      · rw [e]
        dsimp only
        refine ⟨⟨_, _, rfl, List.cons_prefix_cons.2 ⟨rfl, hp⟩⟩, fun q hq => ?_⟩
        rcases List.mem_cons.1 hq with rfl | hq
        · exact (List.cons_prefix_cons.2 ⟨rfl, hp⟩).isInfix
        · exact (h q (by rw [e]; exact List.mem_cons_of_mem _ hq)).trans (List.suffix_cons c s).isInfix
  exact fun s => (key s).2

theorem agrees_plain {T : Tables} (hT : IsUnicode T) {img : Bytes} {o : Operator} (ho : openOperator img = .ok o) {name : Str}
    (hp : PlainName name) : Naming.Agrees (unicode T) o.table name where
  same s hs := equalFold_plain hT _ _ hp (opened_capitals ho s hs)
  same' s hs := by
    show Unicode.equalFold T s.name name = _
    rw [Unicode.equalFold_comm, equalFold_plain hT _ _ hp (opened_capitals ho s hs)]
    unfold equalFold
    exact decide_eq_decide.2 eq_comm
  parse := rfl
  encodes s hs := encode_plain hT (capitals_plain (opened_capitals ho s hs))
  empty := encode_plain hT (capitals_plain (by intro c hc; simp at hc))
  encode := encode_plain hT hp

/-- C111: a file is put under any name with none of the three letters as if only A–Z and a–z had case.  Missing: names with one of them;
`C111_put` says what happens to them. -/
theorem C111_put_partial {T : Tables} (hT : IsUnicode T) {img : Bytes} {o : Operator} (ho : openOperator img = .ok o) {fi : FileInfo}
    (hp : PlainName fi.descriptor.name) (ow : Bool) : (unicode T).putFile o fi ow = o.putFile fi ow :=
  Naming.putFile_eq (fun p h => agrees_plain hT ho (by
    rcases h with h | h
    · exact plain_suffix hp (splitColon_infix _ p h)
    · rw [h]; exact hp)) ow

end Verif.Supermon

namespace Verif.Unicode

open Verif Verif.Spec

theorem lower_iff {T : Tables} (hT : IsUnicode T) : ∀ (s e : Str), ¬ kelvin <:+: s → (∀ c ∈ e, c.toNat < 0x80 ∧ c ≠ 0x69) →
    (toLower T s = e ↔ Verif.toLower s = e) := by
  intro s
  induction s with
  | nil => intro e _ _; simp [toLower, runes_nil, Verif.toLower]
  | cons b s ih =>
    intro e hk he
    have hks : ¬ kelvin <:+: s := fun h => hk (h.trans (List.suffix_cons b s).isInfix)
    by_cases hb : b.toNat < 0x80
    · have h1 : toLower T (b :: s) = lowerByte b :: toLower T s := by
        unfold toLower
        rw [runes_ascii_cons hb, List.flatMap_cons, hT.lower_ascii _ hb]
        have := (by decide +kernel : ∀ x : Fin 128, encodeRune (if 0x41 ≤ x.val ∧ x.val ≤ 0x5A then x.val + 0x20 else x.val) =
          [lowerByte (UInt8.ofNat x.val)]) ⟨b.toNat, hb⟩
        simp only [UInt8.ofNat_toNat] at this
        rw [this]; rfl
      have h2 : Verif.toLower (b :: s) = lowerByte b :: Verif.toLower s := rfl
      rw [h1, h2]
      cases e with
      | nil => simp
      | cons c e =>
        rw [List.cons.injEq, List.cons.injEq, ih e hks fun x hx => he x (List.mem_cons_of_mem _ hx)]
    · obtain ⟨r, k, e1, h1, _, h3⟩ := runes_other_bytes (Nat.not_lt.1 hb) s
      have hr : r ≠ 0x212A := fun h => hk (h3 h).1.isInfix
      have h2 : Verif.toLower (b :: s) = b :: Verif.toLower s := by
        have := (by decide +kernel : ∀ x : Fin 256, 0x80 ≤ x.val → lowerByte (UInt8.ofNat x.val) = UInt8.ofNat x.val) ⟨b.toNat, b.toNat_lt⟩
          (Nat.not_lt.1 hb)
        simp only [UInt8.ofNat_toNat] at this
        show lowerByte b :: _ = _
        rw [this]; rfl
      have hR : Verif.toLower (b :: s) ≠ e := by
        rintro rfl
        have := (he b (by rw [h2]; exact List.mem_cons_self)).1
        exact hb this
      have hL : toLower T (b :: s) ≠ e := by
        rintro rfl
        have hm : ∀ c ∈ encodeRune (T.lower r), c.toNat < 0x80 ∧ c ≠ 0x69 := fun c hc => he c (by
          unfold toLower
          rw [e1, List.flatMap_cons]
          exact List.mem_append_left _ hc)
        by_cases hi : r = 0x130
        · rw [hi, hT.lower_i] at hm
          exact (hm 0x69 (by decide)).2 rfl
        · have hge : 0x80 ≤ T.lower r := Nat.not_lt.1 fun h => by
            rcases (hT.lower_other r h1).1 h with h | h
            · exact hi h
            · exact hr h
          have hne : encodeRune (T.lower r) ≠ [] := by
            unfold encodeRune
            repeat' split
            all_goals simp
          obtain ⟨c, z, hc⟩ := List.exists_cons_of_ne_nil hne
          have h4 := encodeRune_high hge c (by rw [hc]; exact List.mem_cons_self)
          have h5 := hm c (by rw [hc]; exact List.mem_cons_self)
          omega
      exact ⟨fun h => absurd h hL, fun h => absurd h hR⟩

theorem pathExt_suffix (s : Str) : pathExt s <:+ s := by
  have key : ∀ (r acc : Str), pathExtGo r acc <:+ r.reverse ++ acc := by
    intro r
    induction r with
    | nil => intro acc; exact List.nil_suffix
    | cons c r ih =>
      intro acc
      unfold pathExtGo
      split
      · exact List.nil_suffix
      split
      · exact ⟨r.reverse, by simp⟩
      · have := ih (c :: acc)
        simpa using this
  have := key s.reverse []
  rw [List.reverse_reverse, List.append_nil] at this
  exact this

theorem ext_iff {T : Tables} (hT : IsUnicode T) {f : Str} (h : ¬ kelvin <:+: f) {e : Str} (he : ∀ c ∈ e, c.toNat < 0x80 ∧ c ≠ 0x69) :
    toLower T (pathExt f) = e ↔ Verif.toLower (pathExt f) = e :=
  lower_iff hT _ _ (fun hk => h (hk.trans (pathExt_suffix f).isInfix)) he

/-- C111: the sector order that `reorder` takes from the name of an image, for every name without the Kelvin sign.
Missing: names with it; `C111_order` says what happens to them. -/
theorem C111_order_partial {T : Tables} (hT : IsUnicode T) {filename : Str} (h : ¬ kelvin <:+: filename) (d : Disk.DiskOrder) :
    orderFromFilename T filename d = Disk.orderFromFilename filename d := by
  unfold orderFromFilename Disk.orderFromFilename
  simp only [ext_iff hT h (show ∀ c ∈ str ".dsk", _ by decide +kernel), ext_iff hT h (show ∀ c ∈ str ".do", _ by decide +kernel),
    ext_iff hT h (show ∀ c ∈ str ".po", _ by decide +kernel)]

/-- C111: and the opening of an image of that name.  Missing: names with the Kelvin sign; `C111_open` says what happens to them. -/
theorem C111_open_partial {T : Tables} (hT : IsUnicode T) {Ω : Type} {filename : Str} (h : ¬ kelvin <:+: filename) (raw : Bytes) (order : Disk.DiskOrder)
    (system : Str) (fs : List (Disk.Factory Ω)) :
    openImage T raw filename order system fs = Disk.openImage raw filename order system fs := by
  unfold openImage Disk.openImage Disk.openDoOrPo Disk.ordersToTry
  simp only [ext_iff hT h (show ∀ c ∈ str ".dsk", _ by decide +kernel), ext_iff hT h (show ∀ c ∈ str ".do", _ by decide +kernel),
    ext_iff hT h (show ∀ c ∈ str ".po", _ by decide +kernel), ext_iff hT h (show ∀ c ∈ str ".hdv", _ by decide +kernel), ext_iff hT h (show ∀ c ∈ [], _ by simp)]

/-- Tables with the ASCII letters and the letters named in `IsUnicode`, and no others. -/
def sample : Tables where
  upper r := if 0x61 ≤ r ∧ r ≤ 0x7A then r - 0x20 else if r = 0x131 then 0x49 else if r = 0x17F then 0x53 else r
  lower r := if 0x41 ≤ r ∧ r ≤ 0x5A then r + 0x20 else if r = 0x130 then 0x69 else if r = 0x212A then 0x6B else r
  fold r := if r = 0x6B then 0x212A else if r = 0x73 then 0x17F else if r = 0x212A then 0x4B else if r = 0x17F then 0x53
    else if 0x41 ≤ r ∧ r ≤ 0x5A then r + 0x20 else if 0x61 ≤ r ∧ r ≤ 0x7A then r - 0x20 else r

/-- Non-vacuity: there are such tables. -/
theorem sample_unicode : IsUnicode sample where
  upper_ascii r h := by unfold sample; dsimp only; split <;> (try split) <;> (try split) <;> omega
  upper_other r h := by unfold sample; dsimp only; split <;> (try split) <;> (try split) <;> omega
  upper_i := rfl
  upper_s := rfl
  lower_ascii r h := by unfold sample; dsimp only; split <;> (try split) <;> (try split) <;> omega
  lower_other r h := by unfold sample; dsimp only; split <;> (try split) <;> (try split) <;> omega
  lower_i := rfl
  lower_k := rfl
  fold_ascii r h := by
    unfold sample
    dsimp only
    rw [if_neg (show ¬ r = 0x212A by omega), if_neg (show ¬ r = 0x17F by omega)]
  fold_k := rfl
  fold_s := rfl

/-- Non-vacuity of C111: a name with other bytes has none of the three letters, and an image with a name in German does not. -/
example : PlainName [0xC3, 0xA9, 0x41, 0xFF] ∧ ¬ kelvin <:+: [0x47, 0xC3, 0xB6] ++ str ".DSK" := by
  have key : ∀ (c : UInt8) (t s : Str), c ∈ t → c ∉ s → ¬ t <:+: s := fun c t s h1 h2 h => h2 (h.subset h1)
  exact ⟨⟨key 0xC4 _ _ (by decide +kernel) (by decide +kernel), key 0xC5 _ _ (by decide +kernel) (by decide +kernel),
    key 0xE2 _ _ (by decide +kernel) (by decide +kernel)⟩, key 0xE2 _ _ (by decide +kernel) (by decide +kernel)⟩

/-- C111 does not hold for the Kelvin sign: an image `a.ds` with it is taken for a .dsk. -/
theorem C111_violated_name {T : Tables} (hT : IsUnicode T) : ∃ filename : Str, Disk.orderFromFilename filename (str "raw") = str "raw" ∧
    orderFromFilename T filename (str "raw") = Disk.orderDO := by
  refine ⟨str "a.ds" ++ kelvin, by decide +kernel, ?_⟩
  unfold orderFromFilename
  have : toLower T (pathExt (str "a.ds" ++ kelvin)) = str ".dsk" := by
    rw [show pathExt (str "a.ds" ++ kelvin) = [0x2E, 0x64, 0x73, 0xE2, 0x84, 0xAA] by decide +kernel,
      show str ".dsk" = [0x2E, 0x64, 0x73, 0x6B] by decide +kernel]
    unfold toLower
    rw [runes_ascii_cons (by decide), runes_ascii_cons (by decide), runes_ascii_cons (by decide), runes, runes]
    simp [multi, isCont, runes_nil, hT.lower_k, hT.lower_ascii, encodeRune]
  dsimp only
  rw [this, if_pos (Or.inl rfl)]

end Verif.Unicode

namespace Verif.Cmd
open Disk Spec

/-- A disk with a file 5 named KAA. -/
theorem kaa_disk (env : Env) : ∃ (img : Bytes) (o : Supermon.Operator), Supermon.openOperator img = .ok o ∧ Supermon.Good o.sm o.data ∧
    Supermon.fileForName o.table (str "KAA") = .ok 5 ∧ fileOnDisk o.data 5 ≠ [] := by
  obtain ⟨img, sm, hg, ho, hroom, h5⟩ := tabled5
  obtain ⟨hfi, _, _⟩ := copy_disk env hg ho hroom h5 (d := [1]) (by simp) (by simp) (str "B")
  have hsplit : str "DF05:KAA" = str "DF05" ++ 0x3A :: str "KAA" := by decide +kernel
  have hsym : Symbolic (str "KAA") := chain_symbolic _ (by decide +kernel) (by decide +kernel)
  have hpn : Supermon.PutName (str "AAA") (fun _ => none) (str "DF05:KAA") :=
    Or.inr (Or.inr ⟨str "DF05", str "KAA", 5, hsplit, numeric5, by decide, by decide, hsym, fun e => absurd e (by decide +kernel)⟩)
  have hi : str "a.do" ≠ str "-" := by decide +kernel
  have hok : (run env (.put (str "do") (str "nakedos") (str "B") false 0 (str "a.do") (str "DF05:KAA") (str "x")) (copyWorld img [1])).1 = .ok () := by
    have hown : ∀ g, ownedBy (owner img) g = ownedBy (own sm) g := by
      intro g
      unfold ownedBy
      apply List.filter_congr
      intro n hn
      rw [(Supermon.loaded_iff (by have := hg.len; omega) sm).1 hg.loaded n (List.mem_range.1 hn)]
    rw [C91_tidy hi hfi rfl chainTable_knows (by decide +kernel) (copyWorld_x img [1]) (by simp) fun _ => hpn]
    refine ⟨by decide +kernel, 5, some (str "KAA"), ⟨numeric5.1, by decide, by decide⟩,
      Or.inr (Or.inr ⟨_, _, hsplit, numeric5, hsym, rfl⟩), ?_, Or.inr ((Supermon.fileOnDisk_nil hg 5).2 h5), fun s _ =>
        (Or.inr ⟨⟨0, [], 0⟩, List.mem_cons_of_mem _ List.mem_cons_self, rfl⟩)⟩
    dsimp only
    rw [hown, hown, Supermon.sectorsNeeded_eq]
    simp only [List.length_cons, List.length_nil]
    omega
  obtain ⟨raw, o, ord, data, ft, new, h1, h2, h3, h4, _⟩ := put_inv_type hi hok
  have ho' : o = ⟨img, sm, some Supermon.chainTable⟩ := by
    obtain ⟨raw', g1, g2⟩ := hfi
    unfold given at g1
    rw [if_neg hi] at g1 g2
    rw [h1] at g1
    cases g1
    rw [h2] at g2
    cases g2
    rfl
  subst ho'
  have hd : data = [1] := by
    unfold given at h3
    rw [if_neg (by decide +kernel), copyWorld_x] at h3
    cases h3; rfl
  subst hd
  obtain ⟨f, sym, o2, st2, p1, p2, _, p4, p5, p6, p7, p8, p9⟩ := Supermon.put_names (o := ⟨img, sm, some Supermon.chainTable⟩) (st := Supermon.chainTable) hg ho rfl chainTable_knows
    (fi := ⟨{ name := str "DF05:KAA", length := 1, type := ft }, [1], 0⟩) hpn h4
  have hkey : f = 5 ∧ sym = some (str "KAA") := by
    dsimp only at p2
    rcases p2 with ⟨hnn, _⟩ | ⟨hsy, e, _⟩ | ⟨x, y, e, hx, hy, es⟩
    · have hcol := Supermon.numeric_no_colon hnn
      exact absurd hcol (by decide +kernel)
    · have hcol := Supermon.symbolic_no_colon hsy
      exact absurd hcol (by decide +kernel)
    · have hcx := Supermon.numeric_no_colon hx
      rw [hsplit] at e
      obtain ⟨rfl, rfl⟩ := first_colon (Supermon.numeric_no_colon numeric5) hcx e
      refine ⟨?_, es⟩
      have a1 := (Supermon.parseAddressFilename_iff hx.1.1).2 hx
      have a2 := (Supermon.parseAddressFilename_iff numeric5.1.1).2 numeric5
      rw [a1] at a2
      exact a2
  obtain ⟨rfl, rfl⟩ := hkey
  refine ⟨_, o2, p4, p5, ?_, ?_⟩
  · have htab : o2.table = st2 := by unfold Supermon.Operator.table; rw [p8]; rfl
    rw [htab]
    refine ((Supermon.knows_name p9 hsym).1 5).2 ?_
    simp [Change.names, SameName]
  · rw [p7 5 p1, if_pos rfl]
    intro e
    have := congrArg List.length e
    rw [Supermon.padded_length] at this
    simp at this

end Verif.Cmd

namespace Verif.Supermon

open Spec Unicode

/-- C111 does not hold for the Kelvin sign: on a disk that `put` makes, the file KAA is found under a name that begins with that sign,
though no name on the disk is the same but for the case of A–Z. -/
theorem C111_violated {T : Tables} (hT : IsUnicode T) : ∃ (img : Bytes) (o : Operator), openOperator img = .ok o ∧
    (∃ fi, (unicode T).getFile o (kelvin ++ str "AA") = .ok fi) ∧ ∀ s ∈ o.table, ¬ SameName s.name (kelvin ++ str "AA") := by
  obtain ⟨img, o, ho, hg, h1, h2⟩ := Cmd.kaa_disk ⟨0, RangeOrder.stored⟩
  refine ⟨img, o, ho, ?_, ?_⟩
  · rw [C111_get hT ho, show spell (kelvin ++ str "AA") = str "kAA" by decide +kernel]
    have h3 : fileForName o.table (str "kAA") = .ok 5 := by
      rw [← h1]
      have he : ∀ t : Str, equalFold t (str "kAA") = equalFold t (str "KAA") := fun t => by
        unfold equalFold
        rw [show toUpper (str "kAA") = toUpper (str "KAA") by decide +kernel]
      have hs : ∀ st : SymbolTable, fileForSymbol (str "kAA") st = fileForSymbol (str "KAA") st := by
        intro st
        induction st with
        | nil => rfl
        | cons s st ih =>
          unfold fileForSymbol
          rw [he, ih]
      unfold fileForName
      rw [hs, show parseAddressFilename (str "kAA") = parseAddressFilename (str "KAA") by decide +kernel]
    rw [getFile_eq hg.len h3, if_neg (fun e => h2 ?_)]
    · exact ⟨_, rfl⟩
    · rw [← hg.onDisk]; exact e
  · intro s hs he
    have hc := opened_capitals ho s hs
    have he : toUpper s.name = toUpper (kelvin ++ str "AA") := he
    have hu : toUpper (kelvin ++ str "AA") = 0xE2 :: toUpper ([0x84, 0xAA] ++ str "AA") := by decide +kernel
    rw [hu] at he
    cases hn : s.name with
    | nil => rw [hn] at he; simp [toUpper] at he
    | cons c n =>
      rw [hn] at he hc
      have h3 := hc c List.mem_cons_self
      have h4 : upperByte c = 0xE2 := (List.cons.inj he).1
      exact high_differs 0xE2 c (by decide) (by omega) (by rw [h4]; decide)

end Verif.Supermon
