import Verif.Proofs.SupermonOp
import Mathlib.Data.List.Induction

/-! # Lemmas about names of NakedOS files -/

set_option autoImplicit false

namespace Verif.Supermon
open Disk Spec

theorem hexVal_eq (c : UInt8) : hexVal c = digitValue c := by
  have : ∀ c : UInt8, hexVal c = digitValue c := by decide +kernel
  exact this c

theorem hexAcc_append (s : Str) (c : UInt8) (a : Nat) :
    hexAcc (s ++ [c]) a =
      match hexAcc s a with
      | some v => match hexVal c with
        | some d => some (v * 16 + d)
        | none => none
      | none => none := by
  induction s generalizing a with
  | nil =>
    simp only [List.nil_append, hexAcc]
    cases hexVal c <;> rfl
  | cons x xs ih =>
    simp only [List.cons_append, hexAcc]
    cases hexVal x with
    | none => rfl
    | some d => simp only [ih]

theorem hexNumeral_ne_nil {s : Str} {v : Nat} (h : HexNumeral s v) : s ≠ [] := by
  cases h <;> simp

theorem hexNumeral_iff (s : Str) (v : Nat) :
    HexNumeral s v ↔ s ≠ [] ∧ hexAcc s 0 = some v := by
  constructor
  · intro h
    refine ⟨hexNumeral_ne_nil h, ?_⟩
    induction h with
    | one h => simp [hexAcc, hexVal_eq, h]
    | snoc h1 h2 ih => rw [hexAcc_append, ih, hexVal_eq, h2]; simp; omega
  · rintro ⟨hne, h⟩
    revert v
    induction s using List.reverseRecOn with
    | nil => exact absurd rfl hne
    | append_singleton s c ih =>
      intro v h
      by_cases hs : s = []
      · subst hs
        simp only [List.nil_append, hexAcc, hexVal_eq] at h
        cases hd : digitValue c with
        | none => rw [hd] at h; simp at h
        | some d =>
          rw [hd] at h
          simp at h
          subst h
          exact HexNumeral.one hd
      · rw [hexAcc_append] at h
        cases ha : hexAcc s 0 with
        | none => rw [ha] at h; simp at h
        | some w =>
          rw [ha, hexVal_eq] at h
          cases hd : digitValue c with
          | none => rw [hd] at h; simp at h
          | some d =>
            rw [hd] at h
            simp only [Option.some.injEq] at h
            have := HexNumeral.snoc (ih hs w ha) hd
            rw [← h, Nat.mul_comm]; exact this

theorem hexNumeral_unique {s : Str} {v w : Nat} (h1 : HexNumeral s v) (h2 : HexNumeral s w) :
    v = w := by
  have a := ((hexNumeral_iff s v).1 h1).2
  rw [((hexNumeral_iff s w).1 h2).2] at a
  simpa using a.symm

theorem parseHex16_iff (s : Str) (v : Nat) :
    parseHex16 s = some v ↔ HexNumeral s v ∧ v ≤ 0xFFFF := by
  rw [hexNumeral_iff]
  unfold parseHex16
  split
  · rename_i h; simp [h]
  · rename_i h
    cases ha : hexAcc s 0 with
    | none => simp
    | some w =>
      simp only
      split
      · simp only [Option.some.injEq]
        constructor
        · rintro rfl; exact ⟨⟨h, rfl⟩, by assumption⟩
        · rintro ⟨⟨_, e⟩, _⟩; exact e
      · simp only [reduceCtorEq, false_iff, not_and]
        rintro ⟨_, e⟩ hv
        simp only [Option.some.injEq] at e
        omega

theorem parseAddressFilename_iff {s : Str} {f : UInt8} (hf : f ≠ 0) :
    parseAddressFilename s = f ↔ NumericName s f := by
  unfold parseAddressFilename NumericName
  cases hp : parseHex16 s with
  | none =>
    simp only
    constructor
    · intro h; exact absurd h.symm hf
    · rintro ⟨hF, h⟩
      have hlt := f.toNat_lt
      rcases h with h | h
      · have := (parseHex16_iff s _).2 ⟨h, by omega⟩; rw [hp] at this; simp at this
      · have := (parseHex16_iff s _).2 ⟨h, by omega⟩; rw [hp] at this; simp at this
  | some v =>
    have hv := (parseHex16_iff s v).1 hp
    simp only
    have hne0 : f.toNat ≠ 0 := fun h => hf (UInt8.toNat_inj.1 (by simpa using h))
    have hlt := f.toNat_lt
    have conv : ∀ k, k < 256 → (UInt8.ofNat k = f ↔ k = f.toNat) := by
      intro k hk
      constructor
      · rintro rfl; simp; omega
      · rintro rfl; simp
    have hFN : IsFileNumber f ↔ f.toNat < 0xFE := by
      unfold IsFileNumber
      constructor
      · rintro ⟨_, h1, h2⟩
        have a1 : f.toNat ≠ 0xFE := fun h => h1 (UInt8.toNat_inj.1 (by simpa using h))
        have a2 : f.toNat ≠ 0xFF := fun h => h2 (UInt8.toNat_inj.1 (by simpa using h))
        omega
      · intro h
        refine ⟨hf, ?_, ?_⟩ <;> rintro rfl <;> simp at h
    have key : (HexNumeral s f.toNat ∨ HexNumeral s (0xDF00 + f.toNat)) ↔
        v = f.toNat ∨ v = 0xDF00 + f.toNat := by
      constructor
      · rintro (h | h)
        · exact Or.inl (hexNumeral_unique hv.1 h)
        · exact Or.inr (hexNumeral_unique hv.1 h)
      · rintro (h | h)
        · exact Or.inl (h ▸ hv.1)
        · exact Or.inr (h ▸ hv.1)
    rw [key, hFN]
    split
    · rw [conv _ (by omega)]; omega
    · split
      · rw [conv _ (by omega)]; omega
      · constructor
        · intro h; exact absurd h.symm hf
        · omega

theorem numericName_unique {s : Str} {f g : UInt8} (h1 : NumericName s f) (h2 : NumericName s g) :
    f = g :=
  ((parseAddressFilename_iff h1.1.1).2 h1).symm.trans ((parseAddressFilename_iff h2.1.1).2 h2)

theorem parse_zero_iff (s : Str) : parseAddressFilename s = 0 ↔ ∀ f, ¬ NumericName s f := by
  constructor
  · intro h f hf
    have := (parseAddressFilename_iff hf.1.1).2 hf
    rw [h] at this
    exact hf.1.1 this.symm
  · intro h
    apply Classical.byContradiction
    intro hc
    exact h _ ((parseAddressFilename_iff hc).1 rfl)

theorem parse_dfName {f : UInt8} (hf : IsFileNumber f) : parseAddressFilename (dfName f) = f := by
  have : ∀ f : UInt8, (f ≠ 0 ∧ f ≠ 0xFE ∧ f ≠ 0xFF) → parseAddressFilename (dfName f) = f := by
    decide +kernel
  exact this f hf

theorem dfName_eq (f : UInt8) : str "DF" ++ hex2 f = dfName f := by
  have : ∀ f : UInt8, str "DF" ++ hex2 f = dfName f := by decide +kernel
  exact this f

theorem fileForName_dfName {f : UInt8} (hf : IsFileNumber f) (st : SymbolTable) :
    fileForName st (dfName f) = .ok f := by
  unfold fileForName
  rw [parse_dfName hf, if_pos hf.1]

theorem splitColon_none {s : Str} (h : (0x3A : UInt8) ∉ s) : splitColon s = [s] := by
  induction s with
  | nil => rfl
  | cons c cs ih =>
    have hc : c ≠ 0x3A := fun e => h (by simp [e])
    unfold splitColon
    rw [if_neg hc, ih (fun hm => h (by simp [hm]))]

theorem splitColon_append {a b : Str} (h : (0x3A : UInt8) ∉ a) :
    splitColon (a ++ 0x3A :: b) = a :: splitColon b := by
  induction a with
  | nil => simp [splitColon]
  | cons c cs ih =>
    have hc : c ≠ 0x3A := fun e => h (by simp [e])
    rw [List.cons_append]
    conv_lhs => unfold splitColon
    rw [if_neg hc, ih (fun hm => h (by simp [hm]))]

theorem splitColon_ne_nil (s : Str) : splitColon s ≠ [] := by
  cases s with
  | nil => simp [splitColon]
  | cons c cs =>
    unfold splitColon
    split
    · simp
    · split <;> simp

theorem splitColon_length (s : Str) : (splitColon s).length = s.count 0x3A + 1 := by
  induction s with
  | nil => rfl
  | cons c cs ih =>
    unfold splitColon
    by_cases h : c = 0x3A
    · rw [if_pos h, List.length_cons, ih, h, List.count_cons_self]
    · rw [if_neg h, List.count_cons_of_ne h]
      cases hs : splitColon cs with
      | nil => exact absurd hs (splitColon_ne_nil cs)
      | cons p ps =>
        rw [hs] at ih
        simpa using ih

theorem no_colon_dfName (f : UInt8) : (0x3A : UInt8) ∉ dfName f := by
  have : ∀ f : UInt8, (0x3A : UInt8) ∉ dfName f := by decide +kernel
  exact this f

theorem filesForCompoundName_dfName {f : UInt8} (hf : IsFileNumber f) (st : SymbolTable) :
    filesForCompoundName st (dfName f) = .ok (f, 0, []) := by
  unfold filesForCompoundName
  rw [splitColon_none (no_colon_dfName f)]
  simp only
  rw [parse_dfName hf, if_pos hf.1]

/-- `fileForSymbol` looks at the first symbol with the name. -/
theorem fileForSymbol_eq (s : Str) (st : SymbolTable) :
    fileForSymbol s st =
      match st.find? (fun x => equalFold x.name s) with
      | some x => if x.address > 0xDF00 ∧ x.address < 0xDFFE
          then some (x.address - 0xDF00).toUInt8 else none
      | none => none := by
  induction st with
  | nil => rfl
  | cons x xs ih =>
    unfold fileForSymbol
    rw [List.find?_cons]
    cases h : equalFold x.name s
    · simp only [Bool.false_eq_true, if_false]; exact ih
    · simp only [if_true]

theorem addr_sub {a : UInt16} {f : UInt8} (hf : IsFileNumber f) :
    (a > 0xDF00 ∧ a < 0xDFFE ∧ (a - 0xDF00).toUInt8 = f) ↔ a.toNat = 0xDF00 + f.toNat := by
  have hlt := f.toNat_lt
  have h1 : f.toNat ≠ 0 := fun h => hf.1 (UInt8.toNat_inj.1 (by simpa using h))
  have h2 : f.toNat ≠ 0xFE := fun h => hf.2.1 (UInt8.toNat_inj.1 (by simpa using h))
  have h3 : f.toNat ≠ 0xFF := fun h => hf.2.2 (UInt8.toNat_inj.1 (by simpa using h))
  have e : ∀ (_ : 0xDF00 < a.toNat) (_ : a.toNat < 0xDFFE),
      ((a - 0xDF00).toUInt8).toNat = a.toNat - 0xDF00 := by
    intro g1 g2
    rw [UInt16.toNat_toUInt8, UInt16.toNat_sub_of_le _ _ (by
      show (0xDF00 : UInt16).toNat ≤ a.toNat
      simp; omega)]
    simp; omega
  constructor
  · rintro ⟨g1, g2, g3⟩
    have g1' : 0xDF00 < a.toNat := g1
    have g2' : a.toNat < 0xDFFE := g2
    have := e g1' g2'
    rw [g3] at this; omega
  · intro h
    have g1' : 0xDF00 < a.toNat := by omega
    have g2' : a.toNat < 0xDFFE := by omega
    exact ⟨g1', g2', UInt8.toNat_inj.1 (by rw [e g1' g2']; omega)⟩

theorem addrOf_toNat (f : UInt8) : ((0xDF00 : UInt16) + f.toUInt16).toNat = 0xDF00 + f.toNat := by
  have := f.toNat_lt
  rw [UInt16.toNat_add]; simp; omega

end Verif.Supermon
