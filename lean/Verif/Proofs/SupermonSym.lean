import Verif.Spec.Symbols
import Verif.Proofs.SupermonName

/-! # Lemmas about symbol names and tables -/

set_option autoImplicit false
set_option maxRecDepth 20000

namespace Verif.Supermon
open Disk Spec

/-! ## Names -/

/-- Characters `encodeSymbol` stores. -/
def alnum (c : UInt8) : Bool := isLetter c || isDigit c

/-- The value of one stored character. -/
def code (c : UInt8) : Nat :=
  if isLetter c then (upperByte c).toNat - 0x40
  else if c.toNat < 0x35 then 0x1b + (c.toNat - 0x30) else 0x3b + (c.toNat - 0x35)

/-- The value of a name. -/
def nameValue : Str → Nat
  | [] => 0
  | c :: cs => if alnum c then code c + nameValue cs * 2 ^ charBits c else nameValue cs

theorem encodeStep_upper : ∀ c : UInt8, ∀ v b : Nat, encodeStep v b (upperByte c) =
    if alnum c then (code c + v * 2 ^ charBits c, b + charBits c) else (v, b) := by
  have k1 : ∀ c : UInt8,
      isLetter c = true → 0x41 ≤ upperByte c ∧ upperByte c ≤ 0x5A ∧
        (upperByte c - 0x40).toNat = code c ∧ charBits c = 5 := by decide +kernel
  have k2 : ∀ c : UInt8, isLetter c = false → isDigit c = true → c.toNat < 0x35 →
        ¬ (0x41 ≤ upperByte c ∧ upperByte c ≤ 0x5A) ∧ 0x30 ≤ upperByte c ∧ upperByte c ≤ 0x34 ∧
        0x1b + (upperByte c - 0x30).toNat = code c ∧ charBits c = 6 := by decide +kernel
  have k3 : ∀ c : UInt8, isLetter c = false → isDigit c = true → ¬ c.toNat < 0x35 →
        ¬ (0x41 ≤ upperByte c ∧ upperByte c ≤ 0x5A) ∧ ¬ (0x30 ≤ upperByte c ∧ upperByte c ≤ 0x34) ∧
        0x35 ≤ upperByte c ∧ upperByte c ≤ 0x39 ∧
        0x3b + (upperByte c - 0x35).toNat = code c ∧ charBits c = 6 := by decide +kernel
  have k4 : ∀ c : UInt8, isLetter c = false → isDigit c = false →
        ¬ (0x41 ≤ upperByte c ∧ upperByte c ≤ 0x5A) ∧ ¬ (0x30 ≤ upperByte c ∧ upperByte c ≤ 0x34) ∧
        ¬ (0x35 ≤ upperByte c ∧ upperByte c ≤ 0x39) := by decide +kernel
  intro c v b
  replace k1 := k1 c
  replace k2 := k2 c
  replace k3 := k3 c
  replace k4 := k4 c
  unfold encodeStep alnum
  cases hl : isLetter c
  · cases hd : isDigit c
    · obtain ⟨a1, a2, a3⟩ := k4 hl hd
      rw [if_neg a1, if_neg a2, if_neg a3]; simp
    · by_cases hc : c.toNat < 0x35
      · obtain ⟨a1, a2, a3, a4, a5⟩ := k2 hl hd hc
        rw [if_neg a1, if_pos ⟨a2, a3⟩, ← a4, a5]; simp; omega
      · obtain ⟨a1, a2, a3, a4, a5, a6⟩ := k3 hl hd hc
        rw [if_neg a1, if_neg a2, if_pos ⟨a3, a4⟩, ← a5, a6]; simp; omega
  · obtain ⟨a1, a2, a3, a4⟩ := k1 hl
    rw [if_pos ⟨a1, a2⟩, a3, a4]; simp; omega

theorem encodeStep_mono (v b : Nat) (c : UInt8) : b ≤ (encodeStep v b c).2 := by
  unfold encodeStep
  split
  · simp
  · split
    · simp
    · split <;> simp

theorem encodeFold_mono (l : Str) (p : Nat × Nat) :
    p.2 ≤ (l.foldl (fun p c => encodeStep p.1 p.2 c) p).2 := by
  induction l generalizing p with
  | nil => exact Nat.le_refl _
  | cons c cs ih => exact Nat.le_trans (encodeStep_mono p.1 p.2 c) (ih _)

theorem encodeLoop_eq (l : Str) (v b : Nat) (hb : b ≤ 48) :
    encodeLoop l v b =
      if (l.foldl (fun p c => encodeStep p.1 p.2 c) (v, b)).2 ≤ 48
      then .ok (l.foldl (fun p c => encodeStep p.1 p.2 c) (v, b)).1 else .err .other := by
  induction l generalizing v b with
  | nil => simp [encodeLoop, hb]
  | cons c cs ih =>
    unfold encodeLoop
    rw [List.foldl_cons]
    by_cases h : (encodeStep v b c).2 > 48
    · rw [if_pos h, if_neg]
      have := encodeFold_mono cs (encodeStep v b c)
      dsimp only
      omega
    · rw [if_neg h, ih _ _ (by omega)]

theorem encode_name (s : Str) :
    (toUpper s).reverse.foldl (fun p c => encodeStep p.1 p.2 c) (0, 0) =
      (nameValue s, nameBits s) := by
  rw [List.foldl_reverse]
  induction s with
  | nil => rfl
  | cons c cs ih =>
    have : toUpper (c :: cs) = upperByte c :: toUpper cs := rfl
    rw [this, List.foldr_cons, ih, encodeStep_upper]
    have hb : nameBits (c :: cs) = charBits c + nameBits cs := by simp [nameBits]
    rw [hb, nameValue]
    by_cases h : alnum c = true
    · rw [if_pos h, if_pos h, Nat.add_comm (nameBits cs)]
    · rw [if_neg h, if_neg h]
      have : charBits c = 0 := by
        unfold alnum at h
        unfold charBits
        cases hl : isLetter c <;> cases hd : isDigit c <;> simp [hl, hd] at h ⊢
      rw [this, Nat.zero_add]

theorem code_bounds : ∀ c : UInt8, alnum c = true →
    (isLetter c = true ∧ charBits c = 5 ∧ 0 < code c ∧ code c < 27 ∧
      UInt8.ofNat (code c + 0x40) = upperByte c) ∨
    (charBits c = 6 ∧ 27 ≤ code c ∧ code c < 32 ∧
      UInt8.ofNat (code c - 0x1b + 0x30) = upperByte c) ∨
    (charBits c = 6 ∧ 59 ≤ code c ∧ code c < 64 ∧
      UInt8.ofNat (code c - 32 - 0x1b + 0x35) = upperByte c) := by decide +kernel

theorem nameValue_lt (s : Str) : nameValue s < 2 ^ nameBits s := by
  induction s with
  | nil => simp [nameValue, nameBits]
  | cons c cs ih =>
    have hb : nameBits (c :: cs) = charBits c + nameBits cs := by simp [nameBits]
    rw [hb]
    unfold nameValue
    split
    · rename_i h
      have hc : code c < 2 ^ charBits c := by
        rcases code_bounds c h with ⟨_, b, _, h2, _⟩ | ⟨b, _, h2, _⟩ | ⟨b, _, h2, _⟩ <;> rw [b] <;> omega
      rw [Nat.pow_add]
      calc code c + nameValue cs * 2 ^ charBits c
          < 2 ^ charBits c + nameValue cs * 2 ^ charBits c := by omega
        _ = (nameValue cs + 1) * 2 ^ charBits c := by rw [Nat.add_mul, Nat.one_mul, Nat.add_comm]
        _ ≤ 2 ^ nameBits cs * 2 ^ charBits c := Nat.mul_le_mul_right _ ih
        _ = 2 ^ charBits c * 2 ^ nameBits cs := Nat.mul_comm _ _
    · calc nameValue cs < 2 ^ nameBits cs := ih
        _ ≤ 2 ^ (charBits c + nameBits cs) := Nat.pow_le_pow_right (by omega) (by omega)

theorem decodeLoop_cons (c : UInt8) (h : alnum c = true) (w : Nat) :
    decodeLoop (code c + w * 2 ^ charBits c) = upperByte c :: decodeLoop w := by
  rw [decodeLoop]
  rcases code_bounds c h with ⟨_, b, h1, h2, h3⟩ | ⟨b, h1, h2, h3⟩ | ⟨b, h1, h2, h3⟩ <;> rw [b]
  · have e1 : (code c + w * 2 ^ 5) % 32 = code c := by omega
    have e2 : (code c + w * 2 ^ 5) / 32 = w := by omega
    rw [e1, e2, dif_pos (by omega), if_pos h2, h3]
  · have e1 : (code c + w * 2 ^ 6) % 32 = code c := by omega
    have e2 : (code c + w * 2 ^ 6) / 64 = w := by omega
    have e3 : (code c + w * 2 ^ 6) / 32 % 2 = 0 := by omega
    rw [e1, e2, e3, dif_pos (by omega), if_neg (by omega), if_pos rfl, h3]
  · have e1 : (code c + w * 2 ^ 6) % 32 = code c - 32 := by omega
    have e2 : (code c + w * 2 ^ 6) / 64 = w := by omega
    have e3 : (code c + w * 2 ^ 6) / 32 % 2 = 1 := by omega
    rw [e1, e2, e3, dif_pos (by omega), if_neg (by omega), if_neg (by omega), h3]

theorem decode_name (s : Str) : decodeLoop (nameValue s) = toUpper (s.filter alnum) := by
  induction s with
  | nil => rw [nameValue, decodeLoop]; rfl
  | cons c cs ih =>
    unfold nameValue
    by_cases h : alnum c = true
    · rw [if_pos h, decodeLoop_cons c h, ih, List.filter_cons, if_pos h]; rfl
    · rw [if_neg h, ih, List.filter_cons, if_neg h]

theorem encodeSymbol_eq {s : Str} (hs : s ≠ []) :
    encodeSymbol s =
      if 3 ≤ s.length ∧ s.length ≤ 9 ∧ nameBits s ≤ 48 then .ok (sixBytes (nameValue s))
      else .err .other := by
  unfold encodeSymbol
  rw [if_neg hs, encodeLoop_eq _ _ _ (by omega), encode_name]
  by_cases h1 : s.length > 9
  · rw [if_pos h1, if_neg (by omega)]
  · rw [if_neg h1]
    by_cases h2 : s.length < 3
    · rw [if_pos h2, if_neg (by omega)]
    · rw [if_neg h2]
      by_cases h3 : nameBits s ≤ 48
      · rw [if_pos (by simpa using h3), if_pos (by omega)]; rfl
      · rw [if_neg (by simpa using h3), if_neg (by omega)]; rfl

theorem nameValue_nil_zero : sixBytes 0 = Vector.replicate 6 0 := by decide +kernel

/-- Decoding the six bytes of a value gives back the value's characters. -/
theorem decode_sixBytes {v : Nat} (hv : v < 2 ^ 48) :
    decodeSymbol ⟨#[(sixBytes v)[0], (sixBytes v)[1], (sixBytes v)[2], (sixBytes v)[3],
      (sixBytes v)[4]], rfl⟩ (sixBytes v)[5] = decodeLoop v := by
  unfold decodeSymbol
  congr 1
  have e : ∀ i (hi : i < 6), (sixBytes v)[i].toNat = v / 2 ^ (8 * i) % 256 := by
    intro i hi
    unfold sixBytes
    rw [Vector.getElem_ofFn, UInt8.toNat_ofNat']
    exact Nat.mod_mod _ _
  show (sixBytes v)[0].toNat + (sixBytes v)[1].toNat * 2 ^ 8 + (sixBytes v)[2].toNat * 2 ^ 16 +
    (sixBytes v)[3].toNat * 2 ^ 24 + (sixBytes v)[4].toNat * 2 ^ 32 + (sixBytes v)[5].toNat * 2 ^ 40 = v
  rw [e 0, e 1, e 2, e 3, e 4, e 5]
  omega

/-- What an accepted name decodes to. -/
theorem decode_encode {s : Str} {six : Vector UInt8 6} (h : encodeSymbol s = .ok six) :
    decodeSymbol ⟨#[six[0], six[1], six[2], six[3], six[4]], rfl⟩ six[5] =
      toUpper (s.filter alnum) := by
  by_cases hs : s = []
  · subst hs
    have : six = sixBytes 0 := by
      rw [nameValue_nil_zero]
      simpa [encodeSymbol] using h.symm
    subst this
    rw [decode_sixBytes (by omega)]
    exact decode_name []
  · rw [encodeSymbol_eq hs] at h
    split at h
    · rename_i hc
      simp only [Out.ok.injEq] at h
      subst h
      rw [decode_sixBytes, decode_name]
      exact Nat.lt_of_lt_of_le (nameValue_lt s) (Nat.pow_le_pow_right (by omega) hc.2.2)
    · simp at h

theorem legal_filter {s : Str} (h : LegalName s) : s.filter alnum = s := by
  rw [List.filter_eq_self]
  intro c hc
  rcases h.2.2.1 c hc with e | e <;> simp [alnum, e]

theorem legal_encode {s : Str} (h : LegalName s) : ∃ six, encodeSymbol s = .ok six := by
  have : s ≠ [] := by rintro rfl; have := h.1; simp at this
  rw [encodeSymbol_eq this, if_pos ⟨h.1, h.2.1, h.2.2.2⟩]
  exact ⟨_, rfl⟩

end Verif.Supermon
