import Verif.Props.Unicode

/-!
# C111: characters survive encoding
-/

set_option autoImplicit false

namespace Verif.Unicode

/-- C111: what a character is encoded as is decoded as that character, for every character of Unicode. -/
theorem C111_encode {r : Nat} (h : r ≤ 0x10FFFF) (hs : ¬ (0xD800 ≤ r ∧ r ≤ 0xDFFF)) : runes (encodeRune r) = [r] := by
  have t : ∀ n, n < 256 → (UInt8.ofNat n).toNat = n := fun n hn => by rw [UInt8.toNat_ofNat', Nat.mod_eq_of_lt hn]
  have nil : runes [] = [] := by unfold runes; rfl
  unfold encodeRune
  split
  · rename_i h1
    unfold runes
    rw [if_pos (by rw [UInt8.lt_iff_toNat_lt, t _ (by omega)]; exact h1), t _ (by omega), nil]
  split
  · rename_i h1 h2
    have b1 := t (0xC0 + r / 64) (by omega)
    have b2 := t (0x80 + r % 64) (by omega)
    generalize UInt8.ofNat (0xC0 + r / 64) = x at *
    generalize UInt8.ofNat (0x80 + r % 64) = y at *
    have m : multi x [y] = some (r, 1) := by
      unfold multi isCont
      simp only [UInt8.le_iff_toNat_le, Bool.and_eq_true, decide_eq_true_eq, b1, b2]
      rw [if_pos ⟨by show 194 ≤ _; omega, by show _ ≤ 223; omega⟩, if_pos ⟨by show 128 ≤ _; omega, by show _ ≤ 191; omega⟩]
      exact congrArg (fun n => some (n, 1)) (by omega)
    unfold runes
    rw [if_neg (by rw [UInt8.lt_iff_toNat_lt, b1]; show ¬ _ < 128; omega), m]
    simp [nil]
  split
  · omega
  split
  · rename_i h1 h2 h3 h4
    have b1 := t (0xE0 + r / 4096) (by omega)
    have b2 := t (0x80 + r / 64 % 64) (by omega)
    have b3 := t (0x80 + r % 64) (by omega)
    generalize UInt8.ofNat (0xE0 + r / 4096) = x at *
    generalize UInt8.ofNat (0x80 + r / 64 % 64) = y at *
    generalize UInt8.ofNat (0x80 + r % 64) = z at *
    have m : multi x [y, z] = some (r, 2) := by
      unfold multi isCont
      simp only [UInt8.le_iff_toNat_le, Bool.and_eq_true, decide_eq_true_eq, b1, b2, b3, ← UInt8.toNat_inj]
      rw [if_neg (fun h => by have : 224 + r / 4096 ≤ 223 := h.2; omega),
        if_pos ⟨by show 224 ≤ _; omega, by show _ ≤ 239; omega⟩,
        if_pos ⟨⟨by show 128 ≤ _; omega, by show _ ≤ 191; omega⟩, fun e => by have e : 224 + r / 4096 = 224 := e; show 160 ≤ _; omega,
          fun e => by have e : 224 + r / 4096 = 237 := e; show _ ≤ 159; omega, by show 128 ≤ _; omega, by show _ ≤ 191; omega⟩]
      exact congrArg (fun n => some (n, 2)) (by omega)
    unfold runes
    rw [if_neg (by rw [UInt8.lt_iff_toNat_lt, b1]; show ¬ _ < 128; omega), m]
    simp [nil]
  · rename_i h1 h2 h3 h4
    have b1 := t (0xF0 + r / 262144) (by omega)
    have b2 := t (0x80 + r / 4096 % 64) (by omega)
    have b3 := t (0x80 + r / 64 % 64) (by omega)
    have b4 := t (0x80 + r % 64) (by omega)
    generalize UInt8.ofNat (0xF0 + r / 262144) = x at *
    generalize UInt8.ofNat (0x80 + r / 4096 % 64) = y at *
    generalize UInt8.ofNat (0x80 + r / 64 % 64) = z at *
    generalize UInt8.ofNat (0x80 + r % 64) = u at *
    have m : multi x [y, z, u] = some (r, 3) := by
      unfold multi isCont
      simp only [UInt8.le_iff_toNat_le, Bool.and_eq_true, decide_eq_true_eq, b1, b2, b3, b4, ← UInt8.toNat_inj]
      rw [if_neg (fun h => by have : 240 + r / 262144 ≤ 223 := h.2; omega),
        if_neg (fun h => by have : 240 + r / 262144 ≤ 239 := h.2; omega),
        if_pos ⟨by show 240 ≤ _; omega, by show _ ≤ 244; omega⟩,
        if_pos ⟨⟨by show 128 ≤ _; omega, by show _ ≤ 191; omega⟩, fun e => by have e : 240 + r / 262144 = 240 := e; show 144 ≤ _; omega,
          fun e => by have e : 240 + r / 262144 = 244 := e; show _ ≤ 143; omega, ⟨by show 128 ≤ _; omega, by show _ ≤ 191; omega⟩,
          by show 128 ≤ _; omega, by show _ ≤ 191; omega⟩]
      exact congrArg (fun n => some (n, 3)) (by omega)
    unfold runes
    rw [if_neg (by rw [UInt8.lt_iff_toNat_lt, b1]; show ¬ _ < 128; omega), m]
    simp [nil]

/-- Both sides of the gap are met, and one character of each length. -/
example : [0x41, 0xE9, 0x20AC, 0xE000, 0x1F600].map encodeRune =
    [[0x41], [0xC3, 0xA9], [0xE2, 0x82, 0xAC], [0xEE, 0x80, 0x80], [0xF0, 0x9F, 0x98, 0x80]] := by decide +kernel

end Verif.Unicode
