import Verif.Go.Basic

/-!
# Specification: Go integer literals

The grammar of the Go language specification, "Integer literals", with the value of each literal.
-/

set_option autoImplicit false

namespace Verif.Spec.Flags

/-- The value of a digit character: 0-9, a-f, A-F. -/
def digit (c : UInt8) : Option Nat :=
  if 48 ≤ c.toNat ∧ c.toNat ≤ 57 then some (c.toNat - 48)
  else if 97 ≤ c.toNat ∧ c.toNat ≤ 102 then some (c.toNat - 87)
  else if 65 ≤ c.toNat ∧ c.toNat ≤ 70 then some (c.toNat - 55)
  else none

/-- `digits = digit { [ "_" ] digit }` in a base, with the value. -/
inductive Digits (base : Nat) : Str → Nat → Prop
  | one {c : UInt8} {d : Nat} : digit c = some d → d < base → Digits base [c] d
  | more {s : Str} {v : Nat} {c : UInt8} {d : Nat} : Digits base s v → digit c = some d → d < base →
      Digits base (s ++ [c]) (base * v + d)
  | underscore {s : Str} {v : Nat} {c : UInt8} {d : Nat} : Digits base s v → digit c = some d → d < base →
      Digits base (s ++ [0x5F, c]) (base * v + d)

/-- `[ "_" ] digits` -/
inductive OptDigits (base : Nat) : Str → Nat → Prop
  | plain {s : Str} {v : Nat} : Digits base s v → OptDigits base s v
  | underscore {s : Str} {v : Nat} : Digits base s v → OptDigits base (0x5F :: s) v

/-- `int_lit = decimal_lit | binary_lit | octal_lit | hex_lit`, with the value. -/
inductive IntLit : Str → Nat → Prop
  | zero : IntLit [0x30] 0
  | decimal {s : Str} {v : Nat} : Digits 10 s v → s.head? ≠ some 0x30 → IntLit s v
  | binary {x : UInt8} {s : Str} {v : Nat} : x = 0x62 ∨ x = 0x42 → OptDigits 2 s v → IntLit (0x30 :: x :: s) v
  | octal {x : UInt8} {s : Str} {v : Nat} : x = 0x6F ∨ x = 0x4F → OptDigits 8 s v → IntLit (0x30 :: x :: s) v
  | oldOctal {s : Str} {v : Nat} : OptDigits 8 s v → IntLit (0x30 :: s) v
  | hex {x : UInt8} {s : Str} {v : Nat} : x = 0x78 ∨ x = 0x58 → OptDigits 16 s v → IntLit (0x30 :: x :: s) v

end Verif.Spec.Flags
