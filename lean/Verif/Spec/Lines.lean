import Verif.Spec.Basic

/-!
# Specification vocabulary: the lines of an Applesoft program that is not known to be well-formed
-/

set_option autoImplicit false

namespace Verif.Spec.Basic

/-- There is a line at address `a` of data at `loc`: the address of another line, a line number and a text that ends with a zero and has no byte that
stands for no keyword. -/
def LineAt (d : Bytes) (loc a : Nat) : Prop :=
  a ≠ 0 ∧ InData d loc a ∧ storedAt d loc a ≠ 0 ∧
    ∃ text rest, d.drop (a - loc + 4) = text ++ 0 :: rest ∧ ∀ c ∈ text, 0 < c.toNat ∧ c.toNat ≤ 0xEA

/-- Following the addresses there are `k` lines, and then none. -/
def LinesBefore (d : Bytes) (loc k : Nat) : Prop := (∀ j, j < k → LineAt d loc (lineAddr d loc j)) ∧ ¬ LineAt d loc (lineAddr d loc k)

/-- The program ends properly at address `a`: the address is 0, or the address stored there is. -/
def EndAt (d : Bytes) (loc a : Nat) : Prop := a = 0 ∨ InData d loc a ∧ storedAt d loc a = 0

/-- `a` is the address just below the program. -/
def JustBelow (d : Bytes) (loc a : Nat) : Prop := a ≠ 0 ∧ a + 1 = loc ∧ d ≠ []

end Verif.Spec.Basic
