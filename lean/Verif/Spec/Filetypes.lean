import Verif.Go.Basic

/-!
# Specification vocabulary: a table printed in columns
-/

set_option autoImplicit false

namespace Verif.Spec

/-- From column `p` up to column `q` the line has the text `c`, which does not end in a space, followed by at least one space. -/
def Cell (line : Str) (p q : Nat) (c : Str) : Prop :=
  p ≤ q ∧ c.getLast? ≠ some 0x20 ∧ ∃ n, 0 < n ∧ (line.drop p).take (q - p) = c ++ List.replicate n 0x20

/-- A line with four texts, the last three of which begin at the columns given and the last of which ends with the line. -/
def FourCells (p q r : Nat) (line a b c d : Str) : Prop :=
  Cell line 0 p a ∧ Cell line p q b ∧ Cell line q r c ∧ line.drop r = d

end Verif.Spec
