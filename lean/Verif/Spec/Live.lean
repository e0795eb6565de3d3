import Verif.Spec.Fine

/-!
# Specification vocabulary: commands that run for ever in an endless schedule

An endless schedule says, for every number `n`, which command makes the `n`-th system call and how many bytes it moves.  A command that dies
gets no more turns.
-/

set_option autoImplicit false

namespace Verif.Spec
open Cmd Disk

variable {ι : Type}

/-- The state after the first `n` system calls. -/
def Crew.after [DecidableEq ι] (s : Crew ι) (turns : Nat → ι × Nat) : Nat → Crew ι
  | 0 => s
  | n + 1 => Crew.step (Crew.after s turns n) (turns n)

/-- Command `i` never stops getting turns. -/
def KeepsGoing (turns : Nat → ι × Nat) (i : ι) : Prop := ∀ n, ∃ m, n ≤ m ∧ (turns m).1 = i

end Verif.Spec
