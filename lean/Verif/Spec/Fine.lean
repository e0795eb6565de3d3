import Verif.Spec.Sched
import Verif.Model.Fine

/-!
# Specification vocabulary for commands that read and write files in pieces
-/

set_option autoImplicit false

namespace Verif.Spec
open Cmd Disk

variable {ι : Type}

/-- Command `i` has ended with outcome `o`. -/
def Finished (s : Crew ι) (i : ι) (o : Out Unit) : Prop := (s.workers i).prog = .ret o

/-- What has been printed by command `i`. -/
def hasPrinted (s : Crew ι) (i : ι) : Bytes := (s.workers i).stdout

/-- The number of turns of command `i` in a schedule. -/
def turnCount [DecidableEq ι] (i : ι) (schedule : List (ι × Nat)) : Nat := (schedule.filter fun t => t.1 = i).length

/-- The only file that is written by one command and named by another is `p`, and only command `j` writes it. -/
def OnlyShared (cmds : ι → Command) (j : ι) (p : Str) : Prop :=
  target (cmds j) = some p ∧ p ≠ str "-" ∧ ∀ i, i ≠ j → ∀ q, target (cmds i) = some q → q ≠ str "-" → ∀ k, k ≠ i → q ∉ mentions (cmds k)

/-- The files, with `p` containing `x`; `none` if it does not exist. -/
def having (fs : FileSystem) (p : Str) (x : Option Bytes) : FileSystem := fun q => if q = p then x else fs q

/-- A beginning of the old contents, continued with what stands there in the new contents, perhaps not to their end. -/
def Mixture (old new b : Bytes) : Prop := ∃ r m, r ≤ old.length ∧ b = old.take r ++ (new.drop r).take m

end Verif.Spec
