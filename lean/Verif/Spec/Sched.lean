import Verif.Spec.Overlap
import Verif.Model.Sched

/-!
# Specification vocabulary for commands whose system calls are interleaved
-/

set_option autoImplicit false

namespace Verif.Spec
open Cmd Disk

variable {ι : Type}

/-- No command writes a file that another one names on its command line.  `-` is no file. -/
def Apart (cmds : ι → Command) : Prop :=
  ∀ i j, i ≠ j → ∀ q, target (cmds i) = some q → q ≠ str "-" → q ∉ mentions (cmds j)

/-- Command `i` has ended with outcome `o`. -/
def Ended (s : Sys ι) (i : ι) (o : Out Unit) : Prop := (s.procs i).prog = .ret o

/-- What has been printed by command `i`. -/
def printed (s : Sys ι) (i : ι) : Bytes := (s.procs i).stdout

/-- The commands one after the other, each running from its start to its end. -/
def oneByOne (env : Env) (cmds : ι → Command) (stdin : ι → Bytes) (order : List ι) (fs : FileSystem) : FileSystem :=
  order.foldl (fun fs i => doing env (cmds i) (stdin i) fs) fs

end Verif.Spec
