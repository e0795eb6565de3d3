import Verif.Model.Cmd

/-!
# Specification vocabulary for the commands
-/

set_option autoImplicit false

namespace Verif.Spec
open Cmd

/-- The path a command is told to write, if it writes one at all. -/
def target : Command → Option Str
  | .reorder _ _ _ i j => some (if j = [] then i else j)
  | .put _ _ _ _ _ i _ _ => some i
  | .rm _ _ _ i _ => some i
  | .mkhello _ i _ _ _ => some i
  | .mksd _ i _ _ _ => some i
  | _ => none

/-- The image a command rewrites in place, if it does. -/
def inPlace : Command → Option Str
  | .reorder _ _ _ i j => if j = [] then some i else none
  | .put _ _ _ _ _ i _ _ => some i
  | .rm _ _ _ i _ => some i
  | .mkhello _ i _ _ _ => some i
  | _ => none

/-- The image a command reads as a disk, if it reads one. -/
def diskOf : Command → Option Str
  | .ls _ _ _ i _ => some i
  | .reorder _ _ _ i _ => some i
  | .put _ _ _ _ _ i _ _ => some i
  | .rm _ _ _ i _ => some i
  | .dump _ _ i _ => some i
  | .mkhello _ i _ _ _ => some i
  | _ => none

/-- `f` and `g` agree on files and standard output. -/
def SameOutside (f g : World) : Prop := f.files = g.files ∧ f.stdout = g.stdout

/-- The worlds in which a command run from `w` may leave things if the process dies: unchanged, or
during the write of its output, with `k` bytes written. -/
inductive CrashState (env : Env) (c : Command) (w : World) : World → Prop
  | before (w' : World) (h : SameOutside w' w) : CrashState env c w w'
  | during (k : Nat) : CrashState env c w (runVia env (interrupted k) c w).2
  | after : CrashState env c w (run env c w).2

/-- The `k`-th sector visited by the Standard Delivery loader, counting the boot sector as the
0-th: on every track the even sectors and then the odd ones. -/
def visit (k : Nat) : Nat × Nat := (k / 16, if k % 16 < 8 then 2 * (k % 16) else 2 * (k % 16) - 15)

/-- Number of 256-byte pages of a binary. -/
def pages (contents : Bytes) : Nat := (contents.length + 255) / 256

/-- The `i`-th page of a binary, padded with zeros. -/
def page (contents : Bytes) (i : Nat) : Bytes :=
  (List.range 256).map fun j => (contents[256 * i + j]?).getD 0

end Verif.Spec
