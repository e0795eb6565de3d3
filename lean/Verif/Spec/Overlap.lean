import Verif.Spec.Cmd

/-!
# Specification vocabulary for programs that run at the same time
-/

set_option autoImplicit false

namespace Verif.Spec
open Cmd Disk

/-- The files of all programs. -/
abbrev FileSystem := Str → Option Bytes

/-- The files named on the command line. -/
def mentions : Command → List Str
  | .ls _ _ _ i _ => [i]
  | .reorder _ _ _ i j => [i, j]
  | .filetypes _ => []
  | .put _ _ _ _ _ i _ s => [i, s]
  | .rm _ _ _ i _ => [i]
  | .dump _ _ i _ => [i]
  | .mkhello _ i _ _ _ => [i]
  | .mksd _ i b _ _ => [i, b]
  | .decode f _ _ => [f]

/-- What a complete run of a command with the given standard input does to the files. -/
def doing (env : Env) (c : Command) (stdin : Bytes) (fs : FileSystem) : FileSystem :=
  (run env c ⟨fs, stdin, []⟩).2.files

/-- `WriteOutput` (helpers/helpers.go:25-36) when other programs do `g` to the files right before it. -/
def meddled (g : FileSystem → FileSystem) : Output := fun w filename contents force =>
  World.writeOutput { w with files := g w.files } filename contents force

/-- A run of a command during which, after it has read its files and before it writes its output, other programs
do `g` to the files. -/
def overlapped (env : Env) (g : FileSystem → FileSystem) (c : Command) (w : World) : Out Unit × World :=
  runVia env (meddled g) c w

end Verif.Spec
