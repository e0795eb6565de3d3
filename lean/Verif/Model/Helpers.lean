import Verif.Go.Basic

/-!
# Model of `helpers/helpers.go`: reading and writing files, `-` meaning stdin/stdout

Simplifications: paths are taken literally (no directories, links, permissions or
I/O errors; `filepath.Clean` is the identity); a path either holds a regular file
or nothing.
-/

set_option autoImplicit false

namespace Verif

/-- What a command can observe and change outside its own memory. -/
structure World where
  files : Str → Option Bytes
  stdin : Bytes
  stdout : Bytes

namespace World

/-- `os.WriteFile(filename, contents, 0600)` run to completion. -/
def writeFile (w : World) (filename : Str) (contents : Bytes) : World :=
  { w with files := fun p => if p = filename then some contents else w.files p }

/-- helpers/helpers.go:17-22 `FileContentsOrStdIn` -/
def fileContentsOrStdIn (w : World) (s : Str) : Out Bytes × World :=
  if s = str "-" then (.ok w.stdin, { w with stdin := [] })
  else match w.files s with
    | some b => (.ok b, w)
    | none => (.err .other, w)

/-- helpers/helpers.go:25-36 `WriteOutput` -/
def writeOutput (w : World) (filename : Str) (contents : Bytes) (force : Bool) : Out Unit × World :=
  if filename = str "-" then (.ok (), { w with stdout := w.stdout ++ contents })
  else if force = false ∧ (w.files filename).isSome then (.err .other, w)
  else (.ok (), w.writeFile filename contents)

end World
end Verif
