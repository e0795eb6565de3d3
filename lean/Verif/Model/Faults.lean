import Verif.Model.Cmd

/-!
# Model of the commands when writing may fail

`Model/Cmd.lean` takes it that standard output and the file system accept everything.  Here they may
refuse: each write to standard output and the write of the output file has a fate, fixed beforehand
and otherwise arbitrary.  What matters is which errors the code looks at.  Errors of reading need no
model of their own: a file that cannot be read is treated like one that does not exist.
-/

set_option autoImplicit false

namespace Verif.Cmd
open Disk

/-- What becomes of the write of a file by `os.WriteFile`: it is done; the file cannot be opened for
writing; or it is truncated and then only the first `k` bytes can be written. -/
inductive Fate where
  | done
  | refused
  | cut (k : Nat)

/-- What becomes of the writes of a run: of the `i`-th write to standard output (`some k` is an error
after `k` bytes) and of the write of the output file. -/
structure Faults where
  stdout : Nat → Option Nat
  file : Fate

/-- `os.Stdout.Write`, as the `i`-th write to standard output. -/
def Faults.print (fa : Faults) (i : Nat) (text : Bytes) : Act Unit := fun w =>
  match fa.stdout i with
  | none => (.ok (), { w with stdout := w.stdout ++ text })
  | some k => (.err .other, { w with stdout := w.stdout ++ text.take k })

/-- A call whose error is dropped. -/
def ignoring (m : Act Unit) : Act Unit := fun w => (.ok (), (m w).2)

/-- helpers/helpers.go:25-36 `WriteOutput` -/
def Faults.output (fa : Faults) : Output := fun w filename contents force =>
  if filename = str "-" then fa.print 0 contents w
  else if force = false ∧ (w.files filename).isSome then (.err .other, w)
  else match fa.file with
    | .done => (.ok (), w.writeFile filename contents)
    | .refused => (.err .other, w)
    | .cut k => (.err .other, w.writeFile filename (contents.take k))

/-- cmd/catalog.go:51-57: the loop that prints the names, with `fmt.Println` whose errors are not
looked at. -/
def lsPrint (fa : Faults) (shortNames : Bool) : Nat → List Descriptor → Act Unit
  | _, [] => pure ()
  | i, fd :: fds => do
    ignoring (fa.print i ((if shortNames = false ∧ fd.fullname ≠ [] then fd.fullname else fd.name) ++ [0x0A]))
    lsPrint fa shortNames (i + 1) fds

/-- cmd/catalog.go:33-59 `LsCmd.Run` -/
def lsWith (fa : Faults) (env : Env) (order : DiskOrder) (system : Str) (shortNames : Bool) (image directory : Str) : Act Unit := do
  let (op, _) ← openDisk env image order system
  if directory ≠ [] ∧ op.hasSubdirs = false then lift (.err .other)
  else do
    let fds ← lift (op.catalog env directory)
    lsPrint fa shortNames 0 fds

/-- cmd/dump.go:29-44 `DumpCmd.Run` -/
def dumpWith (fa : Faults) (env : Env) (order : DiskOrder) (system : Str) (diskImage filename : Str) : Act Unit := do
  let (op, _) ← openDisk env diskImage order system
  let file ← lift (op.getFile filename)
  fa.print 0 file.data

/-- cmd/applesoft.go:35-50 `DecodeCmd.Run`: the result of `os.Stdout.WriteString` is assigned to `_`. -/
def decodeWith (fa : Faults) (env : Env) (filename : Str) (location : UInt16) (raw : Bool) : Act Unit := do
  let contents ← contentsOf filename
  let listing ← lift (Applesoft.decode env.budget contents location)
  if raw then ignoring (fa.print 0 (Applesoft.Listing.string listing))
  else ignoring (fa.print 0 (Basic.chevronControlCodes (Applesoft.Listing.string listing)))

/-- cmd/filetypes.go:19-28 `FiletypesCmd.Run`: the result of `Flush` is assigned to `_`.  The tab
writer writes in pieces and stops at the first error; that is one write here. -/
def filetypesWith (fa : Faults) (all : Bool) : Act Unit :=
  ignoring (fa.print 0 ((filetypeRows all).flatMap (tabLine (filetypeRows all))))

/-- main.go:35-57 `run`, after parsing. -/
def runWith (fa : Faults) (env : Env) : Command → Act Unit
  | .ls o s sh i d => lsWith fa env o s sh i d
  | .reorder o n ow i j => reorder fa.output o n ow i j
  | .filetypes a => filetypesWith fa a
  | .put o s t ow a i x y => putCmd env fa.output o s t ow a i x y
  | .rm o s m i n => rm env fa.output o s m i n
  | .dump o s i n => dumpWith fa env o s i n
  | .mkhello o i n a s => mkhello env fa.output o i n a s
  | .mksd o i b a s => mksd fa.output o i b a s
  | .decode f l r => decodeWith fa env f l r

/-- main.go:59-65 `main`: the exit status, 2 being that of a Go program that panics; `none` if the
program does not end. -/
def exitStatus : Out Unit → Option Nat
  | .ok _ => some 0
  | .err _ => some 1
  | .panic => some 2
  | .timeout => none

end Verif.Cmd
