import Verif.Model.Cmd

/-!
# Model of the commands as programs that share files with other programs

`Model/Cmd.lean` runs a command in one go.  Here a command is a tree of the system calls it makes, so that other programs can run between
any two of them.  What it computes between two calls is the same as there.

Simplifications: reading a file is one call (`os.ReadFile` makes several; see `Model/Fine.lean`); writing one is two, since `os.WriteFile` opens the
file, creating or truncating it, and then writes at its beginning.
-/

set_option autoImplicit false

namespace Verif.Cmd
open Disk

/-- A program that makes system calls and ends with an outcome. -/
inductive Prog (α : Type) where
  | ret (o : Out α)
  | stdin (k : Bytes → Prog α)
  | read (p : Str) (k : Option Bytes → Prog α)
  | stat (p : Str) (k : Bool → Prog α)
  | trunc (p : Str) (k : Prog α)
  | write (p : Str) (b : Bytes) (k : Prog α)
  | print (b : Bytes) (k : Prog α)

namespace Prog

variable {α β : Type}

/-- Sequencing: anything but a normal return ends the command. -/
def bind (m : Prog α) (f : α → Prog β) : Prog β :=
  match m with
  | .ret (.ok a) => f a
  | .ret (.err k) => .ret (.err k)
  | .ret .panic => .ret .panic
  | .ret .timeout => .ret .timeout
  | .stdin k => .stdin fun b => (k b).bind f
  | .read p k => .read p fun b => (k b).bind f
  | .stat p k => .stat p fun b => (k b).bind f
  | .trunc p k => .trunc p (k.bind f)
  | .write p b k => .write p b (k.bind f)
  | .print b k => .print b (k.bind f)

instance : Monad Prog where
  pure a := .ret (.ok a)
  bind := Prog.bind

/-- helpers/helpers.go:17-22 `FileContentsOrStdIn` -/
def contentsOf (path : Str) : Prog Bytes :=
  if path = str "-" then .stdin fun b => .ret (.ok b)
  else .read path fun
    | some b => .ret (.ok b)
    | none => .ret (.err .other)

/-- disk/open.go:16-38 `OpenFilename` and `OpenFile` with the registered systems. -/
def openDisk (env : Env) (filename : Str) (order : DiskOrder) (system : Str) : Prog (AnyOp × DiskOrder) :=
  if filename = str "-" then .stdin fun b => .ret (openImage b (str "/dev/stdin") order system (factories env))
  else .read filename fun
    | none => .ret (.err .other)
    | some bb => .ret (openImage bb filename order system (factories env))

/-- `os.WriteFile(filename, contents, 0600)` -/
def writeFile (filename : Str) (contents : Bytes) : Prog Unit := .trunc filename (.write filename contents (.ret (.ok ())))

/-- helpers/helpers.go:25-36 `WriteOutput` -/
def writeOutput (filename : Str) (contents : Bytes) (force : Bool) : Prog Unit :=
  if filename = str "-" then .print contents (.ret (.ok ()))
  else if force = false then .stat filename fun there => if there = true then .ret (.err .other) else writeFile filename contents
  else writeFile filename contents

/-- disk/open.go:210-230 `WriteBack`, always overwriting. -/
def writeDisk (filename : Str) (op : AnyOp) (order : DiskOrder) : Prog Unit :=
  (Prog.ret (writeBackBytes op order)).bind fun b => writeOutput filename b true

/-- cmd/catalog.go:33-59 `LsCmd.Run` -/
def ls (env : Env) (order : DiskOrder) (system : Str) (shortNames : Bool) (image directory : Str) : Prog Unit := do
  let (op, _) ← openDisk env image order system
  if directory ≠ [] ∧ op.hasSubdirs = false then .ret (.err .other)
  else do
    let fds ← Prog.ret (op.catalog env directory)
    .print (lsLines shortNames fds) (.ret (.ok ()))

/-- cmd/dump.go:29-44 `DumpCmd.Run` -/
def dump (env : Env) (order : DiskOrder) (system : Str) (diskImage filename : Str) : Prog Unit := do
  let (op, _) ← openDisk env diskImage order system
  let file ← Prog.ret (op.getFile filename)
  .print file.data (.ret (.ok ()))

/-- cmd/delete.go:30-44 `DeleteCmd.Run` -/
def rm (env : Env) (order : DiskOrder) (system : Str) (missingOk : Bool) (diskImage filename : Str) : Prog Unit := do
  let (op, diskOrder) ← openDisk env diskImage order system
  let (r, op') := op.delete filename
  let deleted ← Prog.ret r
  if deleted = false ∧ missingOk = false then .ret (.err .other)
  else writeDisk diskImage op' diskOrder

/-- cmd/put.go:34-69 `PutCmd.Run` -/
def putCmd (env : Env) (order : DiskOrder) (system filetypeName : Str) (overwrite : Bool)
    (address : UInt16) (diskImage target source : Str) : Prog Unit := do
  if diskImage = str "-" ∧ source = str "-" then .ret (.err .other)
  else do
    let (op, diskOrder) ← openDisk env diskImage order system
    let contents ← contentsOf source
    let filetype ← Prog.ret (Types.filetypeForName filetypeName)
    let fileInfo : FileInfo :=
      { descriptor := { name := target, length := contents.length, type := filetype }
        data := contents
        startAddress := address }
    let (r, op') := op.putFile fileInfo overwrite
    let _ ← Prog.ret r
    writeDisk diskImage op' diskOrder

/-- cmd/nakedos.go:51-110 `MkHelloCmd.Run` -/
def mkhello (env : Env) (order : DiskOrder) (diskImage filename : Str) (address start : UInt16) : Prog Unit :=
  let start := effectiveStart address start
  if address % 256 ≠ 0 then .ret (.err .other)
  else if start < address then .ret (.err .other)
  else do
    let (op, diskOrder) ← openDisk env diskImage order (str "auto")
    match op with
    | .nakedos nakOp => do
      let (addr, symbolAddr, _) ← Prog.ret (Supermon.filesForCompoundName nakOp.table filename)
      if addr = 0 ∧ symbolAddr = 0 then .ret (.err .other)
      else do
        let toLoad := if addr = 0 then symbolAddr else addr
        let contents := helloProgram toLoad address start
        let fileInfo : FileInfo :=
          { descriptor := { name := str "DF01:FHELLO", length := contents.length, type := filetypeBinary }
            data := contents }
        let (r, op') := AnyOp.putFile (.nakedos nakOp) fileInfo true
        let _ ← Prog.ret r
        writeDisk diskImage op' diskOrder
    | _ => .ret (.err .other)

/-- cmd/applesoft.go:35-50 `DecodeCmd.Run` -/
def decodeCmd (env : Env) (filename : Str) (location : UInt16) (raw : Bool) : Prog Unit := do
  let contents ← contentsOf filename
  let listing ← Prog.ret (Applesoft.decode env.budget contents location)
  if raw then .print (Applesoft.Listing.string listing) (.ret (.ok ()))
  else .print (Basic.chevronControlCodes (Applesoft.Listing.string listing)) (.ret (.ok ()))

/-- cmd/reorder.go:22-55 `ReorderCmd.Run` -/
def reorder (order newOrder : DiskOrder) (overwrite : Bool) (diskImage newDiskImage : Str) : Prog Unit := do
  let (fromName, toName) ← Prog.ret (getOrders diskImage order newDiskImage newOrder)
  let frombytes ← contentsOf diskImage
  let tobytes ← Prog.ret (reorderBytes fromName toName frombytes)
  if newDiskImage = [] then writeOutput diskImage tobytes true
  else writeOutput newDiskImage tobytes overwrite

/-- cmd/sd.go:40-127 `SDCmd.Run` -/
def mksd (order : DiskOrder) (diskImage binary : Str) (address start : UInt16) : Prog Unit := do
  let contents ← contentsOf binary
  let disk ← Prog.ret (sdImage contents address (effectiveStart address start))
  let raw ← Prog.ret (swizzle disk (physicalToLogicalByName (sdOrder order diskImage)))
  writeOutput diskImage raw true

/-- cmd/filetypes.go:19-28 `FiletypesCmd.Run` -/
def filetypes (all : Bool) : Prog Unit := .print ((filetypeRows all).flatMap (tabLine (filetypeRows all))) (.ret (.ok ()))

end Prog

/-- main.go:35-57 `run`, after parsing. -/
def program (env : Env) : Command → Prog Unit
  | .ls o s sh i d => Prog.ls env o s sh i d
  | .reorder o n ow i j => Prog.reorder o n ow i j
  | .filetypes a => Prog.filetypes a
  | .put o s t ow a i x y => Prog.putCmd env o s t ow a i x y
  | .rm o s m i n => Prog.rm env o s m i n
  | .dump o s i n => Prog.dump env o s i n
  | .mkhello o i n a s => Prog.mkhello env o i n a s
  | .mksd o i b a s => Prog.mksd o i b a s
  | .decode f l r => Prog.decodeCmd env f l r

/-! ## Programs that run at the same time -/

/-- A running program: what it still has to do, and its own standard input and output. -/
structure Proc where
  prog : Prog Unit
  stdin : Bytes
  stdout : Bytes

/-- One system call; a program that has ended does nothing. -/
def Proc.step (fs : Str → Option Bytes) (p : Proc) : (Str → Option Bytes) × Proc :=
  match p.prog with
  | .ret _ => (fs, p)
  | .stdin k => (fs, ⟨k p.stdin, [], p.stdout⟩)
  | .read q k => (fs, ⟨k (fs q), p.stdin, p.stdout⟩)
  | .stat q k => (fs, ⟨k (fs q).isSome, p.stdin, p.stdout⟩)
  | .trunc q k => (fun r => if r = q then some [] else fs r, ⟨k, p.stdin, p.stdout⟩)
  | .write q b k => (fun r => if r = q then some (b ++ ((fs q).getD []).drop b.length) else fs r, ⟨k, p.stdin, p.stdout⟩)
  | .print b k => (fs, ⟨k, p.stdin, p.stdout ++ b⟩)

/-- The files and the programs that run. -/
structure Sys (ι : Type) where
  files : Str → Option Bytes
  procs : ι → Proc

/-- Program `i` makes a system call. -/
def Sys.step {ι : Type} [DecidableEq ι] (s : Sys ι) (i : ι) : Sys ι :=
  ⟨((s.procs i).step s.files).1, fun j => if j = i then ((s.procs i).step s.files).2 else s.procs j⟩

/-- The programs make system calls in the order of the schedule. -/
def Sys.run {ι : Type} [DecidableEq ι] (s : Sys ι) (schedule : List ι) : Sys ι := schedule.foldl Sys.step s

/-- All commands have just been started. -/
def Sys.start {ι : Type} (env : Env) (fs : Str → Option Bytes) (cmds : ι → Command) (stdin : ι → Bytes) : Sys ι :=
  ⟨fs, fun i => ⟨program env (cmds i), stdin i, []⟩⟩

end Verif.Cmd
