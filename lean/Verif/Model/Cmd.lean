import Verif.Model.Reorder
import Verif.Model.Dos3
import Verif.Model.Supermon
import Verif.Model.Prodos
import Verif.Model.Basic
import Verif.Model.Filetype

/-!
# Model of the commands in `cmd/` and of `main.go`

A command takes the world to an outcome and a new world.  The function that writes the output
(`helpers.WriteOutput`) is a parameter, so that the same commands can be run with a write that is
cut short.  Command line parsing by kong is not modelled: a command's fields are arguments.
-/

set_option autoImplicit false

namespace Verif.Cmd
open Disk

/-- A computation that reads and changes the world. -/
def Act (α : Type) : Type := World → Out α × World

/-- Sequencing: anything but a normal return ends the command. -/
def Act.bind {α β : Type} (m : Act α) (f : α → Act β) : Act β := fun w =>
  match m w with
  | (.ok a, w') => f a w'
  | (.err k, w') => (.err k, w')
  | (.panic, w') => (.panic, w')
  | (.timeout, w') => (.timeout, w')

instance : Monad Act where
  pure a := fun w => (.ok a, w)
  bind := Act.bind

/-- A computation that does not touch the world. -/
def lift {α : Type} (o : Out α) : Act α := fun w => (o, w)

/-- `helpers.FileContentsOrStdIn` (helpers/helpers.go:17-22). -/
def contentsOf (path : Str) : Act Bytes := fun w => w.fileContentsOrStdIn path

/-- Write to standard output. -/
def print (text : Bytes) : Act Unit := fun w => (.ok (), { w with stdout := w.stdout ++ text })

/-- The signature of helpers/helpers.go:25-36 `WriteOutput`. -/
abbrev Output := World → Str → Bytes → Bool → Out Unit × World

/-- `WriteOutput` when the process dies during it: only the first `k` bytes get written, and it does
not return.  `os.WriteFile` first truncates the file and then writes. -/
def interrupted (k : Nat) : Output := fun w filename contents force =>
  if filename = str "-" then (.timeout, { w with stdout := w.stdout ++ contents.take k })
  else if force = false ∧ (w.files filename).isSome then (.err .other, w)
  else (.timeout, w.writeFile filename (contents.take k))

/-! ## The registered systems -/

/-- What a run does not control: the budget for loops that may not end (running out of it is
`timeout`) and the order in which maps are visited. -/
structure Env where
  budget : Nat
  order : RangeOrder UInt16 Prodos.Subdirectory

/-- types/ops.go:51-73 `Operator`: the three implementations. -/
inductive AnyOp where
  | dos3 (o : Dos3.Operator)
  | nakedos (o : Supermon.Operator)
  | prodos (o : Prodos.Operator)

namespace AnyOp

instance : OperatorLike AnyOp where
  getBytes
    | .dos3 o => OperatorLike.getBytes o
    | .nakedos o => OperatorLike.getBytes o
    | .prodos o => OperatorLike.getBytes o
  diskOrder
    | .dos3 o => OperatorLike.diskOrder o
    | .nakedos o => OperatorLike.diskOrder o
    | .prodos o => OperatorLike.diskOrder o

/-- dos3/dos3.go:563-568, supermon/supermon.go:655-661, prodos/prodos.go:855-860 `Name` -/
def name : AnyOp → Str
  | .dos3 _ => str "dos3"
  | .nakedos _ => str "nakedos"
  | .prodos _ => str "prodos"

/-- dos3/dos3.go:572-574, supermon/supermon.go:665-667, prodos/prodos.go:864-866 `HasSubdirs` -/
def hasSubdirs : AnyOp → Bool
  | .dos3 _ => false
  | .nakedos _ => false
  | .prodos _ => true

/-- types/ops.go:61 `Catalog` -/
def catalog (env : Env) : AnyOp → Str → Out (List Descriptor)
  | .dos3 o, subdir => o.catalog subdir
  | .nakedos o, _ => .ok o.catalog
  | .prodos o, subdir => o.catalog env.budget env.order subdir

/-- types/ops.go:63 `GetFile` -/
def getFile : AnyOp → Str → Out FileInfo
  | .dos3 o, n => o.getFile n
  | .nakedos o, n => o.getFile n
  | .prodos o, n => o.getFile n

/-- types/ops.go:66 `Delete`: whether the file existed, and the operator afterwards. -/
def delete : AnyOp → Str → Out Bool × AnyOp
  | .dos3 o, n => (o.delete n, .dos3 o)
  | .nakedos o, n =>
    let r := o.delete n
    ((match r.out with
      | .ok _ => .ok r.existed
      | .err k => .err k
      | .panic => .panic
      | .timeout => .timeout), .nakedos r.op)
  | .prodos o, n => ((o.delete n).1, .prodos (o.delete n).2)

/-- types/ops.go:70 `PutFile`: whether the file existed, and the operator afterwards. -/
def putFile : AnyOp → FileInfo → Bool → Out Bool × AnyOp
  | .dos3 o, fi, ow => (o.putFile fi ow, .dos3 o)
  | .nakedos o, fi, ow =>
    let r := o.putFile fi ow
    ((match r.out with
      | .ok _ => .ok r.existed
      | .err k => .err k
      | .panic => .panic
      | .timeout => .timeout), .nakedos r.op)
  | .prodos o, fi, ow => ((o.putFile fi ow).1, .prodos (o.putFile fi ow).2)

end AnyOp

/-- A factory whose operators are seen as values of a common type. -/
def Factory.map {Ω Ω' : Type} (g : Ω → Ω') (f : Factory Ω) : Factory Ω' where
  name := f.name
  diskOrder := f.diskOrder
  seemsToMatch := f.seemsToMatch
  operator b := match f.operator b with
    | .ok o => .ok (g o)
    | .err k => .err k
    | .panic => .panic
    | .timeout => .timeout

/-- main.go:49-53 `DiskOperatorFactories` -/
def factories (env : Env) : List (Factory AnyOp) :=
  [Factory.map .dos3 Dos3.factory, Factory.map .nakedos Supermon.factory,
    Factory.map .prodos (Prodos.factory env.budget env.order)]

/-- disk/open.go:16-38 `OpenFilename` and `OpenFile` with the registered systems. -/
def openDisk (env : Env) (filename : Str) (order : DiskOrder) (system : Str) : Act (AnyOp × DiskOrder) :=
  fun w => openFilename w filename order system (factories env)

/-- disk/open.go:210-230 `WriteBack`, always overwriting. -/
def writeDisk (wo : Output) (filename : Str) (op : AnyOp) (order : DiskOrder) : Act Unit :=
  fun w => writeBackVia wo w filename op order true

/-! ## The commands -/

/-- cmd/catalog.go:51-57: the lines printed by `ls`. -/
def lsLines (shortNames : Bool) (fds : List Descriptor) : Bytes :=
  fds.flatMap fun fd => (if shortNames = false ∧ fd.fullname ≠ [] then fd.fullname else fd.name) ++ [0x0A]

/-- cmd/catalog.go:33-59 `LsCmd.Run`.  kong opens the image file; `-` is standard input. -/
def ls (env : Env) (order : DiskOrder) (system : Str) (shortNames : Bool) (image directory : Str) : Act Unit := do
  let (op, _) ← openDisk env image order system
  if directory ≠ [] ∧ op.hasSubdirs = false then lift (.err .other)
  else do
    let fds ← lift (op.catalog env directory)
    print (lsLines shortNames fds)

/-- cmd/dump.go:29-44 `DumpCmd.Run` -/
def dump (env : Env) (order : DiskOrder) (system : Str) (diskImage filename : Str) : Act Unit := do
  let (op, _) ← openDisk env diskImage order system
  let file ← lift (op.getFile filename)
  print file.data

/-- cmd/delete.go:30-44 `DeleteCmd.Run` -/
def rm (env : Env) (wo : Output) (order : DiskOrder) (system : Str) (missingOk : Bool)
    (diskImage filename : Str) : Act Unit := do
  let (op, diskOrder) ← openDisk env diskImage order system
  let (r, op') := op.delete filename
  let deleted ← lift r
  if deleted = false ∧ missingOk = false then lift (.err .other)
  else writeDisk wo diskImage op' diskOrder

/-- cmd/put.go:34-69 `PutCmd.Run` -/
def putCmd (env : Env) (wo : Output) (order : DiskOrder) (system filetypeName : Str) (overwrite : Bool)
    (address : UInt16) (diskImage target source : Str) : Act Unit := do
  if diskImage = str "-" ∧ source = str "-" then lift (.err .other)
  else do
    let (op, diskOrder) ← openDisk env diskImage order system
    let contents ← contentsOf source
    let filetype ← lift (Types.filetypeForName filetypeName)
    let fileInfo : FileInfo :=
      { descriptor := { name := target, length := contents.length, type := filetype }
        data := contents
        startAddress := address }
    let (r, op') := op.putFile fileInfo overwrite
    let _ ← lift r
    writeDisk wo diskImage op' diskOrder

/-- cmd/nakedos.go:86-93: the program that loads file `toLoad` and jumps to `start`. -/
def helloProgram (toLoad : UInt8) (address start : UInt16) : Bytes :=
  [0x20, 0x40, 0x03,
   0x6D, 0x01, 0xDC,
   0x2C, toLoad, 0xDF,
   0x2C, 0x00, hi8 address,
   0xD8,
   0x4C, lo8 start, hi8 start]

/-- cmd/nakedos.go:52-54, cmd/sd.go:41-43: 0xFFFF means the load address. -/
def effectiveStart (address start : UInt16) : UInt16 := if start = 0xFFFF then address else start

/-- cmd/nakedos.go:51-110 `MkHelloCmd.Run`.  The type assertion to `supermon.Operator` succeeds for
every operator named "nakedos". -/
def mkhello (env : Env) (wo : Output) (order : DiskOrder) (diskImage filename : Str) (address start : UInt16) :
    Act Unit :=
  let start := effectiveStart address start
  if address % 256 ≠ 0 then lift (.err .other)
  else if start < address then lift (.err .other)
  else do
    let (op, diskOrder) ← openDisk env diskImage order (str "auto")
    match op with
    | .nakedos nakOp => do
      let (addr, symbolAddr, _) ← lift (Supermon.filesForCompoundName nakOp.table filename)
      if addr = 0 ∧ symbolAddr = 0 then lift (.err .other)
      else do
        let toLoad := if addr = 0 then symbolAddr else addr
        let contents := helloProgram toLoad address start
        let fileInfo : FileInfo :=
          { descriptor := { name := str "DF01:FHELLO", length := contents.length, type := filetypeBinary }
            data := contents }
        let (r, op') := AnyOp.putFile (.nakedos nakOp) fileInfo true
        let _ ← lift r
        writeDisk wo diskImage op' diskOrder
    | _ => lift (.err .other)

/-- cmd/applesoft.go:35-50 `DecodeCmd.Run` -/
def decodeCmd (env : Env) (filename : Str) (location : UInt16) (raw : Bool) : Act Unit := do
  let contents ← contentsOf filename
  let listing ← lift (Applesoft.decode env.budget contents location)
  if raw then print (Applesoft.Listing.string listing)
  else print (Basic.chevronControlCodes (Applesoft.Listing.string listing))

/-- cmd/reorder.go:22-55 `ReorderCmd.Run` -/
def reorder (wo : Output) (order newOrder : DiskOrder) (overwrite : Bool) (diskImage newDiskImage : Str) : Act Unit :=
  fun w => reorderVia wo w order newOrder overwrite diskImage newDiskImage

/-! ### `mksd` -/

/-- cmd/sd.go:70-77: the Standard Delivery boot loader without its page table. -/
def sdLoader (start : UInt16) : Bytes :=
  [0x01, 0xa8, 0xee, 0x06, 0x08, 0xad, 0x4e, 0x08, 0xc9, 0xc0, 0xf0, 0x40, 0x85, 0x27, 0xc8,
   0xc0, 0x10, 0x90, 0x09, 0xf0, 0x05, 0x20, 0x2f, 0x08, 0xa8, 0x2c, 0xa0, 0x01, 0x84, 0x3d,
   0xc8, 0xa5, 0x27, 0xf0, 0xdf, 0x8a, 0x4a, 0x4a, 0x4a, 0x4a, 0x09, 0xc0, 0x48, 0xa9, 0x5b,
   0x48, 0x60, 0xe6, 0x41, 0x06, 0x40, 0x20, 0x37, 0x08, 0x18, 0x20, 0x3c, 0x08, 0xe6, 0x40,
   0xa5, 0x40, 0x29, 0x03, 0x2a, 0x05, 0x2b, 0xa8, 0xb9, 0x80, 0xc0, 0xa9, 0x30, 0x4c, 0xa8,
   0xfc, 0x4c, lo8 start, hi8 start]

/-- cmd/sd.go:91-100: the next track and sector; `none` is "ran out of tracks". -/
def nextSector (track sector : UInt8) : Option (UInt8 × UInt8) :=
  let sector := sector + 2
  if sector ≥ 16 then
    let sector := 17 - sector
    if sector = 0 then
      let track := track + 1
      if track ≥ 35 then none else some (track, sector)
    else some (track, sector)
  else some (track, sector)

/-- cmd/sd.go:90-107: the loop that places the pages of the binary.  `i` is the offset in the
binary, `pages` the number of pages left. -/
def sdLoop (contents : Bytes) (address : Nat) : (pages : Nat) → (i : Nat) → (track sector : UInt8) →
    (loader disk : Bytes) → Out (Bytes × Bytes)
  | 0, _, _, _, loader, disk => .ok (loader, disk)
  | pages + 1, i, track, sector, loader, disk =>
    match nextSector track sector with
    | none => .err .other
    | some (track, sector) =>
      let loader := loader ++ [UInt8.ofNat ((address + i) / 256)]
      match writeSector disk track sector (slice contents i 256) with
      | (.ok _, disk) => sdLoop contents address pages (i + 256) track sector loader disk
      | (.err k, _) => .err k
      | (.panic, _) => .panic
      | (.timeout, _) => .timeout

/-- cmd/sd.go:83-85 and 109-112: append zeros up to a length. -/
def padTo (n : Nat) (b : Bytes) : Bytes := b ++ zeros (n - b.length)

/-- cmd/sd.go:49-116: the disk that `mksd` makes, in physical order. -/
def sdImage (contents : Bytes) (address start : UInt16) : Out Bytes :=
  if address % 256 ≠ 0 then .err .other
  else if start < address then .err .other
  else if start.toNat ≥ address.toNat + contents.length then .err .other
  else if start.toNat + contents.length > 0xC000 then .err .other
  else
    let sectors := (contents.length + 255) / 256
    let loader := sdLoader start
    if loader.length + sectors + 1 > 256 then .err .other
    else do
      let (loader, disk) ← sdLoop (padTo (256 * sectors) contents) address.toNat sectors 0 0 0 loader
        (zeros floppyDiskBytes)
      match writeSector disk 0 0 (padTo 256 (loader ++ [0xC0])) with
      | (.ok _, disk) => .ok disk
      | (.err k, _) => .err k
      | (.panic, _) => .panic
      | (.timeout, _) => .timeout

/-- cmd/sd.go:118-121: the order of the image file. -/
def sdOrder (order : DiskOrder) (diskImage : Str) : DiskOrder :=
  if order = orderAuto then orderFromFilename diskImage orderDO else order

/-- cmd/sd.go:40-127 `SDCmd.Run`.  kong opens the binary; `-` is standard input. -/
def mksd (wo : Output) (order : DiskOrder) (diskImage binary : Str) (address start : UInt16) : Act Unit := do
  let contents ← contentsOf binary
  let disk ← lift (sdImage contents address (effectiveStart address start))
  let raw ← lift (swizzle disk (physicalToLogicalByName (sdOrder order diskImage)))
  fun w => wo w diskImage raw true

/-! ### `filetypes` -/

/-- The cells of one line of the table. -/
def filetypeRow (info : Types.FiletypeInfo) : List Str := [info.desc, info.name, info.threeLetter, info.oneLetter]

/-- cmd/filetypes.go:21-25: the lines given to the tab writer. -/
def filetypeRows (all : Bool) : List (List Str) :=
  [str "Description", str "Name", str "Three-letter Name", str "One-letter Name"] ::
  [str "-----------", str "----", str "-----------------", str "---------------"] ::
  (Types.listFiletypes all).map filetypeRow

/-- Width of a column of a table for a `text/tabwriter` with padding 1. -/
def colWidth (rows : List (List Str)) (k : Nat) : Nat :=
  (rows.map fun r => (r.getD k []).length).foldl max 0 + 1

/-- A line as `text/tabwriter` prints it: every cell but the last padded to the column's width.
All lines have the same number of cells, and all cells are ASCII. -/
def tabLine (rows : List (List Str)) (r : List Str) : Str :=
  ((List.range 3).flatMap fun k =>
    let c := r.getD k []
    c ++ List.replicate (colWidth rows k - c.length) 0x20) ++ r.getD 3 [] ++ [0x0A]

/-- cmd/filetypes.go:19-28 `FiletypesCmd.Run` -/
def filetypes (all : Bool) : Act Unit :=
  print ((filetypeRows all).flatMap (tabLine (filetypeRows all)))

/-! ## The command line -/

/-- main.go:21-33: the commands with their flags and arguments. -/
inductive Command where
  | ls (order : DiskOrder) (system : Str) (shortNames : Bool) (image directory : Str)
  | reorder (order newOrder : DiskOrder) (overwrite : Bool) (diskImage newDiskImage : Str)
  | filetypes (all : Bool)
  | put (order : DiskOrder) (system filetypeName : Str) (overwrite : Bool) (address : UInt16)
      (diskImage target source : Str)
  | rm (order : DiskOrder) (system : Str) (missingOk : Bool) (diskImage filename : Str)
  | dump (order : DiskOrder) (system : Str) (diskImage filename : Str)
  | mkhello (order : DiskOrder) (diskImage filename : Str) (address start : UInt16)
  | mksd (order : DiskOrder) (diskImage binary : Str) (address start : UInt16)
  | decode (filename : Str) (location : UInt16) (raw : Bool)

/-- main.go:35-57 `run`, after parsing, with a given way of writing output. -/
def runVia (env : Env) (wo : Output) : Command → Act Unit
  | .ls o s sh i d => ls env o s sh i d
  | .reorder o n ow i j => reorder wo o n ow i j
  | .filetypes a => filetypes a
  | .put o s t ow a i x y => putCmd env wo o s t ow a i x y
  | .rm o s m i n => rm env wo o s m i n
  | .dump o s i n => dump env o s i n
  | .mkhello o i n a s => mkhello env wo o i n a s
  | .mksd o i b a s => mksd wo o i b a s
  | .decode f l r => decodeCmd env f l r

/-- main.go:35-57 `run`, after parsing. -/
def run (env : Env) (c : Command) : Act Unit := runVia env World.writeOutput c

end Verif.Cmd
