import Verif.Model.Heap
import Verif.Model.HeapDos3
import Verif.Model.Cmd

/-!
# Model of opening images, and of all operators, on slices in memory

As `Model/Heap.lean`, for the whole of `disk/open.go` and for operators of every kind.  What is only read and copied into structs (catalogs,
track/sector lists, ProDOS blocks) is read as a value.
-/

set_option autoImplicit false

namespace Verif.HeapOpen
open Disk Heap Cmd

variable (grow : Nat → Nat → Nat) (env : Env)

/-- types/ops.go:51-73 `Operator`: what each kind of operator holds. -/
inductive HOp where
  /-- dos3/dos3.go:554-557 -/
  | dos3 (d : Slice)
  /-- supermon/supermon.go:645-650 -/
  | nakedos (o : Heap.Op)
  /-- prodos/prodos.go:846-849 -/
  | prodos (d : Slice)

/-- types/ops.go:38-48 `OperatorFactory` -/
structure HFactory where
  name : Str
  diskOrder : DiskOrder
  seemsToMatch : Slice → M Bool
  operator : Slice → M HOp

/-- A question that is answered from the bytes of a slice. -/
def ask {α : Type} (f : Bytes → Out α) (d : Slice) : M α := fun m => (f (bytesOf m d), m)

/-- supermon/supermon.go:809-819 `SeemsToMatch` -/
def nakedosMatches (d : Slice) : M Bool := fun m =>
  match (do let sm ← Heap.loadSectorMap d; let v ← theMap sm; lift (Supermon.verify v) : M Unit) m with
  | (.ok _, m) => (.ok true, m)
  | (.err _, m) => (.ok false, m)
  | (.panic, m) => (.panic, m)
  | (.timeout, m) => (.timeout, m)

/-- main.go:49-53 `DiskOperatorFactories`; dos3/dos3.go:685-709, supermon/supermon.go:798-844, prodos/prodos.go:932-956: the operators for DOS 3.3
and ProDOS are the slice they are given. -/
def factories : List HFactory :=
  [⟨str "dos3", orderDO, ask Dos3.seemsToMatch, fun d => pure (.dos3 d)⟩,
   ⟨str "nakedos", orderRaw, nakedosMatches, fun d => do let o ← Heap.openOperator grow d; pure (.nakedos o)⟩,
   ⟨str "prodos", orderPO, ask (Prodos.seemsToMatch env.budget env.order), fun d => pure (.prodos d)⟩]

/-- disk/open.go:71-79: the loop of `openHDV` over the factories.  The operator is given the slice of the caller. -/
def openHDVLoop (raw : Slice) : List HFactory → M (HOp × DiskOrder)
  | [] => lift (.err .other)
  | f :: fs =>
    if f.name = str "prodos" then do
      let op ← f.operator raw
      pure (op, orderPO)
    else openHDVLoop raw fs

/-- disk/open.go:57-81 `openHDV` -/
def openHDV (raw : Slice) (order : DiskOrder) (system : Str) (fs : List HFactory) : M (HOp × DiskOrder) :=
  if raw.len % 512 > 0 then lift (.err .other)
  else if raw.len / 512 > 65536 then lift (.err .other)
  else if order ≠ orderAuto ∧ order ≠ orderPO then lift (.err .other)
  else if system ≠ str "auto" ∧ system ≠ str "prodos" then lift (.err .other)
  else openHDVLoop raw fs

/-- disk/open.go:136-145: the operator, or on an error what comes next in the loop. -/
def orNext (x : M HOp) (order : DiskOrder) (next : M (Option (HOp × DiskOrder))) : M (Option (HOp × DiskOrder)) := fun m =>
  match x m with
  | (.ok op, m) => (.ok (some (op, order)), m)
  | (.err _, m) => next m
  | (.panic, m) => (.panic, m)
  | (.timeout, m) => (.timeout, m)

/-- disk/open.go:117-146: the loop over factories for one order. -/
def openInner (explicit : Bool) (order : DiskOrder) (swizzled : Slice) : List HFactory → M (Option (HOp × DiskOrder))
  | [] => pure none
  | f :: fs => do
    let diskbytes ← Heap.swizzle swizzled (physicalToLogicalByName f.diskOrder)
    if explicit then do
      let op ← f.operator diskbytes
      pure (some (op, order))
    else do
      let ok ← f.seemsToMatch diskbytes
      if ok then orNext (f.operator diskbytes) order (openInner explicit order swizzled fs)
      else openInner explicit order swizzled fs

/-- disk/open.go:112-148: the loop over orders. -/
def openOuter (explicit : Bool) (raw : Slice) (fs : List HFactory) : List DiskOrder → M (HOp × DiskOrder)
  | [] => lift (.err .other)
  | o :: os => do
    let swizzled ← Heap.swizzle raw (logicalToPhysicalByName o)
    let r ← openInner explicit o swizzled fs
    match r with
    | some x => pure x
    | none => openOuter explicit raw fs os

/-- disk/open.go:83-149 `openDoOrPo` -/
def openDoOrPo (raw : Slice) (order : DiskOrder) (system ext : Str) (operatorFactories : List HFactory) : M (HOp × DiskOrder) :=
  let fs := operatorFactories.filter fun f => system = str "auto" ∨ system = f.name
  if fs.length = 0 then lift (.err .other)
  else match ordersToTry order ext with
    | none => lift (.err .other)
    | some orders => openOuter (orders.length = 1 ∧ system ≠ str "auto") raw fs orders

/-- disk/open.go:41-55 `OpenImage` -/
def openImage (filebytes : Slice) (filename : Str) (order : DiskOrder) (system : Str) (fs : List HFactory) : M (HOp × DiskOrder) :=
  let ext := toLower (pathExt filename)
  if filebytes.len = floppyDiskBytes then openDoOrPo filebytes order system ext fs
  else if filebytes.len = floppyDiskBytes13Sector then lift (.err .other)
  else if ext = str ".hdv" then openHDV filebytes order system fs
  else lift (.err .other)

/-- disk/open.go:28-38 `OpenFile`, of a file with these contents: `io.ReadAll` gives them in an array of its own. -/
def openFile (contents : Bytes) (filename : Str) (order : DiskOrder) (system : Str) (fs : List HFactory) : M (HOp × DiskOrder) := do
  let bb ← alloc contents
  openImage bb filename order system fs

namespace HOp

/-- dos3/dos3.go:680-682, supermon/supermon.go:794-796, prodos/prodos.go:927-929 `GetBytes` -/
def getBytes : HOp → Slice
  | .dos3 d => d
  | .nakedos o => o.data
  | .prodos d => d

/-- dos3/dos3.go:675-677, supermon/supermon.go:789-791, prodos/prodos.go:922-924 `DiskOrder` -/
def diskOrder : HOp → DiskOrder
  | .dos3 _ => orderDO
  | .nakedos _ => orderRaw
  | .prodos _ => orderPO

/-- types/ops.go:61 `Catalog` -/
def catalog (h : HOp) (subdir : Str) : M (List Descriptor) :=
  match h with
  | .dos3 d => ask (fun b => Dos3.Operator.catalog ⟨b⟩ subdir) d
  | .nakedos o => o.catalog
  | .prodos d => ask (fun b => Prodos.Operator.catalog env.budget env.order ⟨b⟩ subdir) d

/-- types/ops.go:63 `GetFile` -/
def getFile (h : HOp) (name : Str) : M Slice :=
  match h with
  | .dos3 d => HeapDos3.getFile grow d name
  | .nakedos o => o.getFile grow name
  | .prodos _ => lift (.err .other)

/-- What a call that can change the operator leaves. -/
structure Res where
  out : Out Bool
  op : HOp
  mem : Mem

/-- Whether a file existed, when the call worked. -/
def answer (out : Out Unit) (existed : Bool) : Out Bool :=
  match out with
  | .ok _ => .ok existed
  | .err k => .err k
  | .panic => .panic
  | .timeout => .timeout

/-- types/ops.go:66 `Delete` -/
def delete (h : HOp) (name : Str) (m : Mem) : Res :=
  match h with
  | .dos3 d => ⟨(HeapDos3.delete d name m).1, .dos3 d, (HeapDos3.delete d name m).2⟩
  | .nakedos o => let r := o.delete name m; ⟨answer r.out r.existed, .nakedos r.op, r.mem⟩
  | .prodos d => ⟨.err .other, .prodos d, m⟩

/-- types/ops.go:70 `PutFile`, for a binary file with the length of its data. -/
def putFile (h : HOp) (name : Str) (data : Slice) (overwrite : Bool) (m : Mem) : Res :=
  match h with
  | .dos3 d => ⟨(HeapDos3.putFile d name data overwrite m).1, .dos3 d, (HeapDos3.putFile d name data overwrite m).2⟩
  | .nakedos o => let r := o.putFile name data overwrite m; ⟨answer r.out r.existed, .nakedos r.op, r.mem⟩
  | .prodos d => ⟨.err .other, .prodos d, m⟩

/-- disk/open.go:210-230: the slice that `WriteBack` hands to `WriteOutput`. -/
def writeBack (h : HOp) (diskFileOrder : DiskOrder) : M Slice :=
  if h.getBytes.len ≠ floppyDiskBytes then pure h.getBytes
  else do
    let physicalBytes ← Heap.swizzle h.getBytes (logicalToPhysicalByName h.diskOrder)
    Heap.swizzle physicalBytes (physicalToLogicalByName diskFileOrder)

end HOp

end Verif.HeapOpen
