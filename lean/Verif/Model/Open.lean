import Verif.Model.Disk
import Verif.Model.Helpers

/-!
# Model of `disk/open.go`: opening images, guessing order and system, writing back

The model is generic in the registered systems: a `Factory Ω` is what
`types.OperatorFactory` offers, `Ω` the type of operators.  `seemsToMatch` and
`operator` may also panic or not return, hence `Out`.
-/

set_option autoImplicit false

namespace Verif.Disk

/-- types/ops.go:38-48 `OperatorFactory` -/
structure Factory (Ω : Type) where
  name : Str
  diskOrder : DiskOrder
  seemsToMatch : Bytes → Out Bool
  operator : Bytes → Out Ω

/-- The part of types/ops.go:51-73 `Operator` that `WriteBack` uses. -/
class OperatorLike (Ω : Type) where
  getBytes : Ω → Bytes
  diskOrder : Ω → DiskOrder

variable {Ω : Type}

/-- disk/open.go:71-79: the loop of `openHDV` over the factories. -/
def openHDVLoop (raw : Bytes) : List (Factory Ω) → Out (Ω × DiskOrder)
  | [] => .err .other
  | f :: fs =>
    if f.name = str "prodos" then do
      let op ← f.operator raw
      .ok (op, orderPO)
    else openHDVLoop raw fs

/-- disk/open.go:57-81 `openHDV` -/
def openHDV (raw : Bytes) (order : DiskOrder) (system : Str) (factories : List (Factory Ω)) :
    Out (Ω × DiskOrder) :=
  let size := raw.length
  if size % 512 > 0 then .err .other
  else if size / 512 > 65536 then .err .other
  else if order ≠ orderAuto ∧ order ≠ orderPO then .err .other
  else if system ≠ str "auto" ∧ system ≠ str "prodos" then .err .other
  else openHDVLoop raw factories

/-- disk/open.go:93-110: the orders to try; `none` is the error return. -/
def ordersToTry (order : DiskOrder) (ext : Str) : Option (List DiskOrder) :=
  if order = orderDO ∨ order = orderPO then some [order]
  else if order = orderAuto then
    if ext = str ".po" then some [orderPO]
    else if ext = str ".do" then some [orderDO]
    else if ext = str ".dsk" ∨ ext = [] then some [orderDO, orderPO]
    else none
  else none

/-- disk/open.go:117-146: the loop over factories for one order.  `ok none` means the
loop ran to its end without returning. `explicit` is `len(orders) == 1 && system != "auto"`. -/
def openInner (explicit : Bool) (order : DiskOrder) (swizzled : Bytes) :
    List (Factory Ω) → Out (Option (Ω × DiskOrder))
  | [] => .ok none
  | f :: fs => do
    let diskbytes ← swizzle swizzled (physicalToLogicalByName f.diskOrder)
    if explicit then
      let op ← f.operator diskbytes
      .ok (some (op, order))
    else
      let m ← f.seemsToMatch diskbytes
      if m then
        match f.operator diskbytes with
        | .ok op => .ok (some (op, order))
        | .err _ => openInner explicit order swizzled fs
        | .panic => .panic
        | .timeout => .timeout
      else openInner explicit order swizzled fs

/-- disk/open.go:112-148: the loop over orders. -/
def openOuter (explicit : Bool) (raw : Bytes) (factories : List (Factory Ω)) :
    List DiskOrder → Out (Ω × DiskOrder)
  | [] => .err .other
  | o :: os => do
    let swizzled ← swizzle raw (logicalToPhysicalByName o)
    let r ← openInner explicit o swizzled factories
    match r with
    | some x => .ok x
    | none => openOuter explicit raw factories os

/-- disk/open.go:83-149 `openDoOrPo` -/
def openDoOrPo (raw : Bytes) (order : DiskOrder) (system ext : Str)
    (operatorFactories : List (Factory Ω)) : Out (Ω × DiskOrder) :=
  let factories := operatorFactories.filter fun f => system = str "auto" ∨ system = f.name
  if factories.length = 0 then .err .other
  else match ordersToTry order ext with
    | none => .err .other
    | some orders =>
      openOuter (orders.length = 1 ∧ system ≠ str "auto") raw factories orders

/-- disk/open.go:41-55 `OpenImage` -/
def openImage (filebytes : Bytes) (filename : Str) (order : DiskOrder) (system : Str)
    (factories : List (Factory Ω)) : Out (Ω × DiskOrder) :=
  let ext := toLower (pathExt filename)
  let size := filebytes.length
  if size = floppyDiskBytes then openDoOrPo filebytes order system ext factories
  else if size = floppyDiskBytes13Sector then .err .other
  else if ext = str ".hdv" then openHDV filebytes order system factories
  else .err .other

/-- disk/open.go:16-38 `OpenFilename` and `OpenFile`.  `os.Stdin.Name()` is "/dev/stdin". -/
def openFilename (w : World) (filename : Str) (order : DiskOrder) (system : Str)
    (factories : List (Factory Ω)) : Out (Ω × DiskOrder) × World :=
  if filename = str "-" then
    (openImage w.stdin (str "/dev/stdin") order system factories, { w with stdin := [] })
  else match w.files filename with
    | none => (.err .other, w)
    | some bb => (openImage bb filename order system factories, w)

/-- disk/open.go:210-227: the bytes `WriteBack` passes to `WriteOutput`. -/
def writeBackBytes [OperatorLike Ω] (op : Ω) (diskFileOrder : DiskOrder) : Out Bytes :=
  let logicalBytes := OperatorLike.getBytes op
  if logicalBytes.length ≠ floppyDiskBytes then .ok logicalBytes
  else do
    let physicalBytes ← swizzle logicalBytes (logicalToPhysicalByName (OperatorLike.diskOrder op))
    swizzle physicalBytes (physicalToLogicalByName diskFileOrder)

/-- disk/open.go:210-230 `WriteBack`, with the function that writes the output as a parameter. -/
def writeBackVia [OperatorLike Ω] (wo : World → Str → Bytes → Bool → Out Unit × World) (w : World)
    (filename : Str) (op : Ω) (diskFileOrder : DiskOrder) (overwrite : Bool) : Out Unit × World :=
  match writeBackBytes op diskFileOrder with
  | .ok b => wo w filename b overwrite
  | .err k => (.err k, w)
  | .panic => (.panic, w)
  | .timeout => (.timeout, w)

/-- disk/open.go:210-230 `WriteBack` -/
def writeBack [OperatorLike Ω] (w : World) (filename : Str) (op : Ω) (diskFileOrder : DiskOrder)
    (overwrite : Bool) : Out Unit × World :=
  writeBackVia World.writeOutput w filename op diskFileOrder overwrite

end Verif.Disk
