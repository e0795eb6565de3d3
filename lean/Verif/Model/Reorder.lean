import Verif.Model.Open

/-! # Model of `cmd/reorder.go` -/

set_option autoImplicit false

namespace Verif.Disk

/-- cmd/reorder.go:90-95 `oppositeOrder` -/
def oppositeOrder (order : DiskOrder) : DiskOrder :=
  if order = orderDO then orderPO else orderDO

/-- cmd/reorder.go:58-87 `getOrders` -/
def getOrders (inFilename : Str) (inOrder : DiskOrder) (outFilename : Str) (outOrder : DiskOrder) :
    Out (DiskOrder × DiskOrder) :=
  if inOrder = orderAuto ∧ outOrder ≠ orderAuto then .ok (oppositeOrder outOrder, outOrder)
  else if outOrder = orderAuto ∧ inOrder ≠ orderAuto then .ok (inOrder, oppositeOrder inOrder)
  else if inOrder ≠ outOrder then .ok (inOrder, outOrder)
  else if inOrder ≠ orderAuto then .err .other
  else
    let inGuess := orderFromFilename inFilename orderUnknown
    let outGuess := orderFromFilename outFilename orderUnknown
    if inGuess = outGuess then .err .other
    else if inGuess = orderUnknown then .ok (oppositeOrder outGuess, outGuess)
    else if outGuess = orderUnknown then .ok (inGuess, oppositeOrder inGuess)
    else .ok (inGuess, outGuess)

/-- cmd/reorder.go:31-46: the transformation of the image bytes between two named orders. -/
def reorderBytes (fromName toName : DiskOrder) (frombytes : Bytes) : Out Bytes :=
  match logicalToPhysicalByName? fromName with
  | none => .err .other
  | some fromOrder =>
    match physicalToLogicalByName? toName with
    | none => .err .other
    | some toOrder => do
      let rawbytes ← swizzle frombytes fromOrder
      swizzle rawbytes toOrder

/-- cmd/reorder.go:22-55 `ReorderCmd.Run`, with the function that writes the output as a parameter.
`newDiskImage = []` is the omitted argument. -/
def reorderVia (wo : World → Str → Bytes → Bool → Out Unit × World) (w : World)
    (order newOrder : DiskOrder) (overwrite : Bool) (diskImage newDiskImage : Str) : Out Unit × World :=
  match getOrders diskImage order newDiskImage newOrder with
  | .err k => (.err k, w)
  | .panic => (.panic, w)
  | .timeout => (.timeout, w)
  | .ok (fromName, toName) =>
    match w.fileContentsOrStdIn diskImage with
    | (.err k, w) => (.err k, w)
    | (.panic, w) => (.panic, w)
    | (.timeout, w) => (.timeout, w)
    | (.ok frombytes, w) =>
      match reorderBytes fromName toName frombytes with
      | .err k => (.err k, w)
      | .panic => (.panic, w)
      | .timeout => (.timeout, w)
      | .ok tobytes =>
        if newDiskImage = [] then wo w diskImage tobytes true
        else wo w newDiskImage tobytes overwrite

/-- cmd/reorder.go:22-55 `ReorderCmd.Run` -/
def reorderRun (w : World) (order newOrder : DiskOrder) (overwrite : Bool)
    (diskImage newDiskImage : Str) : Out Unit × World :=
  reorderVia World.writeOutput w order newOrder overwrite diskImage newDiskImage

end Verif.Disk
