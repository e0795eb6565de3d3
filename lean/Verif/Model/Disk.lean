import Verif.Go.Basic

/-!
# Model of `disk/disk.go` and `disk/marshal.go`, and of `Swizzle` in `disk/open.go`
-/

set_option autoImplicit false

namespace Verif.Disk

open Verif

/-- disk/disk.go:11 -/
def floppyTracks : Nat := 35
/-- disk/disk.go:12 -/
def floppySectors : Nat := 16
/-- disk/disk.go:14 -/
def floppyDiskBytes : Nat := 143360
/-- disk/disk.go:15 -/
def floppyTrackBytes : Nat := 256 * floppySectors
/-- disk/disk.go:16 -/
def floppyDiskBytes13Sector : Nat := 35 * 13 * 256

/-- types/ops.go:21 `type DiskOrder string` -/
abbrev DiskOrder := Str

/-- types/ops.go:25 -/
def orderDO : DiskOrder := str "do"
/-- types/ops.go:27 -/
def orderPO : DiskOrder := str "po"
/-- types/ops.go:29 -/
def orderRaw : DiskOrder := str "raw"
/-- types/ops.go:31 -/
def orderAuto : DiskOrder := str "auto"
/-- types/ops.go:33 -/
def orderUnknown : DiskOrder := []

/-- disk/disk.go:21-24 -/
def dos33LogicalToPhysical : List Int :=
  [0x00, 0x0D, 0x0B, 0x09, 0x07, 0x05, 0x03, 0x01,
   0x0E, 0x0C, 0x0A, 0x08, 0x06, 0x04, 0x02, 0x0F]

/-- disk/disk.go:28-31 -/
def dos33PhysicalToLogical : List Int :=
  [0x00, 0x07, 0x0E, 0x06, 0x0D, 0x05, 0x0C, 0x04,
   0x0B, 0x03, 0x0A, 0x02, 0x09, 0x01, 0x08, 0x0F]

/-- disk/disk.go:35-38 -/
def prodosLogicalToPhysical : List Int :=
  [0x00, 0x02, 0x04, 0x06, 0x08, 0x0A, 0x0C, 0x0E,
   0x01, 0x03, 0x05, 0x07, 0x09, 0x0B, 0x0D, 0x0F]

/-- disk/disk.go:42-45 -/
def prodosPhysicalToLogical : List Int :=
  [0x00, 0x08, 0x01, 0x09, 0x02, 0x0A, 0x03, 0x0B,
   0x04, 0x0C, 0x05, 0x0D, 0x06, 0x0E, 0x07, 0x0F]

/-- disk/disk.go:52,60 -/
def rawOrder : List Int :=
  [0x00, 0x01, 0x02, 0x03, 0x04, 0x05, 0x06, 0x07,
   0x08, 0x09, 0x0A, 0x0B, 0x0C, 0x0D, 0x0E, 0x0F]

/-- disk/disk.go:49-53: look-up in the map `LogicalToPhysicalByName`; `none` is a missing key. -/
def logicalToPhysicalByName? (o : DiskOrder) : Option (List Int) :=
  if o = orderDO then some dos33LogicalToPhysical
  else if o = orderPO then some prodosLogicalToPhysical
  else if o = orderRaw then some rawOrder
  else none

/-- disk/disk.go:57-61: look-up in the map `PhysicalToLogicalByName`; `none` is a missing key. -/
def physicalToLogicalByName? (o : DiskOrder) : Option (List Int) :=
  if o = orderDO then some dos33PhysicalToLogical
  else if o = orderPO then some prodosPhysicalToLogical
  else if o = orderRaw then some rawOrder
  else none

/-- `LogicalToPhysicalByName[o]`: a missing key gives the nil slice (disk/open.go:113,218). -/
def logicalToPhysicalByName (o : DiskOrder) : List Int := (logicalToPhysicalByName? o).getD []

/-- `PhysicalToLogicalByName[o]`: a missing key gives the nil slice (disk/open.go:118,224). -/
def physicalToLogicalByName (o : DiskOrder) : List Int := (physicalToLogicalByName? o).getD []

/-- disk/marshal.go:50-59 `ReadSector` -/
def readSector (img : Bytes) (track sector : UInt8) : Out Bytes :=
  let start := track.toNat * floppyTrackBytes + sector.toNat * 256
  let end_ := start + 256
  if img.length < end_ then .err .other
  else .ok (slice img start 256)

/-- disk/marshal.go:74-85 `WriteSector`.  The second component is the image after
the call: the Go code mutates the slice in place. -/
def writeSector (img : Bytes) (track sector : UInt8) (data : Bytes) : Out Unit × Bytes :=
  if data.length ≠ 256 then (.err .other, img)
  else
    let start := track.toNat * floppyTrackBytes + sector.toNat * 256
    let end_ := start + 256
    if img.length < end_ then (.err .other, img)
    else (.ok (), put img start data)

/-- disk/open.go:182-193: the loop of `validateOrder` with its `seen` set. -/
def validateOrderLoop : List Int → List Int → Out Unit
  | [], _ => .ok ()
  | m :: rest, seen =>
    if m < 0 ∨ m > 15 then .err .other
    else if m ∈ seen then .err .other
    else validateOrderLoop rest (m :: seen)

/-- disk/open.go:179-194 `validateOrder` -/
def validateOrder (order : List Int) : Out Unit :=
  if order.length ≠ floppySectors then .err .other
  else validateOrderLoop order []

/-- Go's conversion `byte(n)` of an `int`. -/
def intToByte (n : Int) : UInt8 := UInt8.ofNat (n % 256).toNat

/-- disk/open.go:162-173: body of Swizzle's inner loop.  `order[sector]` out of range would
panic. -/
def swizzleStep (img : Bytes) (order : List Int) (result : Bytes) (ts : Nat × Nat) : Out Bytes := do
  let data ← readSector img (UInt8.ofNat ts.1) (UInt8.ofNat ts.2)
  match order[ts.2]? with
  | none => .panic
  | some m =>
    match writeSector result (UInt8.ofNat ts.1) (intToByte m) data with
    | (.ok (), r) => .ok r
    | (.err k, _) => .err k
    | (.panic, _) => .panic
    | (.timeout, _) => .timeout

/-- The (track, sector) pairs of the nested loops of disk/open.go:162-163, in order. -/
def trackSectorPairs : List (Nat × Nat) :=
  (List.range floppyTracks).flatMap fun t => (List.range floppySectors).map fun s => (t, s)

/-- disk/open.go:153-175 `Swizzle` -/
def swizzle (img : Bytes) (order : List Int) : Out Bytes := do
  if img.length ≠ floppyDiskBytes then .err .other
  else
    validateOrder order
    trackSectorPairs.foldlM (swizzleStep img order) (zeros floppyDiskBytes)

/-- disk/open.go:197-207 `OrderFromFilename` -/
def orderFromFilename (filename : Str) (defaultOrder : DiskOrder) : DiskOrder :=
  let ext := toLower (pathExt filename)
  if ext = str ".dsk" ∨ ext = str ".do" then orderDO
  else if ext = str ".po" then orderPO
  else defaultOrder

/-- disk/marshal.go:106-119 `UnmarshalBlock`, up to and including the copy into the block. -/
def readBlock (img : Bytes) (index : UInt16) : Out Bytes :=
  let start := index.toNat * 512
  let end_ := start + 512
  if img.length < end_ then .err .other
  else .ok (slice img start 512)

/-- disk/marshal.go:122-135 `MarshalBlock`, after `ToBlock` gave the 512 bytes `block` (the
Go type `[512]byte` fixes the length). -/
def writeBlock (img : Bytes) (index : UInt16) (block : Vector UInt8 512) : Out Unit × Bytes :=
  let start := index.toNat * 512
  let end_ := start + 512
  if img.length < end_ then (.err .other, img)
  else (.ok (), put img start block.toList)

end Verif.Disk
