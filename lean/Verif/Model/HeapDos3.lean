import Verif.Model.Heap
import Verif.Model.Dos3

/-!
# Model of the DOS 3.3 operator on slices in memory

As `Model/Heap.lean`, for `dos3/dos3.go`.  Catalog sectors and track/sector lists are copied out of the disk into structs, which are values.
-/

set_option autoImplicit false

namespace Verif.HeapDos3
open Disk Heap
open Dos3 (FileDesc TrackSector TrackSectorList tslLoop lastEntry)

/-- `make([]byte, 0, c)` -/
def makeCap (c : Nat) : M Heap.Slice := fun m => (.ok ⟨m.length, 0, 0, c⟩, m ++ [zeros c])

/-- dos3/dos3.go:422-435: append one sector per entry.  The 256 appends of one zero byte are one append of 256 zeros. -/
def appendSectors (grow : Nat → Nat → Nat) (d : Heap.Slice) : List TrackSector → Heap.Slice → M Heap.Slice
  | [], data => pure data
  | ts :: rest, data =>
    if ts.track = 0 ∧ ts.sector = 0 then do
      let z ← make 256
      let data ← append grow data z
      appendSectors grow d rest data
    else do
      let contents ← readSector d ts.track ts.sector
      let data ← append grow data contents
      appendSectors grow d rest data

/-- dos3/dos3.go:412-437: the loop over the lists. -/
def appendLists (grow : Nat → Nat → Nat) (d : Heap.Slice) : List TrackSectorList → Heap.Slice → M Heap.Slice
  | [], data => pure data
  | tsl :: rest, data => do
    let end_ := if rest = [] then lastEntry tsl.trackSectors.toList 121 0 else 121
    let data ← appendSectors grow d (tsl.trackSectors.toList.take (end_ + 1)) data
    appendLists grow d rest data

/-- The bytes of a slice, for what only reads it. -/
def read (d : Heap.Slice) : M Bytes := fun m => (.ok (bytesOf m d), m)

/-- dos3/dos3.go:392-438 `Contents` -/
def contents (grow : Nat → Nat → Nat) (fd : FileDesc) (d : Heap.Slice) : M Heap.Slice := do
  let img ← read d
  let tsls ← lift (tslLoop img 65537 fd.trackSectorListTrack fd.trackSectorListSector [] [])
  let data ← makeCap (256 * 122 * tsls.length)
  appendLists grow d tsls data

/-- dos3/dos3.go:625-627: drop trailing zeros, with `n` bytes left; indexing the empty slice panics. -/
def trimLoop : Nat → Heap.Slice → M Heap.Slice
  | 0, _ => lift .panic
  | n + 1, data => do
    let b ← index data n
    if b = 0 then do
      let data ← sub data 0 n
      trimLoop n data
    else pure data

/-- dos3/dos3.go:606-659 `GetFile`: the data of the file. -/
def getFile (grow : Nat → Nat → Nat) (d : Heap.Slice) (filename : Str) : M Heap.Slice := do
  let img ← read d
  let fd ← lift (Dos3.Operator.fileForFilename ⟨img⟩ filename)
  let data ← contents grow fd d
  let t := fd.filetype &&& 0x7f
  if t = 0x00 then trimLoop data.len data
  else if t = 0x01 ∨ t = 0x02 ∨ t = 0x04 then do
    let data ← (if t = 0x04 then do
      let _ ← index data 0
      let _ ← index data 1
      sub data 2 data.len
      else pure data)
    let b0 ← index data 0
    let b1 ← index data 1
    let length := b0.toNat + b1.toNat * 256
    sub data 2 (length + 2)
  else lift (.err .other)

/-- dos3/dos3.go:578-588 `Catalog` -/
def catalog (d : Heap.Slice) : M (List Descriptor) := do
  let img ← read d
  lift (Dos3.Operator.catalog ⟨img⟩ [])

/-- dos3/dos3.go:663-665 `Delete` -/
def delete (_ : Heap.Slice) (_filename : Str) : M Bool := lift (.err .other)

/-- dos3/dos3.go:670-672 `PutFile` -/
def putFile (_ : Heap.Slice) (_filename : Str) (_data : Heap.Slice) (_overwrite : Bool) : M Bool := lift (.err .other)

/-- disk/open.go:83-150: what `OpenImage` does with a floppy image when the order is given and the system is DOS 3.3; dos3/dos3.go:702-704 `Operator`:
the operator is the slice. -/
def openFloppy (raw : Heap.Slice) (order : DiskOrder) : M Heap.Slice := do
  let swizzled ← swizzle raw (logicalToPhysicalByName order)
  swizzle swizzled (physicalToLogicalByName orderDO)

/-- disk/open.go:210-230: the slice that `WriteBack` hands to `WriteOutput`; dos3/dos3.go:675-682. -/
def writeBack (d : Heap.Slice) (diskFileOrder : DiskOrder) : M Heap.Slice := do
  if d.len ≠ floppyDiskBytes then pure d
  else do
    let physicalBytes ← swizzle d (logicalToPhysicalByName orderDO)
    swizzle physicalBytes (physicalToLogicalByName diskFileOrder)

end Verif.HeapDos3
