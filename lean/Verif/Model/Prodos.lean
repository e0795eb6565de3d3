import Verif.Go.Serial
import Verif.Go.Map
import Verif.Model.Types
import Verif.Model.Open

/-!
# Model of `prodos/prodos.go`

Fixed-size Go arrays are `Vector`s.  `block` is the field of the embedded `blockBase`
(prodos/prodos.go:28-40).  A Go `disk.Block` under construction is a list of 512 bytes; slices with
literal bounds and `copyBytes` (837-842, which panics on differing lengths) always have matching
lengths here, so they cannot fail.  The `debug` argument is not modelled.

Loops that need not end take a budget `n`; `timeout` means that the budget was used up.
-/

set_option autoImplicit false

namespace Verif.Prodos

open Verif Verif.Disk

/-! ## Volume bitmap -/

/-- prodos/prodos.go:43-46 `bitmapPart` -/
structure BitmapPart where
  block : UInt16 := 0
  data : Vector UInt8 512 := Vector.replicate 512 0
deriving DecidableEq

/-- prodos/prodos.go:64 `VolumeBitMap` -/
abbrev VolumeBitMap := List BitmapPart

/-- prodos/prodos.go:88-98 `mark`.  The bitmap is changed in place, so the result is the bitmap
afterwards; a block beyond the last part is an index out of range. -/
def mark (vbm : VolumeBitMap) (block : UInt16) (set : Bool) : Out VolumeBitMap :=
  let byteIndex := block >>> 3
  let blockIndex := byteIndex / 512
  let blockByteIndex := byteIndex % 512
  let bit : UInt8 := 1 <<< (7 - (block &&& 7)).toUInt8
  match vbm[blockIndex.toNat]? with
  | none => .panic
  | some p =>
    let b := p.data.toList.getD blockByteIndex.toNat 0
    let b' := if set then b ||| bit else b &&& ~~~bit
    .ok (vbm.set blockIndex.toNat { p with data := p.data.setIfInBounds blockByteIndex.toNat b' })

/-- prodos/prodos.go:79-81 `MarkUsed` -/
def markUsed (vbm : VolumeBitMap) (block : UInt16) : Out VolumeBitMap := mark vbm block false

/-- prodos/prodos.go:84-86 `MarkUnused` -/
def markUnused (vbm : VolumeBitMap) (block : UInt16) : Out VolumeBitMap := mark vbm block true

/-- prodos/prodos.go:102-108 `IsFree` -/
def isFree (vbm : VolumeBitMap) (block : UInt16) : Out Bool :=
  let byteIndex := block >>> 3
  let blockIndex := byteIndex / 512
  let blockByteIndex := byteIndex % 512
  let bit : UInt8 := 1 <<< (7 - (block &&& 7)).toUInt8
  match vbm[blockIndex.toNat]? with
  | none => .panic
  | some p => .ok (decide (p.data.toList.getD blockByteIndex.toNat 0 &&& bit > 0))

/-- prodos/prodos.go:67-76 `NewVolumeBitMap`; the size is computed in `uint16`. -/
def newVolumeBitMap (startBlock blocks : UInt16) : Out VolumeBitMap :=
  let vbm : VolumeBitMap := (List.range ((blocks + 512 * 8 - 1) / (512 * 8)).toNat).map fun i =>
    { block := startBlock + UInt16.ofNat i }
  (List.range blocks.toNat).foldlM (fun vbm b => markUnused vbm (UInt16.ofNat b)) vbm

/-- prodos/prodos.go:53-56 `FromBlock` inside disk/marshal.go:106-119 `UnmarshalBlock` -/
def readPart (img : Bytes) (index : UInt16) : Out BitmapPart := do
  let block ← readBlock img index
  .ok { data := rdVec 512 block 0, block := index }

/-- prodos/prodos.go:115-119: the loop of `readVolumeBitMap` over the parts. -/
def readParts (img : Bytes) : VolumeBitMap → Out VolumeBitMap
  | [] => .ok []
  | p :: rest => do
    let p ← readPart img p.block
    let rest ← readParts img rest
    .ok (p :: rest)

/-- prodos/prodos.go:112-121 `readVolumeBitMap` -/
def readVolumeBitMap (img : Bytes) (startBlock : UInt16) : Out VolumeBitMap := do
  let blocks := UInt16.ofNat (img.length / 512 / 4096)
  let vbm ← newVolumeBitMap startBlock blocks
  readParts img vbm

/-- prodos/prodos.go:124-131 `Write`: the outcome and the device afterwards.  An error leaves the
parts written so far. -/
def writeBitMap : VolumeBitMap → Bytes → Out Unit × Bytes
  | [], img => (.ok (), img)
  | bp :: rest, img =>
    match writeBlock img bp.block bp.data with
    | (.ok (), img') => writeBitMap rest img'
    | (r, img') => (r, img')

/-! ## Directory structures -/

/-- prodos/prodos.go:134-137 `DateTime` -/
structure DateTime where
  ymd : Vector UInt8 2 := Vector.replicate 2 0
  hm : Vector UInt8 2 := Vector.replicate 2 0
deriving DecidableEq

/-- prodos/prodos.go:140-142 `toBytes` -/
def DateTime.toBytes (dt : DateTime) : Vector UInt8 4 := #v[dt.ymd[0], dt.ymd[1], dt.hm[0], dt.hm[1]]

/-- prodos/prodos.go:145-153 `fromBytes` on a slice of four bytes (always four here). -/
def DateTime.fromBytes (b : Vector UInt8 4) : DateTime := { ymd := #v[b[0], b[1]], hm := #v[b[2], b[3]] }

/-- The complaints `Validate` functions make. -/
inductive Complaint where
  | hour | minute | prev | extra | seventyFive
deriving DecidableEq, Repr

/-- prodos/prodos.go:156-164 `Validate` -/
def DateTime.validate (dt : DateTime) : List Complaint :=
  (if dt.hm[0] ≥ 24 then [.hour] else []) ++ (if dt.hm[1] ≥ 60 then [.minute] else [])

/-- prodos/prodos.go:269-282 `VolumeDirectoryHeader` -/
structure VolumeDirectoryHeader where
  typeAndNameLength : UInt8 := 0
  volumeName : Vector UInt8 15 := Vector.replicate 15 0
  unused1 : Vector UInt8 8 := Vector.replicate 8 0
  creation : DateTime := {}
  version : UInt8 := 0
  minVersion : UInt8 := 0
  access : UInt8 := 0
  entryLength : UInt8 := 0
  entriesPerBlock : UInt8 := 0
  fileCount : UInt16 := 0
  bitMapPointer : UInt16 := 0
  totalBlocks : UInt16 := 0
deriving DecidableEq

/-- prodos/prodos.go:285-300 `toBytes` -/
def VolumeDirectoryHeader.toBytes (h : VolumeDirectoryHeader) : Bytes :=
  let buf := zeros 0x27
  let buf := buf.set 0 h.typeAndNameLength
  let buf := copyVec buf 1 h.volumeName
  let buf := copyVec buf 0x10 h.unused1
  let buf := copyVec buf 0x18 h.creation.toBytes
  let buf := buf.set 0x1c h.version
  let buf := buf.set 0x1d h.minVersion
  let buf := buf.set 0x1e h.access
  let buf := buf.set 0x1f h.entryLength
  let buf := buf.set 0x20 h.entriesPerBlock
  let buf := set16 buf 0x21 h.fileCount
  let buf := set16 buf 0x23 h.bitMapPointer
  let buf := set16 buf 0x25 h.totalBlocks
  buf

/-- prodos/prodos.go:303-319 `fromBytes` of the 0x27 bytes at `off` (always 0x27 here). -/
def VolumeDirectoryHeader.fromBytes (data : Bytes) (off : Nat) : VolumeDirectoryHeader where
  typeAndNameLength := at8 data (off + 0)
  volumeName := rdVec 15 data (off + 1)
  unused1 := rdVec 8 data (off + 0x10)
  creation := DateTime.fromBytes (rdVec 4 data (off + 0x18))
  version := at8 data (off + 0x1c)
  minVersion := at8 data (off + 0x1d)
  access := at8 data (off + 0x1e)
  entryLength := at8 data (off + 0x1f)
  entriesPerBlock := at8 data (off + 0x20)
  fileCount := rd16 data (off + 0x21)
  bitMapPointer := rd16 data (off + 0x23)
  totalBlocks := rd16 data (off + 0x25)

/-- prodos/prodos.go:322-325 `Validate` -/
def VolumeDirectoryHeader.validate (h : VolumeDirectoryHeader) : List Complaint := h.creation.validate

/-- prodos/prodos.go:345-364 `FileDescriptor` -/
structure FileDescriptor where
  typeAndNameLength : UInt8 := 0
  fileName : Vector UInt8 15 := Vector.replicate 15 0
  fileType : UInt8 := 0
  keyPointer : UInt16 := 0
  blocksUsed : UInt16 := 0
  eof : Vector UInt8 3 := Vector.replicate 3 0
  creation : DateTime := {}
  version : UInt8 := 0
  minVersion : UInt8 := 0
  access : UInt8 := 0
  auxType : UInt16 := 0
  lastMod : DateTime := {}
  headerPointer : UInt16 := 0
deriving DecidableEq

/-- prodos/prodos.go:379-381 `Name` -/
def FileDescriptor.name (fd : FileDescriptor) : Str :=
  fd.fileName.toList.take (fd.typeAndNameLength &&& 0xf).toNat

/-- prodos/prodos.go:384-386 `Type` -/
def FileDescriptor.type (fd : FileDescriptor) : UInt8 := fd.typeAndNameLength >>> 4

/-- prodos/prodos.go:367-376 `descriptor` -/
def FileDescriptor.descriptor (fd : FileDescriptor) : Descriptor :=
  { name := fd.name
    blocks := (fd.blocksUsed.toNat : Int)
    length := (fd.eof[0].toNat : Int) + (fd.eof[1].toNat : Int) * 2 ^ 8 + (fd.eof[2].toNat : Int) * 2 ^ 16
    locked := false
    type := (fd.fileType.toNat : Int) }

/-- prodos/prodos.go:389-405 `toBytes` -/
def FileDescriptor.toBytes (fd : FileDescriptor) : Bytes :=
  let buf := zeros 0x27
  let buf := buf.set 0 fd.typeAndNameLength
  let buf := copyVec buf 1 fd.fileName
  let buf := buf.set 0x10 fd.fileType
  let buf := set16 buf 0x11 fd.keyPointer
  let buf := set16 buf 0x13 fd.blocksUsed
  let buf := copyVec buf 0x15 fd.eof
  let buf := copyVec buf 0x18 fd.creation.toBytes
  let buf := buf.set 0x1c fd.version
  let buf := buf.set 0x1d fd.minVersion
  let buf := buf.set 0x1e fd.access
  let buf := set16 buf 0x1f fd.auxType
  let buf := copyVec buf 0x21 fd.lastMod.toBytes
  let buf := set16 buf 0x25 fd.headerPointer
  buf

/-- prodos/prodos.go:408-425 `fromBytes` of the 0x27 bytes at `off` (always 0x27 here). -/
def FileDescriptor.fromBytes (data : Bytes) (off : Nat) : FileDescriptor where
  typeAndNameLength := at8 data (off + 0)
  fileName := rdVec 15 data (off + 1)
  fileType := at8 data (off + 0x10)
  keyPointer := rd16 data (off + 0x11)
  blocksUsed := rd16 data (off + 0x13)
  eof := rdVec 3 data (off + 0x15)
  creation := DateTime.fromBytes (rdVec 4 data (off + 0x18))
  version := at8 data (off + 0x1c)
  minVersion := at8 data (off + 0x1d)
  access := at8 data (off + 0x1e)
  auxType := rd16 data (off + 0x1f)
  lastMod := DateTime.fromBytes (rdVec 4 data (off + 0x21))
  headerPointer := rd16 data (off + 0x25)

/-- prodos/prodos.go:428-432 `Validate` -/
def FileDescriptor.validate (fd : FileDescriptor) : List Complaint :=
  fd.creation.validate ++ fd.lastMod.validate

/-- prodos/prodos.go:552-567 `SubdirectoryHeader` -/
structure SubdirectoryHeader where
  typeAndNameLength : UInt8 := 0
  subdirectoryName : Vector UInt8 15 := Vector.replicate 15 0
  seventyFive : UInt8 := 0
  unused1 : Vector UInt8 7 := Vector.replicate 7 0
  creation : DateTime := {}
  version : UInt8 := 0
  minVersion : UInt8 := 0
  access : UInt8 := 0
  entryLength : UInt8 := 0
  entriesPerBlock : UInt8 := 0
  fileCount : UInt16 := 0
  parentPointer : UInt16 := 0
  parentEntry : UInt8 := 0
  parentEntryLength : UInt8 := 0
deriving DecidableEq

/-- prodos/prodos.go:570-587 `toBytes` -/
def SubdirectoryHeader.toBytes (h : SubdirectoryHeader) : Bytes :=
  let buf := zeros 0x27
  let buf := buf.set 0 h.typeAndNameLength
  let buf := copyVec buf 1 h.subdirectoryName
  let buf := buf.set 0x10 h.seventyFive
  let buf := copyVec buf 0x11 h.unused1
  let buf := copyVec buf 0x18 h.creation.toBytes
  let buf := buf.set 0x1c h.version
  let buf := buf.set 0x1d h.minVersion
  let buf := buf.set 0x1e h.access
  let buf := buf.set 0x1f h.entryLength
  let buf := buf.set 0x20 h.entriesPerBlock
  let buf := set16 buf 0x21 h.fileCount
  let buf := set16 buf 0x23 h.parentPointer
  let buf := buf.set 0x25 h.parentEntry
  let buf := buf.set 0x26 h.parentEntryLength
  buf

/-- prodos/prodos.go:590-608 `fromBytes` of the 0x27 bytes at `off` (always 0x27 here). -/
def SubdirectoryHeader.fromBytes (data : Bytes) (off : Nat) : SubdirectoryHeader where
  typeAndNameLength := at8 data (off + 0)
  subdirectoryName := rdVec 15 data (off + 1)
  seventyFive := at8 data (off + 0x10)
  unused1 := rdVec 7 data (off + 0x11)
  creation := DateTime.fromBytes (rdVec 4 data (off + 0x18))
  version := at8 data (off + 0x1c)
  minVersion := at8 data (off + 0x1d)
  access := at8 data (off + 0x1e)
  entryLength := at8 data (off + 0x1f)
  entriesPerBlock := at8 data (off + 0x20)
  fileCount := rd16 data (off + 0x21)
  parentPointer := rd16 data (off + 0x23)
  parentEntry := at8 data (off + 0x25)
  parentEntryLength := at8 data (off + 0x26)

/-- prodos/prodos.go:611-617 `Validate` -/
def SubdirectoryHeader.validate (h : SubdirectoryHeader) : List Complaint :=
  (if h.seventyFive ≠ 0x75 then [.seventyFive] else []) ++ h.creation.validate

/-- prodos/prodos.go:620-622 `Name` -/
def SubdirectoryHeader.name (h : SubdirectoryHeader) : Str :=
  h.subdirectoryName.toList.take (h.typeAndNameLength &&& 0xf).toNat

/-- prodos/prodos.go:168-175 `VolumeDirectoryKeyBlock` -/
structure VolumeDirectoryKeyBlock where
  block : UInt16 := 0
  prev : UInt16 := 0
  next : UInt16 := 0
  header : VolumeDirectoryHeader := {}
  descriptors : Vector FileDescriptor 12 := Vector.replicate 12 {}
  extra : UInt8 := 0
deriving DecidableEq

/-- prodos/prodos.go:182-192 `ToBlock` -/
def VolumeDirectoryKeyBlock.toBlock (v : VolumeDirectoryKeyBlock) : Bytes :=
  let block := zeros 512
  let block := set16 block 0x0 v.prev
  let block := set16 block 0x2 v.next
  let block := copyAt block 0x04 v.header.toBytes
  let block := copyEach 0x27 block 0x2b (v.descriptors.toList.map fun d => d.toBytes)
  let block := block.set 511 v.extra
  block

/-- prodos/prodos.go:195-204 `FromBlock` -/
def VolumeDirectoryKeyBlock.fromBlock (v : VolumeDirectoryKeyBlock) (block : Bytes) : VolumeDirectoryKeyBlock :=
  { v with
    prev := rd16 block 0x0
    next := rd16 block 0x2
    header := VolumeDirectoryHeader.fromBytes block 0x04
    descriptors := Vector.ofFn fun i => FileDescriptor.fromBytes block (0x2b + 0x27 * i.val)
    extra := at8 block 511 }

/-- prodos/prodos.go:207-219 `Validate` -/
def VolumeDirectoryKeyBlock.validate (v : VolumeDirectoryKeyBlock) : List Complaint :=
  (if v.prev ≠ 0 then [.prev] else []) ++ v.header.validate ++
    v.descriptors.toList.flatMap FileDescriptor.validate ++ (if v.extra ≠ 0 then [.extra] else [])

/-- prodos/prodos.go:222-228 `VolumeDirectoryBlock` -/
structure VolumeDirectoryBlock where
  block : UInt16 := 0
  prev : UInt16 := 0
  next : UInt16 := 0
  descriptors : Vector FileDescriptor 13 := Vector.replicate 13 {}
  extra : UInt8 := 0
deriving DecidableEq

/-- prodos/prodos.go:235-244 `ToBlock` -/
def VolumeDirectoryBlock.toBlock (v : VolumeDirectoryBlock) : Bytes :=
  let block := zeros 512
  let block := set16 block 0x0 v.prev
  let block := set16 block 0x2 v.next
  let block := copyEach 0x27 block 0x04 (v.descriptors.toList.map fun d => d.toBytes)
  let block := block.set 511 v.extra
  block

/-- prodos/prodos.go:247-255 `FromBlock` -/
def VolumeDirectoryBlock.fromBlock (v : VolumeDirectoryBlock) (block : Bytes) : VolumeDirectoryBlock :=
  { v with
    prev := rd16 block 0x0
    next := rd16 block 0x2
    descriptors := Vector.ofFn fun i => FileDescriptor.fromBytes block (0x4 + 0x27 * i.val)
    extra := at8 block 511 }

/-- prodos/prodos.go:258-266 `Validate` -/
def VolumeDirectoryBlock.validate (v : VolumeDirectoryBlock) : List Complaint :=
  v.descriptors.toList.flatMap FileDescriptor.validate ++ (if v.extra ≠ 0 then [.extra] else [])

/-- prodos/prodos.go:451-458 `SubdirectoryKeyBlock` -/
structure SubdirectoryKeyBlock where
  block : UInt16 := 0
  prev : UInt16 := 0
  next : UInt16 := 0
  header : SubdirectoryHeader := {}
  descriptors : Vector FileDescriptor 12 := Vector.replicate 12 {}
  extra : UInt8 := 0
deriving DecidableEq

/-- prodos/prodos.go:465-475 `ToBlock` -/
def SubdirectoryKeyBlock.toBlock (v : SubdirectoryKeyBlock) : Bytes :=
  let block := zeros 512
  let block := set16 block 0x0 v.prev
  let block := set16 block 0x2 v.next
  let block := copyAt block 0x04 v.header.toBytes
  let block := copyEach 0x27 block 0x2b (v.descriptors.toList.map fun d => d.toBytes)
  let block := block.set 511 v.extra
  block

/-- prodos/prodos.go:478-487 `FromBlock` -/
def SubdirectoryKeyBlock.fromBlock (v : SubdirectoryKeyBlock) (block : Bytes) : SubdirectoryKeyBlock :=
  { v with
    prev := rd16 block 0x0
    next := rd16 block 0x2
    header := SubdirectoryHeader.fromBytes block 0x04
    descriptors := Vector.ofFn fun i => FileDescriptor.fromBytes block (0x2b + 0x27 * i.val)
    extra := at8 block 511 }

/-- prodos/prodos.go:490-502 `Validate` -/
def SubdirectoryKeyBlock.validate (v : SubdirectoryKeyBlock) : List Complaint :=
  (if v.prev ≠ 0 then [.prev] else []) ++ v.header.validate ++
    v.descriptors.toList.flatMap FileDescriptor.validate ++ (if v.extra ≠ 0 then [.extra] else [])

/-- prodos/prodos.go:505-511 `SubdirectoryBlock` -/
structure SubdirectoryBlock where
  block : UInt16 := 0
  prev : UInt16 := 0
  next : UInt16 := 0
  descriptors : Vector FileDescriptor 13 := Vector.replicate 13 {}
  extra : UInt8 := 0
deriving DecidableEq

/-- prodos/prodos.go:518-527 `ToBlock` -/
def SubdirectoryBlock.toBlock (v : SubdirectoryBlock) : Bytes :=
  let block := zeros 512
  let block := set16 block 0x0 v.prev
  let block := set16 block 0x2 v.next
  let block := copyEach 0x27 block 0x04 (v.descriptors.toList.map fun d => d.toBytes)
  let block := block.set 511 v.extra
  block

/-- prodos/prodos.go:530-538 `FromBlock` -/
def SubdirectoryBlock.fromBlock (v : SubdirectoryBlock) (block : Bytes) : SubdirectoryBlock :=
  { v with
    prev := rd16 block 0x0
    next := rd16 block 0x2
    descriptors := Vector.ofFn fun i => FileDescriptor.fromBytes block (0x4 + 0x27 * i.val)
    extra := at8 block 511 }

/-- prodos/prodos.go:541-549 `Validate` -/
def SubdirectoryBlock.validate (v : SubdirectoryBlock) : List Complaint :=
  v.descriptors.toList.flatMap FileDescriptor.validate ++ (if v.extra ≠ 0 then [.extra] else [])

/-! ## Index blocks -/

/-- prodos/prodos.go:436 `IndexBlock` -/
abbrev IndexBlock := Vector UInt8 512

/-- prodos/prodos.go:439-441 `Get` -/
def IndexBlock.get (i : IndexBlock) (blockNum : UInt8) : UInt16 :=
  (i.toList.getD blockNum.toNat 0).toUInt16 + ((i.toList.getD (256 + blockNum.toNat) 0).toUInt16 <<< 8)

/-- prodos/prodos.go:444-447 `Set`: the caller's index block after the call.  The receiver `i` is
an array passed by value, so the assignments change a copy that is dropped on return. -/
def IndexBlock.setEntry (i : IndexBlock) (blockNum : UInt8) (block : UInt16) : IndexBlock :=
  let copy := i.setIfInBounds blockNum.toNat (lo8 block)
  let _copy := copy.setIfInBounds (256 + blockNum.toNat) (hi8 block)
  i

/-! ## Reading a volume -/

/-- disk/marshal.go:106-119 `UnmarshalBlock` into a fresh `VolumeDirectoryKeyBlock` -/
def unmarshalVolumeKey (img : Bytes) (index : UInt16) : Out VolumeDirectoryKeyBlock := do
  let block ← readBlock img index
  .ok { ({} : VolumeDirectoryKeyBlock).fromBlock block with block := index }

/-- disk/marshal.go:106-119 `UnmarshalBlock` into a fresh `VolumeDirectoryBlock` -/
def unmarshalVolumeBlock (img : Bytes) (index : UInt16) : Out VolumeDirectoryBlock := do
  let block ← readBlock img index
  .ok { ({} : VolumeDirectoryBlock).fromBlock block with block := index }

/-- disk/marshal.go:106-119 `UnmarshalBlock` into a fresh `SubdirectoryKeyBlock` -/
def unmarshalSubdirKey (img : Bytes) (index : UInt16) : Out SubdirectoryKeyBlock := do
  let block ← readBlock img index
  .ok { ({} : SubdirectoryKeyBlock).fromBlock block with block := index }

/-- disk/marshal.go:106-119 `UnmarshalBlock` into a fresh `SubdirectoryBlock` -/
def unmarshalSubdirBlock (img : Bytes) (index : UInt16) : Out SubdirectoryBlock := do
  let block ← readBlock img index
  .ok { ({} : SubdirectoryBlock).fromBlock block with block := index }

/-- disk/marshal.go:122-135 `MarshalBlock` of a block source whose `ToBlock` gives `bytes`. -/
def marshal (img : Bytes) (index : UInt16) (bytes : Bytes) : Out Unit × Bytes :=
  writeBlock img index (rdVec 512 bytes 0)

/-- prodos/prodos.go:637-640 `Subdirectory` -/
structure Subdirectory where
  keyBlock : SubdirectoryKeyBlock
  blocks : List SubdirectoryBlock
deriving DecidableEq

/-- prodos/prodos.go:626-633 `Volume` -/
structure Volume where
  keyBlock : VolumeDirectoryKeyBlock
  blocks : List VolumeDirectoryBlock
  bitmap : VolumeBitMap
  subdirsByBlock : GoMap UInt16 Subdirectory
  subdirsByName : GoMap Str Subdirectory
  firstSubdirBlocks : GoMap UInt16 UInt16

/-- prodos/prodos.go:644-652 `descriptors` -/
def volumeDescriptors (key : VolumeDirectoryKeyBlock) (blocks : List VolumeDirectoryBlock) : List FileDescriptor :=
  key.descriptors.toList ++ blocks.flatMap fun b => b.descriptors.toList

/-- prodos/prodos.go:763-771 `descriptors` -/
def Subdirectory.descriptors (s : Subdirectory) : List FileDescriptor :=
  s.keyBlock.descriptors.toList ++ s.blocks.flatMap fun b => b.descriptors.toList

/-- prodos/prodos.go:656-665 and 775-784 `subdirDescriptors` -/
def subdirDescriptors (descs : List FileDescriptor) : List FileDescriptor :=
  descs.filter fun d => d.type = 0xD

/-- prodos/prodos.go:694-708 and 824-830: `for block := next; block != 0; block = last.Next`. -/
def chainLoop {β : Type} (read : UInt16 → Out β) (next : β → UInt16) (n : Nat) (block : UInt16) : Out (List β) :=
  if block = 0 then .ok []
  else match n with
    | 0 => .timeout
    | n + 1 => do
      let b ← read block
      let rest ← chainLoop read next n (next b)
      .ok (b :: rest)

/-- prodos/prodos.go:815-833 `readSubdirectory` -/
def readSubdirectory (n : Nat) (img : Bytes) (fd : FileDescriptor) : Out Subdirectory := do
  let key ← unmarshalSubdirKey img fd.keyPointer
  let blocks ← chainLoop (unmarshalSubdirBlock img) SubdirectoryBlock.next n key.next
  .ok ⟨key, blocks⟩

/-- prodos/prodos.go:715-733: the loop over the growing list `sdds` of subdirectory descriptors.
The arguments are the budgets for the chain of each subdirectory and for this loop, the descriptors
not yet handled, and the two maps filled by the loop. -/
def subdirLoop (c n : Nat) (img : Bytes) (sdds : List FileDescriptor) (byBlock : GoMap UInt16 Subdirectory)
    (first : GoMap UInt16 UInt16) : Out (GoMap UInt16 Subdirectory × GoMap UInt16 UInt16) :=
  match sdds with
  | [] => .ok (byBlock, first)
  | sdd :: rest =>
    match n with
    | 0 => .timeout
    | n + 1 => do
      let sub ← readSubdirectory c img sdd
      subdirLoop c n img (rest ++ subdirDescriptors sub.descriptors) (byBlock.set sdd.keyPointer sub)
        (sub.blocks.foldl (fun m b => m.set b.block sdd.keyPointer) first)

/-- prodos/prodos.go:793-799: the subdirectory a parent pointer denotes, `none` for `nil`. -/
def findParent (byBlock : GoMap UInt16 Subdirectory) (first : GoMap UInt16 UInt16) (parent : UInt16) :
    Option Subdirectory :=
  match byBlock.get? parent with
  | some sd => some sd
  | none =>
    match first.get? parent with
    | some b => byBlock.get? b
    | none => none

/-- prodos/prodos.go:787-811 `parentDirName`.  `firstSubdirBlockMap[x] == keyBlock` yields 0 for a
missing entry.  Running out of budget stands for Go's stack overflow. -/
def parentDirName (n : Nat) (parent keyBlock : UInt16) (byBlock : GoMap UInt16 Subdirectory)
    (first : GoMap UInt16 UInt16) : Out Str :=
  if parent = keyBlock ∨ (first.get? parent).getD 0 = keyBlock then .ok []
  else match findParent byBlock first parent with
    | none => .err .other
    | some sd =>
      match n with
      | 0 => .timeout
      | n + 1 => do
        let parentName ← parentDirName n sd.keyBlock.header.parentPointer keyBlock byBlock first
        if parentName = [] then .ok sd.keyBlock.header.name
        else .ok (parentName ++ str "/" ++ sd.keyBlock.header.name)

/-- prodos/prodos.go:738-752: the loop that fills `subdirsByName`, over the entries of
`subdirsByBlock` in the order the run-time chooses. -/
def nameLoop (n : Nat) (keyBlock : UInt16) (byBlock : GoMap UInt16 Subdirectory) (first : GoMap UInt16 UInt16) :
    List (UInt16 × Subdirectory) → GoMap Str Subdirectory → Out (GoMap Str Subdirectory)
  | [], m => .ok m
  | (_, sd) :: rest, m => do
    let name := sd.keyBlock.header.name
    let parentName ← parentDirName n sd.keyBlock.header.parentPointer keyBlock byBlock first
    let name := if parentName ≠ [] then parentName ++ str "/" ++ name else name
    nameLoop n keyBlock byBlock first rest (m.set name sd)

/-- prodos/prodos.go:669-759 `readVolume`, with a budget `n` for each of its loops and the order
in which `range` visits the map of subdirectories. -/
def readVolume (n : Nat) (ord : RangeOrder UInt16 Subdirectory) (img : Bytes) (keyBlock : UInt16) : Out Volume := do
  let key ← unmarshalVolumeKey img keyBlock
  let vbm ← readVolumeBitMap img key.header.bitMapPointer
  let blocks ← chainLoop (unmarshalVolumeBlock img) VolumeDirectoryBlock.next n key.next
  let first : GoMap UInt16 UInt16 := blocks.foldl (fun m b => m.set b.block keyBlock) []
  let (byBlock, first) ← subdirLoop n n img (subdirDescriptors (volumeDescriptors key blocks)) [] first
  let byName ← nameLoop n keyBlock byBlock first (ord.visit byBlock) []
  .ok ⟨key, blocks, vbm, byBlock, byName, first⟩

/-! ## The operator -/

/-- prodos/prodos.go:846-849 `operator` -/
structure Operator where
  data : Bytes
deriving DecidableEq

/-- prodos/prodos.go:922-929 `DiskOrder`, `GetBytes` -/
instance : OperatorLike Operator where
  getBytes o := o.data
  diskOrder _ := orderPO

/-- prodos/prodos.go:881-887 and 895-900: the loops that collect what `Catalog` returns. -/
def listed (descs : List FileDescriptor) : List Descriptor :=
  (descs.filter fun d => d.type ≠ 0).map FileDescriptor.descriptor

/-- prodos/prodos.go:870-901 `Catalog` -/
def Operator.catalog (n : Nat) (ord : RangeOrder UInt16 Subdirectory) (o : Operator) (subdir : Str) :
    Out (List Descriptor) := do
  let vol ← readVolume n ord o.data 2
  if subdir = [] then .ok (listed (volumeDescriptors vol.keyBlock vol.blocks))
  else match vol.subdirsByName.get? subdir with
    | none => .err .other
    | some sd => .ok (listed sd.descriptors)

/-- prodos/prodos.go:904-906 `GetFile` -/
def Operator.getFile (_o : Operator) (_filename : Str) : Out FileInfo := .err .other

/-- prodos/prodos.go:910-912 `Delete` -/
def Operator.delete (o : Operator) (_filename : Str) : Out Bool × Operator := (.err .other, o)

/-- prodos/prodos.go:917-919 `PutFile` -/
def Operator.putFile (o : Operator) (_fi : FileInfo) (_overwrite : Bool) : Out Bool × Operator := (.err .other, o)

/-- prodos/prodos.go:942-946 `SeemsToMatch` -/
def seemsToMatch (n : Nat) (ord : RangeOrder UInt16 Subdirectory) (img : Bytes) : Out Bool :=
  match readVolume n ord img 2 with
  | .ok _ => .ok true
  | .err _ => .ok false
  | .panic => .panic
  | .timeout => .timeout

/-- prodos/prodos.go:932-956 `OperatorFactory` -/
def factory (n : Nat) (ord : RangeOrder UInt16 Subdirectory) : Factory Operator where
  name := str "prodos"
  diskOrder := orderPO
  seemsToMatch := seemsToMatch n ord
  operator img := .ok ⟨img⟩

end Verif.Prodos
