import Verif.Go.Serial
import Verif.Model.Types
import Verif.Model.Open

/-!
# Model of `dos3/dos3.go`

Fixed-size Go arrays are `Vector`s.  `SetTrack`/`SetSector` of the embedded `DiskSector` are the
`track` and `sector` fields.  The `debug` argument is not modelled.
-/

set_option autoImplicit false

namespace Verif.Dos3

open Verif Verif.Disk

/-- dos3/dos3.go:18 -/
def vtocTrack : UInt8 := 17
/-- dos3/dos3.go:20 -/
def vtocSector : UInt8 := 0

/-- dos3/dos3.go:50 `TrackFreeSectors` -/
abbrev TrackFreeSectors := Vector UInt8 4

/-- dos3/dos3.go:54-63 `IsFree` -/
def isFree (t : TrackFreeSectors) (sector : UInt8) : Bool :=
  if sector ≥ 16 then false
  else
    let bits : UInt8 := 1 <<< (sector % 8)
    if sector < 8 then decide (t[1] &&& bits > 0)
    else decide (t[0] &&& bits > 0)

/-- dos3/dos3.go:67-69 `UnusedClear` -/
def unusedClear (t : TrackFreeSectors) : Bool := decide (t[2] = 0 ∧ t[3] = 0)

/-- dos3/dos3.go:76-96 `VTOC` (72 `DiskFreeSectors`; 24-47 `DiskSector`) -/
structure VTOC where
  track : UInt8 := 0
  sector : UInt8 := 0
  unused1 : UInt8 := 0
  catalogTrack : UInt8 := 0
  catalogSector : UInt8 := 0
  dosRelease : UInt8 := 0
  unused2 : Vector UInt8 2 := Vector.replicate 2 0
  volume : UInt8 := 0
  unused3 : Vector UInt8 32 := Vector.replicate 32 0
  trackSectorListMaxSize : UInt8 := 0
  unused4 : Vector UInt8 8 := Vector.replicate 8 0
  lastTrack : UInt8 := 0
  trackDirection : Int8 := 0
  unused5 : Vector UInt8 2 := Vector.replicate 2 0
  numTracks : UInt8 := 0
  numSectors : UInt8 := 0
  bytesPerSector : UInt16 := 0
  freeSectors : Vector TrackFreeSectors 50 := Vector.replicate 50 (Vector.replicate 4 0)
deriving DecidableEq

/-- dos3/dos3.go:99-127 `Validate` -/
def VTOC.validate (v : VTOC) : Out Unit :=
  if v.volume = 255 then .err .other
  else if v.dosRelease ≠ 3 then .err .other
  else if v.trackDirection ≠ 1 ∧ v.trackDirection ≠ -1 then .err .other
  else if v.numTracks ≠ 35 then .err .other
  else if v.numSectors ≠ 13 ∧ v.numSectors ≠ 16 then .err .other
  else if v.bytesPerSector ≠ 256 then .err .other
  else if v.trackSectorListMaxSize ≠ 122 then .err .other
  else if v.freeSectors.toList.any (fun tf => !unusedClear tf) then .err .other
  else .ok ()

/-- dos3/dos3.go:130-151 `VTOC.ToSector`; `copyBytes` (155-160) never sees differing lengths -/
def VTOC.toSector (v : VTOC) : Out Bytes :=
  let buf := zeros 256
  let buf := buf.set 0x00 v.unused1
  let buf := buf.set 0x01 v.catalogTrack
  let buf := buf.set 0x02 v.catalogSector
  let buf := buf.set 0x03 v.dosRelease
  let buf := copyVec buf 0x04 v.unused2
  let buf := buf.set 0x06 v.volume
  let buf := copyVec buf 0x07 v.unused3
  let buf := buf.set 0x27 v.trackSectorListMaxSize
  let buf := copyVec buf 0x28 v.unused4
  let buf := buf.set 0x30 v.lastTrack
  let buf := buf.set 0x31 v.trackDirection.toUInt8
  let buf := copyVec buf 0x32 v.unused5
  let buf := buf.set 0x34 v.numTracks
  let buf := buf.set 0x35 v.numSectors
  let buf := set16 buf 0x36 v.bytesPerSector
  .ok (copyEach 4 buf 0x38 (v.freeSectors.toList.map fun m => m.toList))

/-- dos3/dos3.go:164-188 `VTOC.FromSector` -/
def VTOC.fromSector (v : VTOC) (data : Bytes) : Out VTOC :=
  if data.length ≠ 256 then .err .other
  else .ok { v with
    unused1 := at8 data 0x00
    catalogTrack := at8 data 0x01
    catalogSector := at8 data 0x02
    dosRelease := at8 data 0x03
    unused2 := rdVec 2 data 0x04
    volume := at8 data 0x06
    unused3 := rdVec 32 data 0x07
    trackSectorListMaxSize := at8 data 0x27
    unused4 := rdVec 8 data 0x28
    lastTrack := at8 data 0x30
    trackDirection := (at8 data 0x31).toInt8
    unused5 := rdVec 2 data 0x32
    numTracks := at8 data 0x34
    numSectors := at8 data 0x35
    bytesPerSector := rd16 data 0x36
    freeSectors := Vector.ofFn fun i : Fin 50 => rdVec 4 data (0x38 + 4 * i.val) }

/-- dos3/dos3.go:192-212 `DefaultVTOC` -/
def defaultVTOC : VTOC :=
  { catalogTrack := 0x11
    catalogSector := 0x0f
    dosRelease := 0x03
    volume := 0x01
    trackSectorListMaxSize := 122
    lastTrack := 0x00
    trackDirection := 1
    numTracks := 0x23
    numSectors := 0x10
    bytesPerSector := 0x100
    freeSectors := Vector.ofFn fun i : Fin 50 =>
      if i.val < 35 then ⟨#[0xff, 0xff, 0x00, 0x00], rfl⟩ else ⟨#[0, 0, 0, 0], rfl⟩ }

/-- dos3/dos3.go:287-303 `FileDesc`; `filetype` is the byte under `type Filetype byte`. -/
structure FileDesc where
  trackSectorListTrack : UInt8 := 0
  trackSectorListSector : UInt8 := 0
  filetype : UInt8 := 0
  filename : Vector UInt8 30 := Vector.replicate 30 0
  sectorCount : UInt16 := 0
deriving DecidableEq

/-- dos3/dos3.go:306-315 `FileDesc.ToBytes` -/
def FileDesc.toBytes (fd : FileDesc) : Bytes :=
  let buf := zeros 35
  let buf := buf.set 0x00 fd.trackSectorListTrack
  let buf := buf.set 0x01 fd.trackSectorListSector
  let buf := buf.set 0x02 fd.filetype
  let buf := copyVec buf 0x03 fd.filename
  set16 buf 0x21 fd.sectorCount

/-- dos3/dos3.go:319-329 `FileDesc.FromBytes` of the 35 bytes of `data` at `off`.  The panic for
another length is not reachable: both callers pass 35-byte slices. -/
def FileDesc.fromBytes (data : Bytes) (off : Nat) : FileDesc where
  trackSectorListTrack := at8 data (off + 0x00)
  trackSectorListSector := at8 data (off + 0x01)
  filetype := at8 data (off + 0x02)
  filename := rdVec 30 data (off + 0x03)
  sectorCount := rd16 data (off + 0x21)

/-- dos3/dos3.go:216-223 `CatalogSector` -/
structure CatalogSector where
  track : UInt8 := 0
  sector : UInt8 := 0
  unused1 : UInt8 := 0
  nextTrack : UInt8 := 0
  nextSector : UInt8 := 0
  unused2 : Vector UInt8 8 := Vector.replicate 8 0
  fileDescs : Vector FileDesc 7 := Vector.replicate 7 {}
deriving DecidableEq

/-- dos3/dos3.go:226-237 `CatalogSector.ToSector` -/
def CatalogSector.toSector (cs : CatalogSector) : Out Bytes :=
  let buf := zeros 256
  let buf := buf.set 0x00 cs.unused1
  let buf := buf.set 0x01 cs.nextTrack
  let buf := buf.set 0x02 cs.nextSector
  let buf := copyVec buf 0x03 cs.unused2
  .ok (copyEach 35 buf 0x0b (cs.fileDescs.toList.map fun fd => fd.toBytes))

/-- dos3/dos3.go:241-255 `CatalogSector.FromSector` -/
def CatalogSector.fromSector (cs : CatalogSector) (data : Bytes) : Out CatalogSector :=
  if data.length ≠ 256 then .err .other
  else .ok { cs with
    unused1 := at8 data 0x00
    nextTrack := at8 data 0x01
    nextSector := at8 data 0x02
    unused2 := rdVec 8 data 0x03
    fileDescs := Vector.ofFn fun i : Fin 7 => FileDesc.fromBytes data (0x0b + 35 * i.val) }

/-- disk/disk.go:64-67 `TrackSector` -/
structure TrackSector where
  track : UInt8
  sector : UInt8
deriving DecidableEq, Repr

/-- dos3/dos3.go:442-451 `TrackSectorList` -/
structure TrackSectorList where
  track : UInt8 := 0
  sector : UInt8 := 0
  unused1 : UInt8 := 0
  nextTrack : UInt8 := 0
  nextSector : UInt8 := 0
  unused2 : Vector UInt8 2 := Vector.replicate 2 0
  sectorOffset : UInt16 := 0
  unused3 : Vector UInt8 5 := Vector.replicate 5 0
  trackSectors : Vector TrackSector 122 := Vector.replicate 122 ⟨0, 0⟩
deriving DecidableEq

/-- dos3/dos3.go:454-468 `TrackSectorList.ToSector`; the two assignments of the loop body are one
two-byte copy. -/
def TrackSectorList.toSector (tsl : TrackSectorList) : Out Bytes :=
  let buf := zeros 256
  let buf := buf.set 0x00 tsl.unused1
  let buf := buf.set 0x01 tsl.nextTrack
  let buf := buf.set 0x02 tsl.nextSector
  let buf := copyVec buf 0x03 tsl.unused2
  let buf := set16 buf 0x05 tsl.sectorOffset
  let buf := copyVec buf 0x07 tsl.unused3
  .ok (copyEach 2 buf 0x0C (tsl.trackSectors.toList.map fun ts => [ts.track, ts.sector]))

/-- dos3/dos3.go:472-489 `TrackSectorList.FromSector` -/
def TrackSectorList.fromSector (tsl : TrackSectorList) (data : Bytes) : Out TrackSectorList :=
  if data.length ≠ 256 then .err .other
  else .ok { tsl with
    unused1 := at8 data 0x00
    nextTrack := at8 data 0x01
    nextSector := at8 data 0x02
    unused2 := rdVec 2 data 0x03
    sectorOffset := rd16 data 0x05
    unused3 := rdVec 5 data 0x07
    trackSectors := Vector.ofFn fun i : Fin 122 =>
      ⟨at8 data (0x0C + i.val * 2), at8 data (0x0D + i.val * 2)⟩ }

/-- disk/marshal.go:36-47 `UnmarshalLogicalSector` of a VTOC. -/
def unmarshalVTOC (img : Bytes) (track sector : UInt8) : Out VTOC := do
  let bytes ← readSector img track sector
  let v ← VTOC.fromSector {} bytes
  .ok { v with track := track, sector := sector }

/-- disk/marshal.go:36-47 `UnmarshalLogicalSector` of a catalog sector. -/
def unmarshalCatalogSector (img : Bytes) (track sector : UInt8) : Out CatalogSector := do
  let bytes ← readSector img track sector
  let v ← CatalogSector.fromSector {} bytes
  .ok { v with track := track, sector := sector }

/-- disk/marshal.go:36-47 `UnmarshalLogicalSector` of a track/sector list. -/
def unmarshalTSL (img : Bytes) (track sector : UInt8) : Out TrackSectorList := do
  let bytes ← readSector img track sector
  let v ← TrackSectorList.fromSector {} bytes
  .ok { v with track := track, sector := sector }

/-- disk/marshal.go:63-71 `MarshalLogicalSector` of a VTOC. -/
def marshalVTOC (img : Bytes) (v : VTOC) : Out Unit × Bytes :=
  match v.toSector with
  | .ok bytes => writeSector img v.track v.sector bytes
  | .err k => (.err k, img)
  | .panic => (.panic, img)
  | .timeout => (.timeout, img)

/-! ## File entries -/

/-- dos3/dos3.go:276-283 `FileDescStatus` -/
inductive Status where
  | normal
  | deleted
  | unused
deriving DecidableEq, Repr

/-- dos3/dos3.go:333-342 `Status` -/
def FileDesc.status (fd : FileDesc) : Status :=
  if fd.trackSectorListTrack = 0 then .unused
  else if fd.trackSectorListTrack = 0xff then .deleted
  else .normal

/-- `strings.TrimRight(s, " ")` -/
def trimRightSpaces (s : Str) : Str := (s.reverse.dropWhile fun c => c = 0x20).reverse

/-- dos3/dos3.go:346-357 `FilenameString` -/
def FileDesc.filenameString (fd : FileDesc) : Str :=
  let slice := if fd.status = .deleted then fd.filename.toList.take 29 else fd.filename.toList
  trimRightSpaces (slice.map fun b => b - 0x80)

/-- dos3/dos3.go:362-388 `descriptor` (filetype constants 261-273) -/
def FileDesc.descriptor (fd : FileDesc) : Descriptor :=
  { name := fd.filenameString
    sectors := fd.sectorCount.toNat
    length := -1
    locked := decide (fd.filetype &&& 0x80 > 0)
    type :=
      let t := fd.filetype &&& 0x7f
      if t = 0x00 then filetypeASCIIText
      else if t = 0x01 then filetypeIntegerBASIC
      else if t = 0x02 then filetypeApplesoftBASIC
      else if t = 0x04 then filetypeBinary
      else if t = 0x08 then filetypeS
      else if t = 0x10 then filetypeRelocatable
      else if t = 0x20 then filetypeNewA
      else if t = 0x40 then filetypeNewB
      else 0 }

/-! ## Catalog -/

/-- dos3/dos3.go:506-527: the catalog loop.  `seen` is passed on unchanged: the code tests it but never
adds to it.  Each iteration takes one unit of fuel. -/
def catalogLoop (img : Bytes) (numTracks numSectors : UInt8) :
    Nat → UInt8 → UInt8 → List TrackSector → List CatalogSector → Out (List CatalogSector)
  | 0, _, _, _, _ => .timeout
  | fuel + 1, nextTrack, nextSector, seen, css =>
    if nextTrack ≠ 0 ∨ nextSector ≠ 0 then
      if ⟨nextTrack, nextSector⟩ ∈ seen then .err .other
      else if nextTrack ≥ numTracks then .err .other
      else if nextSector ≥ numSectors then .err .other
      else match unmarshalCatalogSector img nextTrack nextSector with
        | .ok cs => catalogLoop img numTracks numSectors fuel cs.nextTrack cs.nextSector seen (css ++ [cs])
        | .err k => .err k
        | .panic => .panic
        | .timeout => .timeout
    else .ok css

/-- dos3/dos3.go:493-528 `readCatalogSectors`, giving up after `fuel` iterations. -/
def readCatalogSectors (fuel : Nat) (img : Bytes) : Out (List CatalogSector) := do
  let v ← unmarshalVTOC img vtocTrack vtocSector
  match v.validate with
  | .ok _ => catalogLoop img v.numTracks v.numSectors fuel v.catalogTrack v.catalogSector [] []
  | .err _ => .err .other
  | .panic => .panic
  | .timeout => .timeout

/-- dos3/dos3.go:531-550 `ReadCatalog`, giving up after `fuel` iterations. -/
def readCatalogFuel (fuel : Nat) (img : Bytes) : Out (List FileDesc × List FileDesc) := do
  let css ← readCatalogSectors fuel img
  let fds := css.flatMap fun cs => cs.fileDescs.toList
  .ok (fds.filter (fun fd => fd.status = .normal), fds.filter (fun fd => fd.status = .deleted))

/-- dos3/dos3.go:531-550 `ReadCatalog`.  560 iterations visit every sector the loop can reach, so
a run that is not finished after 561 never ends (theorem `C16_timeout_is_divergence`). -/
def readCatalog (img : Bytes) : Out (List FileDesc × List FileDesc) := readCatalogFuel 561 img

/-! ## Contents -/

/-- dos3/dos3.go:394-410: follow the chain of track/sector lists. -/
def tslLoop (img : Bytes) : Nat → UInt8 → UInt8 → List TrackSector → List TrackSectorList →
    Out (List TrackSectorList)
  | 0, _, _, _, _ => .timeout
  | fuel + 1, nextTrack, nextSector, seen, tsls =>
    if nextTrack ≠ 0 ∨ nextSector ≠ 0 then
      if ⟨nextTrack, nextSector⟩ ∈ seen then .err .other
      else match unmarshalTSL img nextTrack nextSector with
        | .ok tsl =>
          tslLoop img fuel tsl.nextTrack tsl.nextSector (⟨nextTrack, nextSector⟩ :: seen) (tsls ++ [tsl])
        | .err k => .err k
        | .panic => .panic
        | .timeout => .timeout
    else .ok tsls

/-- dos3/dos3.go:413-421: the index of the last entry that is used, 121 if none is. -/
def lastEntry (tss : List TrackSector) : Nat → Nat → Nat
  | end_, j =>
    match tss with
    | [] => end_
    | ts :: rest => lastEntry rest (if ts.track ≠ 0 ∨ ts.sector ≠ 0 then j else end_) (j + 1)

/-- dos3/dos3.go:422-435: append one sector per entry. -/
def appendSectors (img : Bytes) : List TrackSector → Bytes → Out Bytes
  | [], data => .ok data
  | ts :: rest, data =>
    if ts.track = 0 ∧ ts.sector = 0 then appendSectors img rest (data ++ zeros 256)
    else match readSector img ts.track ts.sector with
      | .ok contents => appendSectors img rest (data ++ contents)
      | .err k => .err k
      | .panic => .panic
      | .timeout => .timeout

/-- dos3/dos3.go:412-437: the loop over the lists. -/
def appendLists (img : Bytes) : List TrackSectorList → Bytes → Out Bytes
  | [], data => .ok data
  | tsl :: rest, data =>
    let end_ := if rest = [] then lastEntry tsl.trackSectors.toList 121 0 else 121
    match appendSectors img (tsl.trackSectors.toList.take (end_ + 1)) data with
    | .ok data => appendLists img rest data
    | .err k => .err k
    | .panic => .panic
    | .timeout => .timeout

/-- A Go byte slice with the zero bytes that follow it in its backing array:
`make([]byte, 0, cap)` filled by appends that never exceed `cap`. -/
structure Slice where
  data : Bytes
  /-- `cap(s) - len(s)`; the bytes there are zero. -/
  spare : Nat
deriving DecidableEq, Repr

/-- dos3/dos3.go:392-438 `Contents`, giving up after `fuel` list sectors. -/
def contentsFuel (fuel : Nat) (fd : FileDesc) (img : Bytes) : Out Slice := do
  let tsls ← tslLoop img fuel fd.trackSectorListTrack fd.trackSectorListSector [] []
  let data ← appendLists img tsls []
  .ok ⟨data, 256 * 122 * tsls.length - data.length⟩

/-- dos3/dos3.go:392-438 `Contents`.  There are 65536 track/sector pairs, so 65537 iterations
always suffice (theorem `C17_terminates`). -/
def contents (fd : FileDesc) (img : Bytes) : Out Slice := contentsFuel 65537 fd img

/-! ## Operator -/

/-- dos3/dos3.go:554-557 `operator` -/
structure Operator where
  data : Bytes
deriving DecidableEq

namespace Operator

/-- dos3/dos3.go:675-682 `DiskOrder`, `GetBytes` -/
instance : OperatorLike Operator where
  getBytes o := o.data
  diskOrder _ := orderDO

/-- dos3/dos3.go:578-588 `Catalog`; the `subdir` argument is ignored by the code. -/
def catalog (o : Operator) (_subdir : Str) : Out (List Descriptor) := do
  let (fds, _) ← readCatalog o.data
  .ok (fds.map FileDesc.descriptor)

/-- dos3/dos3.go:592-603 `fileForFilename` -/
def fileForFilename (o : Operator) (filename : Str) : Out FileDesc := do
  let (fds, _) ← readCatalog o.data
  match fds.find? (fun fd => fd.filenameString = filename) with
  | some fd => .ok fd
  | none => .err .other

/-- dos3/dos3.go:625-627: drop trailing zeros; indexing the empty slice panics. -/
def trimZeros (data : Bytes) : Out Bytes :=
  match data.reverse.dropWhile (fun b => b = 0) with
  | [] => .panic
  | l => .ok l.reverse

/-- Go's `s[lo:hi]` with `lo ≤ hi`: reaches into the spare capacity, panics beyond it. -/
def reslice (s : Slice) (lo hi : Nat) : Out Bytes :=
  if hi > s.data.length + s.spare then .panic
  else .ok (Verif.slice (s.data ++ zeros s.spare) lo (hi - lo))

/-- dos3/dos3.go:642-643: the length word, then that many bytes. -/
def sized (s : Slice) : Out (Nat × Bytes) :=
  match s.data with
  | b0 :: b1 :: _ =>
    let length := b0.toNat + b1.toNat * 256
    match reslice s 2 (length + 2) with
    | .ok data => .ok (length, data)
    | .err k => .err k
    | .panic => .panic
    | .timeout => .timeout
  | _ => .panic

/-- dos3/dos3.go:606-659 `GetFile` -/
def getFile (o : Operator) (filename : Str) : Out FileInfo := do
  let fd ← o.fileForFilename filename
  let desc := fd.descriptor
  let s ← contents fd o.data
  let t := fd.filetype &&& 0x7f
  if t = 0x00 then do
    let data ← trimZeros s.data
    .ok { descriptor := { desc with length := data.length }, data := data }
  else if t = 0x01 ∨ t = 0x02 ∨ t = 0x04 then do
    let start : UInt16 := if t = 0x02 then 0x801 else 0
    let (start, s) ← (if t = 0x04 then
      match s.data with
      | b0 :: b1 :: rest => Out.ok (b0.toUInt16 + (b1.toUInt16 <<< 8), (⟨rest, s.spare⟩ : Slice))
      | _ => Out.panic
      else Out.ok (start, s))
    let (length, data) ← sized s
    .ok { descriptor := { desc with length := length }, data := data, startAddress := start }
  else .err .other

/-- dos3/dos3.go:663-665 `Delete` -/
def delete (_ : Operator) (_filename : Str) : Out Bool := .err .other

/-- dos3/dos3.go:670-672 `PutFile` -/
def putFile (_ : Operator) (_ : FileInfo) (_overwrite : Bool) : Out Bool := .err .other

end Operator

/-- dos3/dos3.go:695-699 `SeemsToMatch` -/
def seemsToMatch (img : Bytes) : Out Bool :=
  match readCatalog img with
  | .ok _ => .ok true
  | .err _ => .ok false
  | .panic => .panic
  | .timeout => .timeout

/-- dos3/dos3.go:685-709 `OperatorFactory` -/
def factory : Factory Operator where
  name := str "dos3"
  diskOrder := orderDO
  seemsToMatch := seemsToMatch
  operator img := .ok ⟨img⟩

end Verif.Dos3
