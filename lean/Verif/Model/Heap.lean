import Verif.Model.Supermon
import Verif.Model.Open

/-!
# Model of slices in memory, and of the NakedOS operator on them

In the rest of the model a `[]byte` is a list of bytes, and a function that changes one returns the new list.  Here a slice is what it is in Go:
a place, a length and a capacity in an array that other slices can share.  The functions of `disk/marshal.go`, `disk/open.go` and
`supermon/supermon.go` that make, copy or change bytes are written again over such slices.  What is only read (the sector map in `SectorsForFile`,
`FreeSectors`, `FirstFreeFile`, `Verify`) is read as a value, since nothing is written meanwhile.  A symbol table shares no memory with any
`[]byte`, and is a value of the operator.
-/

set_option autoImplicit false

namespace Verif.Heap
open Disk Supermon

/-- The arrays allocated so far. -/
abbrev Mem := List Bytes

/-- A Go slice of bytes. -/
structure Slice where
  arr : Nat
  off : Nat
  len : Nat
  cap : Nat
deriving DecidableEq, Repr

/-- `nil` -/
def nilSlice : Slice := ⟨0, 0, 0, 0⟩

/-- The bytes that a slice has at the moment. -/
def bytesOf (m : Mem) (s : Slice) : Bytes := slice (m.getD s.arr []) s.off s.len

/-- What Go keeps true of every slice but `nil`: it lies in an array that is there. -/
structure Valid (m : Mem) (s : Slice) : Prop where
  arr : s.arr < m.length
  room : s.off + s.cap ≤ (m.getD s.arr []).length
  len : s.len ≤ s.cap

/-- A computation that uses memory. -/
def M (α : Type) : Type := Mem → Out α × Mem

instance : Monad M where
  pure a := fun m => (.ok a, m)
  bind x f := fun m =>
    match x m with
    | (.ok a, m) => f a m
    | (.err k, m) => (.err k, m)
    | (.panic, m) => (.panic, m)
    | (.timeout, m) => (.timeout, m)

/-- Whether a call worked, without what it gave. -/
def outcome {α : Type} : Out α → Out Unit
  | .ok _ => .ok ()
  | .err k => .err k
  | .panic => .panic
  | .timeout => .timeout

/-- An outcome without use of memory. -/
def lift {α : Type} (o : Out α) : M α := fun m => (o, m)

/-- The memory with `b` at the place of a slice. -/
def store (s : Slice) (b : Bytes) (m : Mem) : Mem := m.set s.arr (put (m.getD s.arr []) s.off b)

/-- `make([]byte, n)` -/
def make (n : Nat) : M Slice := fun m => (.ok ⟨m.length, 0, n, n⟩, m ++ [zeros n])

/-- `s[lo:hi]` -/
def sub (s : Slice) (lo hi : Nat) : M Slice :=
  if lo ≤ hi ∧ hi ≤ s.cap then pure ⟨s.arr, s.off + lo, hi - lo, s.cap - lo⟩ else lift .panic

/-- `copy(dst, src)`: the slices may overlap. -/
def copyTo (dst src : Slice) : M Unit := fun m => (.ok (), store dst ((bytesOf m src).take dst.len) m)

/-- `s[i]` -/
def index (s : Slice) (i : Nat) : M UInt8 := fun m =>
  match (bytesOf m s)[i]? with
  | some b => (.ok b, m)
  | none => (.panic, m)

/-- `s[i] = b` -/
def setIndex (s : Slice) (i : Nat) (b : UInt8) : M Unit := fun m =>
  if i < s.len then (.ok (), store ⟨s.arr, s.off + i, 1, 1⟩ [b] m) else (.panic, m)

/-- `append(s, t...)`: in place when there is room, and otherwise in a new array, with as much room to spare as `grow` says. -/
def append (grow : Nat → Nat → Nat) (s t : Slice) : M Slice := fun m =>
  if s.len + t.len ≤ s.cap then
    (.ok ⟨s.arr, s.off, s.len + t.len, s.cap⟩, store ⟨s.arr, s.off + s.len, t.len, t.len⟩ (bytesOf m t) m)
  else
    (.ok ⟨m.length, 0, s.len + t.len, s.len + t.len + grow s.cap (s.len + t.len)⟩,
      m ++ [bytesOf m s ++ bytesOf m t ++ zeros (grow s.cap (s.len + t.len))])

/-- disk/marshal.go:51-60 `ReadSector` -/
def readSector (d : Slice) (track sector : UInt8) : M Slice := do
  let start := track.toNat * floppyTrackBytes + sector.toNat * 256
  let end_ := start + 256
  if d.len < end_ then lift (.err .other)
  else do
    let bytes ← make 256
    let src ← sub d start end_
    copyTo bytes src
    pure bytes

/-- disk/marshal.go:75-86 `WriteSector` -/
def writeSector (d : Slice) (track sector : UInt8) (data : Slice) : M Unit := do
  if data.len ≠ 256 then lift (.err .other)
  else do
    let start := track.toNat * floppyTrackBytes + sector.toNat * 256
    let end_ := start + 256
    if d.len < end_ then lift (.err .other)
    else do
      let dst ← sub d start end_
      copyTo dst data

/-- disk/open.go:162-173: the loops of `Swizzle`. -/
def swizzleLoop (d : Slice) (order : List Int) (result : Slice) : List (Nat × Nat) → M Unit
  | [] => pure ()
  | ts :: rest => do
    let data ← readSector d (UInt8.ofNat ts.1) (UInt8.ofNat ts.2)
    match order[ts.2]? with
    | none => lift .panic
    | some x => do
      writeSector result (UInt8.ofNat ts.1) (intToByte x) data
      swizzleLoop d order result rest

/-- disk/open.go:153-175 `Swizzle` -/
def swizzle (d : Slice) (order : List Int) : M Slice := do
  if d.len ≠ floppyDiskBytes then lift (.err .other)
  else do
    lift (validateOrder order)
    let result ← make floppyDiskBytes
    swizzleLoop d order result trackSectorPairs
    pure result

/-- The sector map as a value, for functions that only read it. -/
def theMap (sm : Slice) : M SectorMap := fun m =>
  if h : (bytesOf m sm).length = 560 then (.ok ⟨(bytesOf m sm).toArray, by simpa using h⟩, m) else (.panic, m)

/-- supermon/supermon.go:32-50 `LoadSectorMap` -/
def loadSectorMap (d : Slice) : M Slice := do
  let sm ← make 560
  let sector09 ← readSector d 0 9
  let sector0A ← readSector d 0 0xA
  let sector0B ← readSector d 0 0xB
  let dst ← sub sm 0 0x30
  let src ← sub sector09 0xd0 sector09.len
  copyTo dst src
  let dst ← sub sm 0x30 0x130
  copyTo dst sector0A
  let dst ← sub sm 0x130 0x230
  copyTo dst sector0B
  pure sm

/-- supermon/supermon.go:126-138 `SetFileForSector` -/
def setFileForSector (sm : Slice) (track sector file : UInt8) : M Unit :=
  if track.toNat ≥ 35 then lift (.err .other)
  else if sector.toNat ≥ 16 then lift (.err .other)
  else if file = fileIllegal ∨ file = fileFree ∨ file = fileReserved then lift (.err .other)
  else setIndex sm (track.toNat * 16 + sector.toNat) file

/-- supermon/supermon.go:66-79 `Persist` -/
def persist (sm d : Slice) : M Unit := do
  let sector09 ← readSector d 0 9
  let dst ← sub sector09 0xd0 sector09.len
  let src ← sub sm 0 0x30
  copyTo dst src
  writeSector d 0 9 sector09
  let src ← sub sm 0x30 0x130
  writeSector d 0 0xA src
  let src ← sub sm 0x130 0x230
  writeSector d 0 0xB src

/-- supermon/supermon.go:169-175: the loop of `ReadFile`. -/
def readFileLoop (grow : Nat → Nat → Nat) (d : Slice) : List (UInt8 × UInt8) → Slice → M Slice
  | [], result => pure result
  | ts :: rest, result => do
    let bytes ← readSector d ts.1 ts.2
    let result ← append grow result bytes
    readFileLoop grow d rest result

/-- supermon/supermon.go:167-177 `ReadFile` -/
def readFile (grow : Nat → Nat → Nat) (sm d : Slice) (file : UInt8) : M Slice := do
  let v ← theMap sm
  readFileLoop grow d (sectorsForFile v file) nilSlice

/-- supermon/supermon.go:181-185: the loop of `Delete` from index `i` on; `n` rounds are left. -/
def deleteLoop (sm : Slice) (file : UInt8) : Nat → Nat → M Unit
  | _, 0 => pure ()
  | i, n + 1 => do
    let f ← index sm i
    if f = file then do
      setIndex sm i fileFree
      deleteLoop sm file (i + 1) n
    else deleteLoop sm file (i + 1) n

/-- supermon/supermon.go:180-186 `SectorMap.Delete` -/
def deleteFile (sm : Slice) (file : UInt8) : M Unit := deleteLoop sm file 0 sm.len

/-- supermon/supermon.go:208-224: the allocation loop of `WriteFile`. -/
def writeLoop (cts sm d : Slice) (sectorsNeeded : Nat) (file : UInt8) : List (UInt8 × UInt8) → Nat → M Unit
  | [], _ => pure ()
  | ts :: rest, i => do
    let v ← theMap sm
    if fileForSector v ts.1 ts.2 = fileFree then do
      let src ← sub cts (i * 256) ((i + 1) * 256)
      writeSector d ts.1 ts.2 src
      setFileForSector sm ts.1 ts.2 file
      if i + 1 = sectorsNeeded then pure ()
      else writeLoop cts sm d sectorsNeeded file rest (i + 1)
    else writeLoop cts sm d sectorsNeeded file rest i

/-- supermon/supermon.go:191-193, 194-196: the start of `WriteFile`: the copy of the contents, the number of sectors of the file and of free ones. -/
def writeStart (sm : Slice) (file : UInt8) (contents : Slice) : M (Slice × Nat × Nat) := do
  let cts ← make (256 * ((contents.len + 255) / 256))
  copyTo cts contents
  let v ← theMap sm
  pure (cts, (sectorsForFile v file).length, freeSectors v)

/-- supermon/supermon.go:205, 207-228: the end of `WriteFile`. -/
def writeEnd (sm d : Slice) (file : UInt8) (cts : Slice) (sectorsNeeded : Nat) (existed : Bool) : M Unit := do
  if existed then deleteFile sm file
  writeLoop cts sm d sectorsNeeded file allSectors 0
  persist sm d

/-- supermon/supermon.go:190-229 `WriteFile`: whether the file existed, the outcome and the memory. -/
def writeFile (sm d : Slice) (file : UInt8) (contents : Slice) (overwrite : Bool) (m : Mem) : Bool × Out Unit × Mem :=
  let sectorsNeeded := (contents.len + 255) / 256
  match writeStart sm file contents m with
  | (.ok (cts, existing, free), m) =>
    let existed := decide (existing > 0)
    if free + existing < sectorsNeeded then (existed, .err .outOfSpace, m)
    else if existed ∧ !overwrite then (existed, .err .fileExists, m)
    else (existed, writeEnd sm d file cts sectorsNeeded existed m)
  | (.err k, m) => (false, .err k, m)
  | (.panic, m) => (false, .panic, m)
  | (.timeout, m) => (false, .timeout, m)

/-- A new array with these bytes. -/
def alloc (b : Bytes) : M Slice := fun m => (.ok ⟨m.length, 0, b.length, b.length⟩, m ++ [b])

/-- supermon/supermon.go:380-407 `WriteSymbolTable`.  The two tables are made here when they have been filled. -/
def writeSymbolTable (sm d : Slice) (st : SymbolTable) : M Unit := fun m =>
  match fillTables st 0 (zeros 0x1000) (zeros 0x1000) with
  | .ok (b1, b2) =>
    match alloc b1 m with
    | (.ok t1, m) =>
      match alloc b2 m with
      | (.ok t2, m) =>
        match writeFile sm d 3 t1 true m with
        | (_, .ok _, m) =>
          match writeFile sm d 4 t2 true m with
          | (_, .ok _, m) => (.ok (), m)
          | (_, .err _, m) => (.err .other, m)
          | (_, .panic, m) => (.panic, m)
          | (_, .timeout, m) => (.timeout, m)
        | (_, .err _, m) => (.err .other, m)
        | (_, .panic, m) => (.panic, m)
        | (_, .timeout, m) => (.timeout, m)
      | (_, m) => (.panic, m)
    | (_, m) => (.panic, m)
  | .err k => (.err k, m)
  | .panic => (.panic, m)
  | .timeout => (.timeout, m)

/-- supermon/supermon.go:645-650 `Operator` -/
structure Op where
  data : Slice
  sm : Slice
  st : Option SymbolTable

/-- Methods on a nil table see an empty one. -/
def Op.table (o : Op) : SymbolTable := o.st.getD []

/-- supermon/supermon.go:317-377 `ReadSymbolTable`, once both files have been read: nothing is written from here on. -/
def parseTables (t1 t2 : Bytes) : Out SymbolTable := do
  if h1 : t1.length = 0x1000 then
    if h2 : t2.length = 0x1000 then
      let table ← parseSymbols ⟨t1.toArray, by simpa using h1⟩ ⟨t2.toArray, by simpa using h2⟩ 819 (Nat.le_refl _)
      checkLinks table table 0
      .ok table
    else .err .other
  else .err .other

/-- supermon/supermon.go:317-377 `ReadSymbolTable`, and what becomes of its error (833-836). -/
def readSymbolTable (grow : Nat → Nat → Nat) (sm d : Slice) : M (Option SymbolTable) := fun m =>
  match readFile grow sm d 3 m with
  | (.ok t1, m) =>
    if t1.len ≠ 0x1000 then (.ok none, m)
    else
      match readFile grow sm d 4 m with
      | (.ok t2, m) =>
        match parseTables (bytesOf m t1) (bytesOf m t2) with
        | .ok st => (.ok (some st), m)
        | .err _ => (.ok none, m)
        | .panic => (.panic, m)
        | .timeout => (.timeout, m)
      | (.err _, m) => (.ok none, m)
      | (.panic, m) => (.panic, m)
      | (.timeout, m) => (.timeout, m)
  | (.err _, m) => (.ok none, m)
  | (.panic, m) => (.panic, m)
  | (.timeout, m) => (.timeout, m)

/-- supermon/supermon.go:822-839 `OperatorFactory.Operator`: the operator keeps the slice it is given. -/
def openOperator (grow : Nat → Nat → Nat) (d : Slice) : M Op := do
  let sm ← loadSectorMap d
  let v ← theMap sm
  lift (verify v)
  let st ← readSymbolTable grow sm d
  pure ⟨d, sm, st⟩

/-- disk/open.go:83-150: what `OpenImage` does with a floppy image when the order and the system are given: two calls of `Swizzle`, and the operator
over the second result.  (When they are not given it does this for several orders and systems, and the rest is only read.) -/
def openFloppy (grow : Nat → Nat → Nat) (raw : Slice) (order : DiskOrder) : M Op := do
  let swizzled ← swizzle raw (logicalToPhysicalByName order)
  let diskbytes ← swizzle swizzled (physicalToLogicalByName orderRaw)
  openOperator grow diskbytes

/-- disk/open.go:210-230: the slice that `WriteBack` hands to `WriteOutput`. -/
def Op.writeBack (o : Op) (diskFileOrder : DiskOrder) : M Slice := do
  if o.data.len ≠ floppyDiskBytes then pure o.data
  else do
    let physicalBytes ← swizzle o.data (logicalToPhysicalByName orderRaw)
    swizzle physicalBytes (physicalToLogicalByName diskFileOrder)

/-- supermon/supermon.go:671-689 `Catalog`: the disk itself is not read. -/
def Op.catalog (o : Op) : M (List Descriptor) := do
  let v ← theMap o.sm
  pure (Operator.catalog ⟨[], v, o.st⟩)

/-- supermon/supermon.go:692-719 `GetFile`: the data of the file. -/
def Op.getFile (grow : Nat → Nat → Nat) (o : Op) (filename : Str) : M Slice := fun m =>
  match fileForName o.table filename with
  | .ok file =>
    match readFile grow o.sm o.data file m with
    | (.ok data, m) => if data.len = 0 then (.err .other, m) else (.ok data, m)
    | (.err _, m) => (.err .other, m)
    | (.panic, m) => (.panic, m)
    | (.timeout, m) => (.timeout, m)
  | .err k => (.err k, m)
  | .panic => (.panic, m)
  | .timeout => (.timeout, m)

/-- Result of `Delete` and `PutFile`. -/
structure Res where
  existed : Bool
  out : Out Unit
  op : Op
  mem : Mem

/-- supermon/supermon.go:723-742 `Delete` -/
def Op.delete (o : Op) (filename : Str) (m : Mem) : Res :=
  match fileForName o.table filename with
  | .ok file =>
    match theMap o.sm m with
    | (.ok v, m) =>
      let existed := decide ((sectorsForFile v file).length > 0)
      match (do deleteFile o.sm file; persist o.sm o.data : M Unit) m with
      | (.ok _, m) =>
        match o.st with
        | some st =>
          match deleteSymbol st filename with
          | (true, st) =>
            match writeSymbolTable o.sm o.data st m with
            | (out, m) => ⟨existed, out, ⟨o.data, o.sm, some st⟩, m⟩
          | (false, st) => ⟨existed, .ok (), ⟨o.data, o.sm, some st⟩, m⟩
        | none => ⟨existed, .ok (), o, m⟩
      | (e, m) => ⟨existed, e, o, m⟩
    | (_, m) => ⟨false, .panic, o, m⟩
  | .err k => ⟨false, .err k, o, m⟩
  | .panic => ⟨false, .panic, o, m⟩
  | .timeout => ⟨false, .timeout, o, m⟩

/-- supermon/supermon.go:773-785: the end of `PutFile`, once the file number is known. -/
def Op.putNumbered (o : Op) (numFile namedFile : UInt8) (symbol : Str) (data : Slice) (overwrite : Bool) (m : Mem) : Res :=
  match writeFile o.sm o.data numFile data overwrite m with
  | (existed, .ok _, m) =>
    if namedFile ≠ numFile ∧ symbol ≠ [] then
      match o.st with
      | some st =>
        match addSymbol st symbol (0xDF00 + numFile.toUInt16) with
        | (.ok _, st) =>
          match writeSymbolTable o.sm o.data st m with
          | (out, m) => ⟨existed, out, ⟨o.data, o.sm, some st⟩, m⟩
        | (e, st) => ⟨existed, e, ⟨o.data, o.sm, some st⟩, m⟩
      | none => ⟨existed, .err .other, o, m⟩
    else ⟨existed, .ok (), o, m⟩
  | (existed, e, m) => ⟨existed, e, o, m⟩

/-- supermon/supermon.go:747-786 `PutFile`, for a binary file with the length of its data (754-759 refuse others). -/
def Op.putFile (o : Op) (filename : Str) (data : Slice) (overwrite : Bool) (m : Mem) : Res :=
  match filesForCompoundName o.table filename with
  | .ok (numFile, namedFile, symbol) =>
    if symbol ≠ [] ∧ o.st = none then ⟨false, .err .other, o, m⟩
    else if symbol ≠ [] ∧ (encodeSymbol symbol).isErr then ⟨false, .err .other, o, m⟩
    else
      match theMap o.sm m with
      | (.ok v, m) =>
        let numFile := if numFile = 0 then firstFreeFile v else numFile
        if numFile = 0 then ⟨false, .err .other, o, m⟩
        else o.putNumbered numFile namedFile symbol data overwrite m
      | (_, m) => ⟨false, .panic, o, m⟩
  | .err k => ⟨false, .err k, o, m⟩
  | .panic => ⟨false, .panic, o, m⟩
  | .timeout => ⟨false, .timeout, o, m⟩

end Verif.Heap
