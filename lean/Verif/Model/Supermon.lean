import Verif.Model.Types
import Verif.Model.Open
import Verif.Go.Map

/-!
# Model of `supermon/supermon.go`: NakedOS / Super-Mon disks

A `SectorMap` is always 560 bytes long (LoadSectorMap allocates it and nothing
resizes it), hence a `Vector`.  Methods that mutate the map or the image return
the new ones in every outcome.
-/

set_option autoImplicit false

namespace Verif.Supermon
open Disk

/-- supermon/supermon.go:20 -/
def fileIllegal : UInt8 := 0
/-- supermon/supermon.go:22 -/
def fileFree : UInt8 := 0xFF
/-- supermon/supermon.go:24 -/
def fileReserved : UInt8 := 0xFE

/-- supermon/supermon.go:29 -/
abbrev SectorMap := Vector UInt8 560

/-- The (track, sector) pairs visited by the nested loops
`for track := byte(0); track < 35; track++ { for sector := byte(0); sector < 16; sector++`
(supermon.go:100-101, 144-145, 209-210), in order. -/
def allSectors : List (UInt8 × UInt8) :=
  trackSectorPairs.map fun p => (UInt8.ofNat p.1, UInt8.ofNat p.2)

/-- supermon/supermon.go:32-50 `LoadSectorMap`.  The copies fill the map completely:
0x30 + 0x100 + 0x100 = 560 bytes. -/
def loadSectorMap (img : Bytes) : Out SectorMap := do
  let sector09 ← readSector img 0 9
  let sector0A ← readSector img 0 0xA
  let sector0B ← readSector img 0 0xB
  let sm := put (put (put (zeros 560) 0 (sector09.drop 0xd0)) 0x30 sector0A) 0x130 sector0B
  if h : sm.length = 560 then .ok ⟨sm.toArray, by simpa using h⟩ else .panic

/-- supermon/supermon.go:114-122 `FileForSector` -/
def fileForSector (sm : SectorMap) (track sector : UInt8) : UInt8 :=
  if ht : track.toNat ≥ 35 then fileIllegal
  else if hs : sector.toNat ≥ 16 then fileIllegal
  else sm[track.toNat * 16 + sector.toNat]'(by omega)

/-- supermon/supermon.go:126-138 `SetFileForSector` -/
def setFileForSector (sm : SectorMap) (track sector file : UInt8) : Out Unit × SectorMap :=
  if ht : track.toNat ≥ 35 then (.err .other, sm)
  else if hs : sector.toNat ≥ 16 then (.err .other, sm)
  else if file = fileIllegal ∨ file = fileFree ∨ file = fileReserved then (.err .other, sm)
  else (.ok (), sm.set (track.toNat * 16 + sector.toNat) file (by omega))

/-- supermon/supermon.go:142-152 `SectorsForFile` -/
def sectorsForFile (sm : SectorMap) (file : UInt8) : List (UInt8 × UInt8) :=
  allSectors.filter fun ts => file = fileForSector sm ts.1 ts.2

/-- The file numbers of the loops `for file := byte(0x01); file < 0xfe; file++`. -/
def allFiles : List UInt8 := (List.range 0xFD).map fun n => UInt8.ofNat (n + 1)

/-- supermon/supermon.go:55-61: loop of `FirstFreeFile`. -/
def firstFreeFileLoop (sm : SectorMap) : List UInt8 → UInt8
  | [] => 0
  | f :: fs => if (sectorsForFile sm f).length = 0 then f else firstFreeFileLoop sm fs

/-- supermon/supermon.go:54-62 `FirstFreeFile` -/
def firstFreeFile (sm : SectorMap) : UInt8 := firstFreeFileLoop sm allFiles

/-- supermon/supermon.go:66-79 `Persist`.  An error after the first write leaves that write in
place. -/
def persist (sm : SectorMap) (img : Bytes) : Out Unit × Bytes :=
  match readSector img 0 9 with
  | .ok sector09 =>
    let sector09 := put sector09 0xd0 (slice sm.toList 0 0x30)
    match writeSector img 0 9 sector09 with
    | (.ok _, img) =>
      match writeSector img 0 0xA (slice sm.toList 0x30 0x100) with
      | (.ok _, img) => writeSector img 0 0xB (slice sm.toList 0x130 0x100)
      | r => r
    | r => r
  | .err k => (.err k, img)
  | .panic => (.panic, img)
  | .timeout => (.timeout, img)

/-- supermon/supermon.go:82-90 `FreeSectors` -/
def freeSectors (sm : SectorMap) : Nat :=
  sm.toList.foldl (fun count file => if file = fileFree then count + 1 else count) 0

/-- supermon/supermon.go:93-110 `Verify` -/
def verify (sm : SectorMap) : Out Unit :=
  if ∃ s ∈ List.range 12, fileForSector sm 0 (UInt8.ofNat s) ≠ fileReserved then .err .other
  else if ∃ ts ∈ allSectors, fileForSector sm ts.1 ts.2 = fileIllegal then .err .other
  else .ok ()

/-- supermon/supermon.go:155-164 `SectorsByFile`: the map as a function; a missing key reads as
the nil slice. -/
def sectorsByFile (sm : SectorMap) (file : UInt8) : List (UInt8 × UInt8) :=
  if file ∈ allFiles ∧ (sectorsForFile sm file).length > 0 then sectorsForFile sm file else []

/-- supermon/supermon.go:169-175: loop of `ReadFile`. -/
def readFileLoop (img : Bytes) : List (UInt8 × UInt8) → Bytes → Out Bytes
  | [], result => .ok result
  | ts :: rest, result => do
    let bytes ← readSector img ts.1 ts.2
    readFileLoop img rest (result ++ bytes)

/-- supermon/supermon.go:167-177 `ReadFile` -/
def readFile (sm : SectorMap) (img : Bytes) (file : UInt8) : Out Bytes :=
  readFileLoop img (sectorsForFile sm file) []

/-- supermon/supermon.go:180-186 `SectorMap.Delete` -/
def deleteFile (sm : SectorMap) (file : UInt8) : SectorMap :=
  sm.map fun f => if f = file then fileFree else f

/-- supermon/supermon.go:208-224: the allocation loop of `WriteFile`.  `cts[i*256:(i+1)*256]`
panics when it exceeds the capacity of `cts`, which is its length. -/
def writeLoop (cts : Bytes) (sectorsNeeded : Nat) (file : UInt8) :
    List (UInt8 × UInt8) → Nat → SectorMap → Bytes → Out Unit × SectorMap × Bytes
  | [], _, sm, img => (.ok (), sm, img)
  | ts :: rest, i, sm, img =>
    if fileForSector sm ts.1 ts.2 = fileFree then
      if (i + 1) * 256 > cts.length then (.panic, sm, img)
      else
        match writeSector img ts.1 ts.2 (slice cts (i * 256) 256) with
        | (.ok _, img) =>
          match setFileForSector sm ts.1 ts.2 file with
          | (.ok _, sm) =>
            if i + 1 = sectorsNeeded then (.ok (), sm, img)
            else writeLoop cts sectorsNeeded file rest (i + 1) sm img
          | (e, sm) => (e, sm, img)
        | (e, img) => (e, sm, img)
    else writeLoop cts sectorsNeeded file rest i sm img

/-- Result of `WriteFile`, `Delete` and `PutFile`: the returned flag, the outcome, and the state
after the call. -/
structure WriteRes where
  existed : Bool
  out : Out Unit
  sm : SectorMap
  img : Bytes

/-- supermon/supermon.go:190-229 `WriteFile` -/
def writeFile (sm : SectorMap) (img : Bytes) (file : UInt8) (contents : Bytes) (overwrite : Bool) :
    WriteRes :=
  let sectorsNeeded := (contents.length + 255) / 256
  let cts := put (zeros (256 * sectorsNeeded)) 0 contents
  let existing := (sectorsForFile sm file).length
  let existed := decide (existing > 0)
  let free := freeSectors sm + existing
  if free < sectorsNeeded then ⟨existed, .err .outOfSpace, sm, img⟩
  else if existed ∧ !overwrite then ⟨existed, .err .fileExists, sm, img⟩
  else
    let sm := if existed then deleteFile sm file else sm
    match writeLoop cts sectorsNeeded file allSectors 0 sm img with
    | (.ok _, sm, img) =>
      match persist sm img with
      | (out, img) => ⟨existed, out, sm, img⟩
    | (e, sm, img) => ⟨existed, e, sm, img⟩

/-! ## Symbols -/

/-- supermon/supermon.go:232-241 `Symbol` -/
structure Symbol where
  address : UInt16
  name : Str
  link : Int
deriving DecidableEq, Repr

/-- Go's zero value `Symbol{}` (supermon.go:338). -/
def Symbol.empty : Symbol := ⟨0, [], 0⟩

/-- supermon/supermon.go:252-264: loop of `decodeSymbol` on the 48-bit value. -/
def decodeLoop (value : Nat) : Str :=
  if h : value % 32 > 0 then
    if value % 32 < 27 then UInt8.ofNat (value % 32 + 0x40) :: decodeLoop (value / 32)
    else if value / 32 % 2 = 0 then UInt8.ofNat (value % 32 - 0x1b + 0x30) :: decodeLoop (value / 64)
    else UInt8.ofNat (value % 32 - 0x1b + 0x35) :: decodeLoop (value / 64)
  else []
termination_by value
decreasing_by all_goals omega

/-- supermon/supermon.go:249-266 `decodeSymbol`; both callers pass five bytes. -/
def decodeSymbol (five : Vector UInt8 5) (extra : UInt8) : Str :=
  decodeLoop (five[0].toNat + five[1].toNat * 2 ^ 8 + five[2].toNat * 2 ^ 16 +
    five[3].toNat * 2 ^ 24 + five[4].toNat * 2 ^ 32 + extra.toNat * 2 ^ 40)

/-- supermon/supermon.go:288-298: the switch of `encodeSymbol` on one character, giving the new
`value` and `bits`; other characters leave both as they are. -/
def encodeStep (value bits : Nat) (ch : UInt8) : Nat × Nat :=
  if 0x41 ≤ ch ∧ ch ≤ 0x5A then (value * 2 ^ 5 + (ch - 0x40).toNat, bits + 5)
  else if 0x30 ≤ ch ∧ ch ≤ 0x34 then (value * 2 ^ 6 + 0x1b + (ch - 0x30).toNat, bits + 6)
  else if 0x35 ≤ ch ∧ ch ≤ 0x39 then (value * 2 ^ 6 + 0x3b + (ch - 0x35).toNat, bits + 6)
  else (value, bits)

/-- supermon/supermon.go:286-302: loop of `encodeSymbol`, over the characters from the last to
the first.  The 64-bit value cannot wrap: at most 48 bits pass the check of each round. -/
def encodeLoop : Str → Nat → Nat → Out Nat
  | [], value, _ => .ok value
  | ch :: rest, value, bits =>
    if (encodeStep value bits ch).2 > 48 then .err .other
    else encodeLoop rest (encodeStep value bits ch).1 (encodeStep value bits ch).2

/-- supermon/supermon.go:303-307: the low six bytes, little-endian. -/
def sixBytes (value : Nat) : Vector UInt8 6 :=
  Vector.ofFn fun i : Fin 6 => UInt8.ofNat (value / 2 ^ (8 * i.val) % 256)

/-- supermon/supermon.go:272-308 `encodeSymbol` -/
def encodeSymbol (name : Str) : Out (Vector UInt8 6) :=
  if name = [] then .ok (Vector.replicate 6 0)
  else if name.length > 9 then .err .other
  else if name.length < 3 then .err .other
  else do
    let value ← encodeLoop (toUpper name).reverse 0 0
    .ok (sixBytes value)

/-- supermon/supermon.go:312 `SymbolTable`; a nil table is modelled where it matters as `none`. -/
abbrev SymbolTable := List Symbol

/-- supermon/supermon.go:410-412 `addrHash` -/
def addrHash (addr : UInt16) : UInt8 := (lo8 addr ^^^ hi8 addr) &&& 0x7f

/-- supermon/supermon.go:336-360: one round of the parse loop of `ReadSymbolTable` at offset `i`
(`i + 4 < 0x1000`). -/
def parseSymbol (symtbl1 symtbl2 : Vector UInt8 0x1000) (i : Nat) (hi : i + 4 < 0x1000) :
    Out Symbol :=
  let address := le16 symtbl1[i] symtbl1[i+1]
  if address = 0 then .ok Symbol.empty
  else
    let linkAddr := le16 symtbl1[i+2] symtbl1[i+3]
    let extra := symtbl1[i+4]
    let five : Vector UInt8 5 := Vector.ofFn fun k : Fin 5 => symtbl2[i + k.val]
    let name := decodeSymbol five extra
    if linkAddr ≠ 0 then
      if linkAddr.toNat < 0xD000 ∨ linkAddr.toNat ≥ 0xDFFF then .err .other
      else if (linkAddr.toNat - 0xD000) % 5 ≠ 0 then .err .other
      else .ok ⟨address, name, ((linkAddr.toNat - 0xD000) / 5 : Nat)⟩
    else .ok ⟨address, name, -1⟩

/-- supermon/supermon.go:335-361: the parse loop, `i = 0, 5, ..., 4090`. -/
def parseSymbols (symtbl1 symtbl2 : Vector UInt8 0x1000) : (n : Nat) → (h : n ≤ 819) →
    Out SymbolTable
  | 0, _ => .ok []
  | n + 1, h => do
    let table ← parseSymbols symtbl1 symtbl2 n (by omega)
    let sym ← parseSymbol symtbl1 symtbl2 (5 * n) (by omega)
    .ok (table ++ [sym])

/-- supermon/supermon.go:364-373: the link check for entry `i`. `table[sym.Link]` panics out of
range. -/
def checkLink (table : SymbolTable) (i : Nat) (sym : Symbol) : Out Unit :=
  if sym.address ≠ 0 ∧ sym.link ≠ -1 then
    if sym.link = i then .err .other
    else if sym.link < 0 then .panic
    else match table[sym.link.toNat]? with
      | none => .panic
      | some linkSym =>
        if addrHash sym.address ≠ addrHash linkSym.address then .err .other else .ok ()
  else .ok ()

/-- supermon/supermon.go:363-374: the link check loop, from entry `i` on. -/
def checkLinks (table : SymbolTable) : SymbolTable → Nat → Out Unit
  | [], _ => .ok ()
  | sym :: rest, i => do
    checkLink table i sym
    checkLinks table rest (i + 1)

/-- supermon/supermon.go:317-377 `ReadSymbolTable` -/
def readSymbolTable (sm : SectorMap) (img : Bytes) : Out SymbolTable := do
  let symtbl1 ← readFile sm img 3
  if h1 : symtbl1.length = 0x1000 then
    let symtbl2 ← readFile sm img 4
    if h2 : symtbl2.length = 0x1000 then
      let table ← parseSymbols ⟨symtbl1.toArray, by simpa using h1⟩ ⟨symtbl2.toArray, by simpa using h2⟩
        819 (Nat.le_refl _)
      checkLinks table table 0
      .ok table
    else .err .other
  else .err .other

/-- supermon/supermon.go:383-399: the loop of `WriteSymbolTable` filling the two halves, from
entry `i` on.  Indexing past 0x1000 panics (tables never have more than 819 entries).
`byte(linkAddr % 256)` and `byte(linkAddr >> 8)` are on Go `int`. -/
def fillTables : SymbolTable → Nat → Bytes → Bytes → Out (Bytes × Bytes)
  | [], _, t1, t2 => .ok (t1, t2)
  | sym :: rest, i, t1, t2 => do
    let offset := i * 5
    let six ← encodeSymbol sym.name
    let linkAddr : Int := if sym.link ≠ -1 then sym.link * 5 + 0xD000 else 0
    if offset + 4 ≥ 0x1000 then .panic
    else
      fillTables rest (i + 1)
        (put t1 offset [lo8 sym.address, hi8 sym.address,
          intToByte (linkAddr.tmod 256), intToByte (linkAddr / 256), six[5]])
        (put t2 offset [six[0], six[1], six[2], six[3], six[4]])

/-- supermon/supermon.go:380-407 `WriteSymbolTable`.  Errors of `WriteFile` are re-wrapped with
`%v`, which drops their class. -/
def writeSymbolTable (sm : SectorMap) (img : Bytes) (st : SymbolTable) :
    Out Unit × SectorMap × Bytes :=
  match fillTables st 0 (zeros 0x1000) (zeros 0x1000) with
  | .ok (t1, t2) =>
    let r1 := writeFile sm img 3 t1 true
    match r1.out with
    | .ok _ =>
      let r2 := writeFile r1.sm r1.img 4 t2 true
      match r2.out with
      | .ok _ => (.ok (), r2.sm, r2.img)
      | .err _ => (.err .other, r2.sm, r2.img)
      | .panic => (.panic, r2.sm, r2.img)
      | .timeout => (.timeout, r2.sm, r2.img)
    | .err _ => (.err .other, r1.sm, r1.img)
    | .panic => (.panic, r1.sm, r1.img)
    | .timeout => (.timeout, r1.sm, r1.img)
  | .err k => (.err k, sm, img)
  | .panic => (.panic, sm, img)
  | .timeout => (.timeout, sm, img)

/-- `strings.EqualFold`, ASCII only. -/
def equalFold (a b : Str) : Bool := toUpper a = toUpper b

/-- supermon/supermon.go:426-434 `SymbolsForAddress` -/
def symbolsForAddress (st : SymbolTable) (address : UInt16) : List Symbol :=
  st.filter fun s => s.address = address

/-- supermon/supermon.go:417-421: the loop of `SymbolsByAddress`. -/
def groupByAddress : SymbolTable → GoMap UInt16 (List Symbol) → GoMap UInt16 (List Symbol)
  | [], result => result
  | s :: rest, result =>
    if s.address ≠ 0 then groupByAddress rest (result.set s.address ((result.get? s.address).getD [] ++ [s]))
    else groupByAddress rest result

/-- supermon/supermon.go:415-423 `SymbolsByAddress` -/
def symbolsByAddress (st : SymbolTable) : GoMap UInt16 (List Symbol) := groupByAddress st []

/-- supermon/supermon.go:438-445 `ByName` -/
def byName (st : SymbolTable) (name : Str) : UInt16 :=
  match st with
  | [] => 0
  | s :: rest => if equalFold name s.name then s.address else byName rest name

/-- Index of the first symbol with the given name, the outer loop of supermon.go:450-451. -/
def findName (st : SymbolTable) (name : Str) : Option Nat :=
  st.findIdx? fun s => equalFold name s.name

/-- supermon/supermon.go:454-462: give the first other entry linking to `i` the link `l`. -/
def relink (i : Nat) (l : Int) : SymbolTable → Nat → SymbolTable
  | [], _ => []
  | s :: rest, j =>
    if i = j then s :: relink i l rest (j + 1)
    else if s.link = i then { s with link := l } :: rest
    else s :: relink i l rest (j + 1)

/-- supermon/supermon.go:449-468 `DeleteSymbol` -/
def deleteSymbol (st : SymbolTable) (name : Str) : Bool × SymbolTable :=
  match findName st name with
  | none => (false, st)
  | some i =>
    match st[i]? with
    | none => (false, st)
    | some sym => (true, (relink i sym.link st 0).set i ⟨0, [], sym.link⟩)

/-- supermon/supermon.go:496-501: the first entry of the hash with link -1 gets link `pos`. -/
def linkTail (hash : UInt8) (pos : Nat) : SymbolTable → SymbolTable
  | [] => []
  | s :: rest =>
    if addrHash s.address = hash ∧ s.link = -1 then { s with link := pos } :: rest
    else s :: linkTail hash pos rest

/-- supermon/supermon.go:496-505: insert the symbol at `pos`. -/
def insertAt (st : SymbolTable) (name : Str) (address : UInt16) (pos : Nat) : SymbolTable :=
  (linkTail (addrHash address) pos st).set pos ⟨address, name, -1⟩

/-- Result of the scan of supermon.go:477-492. -/
inductive AddScan where
  | update (j : Nat)
  | replace (j : Nat)
  | free (pos : Option Nat)
deriving DecidableEq, Repr

/-- supermon/supermon.go:477-492: look for the name and for the first free entry. -/
def addScan (name : Str) (hash : UInt8) : SymbolTable → Nat → Option Nat → AddScan
  | [], _, pos => .free pos
  | s :: rest, j, pos =>
    if equalFold name s.name then
      if addrHash s.address = hash then .update j else .replace j
    else if pos = none ∧ s.address = 0 then addScan name hash rest (j + 1) (some j)
    else addScan name hash rest (j + 1) pos

/-- supermon/supermon.go:472-506 `AddSymbol` -/
def addSymbol (st : SymbolTable) (name : Str) (address : UInt16) : Out Unit × SymbolTable :=
  if address = 0 then (.err .other, st)
  else match addScan name (addrHash address) st 0 none with
    | .update j =>
      match st[j]? with
      | some s => (.ok (), st.set j { s with address := address })
      | none => (.panic, st)
    | .replace j => (.ok (), insertAt (deleteSymbol st name).2 name address j)
    | .free none => (.err .other, st)
    | .free (some pos) => (.ok (), insertAt st name address pos)

/-! ## Names -/

/-- Upper-case hexadecimal digit. -/
def hexDigit (n : Nat) : UInt8 := if n < 10 then UInt8.ofNat (0x30 + n) else UInt8.ofNat (0x37 + n)

/-- `fmt.Sprintf("%02X", b)` -/
def hex2 (b : UInt8) : Str := [hexDigit (b.toNat / 16), hexDigit (b.toNat % 16)]

/-- supermon/supermon.go:510-516 `NameForFile` -/
def nameForFile (file : UInt8) (st : SymbolTable) : Str :=
  match symbolsForAddress st (0xDF00 + file.toUInt16) with
  | s :: _ => s.name
  | [] => str "DF" ++ hex2 file

/-- supermon/supermon.go:520-526 `FullnameForFile` -/
def fullnameForFile (file : UInt8) (st : SymbolTable) : Str :=
  match symbolsForAddress st (0xDF00 + file.toUInt16) with
  | s :: _ => str "DF" ++ hex2 file ++ str ":" ++ s.name
  | [] => str "DF" ++ hex2 file

/-- Value of a hexadecimal digit. -/
def hexVal (c : UInt8) : Option Nat :=
  if 0x30 ≤ c ∧ c ≤ 0x39 then some (c.toNat - 0x30)
  else if 0x41 ≤ c ∧ c ≤ 0x46 then some (c.toNat - 0x37)
  else if 0x61 ≤ c ∧ c ≤ 0x66 then some (c.toNat - 0x57)
  else none

/-- Accumulate hexadecimal digits. -/
def hexAcc : Str → Nat → Option Nat
  | [], acc => some acc
  | c :: cs, acc =>
    match hexVal c with
    | some d => hexAcc cs (acc * 16 + d)
    | none => none

/-- `strconv.ParseUint(s, 16, 16)`: non-empty, only hexadecimal digits, at most 0xFFFF. -/
def parseHex16 (s : Str) : Option Nat :=
  if s = [] then none
  else match hexAcc s 0 with
    | some v => if v ≤ 0xFFFF then some v else none
    | none => none

/-- supermon/supermon.go:530-540 `parseAddressFilename` -/
def parseAddressFilename (filename : Str) : UInt8 :=
  match parseHex16 filename with
  | some addr =>
    if addr > 0xDF00 ∧ addr < 0xDFFE then UInt8.ofNat (addr - 0xDF00)
    else if addr > 0x00 ∧ addr < 0xFE then UInt8.ofNat addr
    else 0
  | none => 0

/-- supermon/supermon.go:550-557: the symbol loop of `FileForName`; `none` means falling out of
the loop. -/
def fileForSymbol (filename : Str) : SymbolTable → Option UInt8
  | [] => none
  | s :: rest =>
    if equalFold s.name filename then
      if s.address > 0xDF00 ∧ s.address < 0xDFFE then some (s.address - 0xDF00).toUInt8 else none
    else fileForSymbol filename rest

/-- supermon/supermon.go:545-560 `FileForName` -/
def fileForName (st : SymbolTable) (filename : Str) : Out UInt8 :=
  if parseAddressFilename filename ≠ 0 then .ok (parseAddressFilename filename)
  else match fileForSymbol filename st with
    | some f => .ok f
    | none => .err .fileNotFound

/-- `strings.Split(s, ":")` -/
def splitColon : Str → List Str
  | [] => [[]]
  | c :: cs =>
    if c = 0x3A then [] :: splitColon cs
    else match splitColon cs with
      | p :: ps => (c :: p) :: ps
      | [] => [[c]]

/-- supermon/supermon.go:564-605 `ParseCompoundSymbol` -/
def parseCompoundSymbol (st : SymbolTable) (name : Str) : Out (UInt16 × UInt16 × Str) :=
  if name = [] then .err .other
  else match splitColon name with
    | [_] =>
      if byName st name ≠ 0 then .ok (0, byName st name, name)
      else match parseHex16 name with
        | some addr => .ok (UInt16.ofNat addr, 0, [])
        | none => if (encodeSymbol name).isErr then .ok (0, 0, name) else .err .other
    | [p0, p1] =>
      if p0 = [] then .err .other
      else if p1 = [] then .err .other
      else match parseHex16 p0 with
        | none => .err .other
        | some addr =>
          if (encodeSymbol p1).isErr then .err .other
          else .ok (UInt16.ofNat addr, byName st p1, p1)
    | _ => .err .other

/-- supermon/supermon.go:611-641 `FilesForCompoundName` -/
def filesForCompoundName (st : SymbolTable) (filename : Str) : Out (UInt8 × UInt8 × Str) :=
  match splitColon filename with
  | [_] =>
    let numFile := parseAddressFilename filename
    if numFile ≠ 0 then .ok (numFile, 0, [])
    else match fileForName st filename with
      | .ok file => .ok (file, file, filename)
      | _ => .ok (0, 0, filename)
  | [p0, p1] =>
    let numFile := parseAddressFilename p0
    if numFile = 0 then .err .other
    else if parseAddressFilename p1 ≠ 0 then .err .other
    else match fileForName st p1 with
      | .ok namedFile => .ok (numFile, namedFile, p1)
      | _ => .ok (numFile, 0, p1)
  | _ => .err .other

/-! ## The operator -/

/-- supermon/supermon.go:645-650 `Operator`.  `st = none` is the nil symbol table. -/
structure Operator where
  data : Bytes
  sm : SectorMap
  st : Option SymbolTable

namespace Operator

/-- Methods on a nil table see an empty one. -/
def table (o : Operator) : SymbolTable := o.st.getD []

instance : OperatorLike Operator where
  getBytes o := o.data
  diskOrder _ := orderRaw

/-- supermon/supermon.go:671-689 `Catalog` -/
def catalog (o : Operator) : List Descriptor :=
  allFiles.filterMap fun file =>
    let l := (sectorsByFile o.sm file).length
    if l = 0 then none
    else some { name := nameForFile file o.table
                fullname := fullnameForFile file o.table
                sectors := l
                length := l * 256
                locked := false
                type := filetypeBinary }

/-- supermon/supermon.go:692-719 `GetFile` -/
def getFile (o : Operator) (filename : Str) : Out FileInfo := do
  let file ← fileForName o.table filename
  match readFile o.sm o.data file with
  | .ok data =>
    if data.length = 0 then .err .other
    else .ok (FileInfo.mk
      { name := nameForFile file o.table
        sectors := data.length / 256
        length := data.length
        locked := false
        type := filetypeBinary }
      data
      (if file = 1 then 0x1800 else 0))
  | .err _ => .err .other
  | .panic => .panic
  | .timeout => .timeout

/-- Result of `Delete` and `PutFile`. -/
structure Res where
  existed : Bool
  out : Out Unit
  op : Operator

/-- supermon/supermon.go:723-742 `Delete` -/
def delete (o : Operator) (filename : Str) : Res :=
  match fileForName o.table filename with
  | .ok file =>
    let existed := decide ((sectorsForFile o.sm file).length > 0)
    let sm := deleteFile o.sm file
    match persist sm o.data with
    | (.ok _, data) =>
      match o.st with
      | some st =>
        match deleteSymbol st filename with
        | (true, st) =>
          match writeSymbolTable sm data st with
          | (out, sm, data) => ⟨existed, out, ⟨data, sm, some st⟩⟩
        | (false, st) => ⟨existed, .ok (), ⟨data, sm, some st⟩⟩
      | none => ⟨existed, .ok (), ⟨data, sm, none⟩⟩
    | (e, data) => ⟨existed, e, ⟨data, sm, o.st⟩⟩
  | .err k => ⟨false, .err k, o⟩
  | .panic => ⟨false, .panic, o⟩
  | .timeout => ⟨false, .timeout, o⟩

/-- supermon/supermon.go:773-785: the end of `PutFile`, once the file number is known. -/
def putNumbered (o : Operator) (numFile namedFile : UInt8) (symbol : Str) (data : Bytes)
    (overwrite : Bool) : Res :=
  let r := writeFile o.sm o.data numFile data overwrite
  match r.out with
  | .ok _ =>
    if namedFile ≠ numFile ∧ symbol ≠ [] then
      match o.st with
      | some st =>
        match addSymbol st symbol (0xDF00 + numFile.toUInt16) with
        | (.ok _, st) =>
          match writeSymbolTable r.sm r.img st with
          | (out, sm, img) => ⟨r.existed, out, ⟨img, sm, some st⟩⟩
        | (e, st) => ⟨r.existed, e, ⟨r.img, r.sm, some st⟩⟩
      | none =>
        -- not reached: a symbol with a nil table was refused before
        ⟨r.existed, .err .other, ⟨r.img, r.sm, none⟩⟩
    else ⟨r.existed, .ok (), ⟨r.img, r.sm, o.st⟩⟩
  | e => ⟨r.existed, e, ⟨r.img, r.sm, o.st⟩⟩

/-- supermon/supermon.go:747-786 `PutFile` -/
def putFile (o : Operator) (fileInfo : FileInfo) (overwrite : Bool) : Res :=
  if fileInfo.descriptor.type ≠ filetypeBinary then ⟨false, .err .other, o⟩
  else if fileInfo.descriptor.length ≠ fileInfo.data.length then ⟨false, .err .other, o⟩
  else match filesForCompoundName o.table fileInfo.descriptor.name with
    | .ok (numFile, namedFile, symbol) =>
      if symbol ≠ [] ∧ o.st = none then ⟨false, .err .other, o⟩
      else if symbol ≠ [] ∧ (encodeSymbol symbol).isErr then ⟨false, .err .other, o⟩
      else
        let numFile := if numFile = 0 then firstFreeFile o.sm else numFile
        if numFile = 0 then ⟨false, .err .other, o⟩
        else putNumbered o numFile namedFile symbol fileInfo.data overwrite
    | .err k => ⟨false, .err k, o⟩
    | .panic => ⟨false, .panic, o⟩
    | .timeout => ⟨false, .timeout, o⟩

end Operator

/-- supermon/supermon.go:809-819 `SeemsToMatch` -/
def seemsToMatch (img : Bytes) : Out Bool :=
  match loadSectorMap img with
  | .ok sm =>
    match verify sm with
    | .ok _ => .ok true
    | .err _ => .ok false
    | .panic => .panic
    | .timeout => .timeout
  | .err _ => .ok false
  | .panic => .panic
  | .timeout => .timeout

/-- supermon/supermon.go:822-839 `OperatorFactory.Operator` -/
def openOperator (img : Bytes) : Out Operator := do
  let sm ← loadSectorMap img
  verify sm
  match readSymbolTable sm img with
  | .ok st => .ok ⟨img, sm, some st⟩
  | .err _ => .ok ⟨img, sm, none⟩
  | .panic => .panic
  | .timeout => .timeout

/-- supermon/supermon.go:798-844 `OperatorFactory` -/
def factory : Factory Operator where
  name := str "nakedos"
  diskOrder := orderRaw
  seemsToMatch := seemsToMatch
  operator := openOperator

end Verif.Supermon
