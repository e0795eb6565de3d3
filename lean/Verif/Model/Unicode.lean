import Verif.Model.Supermon
import Verif.Model.Open

/-!
# Names that are not ASCII

The rest of the model folds case in ASCII only.  Here are Go's `strings.ToUpper`, `strings.ToLower` and
`strings.EqualFold` as they are, on strings of any bytes, with the tables of package `unicode` as parameters, and
the functions of `supermon` and `disk` that use them, so that it can be proved when this makes a difference (C111).
-/

set_option autoImplicit false

namespace Verif.Unicode

/-- The functions `unicode.ToUpper`, `unicode.ToLower` and `unicode.SimpleFold` of the Go standard library. -/
structure Tables where
  upper : Nat → Nat
  lower : Nat → Nat
  fold : Nat → Nat

/-- A continuation byte. -/
def isCont (b : UInt8) : Bool := 0x80 ≤ b && b ≤ 0xBF

/-- `utf8.DecodeRuneInString` for a first byte that is not ASCII: the rune and the number of bytes after the first;
`none` if the bytes are not valid. -/
def multi (b : UInt8) (rest : Bytes) : Option (Nat × Nat) :=
  if 0xC2 ≤ b ∧ b ≤ 0xDF then
    match rest with
    | c :: _ => if isCont c then some ((b.toNat - 0xC0) * 64 + (c.toNat - 0x80), 1) else none
    | _ => none
  else if 0xE0 ≤ b ∧ b ≤ 0xEF then
    match rest with
    | c :: d :: _ =>
      if isCont c ∧ (b = 0xE0 → 0xA0 ≤ c) ∧ (b = 0xED → c ≤ 0x9F) ∧ isCont d then
        some ((b.toNat - 0xE0) * 4096 + (c.toNat - 0x80) * 64 + (d.toNat - 0x80), 2)
      else none
    | _ => none
  else if 0xF0 ≤ b ∧ b ≤ 0xF4 then
    match rest with
    | c :: d :: e :: _ =>
      if isCont c ∧ (b = 0xF0 → 0x90 ≤ c) ∧ (b = 0xF4 → c ≤ 0x8F) ∧ isCont d ∧ isCont e then
        some ((b.toNat - 0xF0) * 262144 + (c.toNat - 0x80) * 4096 + (d.toNat - 0x80) * 64 + (e.toNat - 0x80), 3)
      else none
    | _ => none
  else none

/-- The runes of a string as `range` goes through them: a byte that does not start a valid sequence is U+FFFD. -/
def runes (s : Bytes) : List Nat :=
  match s with
  | [] => []
  | b :: rest =>
    if b < 0x80 then b.toNat :: runes rest
    else match multi b rest with
      | some (r, k) => r :: runes (rest.drop k)
      | none => 0xFFFD :: runes rest
termination_by s.length
decreasing_by all_goals (simp only [List.length_drop, List.length_cons]; omega)

/-- `utf8.AppendRune` -/
def encodeRune (r : Nat) : Bytes :=
  if r < 0x80 then [UInt8.ofNat r]
  else if r < 0x800 then [UInt8.ofNat (0xC0 + r / 64), UInt8.ofNat (0x80 + r % 64)]
  else if r > 0x10FFFF ∨ (0xD800 ≤ r ∧ r ≤ 0xDFFF) then [0xEF, 0xBF, 0xBD]
  else if r < 0x10000 then [UInt8.ofNat (0xE0 + r / 4096), UInt8.ofNat (0x80 + r / 64 % 64), UInt8.ofNat (0x80 + r % 64)]
  else [UInt8.ofNat (0xF0 + r / 262144), UInt8.ofNat (0x80 + r / 4096 % 64), UInt8.ofNat (0x80 + r / 64 % 64),
    UInt8.ofNat (0x80 + r % 64)]

/-- `strings.ToUpper`: `strings.Map` of `unicode.ToUpper`.  (Go has a shortcut for ASCII strings, which gives the same.) -/
def toUpper (T : Tables) (s : Str) : Str := (runes s).flatMap fun r => encodeRune (T.upper r)

/-- `strings.ToLower`, in the same way. -/
def toLower (T : Tables) (s : Str) : Str := (runes s).flatMap fun r => encodeRune (T.lower r)

/-- The loop of `strings.EqualFold` over the runes that are equal to `sr` but for case, from `r` on.  No rune has more than
three others, so four rounds are enough. -/
def foldFind (T : Tables) (sr tr : Nat) : Nat → Nat → Bool
  | 0, _ => false
  | n + 1, r => if r ≠ sr ∧ r < tr then foldFind T sr tr n (T.fold r) else r = tr

/-- The comparison of two runes in `strings.EqualFold`. -/
def sameRune (T : Tables) (a b : Nat) : Bool :=
  if a = b then true
  else
    let sr := min a b
    let tr := max a b
    if tr < 0x80 then 0x41 ≤ sr && sr ≤ 0x5A && tr = sr + 0x20
    else foldFind T sr tr 4 (T.fold sr)

/-- The loop of `strings.EqualFold` -/
def sameRunes (T : Tables) : List Nat → List Nat → Bool
  | [], [] => true
  | a :: s, b :: t => sameRune T a b && sameRunes T s t
  | _, _ => false

/-- `strings.EqualFold`.  (Go has a shortcut for ASCII strings, which gives the same.) -/
def equalFold (T : Tables) (s t : Str) : Bool := sameRunes T (runes s) (runes t)

open Disk in
/-- disk/open.go:197-207 `OrderFromFilename` with `strings.ToLower` as it is. -/
def orderFromFilename (T : Tables) (filename : Str) (defaultOrder : DiskOrder) : DiskOrder :=
  let ext := toLower T (pathExt filename)
  if ext = str ".dsk" ∨ ext = str ".do" then orderDO
  else if ext = str ".po" then orderPO
  else defaultOrder

open Disk in
/-- disk/open.go:41-55 `OpenImage` with `strings.ToLower` as it is. -/
def openImage {Ω : Type} (T : Tables) (filebytes : Bytes) (filename : Str) (order : DiskOrder) (system : Str)
    (factories : List (Factory Ω)) : Out (Ω × DiskOrder) :=
  let ext := toLower T (pathExt filename)
  let size := filebytes.length
  if size = floppyDiskBytes then openDoOrPo filebytes order system ext factories
  else if size = floppyDiskBytes13Sector then .err .other
  else if ext = str ".hdv" then openHDV filebytes order system factories
  else .err .other

end Verif.Unicode

namespace Verif.Supermon
open Disk

/-- The two uses of case in `supermon`: `strings.EqualFold`, and `strings.ToUpper` in `encodeSymbol`. -/
structure Naming where
  same : Str → Str → Bool
  encode : Str → Out (Vector UInt8 6)

/-- How the rest of the model does it. -/
def ascii : Naming := ⟨equalFold, encodeSymbol⟩

/-- How Go does it; supermon/supermon.go:272-308 `encodeSymbol` with `strings.ToUpper` as it is. -/
def unicode (T : Unicode.Tables) : Naming where
  same := Unicode.equalFold T
  encode name :=
    if name = [] then .ok (Vector.replicate 6 0)
    else if name.length > 9 then .err .other
    else if name.length < 3 then .err .other
    else do
      let value ← encodeLoop (Unicode.toUpper T name).reverse 0 0
      .ok (sixBytes value)

namespace Naming

variable (N : Naming)

/-- supermon/supermon.go:383-399, as `fillTables`. -/
def fillTables : SymbolTable → Nat → Bytes → Bytes → Out (Bytes × Bytes)
  | [], _, t1, t2 => .ok (t1, t2)
  | sym :: rest, i, t1, t2 => do
    let offset := i * 5
    let six ← N.encode sym.name
    let linkAddr : Int := if sym.link ≠ -1 then sym.link * 5 + 0xD000 else 0
    if offset + 4 ≥ 0x1000 then .panic
    else
      fillTables rest (i + 1)
        (put t1 offset [lo8 sym.address, hi8 sym.address,
          intToByte (linkAddr.tmod 256), intToByte (linkAddr / 256), six[5]])
        (put t2 offset [six[0], six[1], six[2], six[3], six[4]])

/-- supermon/supermon.go:380-407 `WriteSymbolTable` -/
def writeSymbolTable (sm : SectorMap) (img : Bytes) (st : SymbolTable) :
    Out Unit × SectorMap × Bytes :=
  match N.fillTables st 0 (zeros 0x1000) (zeros 0x1000) with
  | .ok (t1, t2) =>
    let r1 := writeFile sm img 3 t1 true
    match r1.out with
    | .ok _ =>
      let r2 := writeFile r1.sm r1.img 4 t2 true
      match r2.out with
      | .ok _ => (.ok (), r2.sm, r2.img)
      | .err _ => (.err .other, r2.sm, r2.img)
      | .panic => (.panic, r2.sm, r2.img)
      | .timeout => (.timeout, r2.sm, r2.img)
    | .err _ => (.err .other, r1.sm, r1.img)
    | .panic => (.panic, r1.sm, r1.img)
    | .timeout => (.timeout, r1.sm, r1.img)
  | .err k => (.err k, sm, img)
  | .panic => (.panic, sm, img)
  | .timeout => (.timeout, sm, img)

/-- The outer loop of supermon.go:450-451. -/
def findName (st : SymbolTable) (name : Str) : Option Nat :=
  st.findIdx? fun s => N.same name s.name

/-- supermon/supermon.go:449-468 `DeleteSymbol` -/
def deleteSymbol (st : SymbolTable) (name : Str) : Bool × SymbolTable :=
  match N.findName st name with
  | none => (false, st)
  | some i =>
    match st[i]? with
    | none => (false, st)
    | some sym => (true, (relink i sym.link st 0).set i ⟨0, [], sym.link⟩)

/-- supermon/supermon.go:477-492 -/
def addScan (name : Str) (hash : UInt8) : SymbolTable → Nat → Option Nat → AddScan
  | [], _, pos => .free pos
  | s :: rest, j, pos =>
    if N.same name s.name then
      if addrHash s.address = hash then .update j else .replace j
    else if pos = none ∧ s.address = 0 then addScan name hash rest (j + 1) (some j)
    else addScan name hash rest (j + 1) pos

/-- supermon/supermon.go:472-506 `AddSymbol` -/
def addSymbol (st : SymbolTable) (name : Str) (address : UInt16) : Out Unit × SymbolTable :=
  if address = 0 then (.err .other, st)
  else match N.addScan name (addrHash address) st 0 none with
    | .update j =>
      match st[j]? with
      | some s => (.ok (), st.set j { s with address := address })
      | none => (.panic, st)
    | .replace j => (.ok (), insertAt (N.deleteSymbol st name).2 name address j)
    | .free none => (.err .other, st)
    | .free (some pos) => (.ok (), insertAt st name address pos)

/-- supermon/supermon.go:550-557 -/
def fileForSymbol (filename : Str) : SymbolTable → Option UInt8
  | [] => none
  | s :: rest =>
    if N.same s.name filename then
      if s.address > 0xDF00 ∧ s.address < 0xDFFE then some (s.address - 0xDF00).toUInt8 else none
    else fileForSymbol filename rest

/-- supermon/supermon.go:545-560 `FileForName` -/
def fileForName (st : SymbolTable) (filename : Str) : Out UInt8 :=
  if parseAddressFilename filename ≠ 0 then .ok (parseAddressFilename filename)
  else match N.fileForSymbol filename st with
    | some f => .ok f
    | none => .err .fileNotFound

/-- supermon/supermon.go:611-641 `FilesForCompoundName` -/
def filesForCompoundName (st : SymbolTable) (filename : Str) : Out (UInt8 × UInt8 × Str) :=
  match splitColon filename with
  | [_] =>
    let numFile := parseAddressFilename filename
    if numFile ≠ 0 then .ok (numFile, 0, [])
    else match N.fileForName st filename with
      | .ok file => .ok (file, file, filename)
      | _ => .ok (0, 0, filename)
  | [p0, p1] =>
    let numFile := parseAddressFilename p0
    if numFile = 0 then .err .other
    else if parseAddressFilename p1 ≠ 0 then .err .other
    else match N.fileForName st p1 with
      | .ok namedFile => .ok (numFile, namedFile, p1)
      | _ => .ok (numFile, 0, p1)
  | _ => .err .other

/-- supermon/supermon.go:692-719 `GetFile` -/
def getFile (o : Operator) (filename : Str) : Out FileInfo := do
  let file ← N.fileForName o.table filename
  match readFile o.sm o.data file with
  | .ok data =>
    if data.length = 0 then .err .other
    else .ok (FileInfo.mk
      { name := nameForFile file o.table
        sectors := data.length / 256
        length := data.length
        locked := false
        type := filetypeBinary }
      data
      (if file = 1 then 0x1800 else 0))
  | .err _ => .err .other
  | .panic => .panic
  | .timeout => .timeout

/-- supermon/supermon.go:723-742 `Delete` -/
def delete (o : Operator) (filename : Str) : Operator.Res :=
  match N.fileForName o.table filename with
  | .ok file =>
    let existed := decide ((sectorsForFile o.sm file).length > 0)
    let sm := deleteFile o.sm file
    match persist sm o.data with
    | (.ok _, data) =>
      match o.st with
      | some st =>
        match N.deleteSymbol st filename with
        | (true, st) =>
          match N.writeSymbolTable sm data st with
          | (out, sm, data) => ⟨existed, out, ⟨data, sm, some st⟩⟩
        | (false, st) => ⟨existed, .ok (), ⟨data, sm, some st⟩⟩
      | none => ⟨existed, .ok (), ⟨data, sm, none⟩⟩
    | (e, data) => ⟨existed, e, ⟨data, sm, o.st⟩⟩
  | .err k => ⟨false, .err k, o⟩
  | .panic => ⟨false, .panic, o⟩
  | .timeout => ⟨false, .timeout, o⟩

/-- supermon/supermon.go:773-785 -/
def putNumbered (o : Operator) (numFile namedFile : UInt8) (symbol : Str) (data : Bytes)
    (overwrite : Bool) : Operator.Res :=
  let r := writeFile o.sm o.data numFile data overwrite
  match r.out with
  | .ok _ =>
    if namedFile ≠ numFile ∧ symbol ≠ [] then
      match o.st with
      | some st =>
        match N.addSymbol st symbol (0xDF00 + numFile.toUInt16) with
        | (.ok _, st) =>
          match N.writeSymbolTable r.sm r.img st with
          | (out, sm, img) => ⟨r.existed, out, ⟨img, sm, some st⟩⟩
        | (e, st) => ⟨r.existed, e, ⟨r.img, r.sm, some st⟩⟩
      | none => ⟨r.existed, .err .other, ⟨r.img, r.sm, none⟩⟩
    else ⟨r.existed, .ok (), ⟨r.img, r.sm, o.st⟩⟩
  | e => ⟨r.existed, e, ⟨r.img, r.sm, o.st⟩⟩

/-- supermon/supermon.go:747-786 `PutFile` -/
def putFile (o : Operator) (fileInfo : FileInfo) (overwrite : Bool) : Operator.Res :=
  if fileInfo.descriptor.type ≠ filetypeBinary then ⟨false, .err .other, o⟩
  else if fileInfo.descriptor.length ≠ fileInfo.data.length then ⟨false, .err .other, o⟩
  else match N.filesForCompoundName o.table fileInfo.descriptor.name with
    | .ok (numFile, namedFile, symbol) =>
      if symbol ≠ [] ∧ o.st = none then ⟨false, .err .other, o⟩
      else if symbol ≠ [] ∧ (N.encode symbol).isErr then ⟨false, .err .other, o⟩
      else
        let numFile := if numFile = 0 then firstFreeFile o.sm else numFile
        if numFile = 0 then ⟨false, .err .other, o⟩
        else N.putNumbered o numFile namedFile symbol fileInfo.data overwrite
    | .err k => ⟨false, .err k, o⟩
    | .panic => ⟨false, .panic, o⟩
    | .timeout => ⟨false, .timeout, o⟩

end Naming

end Verif.Supermon
