import Verif.Model.Types

/-! # Model of the table of file types in `types/filetype.go` -/

set_option autoImplicit false

namespace Verif.Types

/-- types/filetype.go:62-72 `FiletypeInfo` -/
structure FiletypeInfo where
  type : Filetype
  name : Str
  threeLetter : Str
  oneLetter : Str
  desc : Str
  extra : Bool
  stringified : Str
  namesString : Str
deriving DecidableEq

/-- types/filetype.go:75-114 `filetypeInfos` before `init`; the two generated fields are empty. -/
def literalInfos : List FiletypeInfo := [
  ⟨0x00, str "Typeless", str "", str "", str "Typeless file", false, [], []⟩,
  ⟨0x01, str "BadBlocks", str "", str "", str "Bad blocks file", false, [], []⟩,
  ⟨0x02, str "SOSPascalCode", str "", str "", str "PASCAL code file", true, [], []⟩,
  ⟨0x03, str "SOSPascalText", str "", str "", str "PASCAL text file", true, [], []⟩,
  ⟨0x04, str "ASCIIText", str "TXT", str "T", str "ASCII text file", false, [], []⟩,
  ⟨0x05, str "SOSPascalText2", str "", str "", str "PASCAL text file", true, [], []⟩,
  ⟨0x06, str "Binary", str "BIN", str "B", str "Binary file", false, [], []⟩,
  ⟨0x07, str "Font", str "", str "", str "Font file", true, [], []⟩,
  ⟨0x08, str "GraphicsScreen", str "", str "", str "Graphics screen file", true, [], []⟩,
  ⟨0x09, str "BusinessBASIC", str "", str "", str "Business BASIC program file", true, [], []⟩,
  ⟨0x0A, str "BusinessBASICData", str "", str "", str "Business BASIC data file", true, [], []⟩,
  ⟨0x0B, str "SOSWordProcessor", str "", str "", str "Word processor file", true, [], []⟩,
  ⟨0x0C, str "SOSSystem", str "", str "", str "SOS system file", true, [], []⟩,
  ⟨0x0F, str "Directory", str "DIR", str "D", str "Directory file", false, [], []⟩,
  ⟨0x10, str "RPSData", str "", str "", str "RPS data file", true, [], []⟩,
  ⟨0x11, str "RPSIndex", str "", str "", str "RPS index file", true, [], []⟩,
  ⟨0x19, str "AppleWorksDatabase", str "ADB", str "", str "AppleWorks data base file", false, [], []⟩,
  ⟨0x1A, str "AppleWorksWordProcessor", str "AWP", str "", str "AppleWorks word processing file", false, [], []⟩,
  ⟨0x1B, str "AppleWorksSpreadsheet", str "ASP", str "", str "AppleWorks spreadsheet file", false, [], []⟩,
  ⟨0xEF, str "Pascal", str "PAS", str "", str "ProDOS PASCAL file", false, [], []⟩,
  ⟨0xF0, str "Command", str "CMD", str "", str "Added command file", false, [], []⟩,
  ⟨0xF1, str "UserDefinedF1", str "", str "", str "ProDOS user defined file type F1", true, [], []⟩,
  ⟨0xF2, str "UserDefinedF2", str "", str "", str "ProDOS user defined file type F2", true, [], []⟩,
  ⟨0xF3, str "UserDefinedF3", str "", str "", str "ProDOS user defined file type F3", true, [], []⟩,
  ⟨0xF4, str "UserDefinedF4", str "", str "", str "ProDOS user defined file type F4", true, [], []⟩,
  ⟨0xF5, str "UserDefinedF5", str "", str "", str "ProDOS user defined file type F5", true, [], []⟩,
  ⟨0xF6, str "UserDefinedF6", str "", str "", str "ProDOS user defined file type F6", true, [], []⟩,
  ⟨0xF7, str "UserDefinedF7", str "", str "", str "ProDOS user defined file type F7", true, [], []⟩,
  ⟨0xF8, str "UserDefinedF8", str "", str "", str "ProDOS user defined file type F8", true, [], []⟩,
  ⟨0xFA, str "IntegerBASIC", str "INT", str "I", str "Integer BASIC program file", false, [], []⟩,
  ⟨0xFB, str "IntegerBASICVariables", str "IVR", str "", str "Integer BASIC variables file", false, [], []⟩,
  ⟨0xFC, str "ApplesoftBASIC", str "BAS", str "A", str "Applesoft BASIC program file", false, [], []⟩,
  ⟨0xFD, str "ApplesoftBASICVariables", str "VAR", str "", str "Applesoft BASIC variables file", false, [], []⟩,
  ⟨0xFE, str "Relocatable", str "REL", str "R", str "EDASM relocatable object module file", false, [], []⟩,
  ⟨0xFF, str "System", str "SYS", str "", str "System file", false, [], []⟩,
  ⟨0x100, str "S", str "", str "S", str "DOS 3.3 Type \"S\"", false, [], []⟩,
  ⟨0x101, str "NewA", str "", str "A", str "DOS 3.3 Type \"new A\"", false, [], []⟩,
  ⟨0x102, str "NewB", str "", str "B", str "DOS 3.3 Type \"new B\"", false, [], []⟩]

/-- One hexadecimal digit, upper case. -/
def hexDigit (n : Nat) : UInt8 := if n < 10 then UInt8.ofNat (0x30 + n) else UInt8.ofNat (0x37 + n)

/-- `fmt.Sprintf("%02X", n)` for n below 256. -/
def hex02 (n : Nat) : Str := [hexDigit (n / 16), hexDigit (n % 16)]

/-- types/filetype.go:119-122: the SOS reserved types. -/
def sosReserved : List Nat := [0x0D, 0x0E, 0x12, 0x13, 0x14, 0x15, 0x16, 0x17, 0x18] ++ (List.range (0xC0 - 0x1C)).map (· + 0x1C)

/-- types/filetype.go:123-126: the ProDOS reserved types. -/
def prodosReserved : List Nat := (List.range (0xEF - 0xC0)).map (· + 0xC0)

/-- types/filetype.go:127-148: the entries that `init` appends. -/
def reservedInfos : List FiletypeInfo :=
  sosReserved.map (fun n => ⟨(n : Int), str "SOSReserved" ++ hex02 n, [], [], str "SOS reserved for future use " ++ hex02 n, true, [], []⟩) ++
  prodosReserved.map (fun n => ⟨(n : Int), str "ProDOSReserved" ++ hex02 n, [], [], str "ProDOS reserved for future use " ++ hex02 n, true, [], []⟩)

/-- types/filetype.go:150-169: the loop of `init` that fills in the generated fields. -/
def initLoop : List FiletypeInfo → List Str → List FiletypeInfo
  | [], _ => []
  | info :: rest, seen =>
    let three := info.threeLetter ≠ [] ∧ info.threeLetter ∉ seen
    let seen := if three then info.threeLetter :: seen else seen
    let one := info.oneLetter ≠ [] ∧ info.oneLetter ≠ info.name ∧ info.oneLetter ∉ seen
    let names := info.name ++ (if three then str "|" ++ info.threeLetter else []) ++
      (if one then str "|" ++ info.oneLetter else [])
    { info with stringified := info.desc ++ str " (" ++ names ++ str ")", namesString := names } ::
      initLoop rest (if one then info.oneLetter :: seen else seen)

/-- types/filetype.go:75-114 and 118-170: `filetypeInfos` after `init`. -/
def filetypeInfos : List FiletypeInfo := initLoop (literalInfos ++ reservedInfos) []

/-- types/filetype.go:172-177 `String`, for types below 256. -/
def filetypeString (f : Filetype) : Str :=
  match filetypeInfos.find? (fun info => info.type = f) with
  | some info => info.stringified
  | none => str "Invalid/unknown filetype " ++ hex02 f.toNat

/-- types/filetype.go:181-188 `FiletypeForName` -/
def filetypeForName (name : Str) : Out Filetype :=
  match filetypeInfos.find? (fun info => info.name = name ∨ info.threeLetter = name ∨ info.oneLetter = name) with
  | some info => .ok info.type
  | none => .err .other

/-- types/filetype.go:191-202 `FiletypeInfos` -/
def listFiletypes (all : Bool) : List FiletypeInfo :=
  if all then filetypeInfos else filetypeInfos.filter fun info => !info.extra

end Verif.Types
