import Verif.Model.Disk

/-! # Model of the data types in `types/ops.go` and the filetype constants used by operators -/

set_option autoImplicit false

namespace Verif

/-- types/filetype.go:12 `type Filetype int` -/
abbrev Filetype := Int

/-- types/filetype.go:20 -/
def filetypeASCIIText : Filetype := 0x04
/-- types/filetype.go:22 -/
def filetypeBinary : Filetype := 0x06
/-- types/filetype.go:29 -/
def filetypeDirectory : Filetype := 0x0F
/-- types/filetype.go:45 -/
def filetypeIntegerBASIC : Filetype := 0xFA
/-- types/filetype.go:47 -/
def filetypeApplesoftBASIC : Filetype := 0xFC
/-- types/filetype.go:49 -/
def filetypeRelocatable : Filetype := 0xFE
/-- types/filetype.go:51 -/
def filetypeS : Filetype := 0x100
/-- types/filetype.go:52 -/
def filetypeNewA : Filetype := 0x101
/-- types/filetype.go:53 -/
def filetypeNewB : Filetype := 0x102

/-- types/ops.go:10-18 `Descriptor`; omitted fields of a Go literal are zero. -/
structure Descriptor where
  name : Str := []
  fullname : Str := []
  sectors : Int := 0
  blocks : Int := 0
  length : Int := 0
  locked : Bool := false
  type : Filetype := 0
deriving DecidableEq, Repr

/-- types/ops.go:76-80 `FileInfo` -/
structure FileInfo where
  descriptor : Descriptor := {}
  data : Bytes := []
  startAddress : UInt16 := 0
deriving DecidableEq, Repr

end Verif
