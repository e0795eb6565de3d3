import Verif.Props.Types

/-!
# C62: the types the code has names for
-/

set_option autoImplicit false
set_option maxRecDepth 20000

namespace Verif.Types

/-- C62: the file types that the code has constants for are those that their names stand for. -/
theorem C62_constants :
    ∀ p ∈ [(filetypeASCIIText, "TXT"), (filetypeBinary, "BIN"), (filetypeDirectory, "DIR"), (filetypeIntegerBASIC, "INT"),
      (filetypeApplesoftBASIC, "BAS"), (filetypeRelocatable, "REL"), (filetypeS, "S"), (filetypeNewA, "NewA"), (filetypeNewB, "NewB")],
      filetypeForName (str p.2) = .ok p.1 := by
  decide +kernel

end Verif.Types

namespace Verif.Types

/-- C62: the types that are listed without `--all` are these. -/
theorem C62_short_list : (listFiletypes false).map (·.name) = ["Typeless", "BadBlocks", "ASCIIText", "Binary", "Directory", "AppleWorksDatabase",
    "AppleWorksWordProcessor", "AppleWorksSpreadsheet", "Pascal", "Command", "IntegerBASIC", "IntegerBASICVariables", "ApplesoftBASIC",
    "ApplesoftBASICVariables", "Relocatable", "System", "S", "NewA", "NewB"].map str := by
  decide +kernel

end Verif.Types
