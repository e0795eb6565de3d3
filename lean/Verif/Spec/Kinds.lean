import Verif.Spec.PutRm

/-!
# Specification vocabulary: what a put asks for
-/

set_option autoImplicit false

namespace Verif.Spec
open Supermon

/-- Storing something under `name` asks for file `f` and the symbol `sym`, and this can be asked of a disk with the table `st` (if it has
one): without a symbol table no symbol can be asked for, and one that cannot be written into a table on no disk. -/
def AsksToPut (m : Files) (st : Option SymbolTable) (name : Str) (f : UInt8) (sym : Str) : Prop :=
  PutMeans m (st.getD []) name f sym ∧ (sym ≠ [] → st ≠ none ∧ Storable sym)

/-- The sectors that a file may take: those that are free, and those that it has. -/
def roomFor (img : Bytes) (f : UInt8) : Nat := (ownedBy (owner img) 0xFF).length + (ownedBy (owner img) f).length

end Verif.Spec
