import Verif.Spec.PutRm

/-!
# Specification vocabulary: calls that fail half way
-/

set_option autoImplicit false

namespace Verif.Spec
open Supermon

/-- Storing `data` under `name` in the NakedOS image `img`, whose symbol table is `st`, comes to a halt half way: the name means file `f`
and symbol `sym`; there is room for the contents, and they may be stored; the symbol can be written into a table, and does not stand for
`f` yet; but there is no place for it, or another name of the table cannot be written again. -/
def HalfPut (img : Bytes) (st : SymbolTable) (name : Str) (data : Bytes) (overwrite : Bool) (f : UInt8) (sym : Str) : Prop :=
  PutMeans (fileOnDisk img) st name f sym ∧
  sectorsNeeded data.length ≤ (ownedBy (owner img) 0xFF).length + (ownedBy (owner img) f).length ∧
  (overwrite = true ∨ fileOnDisk img f = []) ∧
  sym ≠ [] ∧ Storable sym ∧ ¬ StandsFor st sym f ∧ ¬ (PlaceFor st sym ∧ ∀ e ∈ st, Storable e.name)

/-- Removing `name` from a NakedOS image with the symbol table `st` comes to a halt half way: the name is that of file `f`, and there is an
entry with it, but another name of the table cannot be written again. -/
def HalfRemoved (st : SymbolTable) (name : Str) (f : UInt8) : Prop :=
  NameOf st name f ∧ ∃ before s after, FirstOf st name before s after ∧ ∃ e ∈ before ++ after, ¬ Storable e.name

end Verif.Spec
