import Verif.Spec.Fate

/-!
# Specification vocabulary: histories of additions and deletions in a symbol table

The table is changed in memory; it is written, and read again, only at the end.
-/

set_option autoImplicit false

namespace Verif.Spec
open Supermon

/-- A call of AddSymbol or DeleteSymbol. -/
inductive TableChange where
  | add (name : Str) (address : UInt16)
  | delete (name : Str)
deriving DecidableEq

def TableChange.name : TableChange → Str
  | .add n _ => n
  | .delete n => n

/-- The table after the call. -/
def TableChange.result (st : SymbolTable) : TableChange → SymbolTable
  | .add n a => (addSymbol st n a).2
  | .delete n => (deleteSymbol st n).2

/-- The call spoils the table (see Spec/Fate.lean); one that returns an error does not. -/
def TableChange.Spoils (st : SymbolTable) : TableChange → Prop
  | .add n a => (addSymbol st n a).1 = .ok () ∧ AddingSpoils st n a
  | .delete n => DeletingSpoils st n

/-- The table after a history of calls, none of which spoils the table it is applied to. -/
inductive Unspoilt : SymbolTable → List TableChange → SymbolTable → Prop
  | none (st : SymbolTable) : Unspoilt st [] st
  | more {st st' : SymbolTable} {c : TableChange} {cs : List TableChange} : c.name ≠ [] → ¬ c.Spoils st → Unspoilt (c.result st) cs st' →
      Unspoilt st (c :: cs) st'

end Verif.Spec
