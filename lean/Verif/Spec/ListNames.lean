import Verif.Spec.Names

/-!
# Specification vocabulary for names shown in a listing
-/

set_option autoImplicit false

namespace Verif.Spec
open Supermon (Symbol SymbolTable)

/-- Every symbol that stands for a file can only be taken for that file: it is not a number, and no other symbol of the same
name has another value. -/
def Unmistakable (st : SymbolTable) : Prop :=
  ∀ s ∈ st, 0xDF00 < s.address.toNat → s.address.toNat < 0xDFFE →
    (∀ g, ¬ NumericName s.name g) ∧ ∀ s' ∈ st, SameName s'.name s.name → s'.address = s.address

/-- A name given to a command is read as file `f`: as a number, or if it is none, as the first symbol of this name. -/
def ReadAs (st : SymbolTable) (name : Str) (f : UInt8) : Prop :=
  NumericName name f ∨
    (∀ g, ¬ NumericName name g) ∧ IsFileNumber f ∧
      ∃ x, st.find? (fun x => decide (SameName x.name name)) = some x ∧ x.address.toNat = 0xDF00 + f.toNat

/-- The short name of file `f`: the first symbol that has its value, or else its number. -/
def ShortName (st : SymbolTable) (f : UInt8) (line : Str) : Prop :=
  (∃ s, st.find? (fun s => decide (s.address.toNat = 0xDF00 + f.toNat)) = some s ∧ line = s.name) ∨
    (∀ s ∈ st, s.address.toNat ≠ 0xDF00 + f.toNat) ∧ line = dfName f

end Verif.Spec
