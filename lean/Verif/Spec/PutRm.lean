import Verif.Spec.Names

/-!
# Specification vocabulary: names of files on any disk, in order or not
-/

set_option autoImplicit false

namespace Verif.Spec
open Supermon

/-- A name that can be written into a symbol table: none, or 3 to 9 characters that fit in 48 bits. -/
def Storable (n : Str) : Prop := n = [] ∨ (3 ≤ n.length ∧ n.length ≤ 9 ∧ nameBits n ≤ 48)

instance (n : Str) : Decidable (Storable n) := inferInstanceAs (Decidable (_ ∨ _))

/-- `s` is the first entry of the table with the name `n`, up to case. -/
def FirstOf (st : SymbolTable) (n : Str) (before : SymbolTable) (s : Symbol) (after : SymbolTable) : Prop :=
  st = before ++ s :: after ∧ SameName s.name n ∧ ∀ t ∈ before, ¬ SameName t.name n

/-- The symbol `n` stands for file `f`: the first entry with this name has the address `DF00 + f`. -/
def StandsFor (st : SymbolTable) (n : Str) (f : UInt8) : Prop :=
  IsFileNumber f ∧ ∃ before s after, FirstOf st n before s after ∧ s.address.toNat = 0xDF00 + f.toNat

/-- The name given to `rm` is that of file `f`: its number, or else a symbol that stands for it. -/
def NameOf (st : SymbolTable) (n : Str) (f : UInt8) : Prop :=
  NumericName n f ∨ (∀ g, ¬ NumericName n g) ∧ StandsFor st n f

/-- `f` is the smallest number of a file that is not there. -/
def FirstUnused (m : Files) (f : UInt8) : Prop :=
  IsFileNumber f ∧ m f = [] ∧ ∀ g, IsFileNumber g → g.toNat < f.toNat → m g ≠ []

/-- The file and the symbol meant by a name given to `put`, on any disk: a number means that file and no symbol; another name without a
colon means the file it stands for, or, if it stands for none, the first that is not there; and a number, a colon and a name that is not
a number mean that the name will stand for the file with this number.  An empty symbol is none. -/
def PutMeans (m : Files) (st : SymbolTable) (name : Str) (f : UInt8) (sym : Str) : Prop :=
  (NumericName name f ∧ sym = []) ∨
  ((0x3A : UInt8) ∉ name ∧ (∀ g, ¬ NumericName name g) ∧ sym = name ∧
    (StandsFor st name f ∨ (∀ g, ¬ StandsFor st name g) ∧ FirstUnused m f)) ∨
  ∃ a, name = a ++ 0x3A :: sym ∧ NumericName a f ∧ (0x3A : UInt8) ∉ sym ∧ ∀ g, ¬ NumericName sym g

end Verif.Spec
