import Verif.Spec.Fate

/-!
# Specification vocabulary: the life of the names on any NakedOS disk

A disk may have several symbols with the same name, of which only the first counts; it comes to light again when the first is removed.  So a
name has a list of addresses.  A disk whose symbol table cannot be read has no names at all.
-/

set_option autoImplicit false

namespace Verif.Spec
open Cmd Disk
open Supermon (Symbol SymbolTable)

/-- The addresses given to each name, the one that counts first. -/
abbrev Entries := Str → List UInt16

/-- The addresses that a symbol table has for the name `n`. -/
def entriesOf (st : SymbolTable) (n : Str) : List UInt16 :=
  (st.filter fun s => decide (s.address ≠ 0 ∧ SameName s.name n)).map fun s => s.address

/-- The image file `image`, its sectors in order `ord`, is a NakedOS disk with the names `t`; none if the symbol table cannot be read. -/
def HoldsNames (env : Env) (w : World) (image : Str) (ord : DiskOrder) (t : Option Entries) : Prop :=
  ∃ raw o, w.files image = some raw ∧ openImage raw image ord (str "nakedos") (factories env) = .ok (.nakedos o, ord) ∧
    ((t = none ∧ o.st = none) ∨ ∃ d st, t = some d ∧ o.st = some st ∧ ∀ n, n ≠ [] → entriesOf st n = d n)

/-- The symbol `n` means file `f`. -/
def Means (t : Option Entries) (n : Str) (f : UInt8) : Prop :=
  IsFileNumber f ∧ ∃ d a rest, t = some d ∧ d n = a :: rest ∧ a.toNat = 0xDF00 + f.toNat

/-- File and symbol meant by a name given to `put`.  A new symbol without a number gets a file that is not there. -/
def PutAt (m : Files) (t : Option Entries) (name : Str) (f : UInt8) (sym : Str) : Prop :=
  (NumericName name f ∧ sym = []) ∨
  ((0x3A : UInt8) ∉ name ∧ (∀ g, ¬ NumericName name g) ∧ sym = name ∧
    (name ≠ [] → Means t name f ∨ (∀ g, ¬ Means t name g) ∧ Ordinary f ∧ m f = [])) ∨
  ∃ a, name = a ++ 0x3A :: sym ∧ NumericName a f ∧ (0x3A : UInt8) ∉ sym ∧ ∀ g, ¬ NumericName sym g

/-- The names after the symbol `sym` has got the address of file `f`.  (Characters other than letters and digits are dropped; what becomes of
the name that is left then is not said.) -/
def SetsName (d : Entries) (sym : Str) (f : UInt8) (d' : Entries) : Prop :=
  (∀ n, ¬ SameName n (stored sym) → d' n = d n) ∧
  (LegalName sym → ∀ n, SameName n sym → d' n = (0xDF00 + f.toUInt16) :: (d n).tail)

/-- The names after a put.  They change only if the symbol does not mean this file already, or if the file is one of the two that hold
the symbol table; what is said about the latter is nothing.  If they change, the symbol is set or all are lost. -/
def AfterPut (t : Option Entries) (f : UInt8) (sym : Str) (t' : Option Entries) : Prop :=
  (sym = [] ∨ Means t sym f → f ≠ 3 → f ≠ 4 → t' = t) ∧
  (sym ≠ [] → ¬ Means t sym f → ∃ d, t = some d ∧ (t' = none ∨ ∃ d', t' = some d' ∧ SetsName d sym f d'))

/-- The file meant by a name given to `rm`. -/
def RmAt (t : Option Entries) (name : Str) (f : UInt8) : Prop :=
  NumericName name f ∨ (∀ g, ¬ NumericName name g) ∧ (name ≠ [] → Means t name f)

/-- The names after an `rm`.  If the name is that of a symbol, this loses its first address, or all names are lost.  Otherwise they stay,
except when one of the two files of the symbol table is removed. -/
def AfterRm (t : Option Entries) (f : UInt8) (name : Str) (t' : Option Entries) : Prop :=
  (name ≠ [] → (∀ d, t = some d → d name = []) → t' = if f = 3 ∨ f = 4 then none else t) ∧
  (∀ d, name ≠ [] → t = some d → d name ≠ [] →
    t' = none ∨ ∃ d', t' = some d' ∧ ∀ n, d' n = if SameName n name then (d n).tail else d n) ∧
  (name = [] → t' = none ∨ t' = t)

/-- Commands that do not name the symbol `n` or, by their numbers, the two files of the symbol table. -/
def Spares (image : Str) (n : Str) : Command → Prop
  | .put _ _ _ _ _ i name _ => i = image →
      (∃ f, NumericName name f ∧ f ≠ 3 ∧ f ≠ 4) ∨
      (LegalName name ∧ (∀ f, ¬ NumericName name f) ∧ ¬ SameName n name) ∨
      ∃ a b f, name = a ++ 0x3A :: b ∧ NumericName a f ∧ f ≠ 3 ∧ f ≠ 4 ∧ LegalName b ∧ ¬ SameName n b
  | .rm _ _ _ i name => i = image → name ≠ [] ∧ ¬ SameName n name ∧ ∀ f, NumericName name f → f ≠ 3 ∧ f ≠ 4
  | .mkhello _ i _ _ _ => i = image → ¬ SameName n (str "FHELLO")
  | _ => True

/-- No name has the address of a file of the symbol table. -/
def NoTableFile (t : Option Entries) : Prop := ∀ d, t = some d → ∀ k, k ≠ [] → (0xDF03 : UInt16) ∉ d k ∧ (0xDF04 : UInt16) ∉ d k

end Verif.Spec
