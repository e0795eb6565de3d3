import Verif.Spec.History
import Verif.Spec.Symbols

/-!
# Specification vocabulary for symbolic names in histories of commands on one NakedOS image
-/

set_option autoImplicit false

namespace Verif.Spec
open Cmd Disk
open Supermon (Symbol SymbolTable)

/-- Which file a symbolic name stands for, if for one. -/
abbrev Names := Str → Option UInt8

/-- Names that can be symbols and are not taken for a number. -/
def Symbolic (n : Str) : Prop := LegalName n ∧ ∀ f, ¬ NumericName n f

/-- In the table, symbol `n` stands for file `f`. -/
def Denotes (st : SymbolTable) (n : Str) (f : UInt8) : Prop :=
  IsFileNumber f ∧ ∃ s ∈ st, SameName s.name n ∧ s.address.toNat = 0xDF00 + f.toNat

/-- A symbol table in order, as it is read from a disk: unused entries are blank; the others have different names, and
every one links nowhere or to another one with the same hash; no two to the same, and never in a circle. -/
structure Tidy (st : SymbolTable) : Prop where
  length : st.length = 819
  entries : ∀ s ∈ st, s = ⟨0, [], 0⟩ ∨ (s.address ≠ 0 ∧ Symbolic s.name ∧ toUpper s.name = s.name)
  unique : ∀ (i j : Nat) (s t : Symbol), st[i]? = some s → st[j]? = some t → s.address ≠ 0 → s.name = t.name → i = j
  links : ∀ (i : Nat) (s : Symbol), st[i]? = some s → s.address ≠ 0 → s.link = -1 ∨
    ∃ (j : Nat) (t : Symbol), s.link = (j : Int) ∧ st[j]? = some t ∧ t.address ≠ 0 ∧ symbolHash t.address = symbolHash s.address
  single : ∀ (i i' : Nat) (s s' : Symbol), st[i]? = some s → st[i']? = some s' → s.address ≠ 0 → s'.address ≠ 0 →
    s.link ≠ -1 → s.link = s'.link → i = i'
  acyclic : ∃ rank : Nat → Nat, ∀ (i j : Nat) (s : Symbol), st[i]? = some s → s.address ≠ 0 → s.link = (j : Int) → rank j < rank i

/-- The first entry of the table is in use, for the symbol `z`. -/
def FirstIs (st : SymbolTable) (z : Str) : Prop := ∃ s, st[0]? = some s ∧ s.address ≠ 0 ∧ s.name = z

/-- The table is in order, its first symbol is `z`, and the names stand for the files given by `t`. -/
def Knows (st : SymbolTable) (z : Str) (t : Names) : Prop :=
  Tidy st ∧ FirstIs st z ∧ ∀ n, Symbolic n → ∀ f, t n = some f ↔ Denotes st n f

/-- The image file `image`, its sectors in order `ord`, is a NakedOS disk with such a symbol table. -/
def HasNames (env : Env) (w : World) (image : Str) (ord : DiskOrder) (z : Str) (t : Names) : Prop :=
  ∃ raw o st, w.files image = some raw ∧ openImage raw image ord (str "nakedos") (factories env) = .ok (.nakedos o, ord) ∧
    o.st = some st ∧ Knows st z t

/-- What a command did to files and names: under which symbol, if under one. -/
inductive Change where
  | nothing
  | put (f : UInt8) (data : Bytes) (sym : Option Str)
  | rm (f : UInt8) (sym : Option Str)

/-- The files after a change. -/
def Change.files (m : Files) : Change → Files
  | .nothing => m
  | .put f data _ => (Event.put f data).apply m
  | .rm f _ => (Event.rm f).apply m

/-- The names after a change. -/
def Change.names (t : Names) : Change → Names
  | .put f _ (some n) => fun k => if SameName k n then some f else t k
  | .rm _ (some n) => fun k => if SameName k n then none else t k
  | _ => t

/-- Commands that, if they are on the image, leave the symbol table's files (3 and 4) and the symbol `z` of its first entry alone, and
name files by their number, by a symbol, or by both.  (`z` may be used where it need not be changed.) -/
def Careful (image : Str) (z : Str) (t : Names) : Command → Prop
  | .put _ _ _ _ _ i name _ => i = image →
      (∃ f, NumericName name f ∧ f ≠ 3 ∧ f ≠ 4) ∨
      (Symbolic name ∧ t name ≠ some 3 ∧ t name ≠ some 4 ∧ (SameName name z → t name ≠ none)) ∨
      ∃ a b f, name = a ++ 0x3A :: b ∧ NumericName a f ∧ f ≠ 3 ∧ f ≠ 4 ∧ Symbolic b ∧ (SameName b z → t b = some f)
  | .rm _ _ _ i name => i = image → (∃ f, NumericName name f ∧ f ≠ 3 ∧ f ≠ 4) ∨
      (Symbolic name ∧ ¬ SameName name z ∧ t name ≠ some 3 ∧ t name ≠ some 4)
  | .mkhello _ i _ _ _ => i = image → SameName (str "FHELLO") z → t (str "FHELLO") = some 1
  | _ => True

/-- The file and the symbol meant by a name given to `put`: a number means that file and no symbol; a symbol means the file it
stands for, or, if it stands for none, one that is not there; number and symbol mean that the symbol will stand for this file. -/
def PutTo (m : Files) (t : Names) (name : Str) (f : UInt8) (sym : Option Str) : Prop :=
  (NumericName name f ∧ sym = none) ∨
  (Symbolic name ∧ sym = some name ∧ (t name = some f ∨ t name = none ∧ m f = [])) ∨
  ∃ a b, name = a ++ 0x3A :: b ∧ NumericName a f ∧ Symbolic b ∧ sym = some b

/-- The table has a place for the symbol `s`: its own entry, or an unused one. -/
def PlaceFor (st : SymbolTable) (s : Str) : Prop := (∃ e ∈ st, SameName e.name s) ∨ ∃ e ∈ st, e.address = 0

end Verif.Spec
