import Verif.Spec.PutRm

/-!
# Specification vocabulary: what becomes of a symbol table when a symbol is added or deleted

Used entries with the same hash are chained by links.  A table is refused as a whole when it is read if a used entry links to itself or
to an entry with another hash (unused entries have address 0 and so hash 0).
-/

set_option autoImplicit false

namespace Verif.Spec
open Supermon

/-- Used entry `j` of the table, `t`, links to entry `i`. -/
def LinksTo (st : SymbolTable) (j : Nat) (t : Symbol) (i : Nat) : Prop :=
  st[j]? = some t ∧ j ≠ i ∧ t.address ≠ 0 ∧ t.link = (i : Int)

/-- Some entry before `j`, used or not, has the link `i`.  (All unused entries of a table read from a disk have the link 0.) -/
def Earlier (st : SymbolTable) (i j : Nat) : Prop :=
  ∃ (k : Nat) (t : Symbol), k < j ∧ k ≠ i ∧ st[k]? = some t ∧ t.link = (i : Int)

/-- Only the first entry that links to `i` is relinked when entry `i` is taken out.  The table is spoilt if another used entry still links
there, although the entry now has another hash, `h`, or if the first entry then links to itself. -/
def TakingSpoils (st : SymbolTable) (i h : Nat) : Prop :=
  ∃ (s : Symbol) (j : Nat) (t : Symbol), st[i]? = some s ∧ LinksTo st j t i ∧
    ((Earlier st i j ∧ symbolHash t.address ≠ h) ∨ (¬ Earlier st i j ∧ s.link = (j : Int)))

/-- Entry `i` is the first with the name `n`, up to case. -/
def NamedAt (st : SymbolTable) (n : Str) (i : Nat) (s : Symbol) : Prop :=
  st[i]? = some s ∧ SameName s.name n ∧ ∀ (k : Nat) (t : Symbol), k < i → st[k]? = some t → ¬ SameName t.name n

/-- Entry `p` is the first unused one. -/
def UnusedAt (st : SymbolTable) (p : Nat) : Prop :=
  (∃ s, st[p]? = some s ∧ s.address = 0) ∧ ∀ (k : Nat) (t : Symbol), k < p → st[k]? = some t → t.address ≠ 0

/-- Deleting the symbol `n` spoils the table. -/
def DeletingSpoils (st : SymbolTable) (n : Str) : Prop := ∃ i s, NamedAt st n i s ∧ TakingSpoils st i 0

/-- Letting the symbol `n` have the address `a` spoils the table: the entry with this name has to move to another chain and taking it out of
the old one spoils it; or there is no such entry, and a used entry with another hash links to the unused one that is taken. -/
def AddingSpoils (st : SymbolTable) (n : Str) (a : UInt16) : Prop :=
  (∃ i s, NamedAt st n i s ∧ symbolHash s.address ≠ symbolHash a ∧ TakingSpoils st i (symbolHash a)) ∨
  ((∀ s ∈ st, ¬ SameName s.name n) ∧ ∃ p j t, UnusedAt st p ∧ LinksTo st j t p ∧ symbolHash t.address ≠ symbolHash a)

/-- The form in which a name is stored: its letters, as capitals, and digits. -/
def stored (n : Str) : Str := toUpper (n.filter fun c => isLetter c || isDigit c)

/-- The symbol found afterwards is the one given, because it consists of letters and digits, or no symbol of the table has those letters and
digits. -/
def StoredWell (st : SymbolTable) (n : Str) : Prop :=
  LegalName n ∨ ∀ s ∈ st, s.address ≠ 0 → ¬ SameName s.name (stored n)

/-- What is found after a symbol was to stand for file `f`, on a disk with the symbol table `old` (none if it cannot be read): nothing that is a
symbol, if adding it spoils the table; and otherwise the symbol, in the form in which it is stored, stands for `f`, and all others stand for
what they stood for. -/
def SymbolSet (old new : Option SymbolTable) (sym : Str) (f : UInt8) : Prop :=
  ∃ st, old = some st ∧
    (AddingSpoils st sym (0xDF00 + f.toUInt16) → new = none) ∧
    (¬ AddingSpoils st sym (0xDF00 + f.toUInt16) → ∃ st', new = some st' ∧
      (StoredWell st sym → ∀ n, n ≠ [] → ∀ g, StandsFor st' n g ↔ if SameName n (stored sym) then g = f else StandsFor st n g))

end Verif.Spec
