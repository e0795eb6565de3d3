import Verif.Spec.Supermon
import Verif.Model.Supermon

/-!
# Specification vocabulary for Super-Mon symbols
-/

set_option autoImplicit false

namespace Verif.Spec
open Supermon (Symbol SymbolTable)

/-- ASCII letters. -/
def isLetter (c : UInt8) : Bool := (0x41 ≤ c && c ≤ 0x5A) || (0x61 ≤ c && c ≤ 0x7A)

/-- ASCII digits. -/
def isDigit (c : UInt8) : Bool := 0x30 ≤ c && c ≤ 0x39

/-- Bits a character takes in a symbol: letters 5, digits 6, anything else cannot be stored. -/
def charBits (c : UInt8) : Nat := if isLetter c then 5 else if isDigit c then 6 else 0

/-- Bits a name takes. -/
def nameBits (s : Str) : Nat := (s.map charBits).sum

/-- A legal symbol name: 3 to 9 letters and digits fitting in 48 bits. -/
def LegalName (s : Str) : Prop :=
  3 ≤ s.length ∧ s.length ≤ 9 ∧ (∀ c ∈ s, isLetter c = true ∨ isDigit c = true) ∧ nameBits s ≤ 48

instance (s : Str) : Decidable (LegalName s) := inferInstanceAs (Decidable (_ ∧ _ ∧ _ ∧ _))

/-- The Super-Mon hash of an address: low byte xor high byte, seven bits. -/
def symbolHash (a : UInt16) : Nat := (a.toNat % 256 ^^^ a.toNat / 256) % 128

/-- Entry `i` of the table, if live, links nowhere (-1) or to a different entry with the same
hash. -/
def LinkOk (st : SymbolTable) (i : Nat) (s : Symbol) : Prop :=
  s.address ≠ 0 → s.link = -1 ∨
    ∃ (j : Nat) (t : Symbol), s.link = (j : Int) ∧ j ≠ i ∧ st[j]? = some t ∧
      symbolHash t.address = symbolHash s.address

/-- A well-formed table: 819 entries, names empty or legal, links consistent. -/
structure WellFormed (st : SymbolTable) : Prop where
  length : st.length = 819
  names : ∀ s ∈ st, s.name = [] ∨ LegalName s.name
  links : ∀ i s, st[i]? = some s → LinkOk st i s

/-- What reading back a written entry gives: an entry with address 0 is the empty entry, a live
one has its name in upper case. -/
def canonical (s : Symbol) : Symbol :=
  if s.address = 0 then ⟨0, [], 0⟩ else ⟨s.address, toUpper s.name, s.link⟩

end Verif.Spec
