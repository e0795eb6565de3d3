import Verif.Spec.Dos3
import Verif.Spec.Supermon

/-!
# Specification vocabulary for damage to an image

Which sectors of a disk have to do with which file.
-/

set_option autoImplicit false

namespace Verif.Spec

/-- Both images hold the same bytes in sector `p`. -/
def SameSector (img img' : Bytes) (p : Nat × Nat) : Prop := sectorAt img' p.1 p.2 = sectorAt img p.1 p.2

/-- The sectors reached from `start` by following links; the link 0/0 ends the chain. -/
inductive Linked (img : Bytes) (start : Nat × Nat) : Nat × Nat → Prop
  | start : start ≠ (0, 0) → Linked img start start
  | next {p : Nat × Nat} : Linked img start p → linkOf img p ≠ (0, 0) → Linked img start (linkOf img p)

/-- The sectors of a DOS 3.3 directory: the VTOC and the catalog sectors. -/
def DirectorySector (img : Bytes) (p : Nat × Nat) : Prop := p = vtocAt ∨ Linked img (linkOf img vtocAt) p

/-- `e` is an entry in use of the DOS 3.3 catalog. -/
def HasEntry (img : Bytes) (e : Bytes) : Prop :=
  LiveEntry e ∧ ∃ p k, Linked img (linkOf img vtocAt) p ∧ k < 7 ∧ e = entryBytes img p k

/-- The sectors of the DOS 3.3 file with entry `e`: its track/sector lists and the sectors they name. -/
def FileSector (img : Bytes) (e : Bytes) (p : Nat × Nat) : Prop :=
  Linked img ((e.getD 0 0).toNat, (e.getD 1 0).toNat) p ∨
  ∃ l, Linked img ((e.getD 0 0).toNat, (e.getD 1 0).toNat) l ∧ p ∈ pairs img l ∧ p ≠ (0, 0)

/-- Two NakedOS images record the same owners and differ at most in sectors of which `others` says so. -/
def DiffersIn (others : UInt8 → Prop) (img img' : Bytes) : Prop :=
  (∀ n, n < 560 → owner img' n = owner img n) ∧
  ∀ n, n < 560 → ¬ others (owner img n) → sectorNo img' n = sectorNo img n

end Verif.Spec
