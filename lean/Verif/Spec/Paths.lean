import Verif.Spec.Endless

/-!
# Specification vocabulary: the paths of the subdirectories of a ProDOS volume
-/

set_option autoImplicit false

namespace Verif.Spec.Prodos

/-- The path of the subdirectory with key block `k`: the names met on the way up to the volume directory.
A subdirectory from which the volume directory is not reached has none. -/
inductive PathOf (img : Bytes) : Nat → Str → Prop
  | top {k : Nat} : AtTop img k → PathOf img k (headerName img k)
  | under {k j : Nat} {p : Str} : Up img k j → PathOf img j p → PathOf img k (joinPath p (headerName img k))

/-- The volume can be read: its bit map is on the device, its directories come to an end, and every subdirectory has a path. -/
def WellFormed (img : Bytes) : Prop := BitmapOnDevice img ∧ AllRead img ∧ ∀ k, Subdir img k → ∃ p, PathOf img k p

/-- `ds` is what a catalog of the directory with key block `k` shows: its entries other than deleted ones, in order. -/
def Listing (img : Bytes) (k : Nat) (ds : List Descriptor) : Prop :=
  ∃ l, DirBlocks img k l ∧ ds = ((dirEntries img k l).filter fun e => storageType e ≠ 0).map shown

/-- Two subdirectories have the path `p`, and what a catalog shows of them is different. -/
def Twins (img : Bytes) (p : Str) : Prop :=
  ∃ j k ds ds', Subdir img j ∧ Subdir img k ∧ PathOf img j p ∧ PathOf img k p ∧ Listing img j ds ∧ Listing img k ds' ∧ ds ≠ ds'

/-- All directories can be read, but the parent pointers of some subdirectory go round in a circle, and those of another lead nowhere. -/
def Torn (img : Bytes) : Prop :=
  BitmapOnDevice img ∧ AllRead img ∧ (∃ k, Subdir img k ∧ EndlessUp img k) ∧ ∃ k, Subdir img k ∧ Lost img k

end Verif.Spec.Prodos
