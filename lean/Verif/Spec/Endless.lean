import Verif.Spec.Prodos

/-!
# Specification vocabulary: ProDOS volumes that can not be read to their end
-/

set_option autoImplicit false

namespace Verif.Spec.Prodos

/-- The key blocks of the subdirectories of the directory with key block `k` and further blocks `l`, in the order of its entries. -/
def subdirKeys (img : Bytes) (k : Nat) (l : List Nat) : List Nat := ((dirEntries img k l).filter fun e => storageType e = 13).map keyPointerOf

/-- After `n` directories have been read, beginning with the volume directory and always going on with the one that has been known longest,
the directories with key blocks `q` are known and not yet read. -/
inductive ToRead (img : Bytes) : Nat → List Nat → Prop
  | start : ToRead img 0 [2]
  | step {n k : Nat} {q l : List Nat} : ToRead img n (k :: q) → DirBlocks img k l → ToRead img (n + 1) (q ++ subdirKeys img k l)

/-- After `n` directories, the one with key block `k` is next. -/
def ComesTo (img : Bytes) (n k : Nat) : Prop := ∃ q, ToRead img n (k :: q)

/-- All directories are read after finitely many. -/
def AllRead (img : Bytes) : Prop := ∃ n, ToRead img n []

/-- Going through the directories never ends: it comes to one whose blocks go on for ever, or there is always another one. -/
def EndlessReading (img : Bytes) : Prop :=
  BitmapOnDevice img ∧ OnDevice img 2 ∧
    ((∃ n k, ComesTo img n k ∧ OnDevice img k ∧ Endless img (nextOf img k)) ∨ ∀ n, ∃ k, ComesTo img n k)

/-- Of the directories that continue in block `b`, the one with key block `k` is the last that is read. -/
def Owner (img : Bytes) (b k : Nat) : Prop :=
  ∃ n l, ComesTo img n k ∧ DirBlocks img k l ∧ b ∈ l ∧ ∀ n' k' l', n < n' → ComesTo img n' k' → DirBlocks img k' l' → b ∉ l'

/-- The parent pointer of subdirectory `k` leads into the volume directory. -/
def AtTop (img : Bytes) (k : Nat) : Prop := parentPointer img k = 2 ∨ Owner img (parentPointer img k) 2

/-- The parent pointer of subdirectory `k` leads to subdirectory `j`. -/
def Up (img : Bytes) (k j : Nat) : Prop :=
  ¬ AtTop img k ∧ Subdir img j ∧ (parentPointer img k = j ∨ ¬ Subdir img (parentPointer img k) ∧ Owner img (parentPointer img k) j)

/-- The parent pointers from `k` on lead to a subdirectory above itself. -/
def EndlessUp (img : Bytes) (k : Nat) : Prop := ∃ j, Relation.ReflTransGen (Up img) k j ∧ Relation.TransGen (Up img) j j

/-- The parent pointers from `k` on lead to a subdirectory whose parent pointer leads to no directory. -/
def Lost (img : Bytes) (k : Nat) : Prop := ∃ j, Relation.ReflTransGen (Up img) k j ∧ ¬ AtTop img j ∧ ∀ i, ¬ Up img j i

end Verif.Spec.Prodos
