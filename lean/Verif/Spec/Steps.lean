import Verif.Spec.Endless

/-!
# Specification vocabulary for how long it takes to read a ProDOS volume
-/

set_option autoImplicit false

namespace Verif.Spec.Prodos

/-- The volume directory, or a subdirectory somewhere below it. -/
def DirOf (img : Bytes) (k : Nat) : Prop := k = 2 ∨ Subdir img k

/-- Every subdirectory is listed by one entry of one directory only, and the volume directory by none: the directories form a tree. -/
def ListedOnce (img : Bytes) : Prop :=
  (∀ k l, DirOf img k → DirBlocks img k l → (subdirKeys img k l).Nodup) ∧
  (∀ k k' j, DirOf img k → DirOf img k' → Child img k j → Child img k' j → k = k') ∧
  ∀ k, DirOf img k → ¬ Child img k 2

/-- The number of whole blocks of a device. -/
def blockCount (img : Bytes) : Nat := img.length / 512

end Verif.Spec.Prodos
