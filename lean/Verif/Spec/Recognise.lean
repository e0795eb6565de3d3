import Verif.Spec.Dos3
import Verif.Spec.Supermon
import Verif.Spec.Prodos
import Verif.Spec.Open
import Verif.Spec.Cmd

/-!
# Specification vocabulary for recognising the operating system of an image
-/

set_option autoImplicit false

namespace Verif.Spec
open Disk

/-- A DOS 3.3 disk: a normal VTOC, and a catalog that ends. -/
def DosDisk (img : Bytes) : Prop :=
  NormalVTOC img ∧ ∃ chain, Chain img (CatalogPlace img) (linkOf img vtocAt) chain

/-- A disk with a normal VTOC and a catalog that goes round in a circle. -/
def EndlessCatalog (img : Bytes) : Prop :=
  NormalVTOC img ∧ ∀ n, walk img (linkOf img vtocAt) n ≠ (0, 0) ∧ CatalogPlace img (walk img (linkOf img vtocAt) n)

/-- Read as a ProDOS volume, some directory has blocks, subdirectories or parents that go round in a circle. -/
def EndlessDirectories (img : Bytes) : Prop :=
  (∃ k, (k = 2 ∨ Prodos.Subdir img k) ∧ Prodos.Endless img (Prodos.nextOf img k)) ∨
  (∃ k, Prodos.Subdir img k ∧ Relation.TransGen (Prodos.Child img) k k) ∨
  ∃ k, Prodos.Subdir img k ∧ Relation.TransGen (Prodos.Parent img) k k

/-- The three systems. -/
inductive System where
  | dos3
  | nakedos
  | prodos

/-- How a system is called on the command line. -/
def System.name : System → Str
  | .dos3 => str "dos3"
  | .nakedos => str "nakedos"
  | .prodos => str "prodos"

/-- The sector order in which a system sees the disk. -/
def System.order : System → DiskOrder
  | .dos3 => str "do"
  | .nakedos => str "raw"
  | .prodos => str "po"

/-- The bytes, in the system's own sector order, are a disk of the system. -/
def System.IsDisk : System → Bytes → Prop
  | .dos3, img => DosDisk img
  | .nakedos, img => NakedOS img
  | .prodos, img => Prodos.ReadableVolume img

/-- The image file's bytes, taken to be in order `p.1`, are a disk of system `p.2`. -/
def Carries (raw : Bytes) (p : DiskOrder × System) : Prop := ∃ v, View p.1 p.2.order raw v ∧ p.2.IsDisk v

/-- Taken to be in order `o`, the image makes nobody run in circles. -/
def Ending (raw : Bytes) (o : DiskOrder) : Prop :=
  (∀ v, View o (str "do") raw v → ¬ EndlessCatalog v) ∧ ∀ v, View o (str "po") raw v → ¬ EndlessDirectories v

/-- What is tried for given file orders and a system flag: order by order DOS 3.3, NakedOS, ProDOS, if they are asked for. -/
def attempts (os : List DiskOrder) (system : Str) : List (DiskOrder × System) :=
  os.flatMap fun o => ([System.dos3, .nakedos, .prodos].filter fun k => system = str "auto" ∨ system = k.name).map fun k => (o, k)

/-- The opened disk is one of system `k`, with these bytes. -/
def Opened : System → Bytes → Cmd.AnyOp → Prop
  | .dos3, v, .dos3 o => o.data = v
  | .nakedos, v, .nakedos o => o.data = v
  | .prodos, v, .prodos o => o.data = v
  | _, _, _ => False

end Verif.Spec
