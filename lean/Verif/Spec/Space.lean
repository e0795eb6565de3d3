import Verif.Spec.Names

/-!
# Specification vocabulary for the space on a NakedOS image
-/

set_option autoImplicit false

namespace Verif.Spec
open Cmd Disk

/-- The number of sectors that are not reserved for the system. -/
def capacity (img : Bytes) : Nat := ((List.range 560).filter fun n => owner img n ≠ 0xFE).length

/-- The number of sectors that hold `d`, if it is the contents of a file. -/
def sectors (d : Bytes) : Nat := d.length / 256

instance (f : UInt8) : Decidable (Ordinary f) := by unfold Ordinary IsFileNumber; infer_instance

/-- The number of sectors of all the files except `f` and the files of the symbol table. -/
def usedByOthers (m : Files) (f : UInt8) : Nat :=
  ((((List.range 256).map UInt8.ofNat).filter fun g => Ordinary g ∧ g ≠ f).map fun g => sectors (m g)).sum

/-- The image file `image`, its sectors in order `ord`, is a NakedOS disk with `n` sectors for files, of which the files of the symbol
table, 3 and 4, have `k`. -/
def HasSpace (w : World) (image : Str) (ord : DiskOrder) (n k : Nat) : Prop :=
  ∃ raw img, w.files image = some raw ∧ View ord (str "raw") raw img ∧ NakedOS img ∧ capacity img = n ∧
    sectors (fileOnDisk img 3) + sectors (fileOnDisk img 4) = k

/-- Commands that, if they are on the image, name files by their number, and not those of the symbol table. -/
def ByNumber (image : Str) : Command → Prop
  | .put _ _ _ _ _ i name _ => i = image → ∃ f, NumericName name f ∧ f ≠ 3 ∧ f ≠ 4
  | .rm _ _ _ i name => i = image → ∃ f, NumericName name f ∧ f ≠ 3 ∧ f ≠ 4
  | _ => True

end Verif.Spec
