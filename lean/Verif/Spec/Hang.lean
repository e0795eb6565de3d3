import Verif.Spec.Endless
import Verif.Spec.Ends
import Verif.Spec.Lines

/-!
# Specification vocabulary: exactly which commands may run for ever
-/

set_option autoImplicit false

namespace Verif.Spec
open Disk Cmd Basic

/-- A ProDOS volume that may never be read to its end: its directories never end, or all of them are read and the parents of one of them
go round in a circle. -/
def Prodos.EndlessVolume (img : Bytes) : Prop :=
  EndlessReading img ∨ BitmapOnDevice img ∧ AllRead img ∧ ∃ k, Subdir img k ∧ EndlessUp img k

/-- Reading the bytes as a disk of the system may never end. -/
def System.MayHang : System → Bytes → Prop
  | .dos3, v => EndlessCatalog v
  | .nakedos, _ => False
  | .prodos, v => Prodos.EndlessVolume v

/-- Taking the image file's bytes, in order `p.1`, for a disk of system `p.2` may never end. -/
def MayHang (raw : Bytes) (p : DiskOrder × System) : Prop := ∃ v, View p.1 p.2.order raw v ∧ p.2.MayHang v

/-- The attempt `p`, one of those in `l`, is the first that means something: none before it finds a disk or may go on for ever. -/
def ComesFirst (raw : Bytes) (l : List (DiskOrder × System)) (p : DiskOrder × System) : Prop :=
  ∃ pre post, l = pre ++ p :: post ∧ ∀ q ∈ pre, ¬ Carries raw q ∧ ¬ MayHang raw q

/-- The orders `os` and the systems asked for are all tried, rather than a given one believed. -/
def Tries (name : Str) (order : DiskOrder) (system : Str) (raw : Bytes) (os : List DiskOrder) : Prop :=
  raw.length = 143360 ∧ CandidateOrders order (toLower (pathExt name)) os ∧ (system = str "auto" ∨ os.length ≠ 1)

/-- Finding out what the image is may never end. -/
def OpeningMayHang (name : Str) (order : DiskOrder) (system : Str) (raw : Bytes) : Prop :=
  ∃ os p, Tries name order system raw os ∧ ComesFirst raw (attempts os system) p ∧ MayHang raw p

/-- The image is believed to be a disk of system `k` with the bytes `v`, because the flags and the name of the file say so. -/
inductive Believed (name : Str) (order : DiskOrder) (system : Str) (raw : Bytes) : System → Bytes → Prop
  | named {o : DiskOrder} {k : System} {v : Bytes} : raw.length = 143360 → CandidateOrders order (toLower (pathExt name)) [o] →
      system = k.name → View o k.order raw v → Believed name order system raw k v
  | hdv : raw.length ≠ 143360 → raw.length ≠ 116480 → toLower (pathExt name) = str ".hdv" → raw.length % 512 = 0 → raw.length ≤ 33554432 →
      (order = str "auto" ∨ order = str "po") → (system = str "auto" ∨ system = str "prodos") → Believed name order system raw .prodos raw

/-- Exactly the commands that may run for ever: finding out what the image is may never end, or the image is believed to be something of which
the command reads a catalog or directory without end, or the command lists a program without end. -/
def MayRunForEver : Command → World → Prop
  | .ls order system _ image dir, w => ∃ raw, contentOf w image = some raw ∧
      (OpeningMayHang (judgedBy image) order system raw ∨
        ∃ k v, Believed (judgedBy image) order system raw k v ∧ k.MayHang v ∧ (dir = [] ∨ k = .prodos))
  | .dump order system image _, w => ∃ raw, contentOf w image = some raw ∧
      (OpeningMayHang (judgedBy image) order system raw ∨
        ∃ v, Believed (judgedBy image) order system raw .dos3 v ∧ EndlessCatalog v)
  | .rm order system _ image _, w => ∃ raw, contentOf w image = some raw ∧ OpeningMayHang (judgedBy image) order system raw
  | .put order system _ _ _ image _ source, w => ∃ raw, contentOf w image = some raw ∧ OpeningMayHang (judgedBy image) order system raw ∧
      ¬ (image = str "-" ∧ source = str "-")
  | .mkhello order image _ address start, w => ∃ raw, contentOf w image = some raw ∧
      OpeningMayHang (judgedBy image) order (str "auto") raw ∧ address.toNat % 256 = 0 ∧ address ≤ start
  | .decode file loc _, w => ∃ raw d, contentOf w file = some raw ∧ Body raw d ∧ ∀ k, LineAt d loc.toNat (lineAddr d loc.toNat k)
  | .reorder .., _ => False
  | .filetypes .., _ => False
  | .mksd .., _ => False

end Verif.Spec
