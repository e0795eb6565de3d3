import Verif.Spec.Steps
import Verif.Spec.Ends

/-!
# Specification vocabulary for how long a command takes
-/

set_option autoImplicit false

namespace Verif.Spec
open Disk Cmd

/-- Whichever sector order that comes into question the image file has, no ProDOS directory in it is listed twice. -/
def TreesOnly (name : Str) (order : DiskOrder) (raw : Bytes) : Prop :=
  (raw.length = 143360 → ∀ os, CandidateOrders order (toLower (pathExt name)) os → ∀ o ∈ os, ∀ v, View o (str "po") raw v → Prodos.ListedOnce v) ∧
  (raw.length ≠ 143360 → Prodos.ListedOnce raw)

/-- The files, standard input for `-`, the command opens as a disk image or lists as a program are shorter than `n` bytes. -/
def Shorter (c : Command) (w : World) (n : Nat) : Prop :=
  (∀ path order raw, imageOf c = some (path, order) → contentOf w path = some raw → raw.length < n) ∧
  ∀ path loc raw, programOf c = some (path, loc) → contentOf w path = some raw → raw.length < n

/-- No directory of the image the command opens is listed twice. -/
def OpensTrees (c : Command) (w : World) : Prop :=
  ∀ path order raw, imageOf c = some (path, order) → contentOf w path = some raw → TreesOnly (judgedBy path) order raw

/-- The system the disk of a command is said to have. -/
def saidToBe : Command → Str
  | .ls _ system _ _ _ => system
  | .put _ system _ _ _ _ _ _ => system
  | .rm _ system _ _ _ => system
  | .dump _ system _ _ => system
  | _ => str "auto"

/-- In the sector order tried first, the image is a DOS 3.3 disk, or a NakedOS disk that does not look like a DOS 3.3 disk, and nothing else was asked for. -/
def PlainFloppy (name : Str) (order : DiskOrder) (system : Str) (raw : Bytes) : Prop :=
  raw.length = 143360 ∧ ∃ o os, CandidateOrders order (toLower (pathExt name)) (o :: os) ∧
    ((system = str "auto" ∨ system = str "dos3") ∧ Carries raw (o, .dos3) ∨
      system = str "auto" ∧ Carries raw (o, .nakedos) ∧ ∀ d, View o (str "do") raw d → ¬ DosDisk d ∧ ¬ EndlessCatalog d)

end Verif.Spec
