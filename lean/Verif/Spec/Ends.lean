import Verif.Spec.Recognise
import Verif.Spec.Basic

/-!
# Specification vocabulary for commands that end
-/

set_option autoImplicit false

namespace Verif.Spec
open Disk Cmd Basic

/-- Nothing in the image file makes reading go round in a circle: no catalog and no directory, in
none of the sector orders that come into question for this file name and `--order` flag. -/
def NoCircles (name : Str) (order : DiskOrder) (raw : Bytes) : Prop :=
  (raw.length = 143360 → ∀ os, CandidateOrders order (toLower (pathExt name)) os → ∀ o ∈ os, Ending raw o) ∧
  (raw.length ≠ 143360 → ¬ EndlessDirectories raw)

/-- Following the line addresses of the Applesoft program, loaded at `loc`, never leads to its end nor out of the program. -/
def EndlessProgram (raw : Bytes) (loc : Nat) : Prop :=
  ∃ d, Body raw d ∧ ∀ k, lineAddr d loc k ≠ 0 ∧ InData d loc (lineAddr d loc k)

/-- The disk image a command opens, and the sector order it is said to have. -/
def imageOf : Command → Option (Str × DiskOrder)
  | .ls order _ _ image _ => some (image, order)
  | .put order _ _ _ _ image _ _ => some (image, order)
  | .rm order _ _ image _ => some (image, order)
  | .dump order _ image _ => some (image, order)
  | .mkhello order image _ _ _ => some (image, order)
  | _ => none

/-- The Applesoft program a command lists, and the address it is said to be loaded at. -/
def programOf : Command → Option (Str × UInt16)
  | .decode file loc _ => some (file, loc)
  | _ => none

/-- The content of a file, standard input for `-`. -/
def contentOf (w : World) (path : Str) : Option Bytes := if path = str "-" then some w.stdin else w.files path

/-- The name an image is judged by. -/
def judgedBy (path : Str) : Str := if path = str "-" then str "/dev/stdin" else path

/-- Nothing the command reads goes round in a circle. -/
def Straight (c : Command) (w : World) : Prop :=
  (∀ path order raw, imageOf c = some (path, order) → contentOf w path = some raw → NoCircles (judgedBy path) order raw) ∧
  ∀ path loc raw, programOf c = some (path, loc) → contentOf w path = some raw → ¬ EndlessProgram raw loc.toNat

end Verif.Spec
