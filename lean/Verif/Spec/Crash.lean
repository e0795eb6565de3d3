import Verif.Spec.Cmd

/-!
# Specification vocabulary for crashes
-/

set_option autoImplicit false

namespace Verif.Spec
open Cmd

/-- The commands that neither take a file out of a disk, nor put one in, nor list a program. -/
def Sturdy : Command → Prop
  | .put .. => False
  | .dump .. => False
  | .decode .. => False
  | _ => True

/-- The commands that do not look at what is on a disk. -/
def Blind : Command → Prop
  | .reorder .. => True
  | .filetypes .. => True
  | .mksd .. => True
  | _ => False

/-- A word of a file's contents, low byte first. -/
def word (d : Bytes) (k : Nat) : Nat := (d.getD k 0).toNat + 256 * (d.getD (k + 1) 0).toNat

/-- DOS 3.3 files that cannot be read without a crash: `t` is the type byte without the lock bit, `d` the
contents of the file's sectors, `room` the space reserved for them (122 sectors for each list of sectors).
They are the text files without any byte but zero, and the programs and binaries whose stored length goes
beyond the reserved space. -/
def Deadly (t : UInt8) (d : Bytes) (room : Nat) : Prop :=
  (t = 0 ∧ ∀ b ∈ d, b = 0) ∨
  ((t = 1 ∨ t = 2) ∧ room < 2 + word d 0) ∨
  (t = 4 ∧ room < 4 + word d 2)

end Verif.Spec
