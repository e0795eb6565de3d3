import Verif.Spec.Recognise

/-!
# Specification vocabulary: what a Standard Delivery disk can be mistaken for
-/

set_option autoImplicit false

namespace Verif.Spec
open Disk Cmd

/-- The command puts files into the image or removes files from it. -/
def ChangesFilesOf (image : Str) : Command → Prop
  | .put _ _ _ _ _ i _ _ => i = image
  | .rm _ _ _ i _ => i = image
  | .mkhello _ i _ _ _ => i = image
  | _ => False

/-- The options of the command that say how to take the image: its order and the system on it. -/
def optionsOf : Command → DiskOrder × Str
  | .put o s _ _ _ _ _ _ => (o, s)
  | .rm o s _ _ _ => (o, s)
  | .mkhello o _ _ _ _ => (o, str "auto")
  | _ => ([], [])

/-- The pages of the binary (from 0) that lie in sectors 9, A and B of track 0, where NakedOS has its sector map, if the image file is made in
one order and taken to be in another. -/
def mapPages (made taken : DiskOrder) : Nat × Nat × Nat :=
  if made = taken then (11, 4, 12)
  else if made = str "raw" then (if taken = str "do" then (8, 4, 0) else (5, 9, 13))
  else (2, 9, 1)

/-- The last 48 bytes of page `p.1` of the binary and all of pages `p.2.1` and `p.2.2`, which lie where NakedOS has its sector map. -/
def mapBytes (contents : Bytes) (p : Nat × Nat × Nat) (n : Nat) : UInt8 :=
  if n < 48 then contents.getD (256 * p.1 + 208 + n) 0
  else if n < 304 then contents.getD (256 * p.2.1 + (n - 48)) 0
  else contents.getD (256 * p.2.2 + (n - 304)) 0

/-- These bytes read like a NakedOS sector map. -/
def SpellsMap (contents : Bytes) (p : Nat × Nat × Nat) : Prop := LegalMap (mapBytes contents p)

end Verif.Spec
