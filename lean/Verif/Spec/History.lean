import Verif.Spec.Cmd
import Verif.Spec.Open
import Verif.Spec.Supermon

/-!
# Specification vocabulary for histories of commands on one NakedOS image
-/

set_option autoImplicit false

namespace Verif.Spec
open Cmd Disk

/-- The files on an image, by number; a file that is not there has no bytes. -/
abbrev Files := UInt8 → Bytes

/-- What a command did to the files. -/
inductive Event where
  | nothing
  | put (f : UInt8) (data : Bytes)
  | rm (f : UInt8)

/-- The files after an event; contents are padded with zeros to whole sectors. -/
def Event.apply (m : Files) : Event → Files
  | .nothing => m
  | .put f data => fun g => if g = f then padded data else m g
  | .rm f => fun g => if g = f then [] else m g

/-- The numbers of files that do not hold the symbol table. -/
def Ordinary (f : UInt8) : Prop := IsFileNumber f ∧ f ≠ 3 ∧ f ≠ 4

/-- The image file `image`, its sectors in order `ord`, is a NakedOS disk with the files `m`. -/
def HasFiles (w : World) (image : Str) (ord : DiskOrder) (m : Files) : Prop :=
  ∃ raw img, w.files image = some raw ∧ View ord (str "raw") raw img ∧ NakedOS img ∧
    ∀ f, Ordinary f → fileOnDisk img f = m f

/-- One run of the program after the other.  Between two runs anything may change except the image file. -/
inductive Session (env : Env) (image : Str) : World → List (World × Command) → World → Prop
  | done {w w' : World} : w'.files image = w.files image → Session env image w [] w'
  | step {w w1 w' : World} {c : Command} {l : List (World × Command)} : w1.files image = w.files image →
      Session env image (run env c w1).2 l w' → Session env image w ((w1, c) :: l) w'

/-- Commands that take the image's sectors to be in order `ord`, because they are told so or because the name of the
file says so; or that are not told to write to the image at all. -/
def Agrees (image : Str) (ord : DiskOrder) : Command → Prop
  | .put order _ _ _ _ i _ _ => i = image → CandidateOrders order (toLower (pathExt image)) [ord]
  | .rm order _ _ i _ => i = image → CandidateOrders order (toLower (pathExt image)) [ord]
  | .mkhello order i _ _ _ => i = image → CandidateOrders order (toLower (pathExt image)) [ord]
  | c => target c ≠ some image

end Verif.Spec
