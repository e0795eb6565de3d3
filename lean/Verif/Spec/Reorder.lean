import Verif.Spec.Open
import Verif.Spec.Cmd

/-!
# Specification vocabulary for commands on reordered images
-/

set_option autoImplicit false

namespace Verif.Spec
open Cmd Disk

/-- The commands that look at what is on a disk. -/
def UsesDisk : Command → Prop
  | .ls .. => True
  | .dump .. => True
  | .put .. => True
  | .rm .. => True
  | .mkhello .. => True
  | _ => False

/-- The same command on another image, with another order flag. -/
def onImage (o : DiskOrder) (i : Str) : Command → Command
  | .ls _ s sh _ d => .ls o s sh i d
  | .dump _ s _ n => .dump o s i n
  | .put _ s t ow a _ x y => .put o s t ow a i x y
  | .rm _ s m _ n => .rm o s m i n
  | .mkhello _ _ n a s => .mkhello o i n a s
  | c => c

/-- The file a command copies onto the disk, if there is one. -/
def sourceOf : Command → Option Str
  | .put _ _ _ _ _ _ _ y => some y
  | _ => none

/-- `y` is the disk `x`, sector by sector, in order `b` instead of order `a`: the sectors that the two orders put at
the same place of a track of the physical disk are equal. -/
def SameDisk (a b : DiskOrder) (x y : Bytes) : Prop :=
  x.length = 143360 ∧ y.length = 143360 ∧
  ∀ t, t < 35 → ∀ s, s < 16 → ∀ s', s' < 16 → interleave a s = interleave b s' → sectorAt x t s = sectorAt y t s'

/-- Two runs, on image `i` in order `a` and on image `j` in order `b`, end the same way: same outcome, same text
printed, and images with the same disk. -/
structure Alike (a b : DiskOrder) (i j : Str) (w w' : World) (r r' : Out Unit × World) : Prop where
  out : r'.1 = r.1
  printed : ∃ t, r.2.stdout = w.stdout ++ t ∧ r'.2.stdout = w'.stdout ++ t
  images : ∃ x' y', r.2.files i = some x' ∧ r'.2.files j = some y' ∧ SameDisk a b x' y'

/-- The orders between which `reorder` is told to work: by its flags, or by the two names. -/
def ReorderOrders (i : Str) (o : DiskOrder) (j : Str) (n a b : DiskOrder) : Prop :=
  (o = a ∧ n = b ∧ a ≠ b ∧ a ∈ [str "do", str "po"] ∧ b ∈ [str "do", str "po"]) ∨
  (o = str "auto" ∧ n = str "auto" ∧
    ((NameSaysDO i ∧ NameSaysPO j ∧ a = str "do" ∧ b = str "po") ∨ (NameSaysPO i ∧ NameSaysDO j ∧ a = str "po" ∧ b = str "do")))

/-- Several commands one after the other: their outcomes and the world at the end. -/
def transcript (env : Env) : List Command → World → List (Out Unit) × World
  | [], w => ([], w)
  | c :: cs, w =>
    let r := run env c w
    let rest := transcript env cs r.2
    (r.1 :: rest.1, rest.2)

end Verif.Spec
