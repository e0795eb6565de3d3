import Verif.Go.Basic

/-!
# Specification vocabulary for disk images

Independent of the model: only list operations on the image bytes.
-/

set_option autoImplicit false

namespace Verif.Spec

/-- First byte of sector `s` of track `t` in a 16-sector image. -/
def sectorStart (t s : Nat) : Nat := 4096 * t + 256 * s

/-- The 256 bytes of sector `s` of track `t`. -/
def sectorAt (img : Bytes) (t s : Nat) : Bytes := (img.drop (4096 * t + 256 * s)).take 256

/-- The 512 bytes of block `b`. -/
def blockAt (img : Bytes) (b : Nat) : Bytes := (img.drop (512 * b)).take 512

/-- A sector order is a rearrangement of 0..15. -/
def IsSectorOrder (order : List Int) : Prop :=
  order.Perm [0, 1, 2, 3, 4, 5, 6, 7, 8, 9, 10, 11, 12, 13, 14, 15]

/-- Where the named orders put sector `s` of a track on the physical disk: DOS 3.3 goes down by two,
ProDOS goes up by two, wrapping at 15; sector 15 stays, and so does everything in raw order. -/
def interleave (order : Str) (s : Nat) : Nat :=
  if s = 15 then 15
  else if order = str "do" then (15 * s - 2 * s) % 15
  else if order = str "po" then 2 * s % 15
  else s

/-- `r` is obtained from `img` by moving, in every track, sector `s` to position `order[s]`. -/
def SectorsMoved (order : List Int) (img r : Bytes) : Prop :=
  ∀ t, t < 35 → ∀ s, s < 16 → ∀ o : Nat, order[s]? = some (o : Int) →
    sectorAt r t o = sectorAt img t s

end Verif.Spec
