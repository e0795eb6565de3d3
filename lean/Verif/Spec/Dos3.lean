import Verif.Spec.Disk

/-!
# Specification vocabulary for DOS 3.3 disks

Facts about the disk format (Beneath Apple DOS, chapter 4), independent of the model.
A sector is named by the pair (track, sector).
-/

set_option autoImplicit false

namespace Verif.Spec

/-- Byte `i` of sector `p`. -/
def sbyte (img : Bytes) (p : Nat × Nat) (i : Nat) : UInt8 := (sectorAt img p.1 p.2).getD i 0

/-- Sector `p` lies within the image. -/
def OnImage (img : Bytes) (p : Nat × Nat) : Prop := 4096 * p.1 + 256 * p.2 + 256 ≤ img.length

/-- The sector that a VTOC, catalog or track/sector list sector links to: its bytes 1 and 2. -/
def linkOf (img : Bytes) (p : Nat × Nat) : Nat × Nat := ((sbyte img p 1).toNat, (sbyte img p 2).toNat)

/-- The chain of sectors that starts at a given sector, follows the links and ends at the link 0/0.
Every sector on it satisfies `good`. -/
inductive Chain (img : Bytes) (good : Nat × Nat → Prop) : Nat × Nat → List (Nat × Nat) → Prop
  | done : Chain img good (0, 0) []
  | step {p : Nat × Nat} {rest : List (Nat × Nat)} :
      p ≠ (0, 0) → good p → Chain img good (linkOf img p) rest → Chain img good p (p :: rest)

/-- The `n`-th sector reached by following links. -/
def walk (img : Bytes) (start : Nat × Nat) : Nat → Nat × Nat
  | 0 => start
  | n + 1 => linkOf img (walk img start n)

/-- Where the VTOC is. -/
def vtocAt : Nat × Nat := (17, 0)

/-- A normal VTOC sector. -/
def NormalVTOC (img : Bytes) : Prop :=
  OnImage img vtocAt ∧ sbyte img vtocAt 0x06 ≠ 255 ∧ sbyte img vtocAt 0x03 = 3 ∧
  (sbyte img vtocAt 0x31 = 1 ∨ sbyte img vtocAt 0x31 = 255) ∧ sbyte img vtocAt 0x34 = 35 ∧
  (sbyte img vtocAt 0x35 = 13 ∨ sbyte img vtocAt 0x35 = 16) ∧
  sbyte img vtocAt 0x36 = 0 ∧ sbyte img vtocAt 0x37 = 1 ∧ sbyte img vtocAt 0x27 = 122 ∧
  ∀ k, k < 50 → sbyte img vtocAt (0x38 + 4 * k + 2) = 0 ∧ sbyte img vtocAt (0x38 + 4 * k + 3) = 0

/-- Where catalog sectors may be: tracks 0-34, sectors below the VTOC's sector count. -/
def CatalogPlace (img : Bytes) (p : Nat × Nat) : Prop :=
  p.1 < 35 ∧ p.2 < (sbyte img vtocAt 0x35).toNat ∧ OnImage img p

/-- The 35 bytes of file entry `k` (0-6) of catalog sector `p`. -/
def entryBytes (img : Bytes) (p : Nat × Nat) (k : Nat) : Bytes :=
  ((sectorAt img p.1 p.2).drop (0x0b + 35 * k)).take 35

/-- All file entries of a chain of catalog sectors, in order. -/
def entries (img : Bytes) (chain : List (Nat × Nat)) : List Bytes :=
  chain.flatMap fun p => (List.range 7).map fun k => entryBytes img p k

/-- An entry in use. -/
def LiveEntry (e : Bytes) : Prop := e.getD 0 0 ≠ 0 ∧ e.getD 0 0 ≠ 0xff
instance (e : Bytes) : Decidable (LiveEntry e) := inferInstanceAs (Decidable (_ ∧ _))

/-- An entry of a deleted file. -/
def DeletedEntry (e : Bytes) : Prop := e.getD 0 0 = 0xff
instance (e : Bytes) : Decidable (DeletedEntry e) := inferInstanceAs (Decidable (_ = _))

/-- `s` without trailing copies of `c`. -/
def withoutTrailing {α : Type} [DecidableEq α] (c : α) (s : List α) : List α :=
  (s.reverse.dropWhile fun x => x = c).reverse

/-- The name in a live entry: bytes 3-32 less 0x80 each, without trailing spaces. -/
def entryName (e : Bytes) : Str :=
  withoutTrailing 0x20 (((e.drop 3).take 30).map fun b => b - 0x80)

/-- A name as DOS stores it: high bits set, padded to 30 with spaces. -/
def storedName (name : Str) : Bytes :=
  name.map (fun b => b + 0x80) ++ List.replicate (30 - name.length) 0xA0

/-- The 122 sector pairs of track/sector list `p`. -/
def pairs (img : Bytes) (p : Nat × Nat) : List (Nat × Nat) :=
  (List.range 122).map fun k => ((sbyte img p (12 + 2 * k)).toNat, (sbyte img p (13 + 2 * k)).toNat)

/-- The pairs that make up a file: all pairs of every list but the last, and those of the last
without the trailing holes. -/
def filePairs (img : Bytes) : List (Nat × Nat) → List (Nat × Nat)
  | [] => []
  | [p] => withoutTrailing (0, 0) (pairs img p)
  | p :: q :: rest => pairs img p ++ filePairs img (q :: rest)

/-- The bytes that pairs stand for: 256 zeros for the hole 0/0, the sector otherwise. -/
def pairsData (img : Bytes) (ps : List (Nat × Nat)) : Bytes :=
  ps.flatMap fun p => if p = (0, 0) then List.replicate 256 0 else sectorAt img p.1 p.2

/-- The last list of a chain names at least one sector. -/
def LastListUsed (img : Bytes) (chain : List (Nat × Nat)) : Prop :=
  ∀ p, chain.getLast? = some p → ∃ q ∈ pairs img p, q ≠ (0, 0)

end Verif.Spec
