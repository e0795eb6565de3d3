import Verif.Spec.Disk

/-!
# Specification vocabulary for NakedOS disks

Sectors are numbered 0..559 in disk order: sector `n` is sector `n % 16` of track `n / 16`.
The disk records for every sector a one-byte owner in 560 consecutive bytes starting at byte
0xD0 of track 0 sector 9.  0xFF means free, 0xFE reserved, 0 is illegal, 1..0xFD are files.
-/

set_option autoImplicit false

namespace Verif.Spec

/-- The owner of sector `n` recorded on the image. -/
def owner (img : Bytes) (n : Nat) : UInt8 := img.getD (0x9D0 + n) 0

/-- The owner of sector `n` in a 560-entry map held in memory. -/
def own (sm : Vector UInt8 560) (n : Nat) : UInt8 := sm.toList.getD n 0

/-- The numbers of the sectors with owner `f`, in disk order. -/
def ownedBy (m : Nat → UInt8) (f : UInt8) : List Nat := (List.range 560).filter fun n => m n = f

/-- The 256 bytes of sector number `n`. -/
def sectorNo (img : Bytes) (n : Nat) : Bytes := sectorAt img (n / 16) (n % 16)

/-- The bytes of file `f`: its sectors' bytes in disk order. -/
def fileBytes (m : Nat → UInt8) (img : Bytes) (f : UInt8) : Bytes :=
  (ownedBy m f).flatMap fun n => sectorNo img n

/-- The bytes of file `f` on an image, by the owners recorded there. -/
def fileOnDisk (img : Bytes) (f : UInt8) : Bytes := fileBytes (owner img) img f

/-- A legal NakedOS map: track 0 sectors 0-B are reserved and no sector has the illegal owner. -/
def LegalMap (m : Nat → UInt8) : Prop :=
  (∀ n, n < 12 → m n = 0xFE) ∧ ∀ n, n < 560 → m n ≠ 0

/-- A NakedOS floppy image. -/
def NakedOS (img : Bytes) : Prop := img.length = 143360 ∧ LegalMap (owner img)

/-- Numbers that can name a file. -/
def IsFileNumber (f : UInt8) : Prop := f ≠ 0 ∧ f ≠ 0xFE ∧ f ≠ 0xFF

/-- Contents followed by the fewest zero bytes that reach a multiple of 256. -/
def padded (d : Bytes) : Bytes := d ++ List.replicate ((256 - d.length % 256) % 256) 0

/-- Number of 256-byte sectors that hold `len` bytes. -/
def sectorsNeeded (len : Nat) : Nat := len / 256 + if len % 256 = 0 then 0 else 1

end Verif.Spec

namespace Verif.Spec

/-- The sixteen hexadecimal digits. -/
def hexDigits : Str := str "0123456789ABCDEF"

/-- The printed name of a file number: `DFxx` with two upper-case hexadecimal digits. -/
def dfName (f : UInt8) : Str :=
  str "DF" ++ [hexDigits.getD (f.toNat / 16) 0, hexDigits.getD (f.toNat % 16) 0]

/-- Value of a hexadecimal digit of either case. -/
def digitValue (c : UInt8) : Option Nat :=
  hexDigits.findIdx? fun d => d = (if 0x61 ≤ c ∧ c ≤ 0x66 then c - 0x20 else c)

/-- `s` is a hexadecimal numeral with value `v`. -/
inductive HexNumeral : Str → Nat → Prop
  | one {c : UInt8} {d : Nat} : digitValue c = some d → HexNumeral [c] d
  | snoc {s : Str} {v : Nat} {c : UInt8} {d : Nat} :
      HexNumeral s v → digitValue c = some d → HexNumeral (s ++ [c]) (16 * v + d)

/-- `s` names file `f` by number: a hexadecimal numeral for `f` or for `0xDF00 + f`. -/
def NumericName (s : Str) (f : UInt8) : Prop :=
  IsFileNumber f ∧ (HexNumeral s f.toNat ∨ HexNumeral s (0xDF00 + f.toNat))

/-- Case-insensitive equality of ASCII strings. -/
def SameName (a b : Str) : Prop := toUpper a = toUpper b

instance (a b : Str) : Decidable (SameName a b) :=
  inferInstanceAs (Decidable (toUpper a = toUpper b))

end Verif.Spec
