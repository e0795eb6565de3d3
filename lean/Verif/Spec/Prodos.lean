import Verif.Spec.Disk
import Verif.Model.Types
import Mathlib.Logic.Relation

/-!
# Specification vocabulary for ProDOS volumes

Facts about the disk format (Beneath Apple ProDOS, chapter 4), independent of the model; only the
result type `Descriptor` is the model's.  Blocks are named by their number.
-/

set_option autoImplicit false

namespace Verif.Spec.Prodos

/-- Block `b` lies within the device. -/
def OnDevice (img : Bytes) (b : Nat) : Prop := 512 * b + 512 ≤ img.length

/-- Byte `i` of block `b`. -/
def bbyte (img : Bytes) (b i : Nat) : UInt8 := (blockAt img b).getD i 0

/-- The 16-bit number at offset `i` of block `b`. -/
def word (img : Bytes) (b i : Nat) : Nat := (bbyte img b i).toNat + 256 * (bbyte img b (i + 1)).toNat

/-- The block that directory block `b` links to: its bytes 2 and 3. -/
def nextOf (img : Bytes) (b : Nat) : Nat := word img b 2

/-- The chain of blocks that starts at a given block, follows the links, stays on the device and
ends at link 0. -/
inductive BlockChain (img : Bytes) : Nat → List Nat → Prop
  | done : BlockChain img 0 []
  | step {b : Nat} {rest : List Nat} :
      b ≠ 0 → OnDevice img b → BlockChain img (nextOf img b) rest → BlockChain img b (b :: rest)

/-- The `n`-th block reached by following links. -/
def blockWalk (img : Bytes) (start : Nat) : Nat → Nat
  | 0 => start
  | n + 1 => nextOf img (blockWalk img start n)

/-- Following links from `start` never reaches link 0 nor leaves the device. -/
def Endless (img : Bytes) (start : Nat) : Prop :=
  ∀ n, blockWalk img start n ≠ 0 ∧ OnDevice img (blockWalk img start n)

/-- The directory whose key block is `key` continues in blocks `l`. -/
def DirBlocks (img : Bytes) (key : Nat) (l : List Nat) : Prop :=
  OnDevice img key ∧ BlockChain img (nextOf img key) l

/-- The 39 bytes at offset `off` of block `b`. -/
def recordAt (img : Bytes) (b off : Nat) : Bytes := ((blockAt img b).drop off).take 39

/-- The 12 file entries of a key block (after the header). -/
def keyEntries (img : Bytes) (b : Nat) : List Bytes := (List.range 12).map fun k => recordAt img b (43 + 39 * k)

/-- The 13 file entries of another directory block. -/
def blockEntries (img : Bytes) (b : Nat) : List Bytes := (List.range 13).map fun k => recordAt img b (4 + 39 * k)

/-- All file entries of a directory, in order. -/
def dirEntries (img : Bytes) (key : Nat) (l : List Nat) : List Bytes :=
  keyEntries img key ++ l.flatMap (blockEntries img)

/-- Storage type of an entry or header: 0 for a deleted entry, 13 for a subdirectory. -/
def storageType (e : Bytes) : Nat := (e.getD 0 0).toNat / 16

/-- Name in an entry or header. -/
def nameOf (e : Bytes) : Str := (e.drop 1).take ((e.getD 0 0).toNat % 16)

/-- Key block of the file of an entry. -/
def keyPointerOf (e : Bytes) : Nat := (e.getD 17 0).toNat + 256 * (e.getD 18 0).toNat

/-- What a catalog shows for an entry: name, number of blocks, length in bytes and file type. -/
def shown (e : Bytes) : Descriptor :=
  { name := nameOf e
    blocks := (((e.getD 19 0).toNat + 256 * (e.getD 20 0).toNat : Nat) : Int)
    length := (((e.getD 21 0).toNat + 256 * (e.getD 22 0).toNat + 65536 * (e.getD 23 0).toNat : Nat) : Int)
    locked := false
    type := ((e.getD 16 0).toNat : Int) }

/-- Directory `k` has a subdirectory entry whose key block is `j`. -/
def Child (img : Bytes) (k j : Nat) : Prop :=
  ∃ l e, DirBlocks img k l ∧ e ∈ dirEntries img k l ∧ storageType e = 13 ∧ j = keyPointerOf e

/-- `j` is the key block of a subdirectory somewhere below the volume directory (key block 2). -/
def Subdir (img : Bytes) (j : Nat) : Prop := Relation.TransGen (Child img) 2 j

/-- The name in the header of the directory with key block `k`. -/
def headerName (img : Bytes) (k : Nat) : Str := nameOf (recordAt img k 4)

/-- The parent pointer in the header of subdirectory `k`. -/
def parentPointer (img : Bytes) (k : Nat) : Nat := word img k 39

/-- Block `b` belongs to the directory with key block `k`. -/
def InDir (img : Bytes) (k b : Nat) : Prop := ∃ l, DirBlocks img k l ∧ (b = k ∨ b ∈ l)

/-- The parent pointer of subdirectory `k` leads to subdirectory `j`. -/
def Parent (img : Bytes) (k j : Nat) : Prop := Subdir img j ∧ InDir img j (parentPointer img k)

/-- `p/n`, or just `n` if `p` is empty. -/
def joinPath (p n : Str) : Str := if p = [] then n else p ++ str "/" ++ n

/-- `p` is a full path of the subdirectory with key block `k`, found by following parent pointers
up to the volume directory. -/
inductive FullPath (img : Bytes) : Nat → Str → Prop
  | top {k : Nat} : InDir img 2 (parentPointer img k) → FullPath img k (headerName img k)
  | nested {k j : Nat} {p : Str} : Subdir img j → InDir img j (parentPointer img k) → FullPath img j p →
      FullPath img k (joinPath p (headerName img k))

/-- Every subdirectory's parent pointer leads into a directory of the volume. -/
def ParentsFound (img : Bytes) : Prop :=
  ∀ k, Subdir img k → InDir img 2 (parentPointer img k) ∨ ∃ j, Parent img k j

/-- The blocks of the bit map, so far as they are looked at when a volume is read, are on the
device: one for every 4096 times 4096 blocks (see C43), so none on a device below two megabytes.
The volume directory's header has the number of the first. -/
def BitmapOnDevice (img : Bytes) : Prop :=
  ∀ i, i < (img.length / 512 / 4096 + 4095) / 4096 → OnDevice img ((word img 2 39 + i) % 65536)

/-- A volume all of whose directories can be read: the bit map, the blocks of the volume directory
and of every subdirectory are on the device, and the parents of all subdirectories are known. -/
def ReadableVolume (img : Bytes) : Prop :=
  BitmapOnDevice img ∧ (∃ l, DirBlocks img 2 l) ∧ (∀ j, Subdir img j → ∃ l, DirBlocks img j l) ∧ ParentsFound img

end Verif.Spec.Prodos
