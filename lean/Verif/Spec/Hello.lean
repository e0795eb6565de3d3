import Verif.Spec.Apple2
import Verif.Spec.Supermon

/-!
# What an Apple II running NakedOS does with FHELLO

`mkhello` writes machine code (cmd/nakedos.go:84-91): a call of NakedOS, the parameters of the call, and a jump.  To say that it loads and
starts a program we need a meaning for that code: the processor of `Spec/Apple2.lean`, and what the call does.  Nothing here is code of the
repository; what NakedOS does is taken from the comments there and from notes.org:58-86.
-/

set_option autoImplicit false

namespace Verif.Apple2
open Spec

/-- An Apple II running NakedOS: the disk in the drive (sectors in physical order), the pages of memory that NakedOS keeps for itself, and what
a call does (see `ReadsFiles`). -/
structure NakedMachine extends Machine where
  keeps : Nat → Prop
  call : State → State

/-- The entry of NakedOS. -/
def nakedEntry : Nat := 0x340

/-- One instruction, or one call of NakedOS.  CLD does nothing, as decimal mode is left out. -/
def NakedMachine.step (m : NakedMachine) (s : State) : Option State :=
  if s.pc = nakedEntry then some (m.call s)
  else if s.pc < 0xBFFE then
    if s.mem s.pc = 0xD8 then some { s with pc := s.pc + 1 }
    else (decode (s.mem s.pc) (s.mem (s.pc + 1)) (s.mem (s.pc + 2))).bind fun i => exec m.toMachine i s
  else none

/-- The machine gets from `s` to `t`, and `P` holds in all states before `t`. -/
inductive NakedMachine.Runs (m : NakedMachine) (P : State → Prop) : State → State → Prop
  | done {s : State} : NakedMachine.Runs m P s s
  | more {s s' t : State} : P s → m.step s = some s' → NakedMachine.Runs m P s' t → NakedMachine.Runs m P s t

/-- The pages that `data` takes from page `page` on. -/
def Covers (page : Nat) (data : Bytes) (p : Nat) : Prop := page ≤ p ∧ 256 * (p - page) < data.length

/-- NakedOS and the processor's stack leave this page of memory to programs. -/
def NakedMachine.Free (m : NakedMachine) (p : Nat) : Prop := p ≠ 1 ∧ p < 0xC0 ∧ ¬ m.keeps p

/-- What NakedOS does when called with the parameters ADC NKRDFILE, BIT `$DF00 + f`, BIT `256 * page`, and CLD after them: it reads file `f` to memory
from that page on, changes no other page but its own and the stack, and returns to the CLD. -/
def ReadsFiles (m : NakedMachine) : Prop := ∀ (s : State) (ret : Nat) (f page : UInt8), s.pc = nakedEntry →
  ret = word (s.mem (stack (s.sp + 1))) (s.mem (stack (s.sp + 2))) + 1 → ret + 10 ≤ 65536 →
  Holds s.mem ret [0x6D, 0x01, 0xDC, 0x2C, f, 0xDF, 0x2C, 0x00, page, 0xD8] →
  IsFileNumber f → fileOnDisk m.disk f ≠ [] → (∀ p, Covers page.toNat (fileOnDisk m.disk f) p → m.Free p) →
  (m.call s).pc = ret + 9 ∧ (m.call s).sp = s.sp + 2 ∧ Holds (m.call s).mem (256 * page.toNat) (fileOnDisk m.disk f) ∧
  ∀ addr, m.Free (addr / 256) → ¬ Covers page.toNat (fileOnDisk m.disk f) (addr / 256) → (m.call s).mem addr = s.mem addr

/-- An Apple II running NakedOS with the disk `img` in the drive.  NakedOS keeps page 3, where its entry is. -/
def NakedSound (m : NakedMachine) (img : Bytes) : Prop := m.disk = img ∧ m.keeps (nakedEntry / 256) ∧ ReadsFiles m

/-- NakedOS has read file 1, FHELLO, to memory at `base` and starts it there. -/
def Started (m : NakedMachine) (base : Nat) (s : State) : Prop := s.pc = base ∧ Holds s.mem base (fileOnDisk m.disk 1)

end Verif.Apple2
