import Verif.Spec.Disk

/-!
# What an Apple II does with a boot sector

`mksd` writes machine code (cmd/sd.go:71-78).  To say that its disks boot we need a meaning for that code:
the instructions of the 6502 that it uses, the stepper motor of the disk drive, and what the two ROM
routines it relies on do.  Nothing here is code of the repository.

Simplifications: there are no timings; the flags N and V, decimal mode and interrupts are left out, since
no instruction below depends on them; instructions not listed, and input/output other than the
stepper motor, are undefined (`none`).
-/

set_option autoImplicit false

namespace Verif.Apple2

/-- A disk drive: the position of the head in half tracks, and the magnets (0-3) that are on. -/
structure Drive where
  head : Nat
  on : List Nat

/-- The head goes where a single magnet pulls it; if there are two, or one opposite to the head, the result is
undefined. -/
def Drive.settle (d : Drive) : Option Drive :=
  match d.on with
  | [] => some d
  | [p] =>
    if p = d.head % 4 then some d
    else if p = (d.head + 1) % 4 then some { d with head := d.head + 1 }
    else if p = (d.head + 3) % 4 then some { d with head := d.head - 1 }
    else none
  | _ => none

/-- Accessing soft switch `k` (0-7) turns magnet `k / 2` off or on. -/
def Drive.switch (d : Drive) (k : Nat) : Option Drive :=
  if k % 2 = 0 then Drive.settle { d with on := d.on.filter (· ≠ k / 2) }
  else Drive.settle { d with on := (k / 2) :: d.on.filter (· ≠ k / 2) }

/-- Registers, carry and zero flag, memory, and the drive. -/
structure State where
  a : UInt8
  x : UInt8
  y : UInt8
  sp : UInt8
  pc : Nat
  c : Bool
  z : Bool
  mem : Nat → UInt8
  drive : Drive

/-- An Apple II: the slot of its disk controller, the disk in the drive (in physical order), what is read
from the soft switches, and what two ROM routines do (see `Sound`). -/
structure Machine where
  slot : Nat
  disk : Bytes
  bus : Nat → UInt8
  wait : State → State
  read : State → State

inductive Instr where
  | tay | txa | iny | clc | pha | rts | lsr | rol
  | ldaImm (b : UInt8) | ldyImm (b : UInt8) | oraImm (b : UInt8) | andImm (b : UInt8) | cmpImm (b : UInt8) | cpyImm (b : UInt8)
  | beq (b : UInt8) | bcc (b : UInt8)
  | ldaZp (n : Nat) | oraZp (n : Nat) | staZp (n : Nat) | styZp (n : Nat) | incZp (n : Nat) | aslZp (n : Nat)
  | ldaAbs (w : Nat) | ldaAbsY (w : Nat) | bitAbs (w : Nat) | incAbs (w : Nat) | jsr (w : Nat) | jmp (w : Nat)

/-- A 16-bit address, low byte first. -/
def word (lo hi : UInt8) : Nat := lo.toNat + 256 * hi.toNat

/-- Opcodes (MOS 6502). -/
def decode (op b1 b2 : UInt8) : Option Instr :=
  match op.toNat with
  | 0xA8 => some .tay
  | 0x8A => some .txa
  | 0xC8 => some .iny
  | 0x18 => some .clc
  | 0x48 => some .pha
  | 0x60 => some .rts
  | 0x4A => some .lsr
  | 0x2A => some .rol
  | 0xA9 => some (.ldaImm b1)
  | 0xA0 => some (.ldyImm b1)
  | 0x09 => some (.oraImm b1)
  | 0x29 => some (.andImm b1)
  | 0xC9 => some (.cmpImm b1)
  | 0xC0 => some (.cpyImm b1)
  | 0xF0 => some (.beq b1)
  | 0x90 => some (.bcc b1)
  | 0xA5 => some (.ldaZp b1.toNat)
  | 0x05 => some (.oraZp b1.toNat)
  | 0x85 => some (.staZp b1.toNat)
  | 0x84 => some (.styZp b1.toNat)
  | 0xE6 => some (.incZp b1.toNat)
  | 0x06 => some (.aslZp b1.toNat)
  | 0xAD => some (.ldaAbs (word b1 b2))
  | 0xB9 => some (.ldaAbsY (word b1 b2))
  | 0x2C => some (.bitAbs (word b1 b2))
  | 0xEE => some (.incAbs (word b1 b2))
  | 0x20 => some (.jsr (word b1 b2))
  | 0x4C => some (.jmp (word b1 b2))
  | _ => none

/-- Memory with one byte changed. -/
def upd (mem : Nat → UInt8) (addr : Nat) (v : UInt8) : Nat → UInt8 := fun b => if b = addr then v else mem b

/-- Reading a byte; this can move the head. -/
def load (m : Machine) (s : State) (addr : Nat) : Option (UInt8 × Drive) :=
  if addr < 0xC000 then some (s.mem addr, s.drive)
  else if 0xC080 + 16 * m.slot ≤ addr ∧ addr < 0xC088 + 16 * m.slot then
    (s.drive.switch (addr - (0xC080 + 16 * m.slot))).map fun d => (m.bus addr, d)
  else none

/-- Target of a branch at `pc`. -/
def branch (pc : Nat) (b : UInt8) : Nat := (pc + 2 + b.toNat + if b.toNat < 128 then 0 else 65280) % 65536

/-- The address of the stack entry at `sp`. -/
def stack (sp : UInt8) : Nat := 0x100 + sp.toNat

def exec (m : Machine) (i : Instr) (s : State) : Option State :=
  match i with
  | .tay => some { s with y := s.a, z := s.a == 0, pc := s.pc + 1 }
  | .txa => some { s with a := s.x, z := s.x == 0, pc := s.pc + 1 }
  | .iny => some { s with y := s.y + 1, z := (s.y + 1) == 0, pc := s.pc + 1 }
  | .clc => some { s with c := false, pc := s.pc + 1 }
  | .pha => some { s with mem := upd s.mem (stack s.sp) s.a, sp := s.sp - 1, pc := s.pc + 1 }
  | .rts => some { s with
      sp := s.sp + 2, pc := (word (s.mem (stack (s.sp + 1))) (s.mem (stack (s.sp + 2))) + 1) % 65536 }
  | .lsr => some { s with a := s.a >>> 1, z := (s.a >>> 1) == 0, c := decide (s.a.toNat % 2 = 1), pc := s.pc + 1 }
  | .rol => some { s with
      a := (s.a <<< 1) ||| (if s.c = true then 1 else 0)
      z := ((s.a <<< 1) ||| (if s.c = true then 1 else 0)) == 0
      c := decide (128 ≤ s.a.toNat), pc := s.pc + 1 }
  | .ldaImm b => some { s with a := b, z := b == 0, pc := s.pc + 2 }
  | .ldyImm b => some { s with y := b, z := b == 0, pc := s.pc + 2 }
  | .oraImm b => some { s with a := s.a ||| b, z := (s.a ||| b) == 0, pc := s.pc + 2 }
  | .andImm b => some { s with a := s.a &&& b, z := (s.a &&& b) == 0, pc := s.pc + 2 }
  | .cmpImm b => some { s with z := s.a == b, c := decide (b ≤ s.a), pc := s.pc + 2 }
  | .cpyImm b => some { s with z := s.y == b, c := decide (b ≤ s.y), pc := s.pc + 2 }
  | .beq b => some { s with pc := if s.z = true then branch s.pc b else s.pc + 2 }
  | .bcc b => some { s with pc := if s.c = false then branch s.pc b else s.pc + 2 }
  | .ldaZp n => some { s with a := s.mem n, z := (s.mem n) == 0, pc := s.pc + 2 }
  | .oraZp n => some { s with a := s.a ||| s.mem n, z := (s.a ||| s.mem n) == 0, pc := s.pc + 2 }
  | .staZp n => some { s with mem := upd s.mem n s.a, pc := s.pc + 2 }
  | .styZp n => some { s with mem := upd s.mem n s.y, pc := s.pc + 2 }
  | .incZp n => some { s with
      mem := upd s.mem n (s.mem n + 1), z := (s.mem n + 1) == 0, pc := s.pc + 2 }
  | .aslZp n => some { s with
      mem := upd s.mem n (s.mem n <<< 1), z := (s.mem n <<< 1) == 0
      c := decide (128 ≤ (s.mem n).toNat), pc := s.pc + 2 }
  | .ldaAbs w => (load m s w).map fun (r : UInt8 × Drive) =>
      { s with a := r.1, z := r.1 == 0, pc := s.pc + 3, drive := r.2 }
  | .ldaAbsY w => (load m s (w + s.y.toNat)).map fun (r : UInt8 × Drive) =>
      { s with a := r.1, z := r.1 == 0, pc := s.pc + 3, drive := r.2 }
  | .bitAbs w => (load m s w).map fun (r : UInt8 × Drive) =>
      { s with z := (s.a &&& r.1) == 0, pc := s.pc + 3, drive := r.2 }
  | .incAbs w =>
    if w < 0xC000 then some { s with mem := upd s.mem w (s.mem w + 1), z := (s.mem w + 1) == 0, pc := s.pc + 3 }
    else none
  | .jsr w => some { s with
      mem := upd (upd s.mem (stack s.sp) (UInt8.ofNat ((s.pc + 2) / 256))) (stack (s.sp - 1)) (UInt8.ofNat ((s.pc + 2) % 256))
      sp := s.sp - 2, pc := w }
  | .jmp w => some { s with pc := w }

/-- Entry of the routine of the controller's boot ROM that reads a sector. -/
def readEntry (m : Machine) : Nat := 0xC05C + 256 * m.slot

/-- Entry of the monitor's delay routine. -/
def waitEntry : Nat := 0xFCA8

/-- One instruction in RAM, or one call of a ROM routine. -/
def step (m : Machine) (s : State) : Option State :=
  if s.pc = waitEntry then some (m.wait s)
  else if s.pc = readEntry m then some (m.read s)
  else if s.pc < 0xBFFE then
    (decode (s.mem s.pc) (s.mem (s.pc + 1)) (s.mem (s.pc + 2))).bind fun i => exec m i s
  else none

/-- The machine gets from `s` to `t`, and `P` holds in all states before `t`. -/
inductive Runs (m : Machine) (P : State → Prop) : State → State → Prop
  | done {s : State} : Runs m P s s
  | more {s s' t : State} : P s → step m s = some s' → Runs m P s' t → Runs m P s t

/-- What the monitor's delay routine does: it returns with A = 0 and the carry set, having used one more
byte of stack. -/
def WaitSound (m : Machine) : Prop := ∀ s, s.pc = waitEntry →
  (m.wait s).a = 0 ∧ (m.wait s).x = s.x ∧ (m.wait s).y = s.y ∧ (m.wait s).c = true ∧ (m.wait s).sp = s.sp + 2 ∧
  (m.wait s).pc = (word (s.mem (stack (s.sp + 1))) (s.mem (stack (s.sp + 2))) + 1) % 65536 ∧
  (∀ addr, addr ≠ stack s.sp → (m.wait s).mem addr = s.mem addr) ∧ (m.wait s).drive = s.drive

/-- What the boot ROM's read routine does.  If the head is on track $41 it reads sector $3D to page $27
and goes on at $801, provided that the byte at $800 is then at most $3D + 1 (it is the number of sectors the ROM
is to read).  It uses pages 0, 1 and 3. -/
def ReadSound (m : Machine) : Prop := ∀ s, s.pc = readEntry m → s.x.toNat = 16 * m.slot →
  (s.mem 0x2B).toNat = 16 * m.slot → s.mem 0x26 = 0 →
  ∀ track sector page : Nat, (s.mem 0x41).toNat = track → (s.mem 0x3D).toNat = sector → (s.mem 0x27).toNat = page →
  s.drive.head = 2 * track → track < 35 → sector < 16 → page ∉ [0, 1, 3] → page < 0xC0 →
  (if page = 8 then (Spec.sectorAt m.disk track sector).getD 0 0 else s.mem 0x800).toNat ≤ sector + 1 →
  (m.read s).pc = 0x801 ∧ (m.read s).a.toNat = sector + 1 ∧ (m.read s).x = s.x ∧ (m.read s).sp = s.sp ∧
  (m.read s).drive = s.drive ∧
  (∀ i, i < 256 → (m.read s).mem (256 * page + i) = (Spec.sectorAt m.disk track sector).getD i 0) ∧
  (m.read s).mem 0x26 = 0 ∧ (m.read s).mem 0x2B = s.mem 0x2B ∧ (m.read s).mem 0x41 = s.mem 0x41 ∧
  ((m.read s).mem 0x40).toNat = track ∧
  (∀ addr, addr / 256 ∉ [0, 1, 3, page] → (m.read s).mem addr = s.mem addr)

/-- An Apple II with the disk `img` in a drive of slot 1-7. -/
def Sound (m : Machine) (img : Bytes) : Prop :=
  1 ≤ m.slot ∧ m.slot ≤ 7 ∧ m.disk = img ∧ WaitSound m ∧ ReadSound m

/-- The state in which the boot ROM starts the boot sector, having read it to page 8: the head is on track 0
and held there by magnet 0. -/
def Booted (m : Machine) (s : State) : Prop :=
  s.pc = 0x801 ∧ s.a = 1 ∧ s.x.toNat = 16 * m.slot ∧
  (∀ i, i < 256 → s.mem (0x800 + i) = (Spec.sectorAt m.disk 0 0).getD i 0) ∧
  s.mem 0x26 = 0 ∧ (s.mem 0x2B).toNat = 16 * m.slot ∧ s.mem 0x40 = 0 ∧ s.mem 0x41 = 0 ∧ s.drive = ⟨0, [0]⟩

/-- The loader or the ROM is running. -/
def Loading (m : Machine) (s : State) : Prop :=
  0x800 < s.pc ∧ s.pc < 0x900 ∨ s.pc = waitEntry ∨ s.pc = readEntry m

/-- The bytes `data` are in memory at `addr`. -/
def Holds (mem : Nat → UInt8) (addr : Nat) (data : Bytes) : Prop := ∀ i, i < data.length → mem (addr + i) = data.getD i 0

end Verif.Apple2
