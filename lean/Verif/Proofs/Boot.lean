import Verif.Spec.Apple2
import Verif.Proofs.Sd

/-!
# Running the Standard Delivery loader
-/

set_option autoImplicit false

namespace Verif.Apple2

open Verif.Cmd (sdLoader)

theorem Runs.trans {m : Machine} {P : State → Prop} {s t u : State} (h : Runs m P s t) (h' : Runs m P t u) : Runs m P s u := by
  induction h with
  | done => exact h'
  | more hp hs _ ih => exact .more hp hs (ih h')

theorem go {m : Machine} {s s' t : State} {i : Instr} (h8 : 0x800 < s.pc ∧ s.pc < 0x900)
    (hd : decode (s.mem s.pc) (s.mem (s.pc + 1)) (s.mem (s.pc + 2)) = some i) (he : exec m i s = some s')
    (k : Runs m (Loading m) s' t) : Runs m (Loading m) s t := by
  refine .more (Or.inl h8) ?_ k
  unfold step waitEntry readEntry
  rw [if_neg (by omega), if_neg (by omega), if_pos (by omega), hd]
  exact he

/-- The loader is at $800, except for the byte that it changes itself. -/
def Code (start : UInt16) (mem : Nat → UInt8) : Prop :=
  ∀ i, i < 79 → i ≠ 6 → mem (0x800 + i) = (sdLoader start).getD i 0

theorem Code.decode {start : UInt16} {mem : Nat → UInt8} (h : Code start mem) (i : Nat) (hi : i + 2 < 79)
    (h6 : i ≠ 6 ∧ i + 1 ≠ 6 ∧ i + 2 ≠ 6) :
    Apple2.decode (mem (0x800 + i)) (mem (0x800 + i + 1)) (mem (0x800 + i + 2)) =
      Apple2.decode ((sdLoader start).getD i 0) ((sdLoader start).getD (i + 1) 0) ((sdLoader start).getD (i + 2) 0) := by
  rw [h i (by omega) h6.1, Nat.add_assoc, Nat.add_assoc, h (i + 1) (by omega) h6.2.1, h (i + 2) hi h6.2.2]

theorem Code.upd {start : UInt16} {mem : Nat → UInt8} (h : Code start mem) {addr : Nat} (v : UInt8)
    (ha : addr / 256 ≠ 8 ∨ addr = 0x806) : Code start (upd mem addr v) := by
  intro i hi h6
  unfold Apple2.upd
  rw [if_neg (by omega)]
  exact h i hi h6

theorem upd_ne {mem : Nat → UInt8} {a b : Nat} {v : UInt8} (h : b ≠ a) : upd mem a v b = mem b := if_neg h
theorem upd_eq {mem : Nat → UInt8} {a : Nat} {v : UInt8} : upd mem a v a = v := if_pos rfl

theorem stack_page (sp : UInt8) : stack sp / 256 = 1 := by
  have := sp.toNat_lt
  unfold stack
  omega

theorem goc {m : Machine} {start : UInt16} {s s' t : State} {ins : Instr} (i : Nat) (hc : Code start s.mem) (hp : s.pc = 0x800 + i)
    (hi : 0 < i ∧ i + 2 < 79) (h6 : i ≠ 6 ∧ i + 1 ≠ 6 ∧ i + 2 ≠ 6)
    (hd : Apple2.decode ((sdLoader start).getD i 0) ((sdLoader start).getD (i + 1) 0) ((sdLoader start).getD (i + 2) 0) = some ins)
    (he : exec m ins s = some s') (k : Runs m (Loading m) s' t) : Runs m (Loading m) s t := by
  refine go (by omega) ?_ he k
  rw [hp, hc.decode i hi.2 h6, hd]

theorem exec_incAbs {m : Machine} {w : Nat} {s : State} (h : w < 0xC000) : exec m (.incAbs w) s =
    some { s with mem := upd s.mem w (s.mem w + 1), z := (s.mem w + 1) == 0, pc := s.pc + 3 } := if_pos h

theorem load_ram {m : Machine} {w : Nat} {s : State} (h : w < 0xC000) : load m s w = some (s.mem w, s.drive) := if_pos h

theorem exec_ldaAbs {m : Machine} {w : Nat} {s : State} (h : w < 0xC000) : exec m (.ldaAbs w) s =
    some { s with a := s.mem w, z := (s.mem w) == 0, pc := s.pc + 3 } := by
  show (load m s w).map _ = _
  rw [load_ram h]; rfl

theorem exec_bitAbs {m : Machine} {w : Nat} {s : State} (h : w < 0xC000) : exec m (.bitAbs w) s =
    some { s with z := (s.a &&& s.mem w) == 0, pc := s.pc + 3 } := by
  show (load m s w).map _ = _
  rw [load_ram h]; rfl

theorem slot_byte {x : UInt8} {n : Nat} (hx : x.toNat = 16 * n) (h7 : n ≤ 7) : x = UInt8.ofNat (16 * n) := by
  apply UInt8.toNat_inj.1
  rw [UInt8.toNat_ofNat']
  omega

theorem sp_facts : ∀ sp : UInt8, sp - 1 - 1 + 1 = sp - 1 ∧ sp - 1 - 1 + 2 = sp ∧ sp ≠ sp - 1 ∧ sp - 2 + 1 = sp - 1 ∧ sp - 2 + 2 = sp ∧
    sp ≠ sp - 2 ∧ sp - 1 ≠ sp - 2 ∧ sp + 1 ≠ sp ∧ sp + 2 ≠ sp ∧ sp + 1 ≠ sp - 1 ∧ sp + 2 ≠ sp - 1 ∧ sp + 1 ≠ sp - 2 ∧ sp + 2 ≠ sp - 2 := by
  decide +kernel

theorem stack_ne {p q : UInt8} (h : p ≠ q) : stack p ≠ stack q := by
  intro e
  unfold stack at e
  exact h (UInt8.toNat_inj.1 (by omega))

macro "insx" h:term:max i:num j:term:max e:term:max : tactic =>
  `(tactic| (refine goc (ins := $j) $i $h (by simp only [Nat.reduceAdd]) (by decide) (by decide) rfl $e ?_; dsimp only))

macro "ins" h:term:max i:num j:term:max : tactic => `(tactic| insx $h $i $j rfl)

theorem run_head {m : Machine} {start : UInt16} {a x y sp b v : UInt8} {c z : Bool} {mem : Nat → UInt8} {dr : Drive} {t : State}
    (hc : Code start mem) (hv : mem 0x806 + 1 = v) (h6 : 0x800 + v.toNat ≠ 0x806) (hb : mem (0x800 + v.toNat) = b)
    (hb2 : b ≠ 0xC0)
    (k : Runs m (Loading m) ⟨b, x, a + 1, sp, 0x811, decide (0x10 ≤ a + 1), (a + 1) == 0x10, upd (upd mem 0x806 v) 0x27 b, dr⟩ t) :
    Runs m (Loading m) ⟨a, x, y, sp, 0x801, c, z, mem, dr⟩ t := by
  ins hc 1 .tay
  insx hc 2 (.incAbs 0x806) (exec_incAbs (by decide))
  rw [hv]
  have hc1 := hc.upd v (Or.inr rfl : 0x806 / 256 ≠ 8 ∨ 0x806 = 0x806)
  refine go (i := .ldaAbs (0x800 + v.toNat)) (by dsimp only; omega) ?_ (exec_ldaAbs (by have := v.toNat_lt; omega)) ?_
  · dsimp only
    rw [show upd mem 0x806 v (2049 + 1 + 3) = 0xAD from hc1 5 (by decide) (by decide), show upd mem 0x806 v (2049 + 1 + 3 + 1) = v from upd_eq,
      show upd mem 0x806 v (2049 + 1 + 3 + 2) = 8 from hc1 7 (by decide) (by decide)]
    show some (Instr.ldaAbs (word v 8)) = _
    refine congrArg (fun w => some (Instr.ldaAbs w)) ?_
    unfold word
    have : (8 : UInt8).toNat = 8 := rfl
    omega
  dsimp only
  rw [upd_ne h6, hb]
  ins hc1 8 (.cmpImm 0xC0)
  ins hc1 10 (.beq 0x40)
  rw [if_neg (by simpa using hb2)]
  ins hc1 12 (.staZp 0x27)
  have hc2 : Code start (upd (upd mem 0x806 v) 0x27 b) := hc1.upd b (Or.inl (by decide))
  ins hc2 14 .iny
  ins hc2 15 (.cpyImm 0x10)
  exact k

/-- What is done to read the sector in Y to the page in $27. -/
theorem run_tail {m : Machine} {start : UInt16} {a x y sp p : UInt8} {c z : Bool} {mem : Nat → UInt8} {dr : Drive} {t : State}
    (hc : Code start mem) (hp : mem 0x27 = p) (hp0 : p ≠ 0) (hx : x.toNat = 16 * m.slot) (h7 : m.slot ≤ 7)
    (k : Runs m (Loading m) ⟨0x5B, x, y + 1, sp, readEntry m, decide ((x >>> 1 >>> 1 >>> 1).toNat % 2 = 1), 0x5B == 0,
      upd (upd (upd mem 0x3D y) (stack sp) (UInt8.ofNat (0xC0 + m.slot))) (stack (sp - 1)) 0x5B, dr⟩ t) :
    Runs m (Loading m) ⟨a, x, y, sp, 0x81C, c, z, mem, dr⟩ t := by
  ins hc 28 (.styZp 0x3D)
  have hc1 : Code start (upd mem 0x3D y) := hc.upd y (Or.inl (by decide))
  ins hc1 30 .iny
  ins hc1 31 (.ldaZp 0x27)
  rw [show upd mem 0x3D y 0x27 = p from hp]
  ins hc1 33 (.beq 0xDF)
  rw [if_neg (by simpa using hp0)]
  ins hc1 35 .txa
  ins hc1 36 .lsr
  ins hc1 37 .lsr
  ins hc1 38 .lsr
  ins hc1 39 .lsr
  ins hc1 40 (.oraImm 0xC0)
  have he : (x >>> 1 >>> 1 >>> 1 >>> 1) ||| 0xC0 = UInt8.ofNat (0xC0 + m.slot) := by
    have key : ∀ n : Fin 8, UInt8.ofNat (16 * n.val) >>> 1 >>> 1 >>> 1 >>> 1 ||| 0xC0 = UInt8.ofNat (0xC0 + n.val) := by decide +kernel
    rw [slot_byte hx h7]
    exact key ⟨m.slot, by omega⟩
  rw [he]
  ins hc1 42 .pha
  have hc2 := hc1.upd (UInt8.ofNat (0xC0 + m.slot)) (Or.inl (by rw [stack_page]; decide) : stack sp / 256 ≠ 8 ∨ stack sp = 0x806)
  ins hc2 43 (.ldaImm 0x5B)
  ins hc2 45 .pha
  have hc3 := hc2.upd 0x5B (Or.inl (by rw [stack_page]; decide) : stack (sp - 1) / 256 ≠ 8 ∨ stack (sp - 1) = 0x806)
  ins hc3 46 .rts
  rw [show sp - 1 - 1 + 1 = sp - 1 from (sp_facts sp).1, show sp - 1 - 1 + 2 = sp from (sp_facts sp).2.1, upd_eq,
    upd_ne (stack_ne (sp_facts sp).2.2.1), upd_eq]
  have hr : (word 0x5B (UInt8.ofNat (0xC0 + m.slot)) + 1) % 65536 = readEntry m := by
    unfold word readEntry
    have h5 : (0x5B : UInt8).toNat = 0x5B := rfl
    rw [h5, UInt8.toNat_ofNat']
    omega
  rw [hr]
  exact k

/-! ### Moving the head -/

/-- A state after a return to `r` from a subroutine that was called with stack pointer `sp + 2`. -/
structure Ret (mem : Nat → UInt8) (x sp : UInt8) (r : Nat) (used : List Nat) (dr : Drive) (s : State) : Prop where
  pc : s.pc = (r + 1) % 65536
  sp : s.sp = sp + 2
  a : s.a = 0
  x : s.x = x
  c : s.c = true
  drive : s.drive = dr
  mem : ∀ addr, addr ∉ used → s.mem addr = mem addr

theorem phase_byte {h x : UInt8} {n : Nat} (hx : x.toNat = 16 * n) (h7 : n ≤ 7) (c : Bool) :
    (((h &&& 3) <<< 1 ||| (if c = true then 1 else 0)) ||| x).toNat = 16 * n + (2 * (h.toNat % 4) + if c = true then 1 else 0) := by
  have k1 : ∀ h : UInt8, h &&& 3 = UInt8.ofNat (h.toNat % 4) := by decide +kernel
  have k2 : ∀ (q : Fin 4) (n : Fin 8) (c : Bool),
      ((UInt8.ofNat q.val <<< 1 ||| (if c = true then 1 else 0)) ||| UInt8.ofNat (16 * n.val)).toNat =
        16 * n.val + (2 * q.val + if c = true then 1 else 0) := by decide +kernel
  rw [slot_byte hx h7, k1 h]
  exact k2 ⟨h.toNat % 4, by omega⟩ ⟨n, by omega⟩ c

theorem run_83C {m : Machine} {start : UInt16} {a x y sp h sl : UInt8} {c z : Bool} {mem : Nat → UInt8} {dr dr' : Drive} {r : Nat}
    (hw : WaitSound m) (hc : Code start mem) (hh : mem 0x40 = h) (hsl : mem 0x2B = sl) (hx : sl.toNat = 16 * m.slot) (h7 : m.slot ≤ 7)
    (hr : word (mem (stack (sp + 1))) (mem (stack (sp + 2))) = r)
    (hd : dr.switch (2 * (h.toNat % 4) + if c = true then 1 else 0) = some dr') :
    ∃ s', Runs m (Loading m) ⟨a, x, y, sp, 0x83C, c, z, mem, dr⟩ s' ∧ Ret mem x sp r [stack sp] dr' s' := by
  have hb := phase_byte (h := h) hx h7 c
  generalize hy : ((h &&& 3) <<< 1 ||| (if c = true then 1 else 0)) ||| sl = y' at hb
  have hl : ∀ s : State, s.drive = dr → s.y = y' → exec m (.ldaAbsY (word 0x80 0xC0)) s =
      some { s with a := m.bus (0xC080 + y'.toNat), z := m.bus (0xC080 + y'.toNat) == 0, pc := s.pc + 3, drive := dr' } := by
    intro s h1 h2
    show (load m s (word 0x80 0xC0 + s.y.toNat)).map _ = _
    rw [show word 0x80 0xC0 = 0xC080 by decide]
    unfold load
    rw [h2, if_neg (by omega), if_pos (by split at hb <;> omega), h1,
      show 0xC080 + y'.toNat - (0xC080 + 16 * m.slot) = 2 * (h.toNat % 4) + (if c = true then 1 else 0) by omega, hd]
    rfl
  refine ⟨m.wait ⟨0x30, x, y', sp, 0xFCA8, decide (128 ≤ (h &&& 3).toNat), 0x30 == 0, mem, dr'⟩, ?_, ?_⟩
  rotate_left
  · obtain ⟨h1, h2, h3, h4, h5, h6, h7, h8⟩ := hw ⟨0x30, x, y', sp, 0xFCA8, decide (128 ≤ (h &&& 3).toNat), 0x30 == 0, mem, dr'⟩ rfl
    refine ⟨?_, h5, h1, h2, h4, h8, fun addr ha => h7 addr (by simpa using ha)⟩
    rw [h6]
    exact congrArg (fun r => (r + 1) % 65536) hr
  · ins hc 60 (.ldaZp 0x40)
    rw [hh]
    ins hc 62 (.andImm 3)
    ins hc 64 .rol
    ins hc 65 (.oraZp 0x2B)
    rw [hsl, hy]
    ins hc 67 .tay
    insx hc 68 (.ldaAbsY (word 0x80 0xC0)) (hl _ rfl rfl)
    ins hc 71 (.ldaImm 0x30)
    ins hc 73 (.jmp (word 0xA8 0xFC))
    rw [show word 0xA8 0xFC = 0xFCA8 by decide]
    exact .more (Or.inr (Or.inl rfl)) (if_pos rfl) .done

theorem Code.same {start : UInt16} {mem mem' : Nat → UInt8} (h : Code start mem) (he : ∀ addr, addr / 256 = 8 → mem' addr = mem addr) :
    Code start mem' := by
  intro i hi h6
  rw [he _ (by omega)]
  exact h i hi h6

theorem mem_of_page {addr : Nat} {l : List Nat} (h : ∀ a ∈ l, a / 256 < 2) (ha : addr / 256 = 8) : addr ∉ l := by
  intro hm
  have := h addr hm
  omega

theorem run_837 {m : Machine} {start : UInt16} {a x y sp h sl : UInt8} {c z : Bool} {mem : Nat → UInt8} {dr d1 d2 : Drive} {r : Nat}
    (hw : WaitSound m) (hc : Code start mem) (hh : mem 0x40 = h) (hsl : mem 0x2B = sl) (hx : sl.toNat = 16 * m.slot) (h7 : m.slot ≤ 7)
    (hr : word (mem (stack (sp + 1))) (mem (stack (sp + 2))) = r)
    (hd1 : dr.switch (2 * (h.toNat % 4) + if c = true then 1 else 0) = some d1)
    (hd2 : d1.switch (2 * ((h + 1).toNat % 4) + 1) = some d2) :
    ∃ s', Runs m (Loading m) ⟨a, x, y, sp, 0x837, c, z, mem, dr⟩ s' ∧
      Ret mem x sp r [0x40, stack sp, stack (sp - 1), stack (sp - 2)] d2 s' ∧ s'.mem 0x40 = h + 1 := by
  have f := sp_facts sp
  have s1 := stack_page sp
  have s2 := stack_page (sp - 1)
  have s3 := stack_page (sp - 2)
  generalize hm1 : upd (upd mem (stack sp) (UInt8.ofNat ((0x837 + 2) / 256))) (stack (sp - 1)) (UInt8.ofNat ((0x837 + 2) % 256)) = mem1
  have e1 : ∀ addr, addr ≠ stack sp → addr ≠ stack (sp - 1) → mem1 addr = mem addr := by
    intro addr h1 h2
    rw [← hm1, upd_ne h2, upd_ne h1]
  have hc1 : Code start mem1 := hc.same fun addr ha => e1 addr (by omega) (by omega)
  obtain ⟨s', hrun, hret⟩ := run_83C (a := a) (x := x) (y := y) (sp := sp - 2) (c := c) (z := z) (r := 0x839) hw hc1
    ((e1 0x40 (by omega) (by omega)).trans hh) ((e1 0x2B (by omega) (by omega)).trans hsl) hx h7 (by
      rw [f.2.2.2.1, f.2.2.2.2.1, ← hm1, upd_eq, upd_ne (stack_ne f.2.2.1), upd_eq]
      decide) hd1
  obtain ⟨a', x', y', sp', pc', c', z', mem', dr'⟩ := s'
  obtain ⟨r1, r2, r3, r4, r5, r6, r7⟩ := hret
  dsimp only at r1 r2 r3 r4 r5 r6 r7
  subst r1 r2 r3 r4 r5 r6
  have e2 : ∀ addr, addr ∉ [stack sp, stack (sp - 1), stack (sp - 2)] → mem' addr = mem addr := by
    intro addr ha
    simp only [List.mem_cons, List.not_mem_nil, or_false, not_or] at ha
    rw [r7 addr (by simpa using ha.2.2), e1 addr ha.1 ha.2.1]
  have hc2 : Code start mem' := hc.same fun addr ha => e2 addr (mem_of_page (by simp [s1, s2, s3]) ha)
  have h40 : mem' 0x40 = h := (e2 _ (by simp; omega)).trans hh
  have h2b : mem' 0x2B = sl := (e2 _ (by simp; omega)).trans hsl
  have hc3 : Code start (upd mem' 0x40 (h + 1)) := hc2.upd _ (Or.inl (by decide))
  have e3 : ∀ addr, addr ∉ [0x40, stack sp, stack (sp - 1), stack (sp - 2)] → upd mem' 0x40 (h + 1) addr = mem addr := by
    intro addr ha
    simp only [List.mem_cons, List.not_mem_nil, or_false, not_or] at ha
    rw [upd_ne ha.1]
    exact e2 addr (by simp [ha.2.1, ha.2.2])
  have u1 := stack_page (sp + 1)
  have u2 := stack_page (sp + 2)
  obtain ⟨s2', hrun2, hret2⟩ := run_83C (a := 0) (x := x') (y := y') (sp := sp - 2 + 2) (c := true) (z := h + 1 == 0) (r := r) hw hc3 upd_eq
    ((upd_ne (by decide)).trans h2b) hx h7 (by
      rw [f.2.2.2.2.1, e3 _ (by
          have := f.2.2.2.2.2.2.2
          simp [stack_ne this.1, stack_ne this.2.2.1, stack_ne this.2.2.2.2.1]; omega), e3 _ (by
          have := f.2.2.2.2.2.2.2
          simp [stack_ne this.2.1, stack_ne this.2.2.2.1, stack_ne this.2.2.2.2.2]; omega)]
      exact hr) hd2
  rw [f.2.2.2.2.1] at hret2 hrun2
  refine ⟨s2', ?_, ⟨hret2.pc, hret2.sp, hret2.a, hret2.x, hret2.c, hret2.drive, ?_⟩, ?_⟩
  · ins hc 55 (.jsr 0x83C)
    rw [hm1]
    refine hrun.trans ?_
    rw [f.2.2.2.2.1]
    ins hc2 58 (.incZp 0x40)
    rw [h40]
    exact hrun2
  · intro addr ha
    rw [hret2.mem addr (by simp only [List.mem_cons, not_or] at ha; simpa using ha.2.1), e3 addr ha]
  · rw [hret2.mem _ (by simp; omega), upd_eq]

theorem switch_off (p q : Nat) (h : q = p % 4) : Drive.switch ⟨p, [p % 4]⟩ (2 * q + if false = true then 1 else 0) = some ⟨p, []⟩ := by
  subst h
  unfold Drive.switch
  rw [if_pos (by simp)]
  simp [Drive.settle]

theorem switch_on (p q : Nat) (h : q = (p + 1) % 4) : Drive.switch ⟨p, []⟩ (2 * q + 1) = some ⟨p + 1, [(p + 1) % 4]⟩ := by
  subst h
  unfold Drive.switch
  rw [if_neg (by omega), show (2 * ((p + 1) % 4) + 1) / 2 = (p + 1) % 4 by omega]
  simp only [List.filter_nil, Drive.settle]
  rw [if_neg (by omega), if_true]

theorem sp_facts2 : ∀ sp : UInt8, sp - 2 - 1 = sp - 3 ∧ sp - 2 - 2 = sp - 4 ∧ sp + 1 ≠ sp - 3 ∧ sp + 2 ≠ sp - 3 ∧ sp + 1 ≠ sp - 4 ∧ sp + 2 ≠ sp - 4 := by
  decide +kernel

theorem run_82F {m : Machine} {start : UInt16} {a x y sp tr sl : UInt8} {c z : Bool} {mem : Nat → UInt8} {r p : Nat}
    (hw : WaitSound m) (hc : Code start mem) (h41 : mem 0x41 = tr) (h40 : mem 0x40 = tr) (htr : tr.toNat < 64) (hpos : p = 2 * tr.toNat)
    (hsl : mem 0x2B = sl) (hx : sl.toNat = 16 * m.slot) (h7 : m.slot ≤ 7)
    (hr : word (mem (stack (sp + 1))) (mem (stack (sp + 2))) = r) :
    ∃ s', Runs m (Loading m) ⟨a, x, y, sp, 0x82F, c, z, mem, ⟨p, [p % 4]⟩⟩ s' ∧
      Ret mem x sp r [0x40, 0x41, stack sp, stack (sp - 1), stack (sp - 2), stack (sp - 3), stack (sp - 4)]
        ⟨p + 2, [(p + 2) % 4]⟩ s' ∧ s'.mem 0x41 = tr + 1 := by
  have f := sp_facts sp
  have g := sp_facts2 sp
  have s1 := stack_page sp
  have s2 := stack_page (sp - 1)
  have s3 := stack_page (sp - 2)
  have s4 := stack_page (sp - 3)
  have s5 := stack_page (sp - 4)
  have u1 := stack_page (sp + 1)
  have u2 := stack_page (sp + 2)
  have hasl : (tr <<< 1).toNat = 2 * tr.toNat := by
    have key : ∀ n : Fin 64, (UInt8.ofNat n.val <<< 1).toNat = 2 * n.val := by decide +kernel
    have := key ⟨tr.toNat, htr⟩
    simpa using this
  have hasl1 : (tr <<< 1 + 1).toNat = 2 * tr.toNat + 1 := by
    rw [UInt8.toNat_add, hasl, show (1 : UInt8).toNat = 1 from rfl]; omega
  have hasl2 : (tr <<< 1 + 1 + 1).toNat = 2 * tr.toNat + 2 := by
    rw [UInt8.toNat_add, hasl1, show (1 : UInt8).toNat = 1 from rfl]; omega
  generalize hh : tr <<< 1 = h at hasl hasl1 hasl2
  -- INC $41, ASL $40
  have hcA : Code start (upd mem 0x41 (tr + 1)) := hc.upd _ (Or.inl (by decide))
  generalize hm0 : upd (upd mem 0x41 (tr + 1)) 0x40 h = mem0
  have hc0 : Code start mem0 := by rw [← hm0]; exact hcA.upd _ (Or.inl (by decide))
  have e0 : ∀ addr, addr ≠ 0x40 → addr ≠ 0x41 → mem0 addr = mem addr := by
    intro addr h1 h2
    rw [← hm0, upd_ne h1, upd_ne h2]
  have m40 : mem0 0x40 = h := by rw [← hm0, upd_eq]
  have m41 : mem0 0x41 = tr + 1 := by rw [← hm0, upd_ne (by decide), upd_eq]
  have m2b : mem0 0x2B = sl := (e0 _ (by decide) (by decide)).trans hsl
  -- JSR $837
  generalize hm1 : upd (upd mem0 (stack sp) (UInt8.ofNat ((0x833 + 2) / 256))) (stack (sp - 1)) (UInt8.ofNat ((0x833 + 2) % 256)) = mem1
  have e1 : ∀ addr, addr ≠ stack sp → addr ≠ stack (sp - 1) → mem1 addr = mem0 addr := by
    intro addr h1 h2
    rw [← hm1, upd_ne h2, upd_ne h1]
  have hc1 : Code start mem1 := hc0.same fun addr ha => e1 addr (by omega) (by omega)
  obtain ⟨s', hrun, hret, hinc⟩ := run_837 (a := a) (x := x) (y := y) (sp := sp - 2) (c := false) (z := h == 0) (r := 0x835)
    (d2 := ⟨p + 1, [(p + 1) % 4]⟩) hw hc1
    ((e1 0x40 (by omega) (by omega)).trans m40) ((e1 0x2B (by omega) (by omega)).trans m2b) hx h7 (by
      rw [f.2.2.2.1, f.2.2.2.2.1, ← hm1, upd_eq, upd_ne (stack_ne f.2.2.1), upd_eq]
      decide) (switch_off p _ (by omega)) (switch_on p _ (by omega))
  obtain ⟨a', x', y', sp', pc', c', z', mem', dr'⟩ := s'
  obtain ⟨r1, r2, r3, r4, r5, r6, r7⟩ := hret
  dsimp only at r1 r2 r3 r4 r5 r6 r7 hinc
  subst r1 r2 r3 r4 r5 r6
  rw [g.1, g.2.1] at r7
  have e2 : ∀ addr, addr ∉ [0x40, stack sp, stack (sp - 1), stack (sp - 2), stack (sp - 3), stack (sp - 4)] → mem' addr = mem0 addr := by
    intro addr ha
    simp only [List.mem_cons, List.not_mem_nil, or_false, not_or] at ha
    rw [r7 addr (by simp [ha.1, ha.2.2.2.1, ha.2.2.2.2.1, ha.2.2.2.2.2]), e1 addr ha.2.1 ha.2.2.1]
  have hc2 : Code start mem' := hc0.same fun addr ha => e2 addr (mem_of_page (by simp [s1, s2, s3, s4, s5]) ha)
  have n2b : mem' 0x2B = sl := (e2 _ (by simp; omega)).trans m2b
  have n41 : mem' 0x41 = tr + 1 := (e2 _ (by simp; omega)).trans m41
  rw [f.2.2.2.2.1] at hrun
  -- CLC and $837 once more
  obtain ⟨s2', hrun2, hret2, hinc2⟩ := run_837 (a := 0) (x := x') (y := y') (sp := sp) (c := false) (z := z') (r := r)
    (d2 := ⟨p + 1 + 1, [(p + 1 + 1) % 4]⟩) hw hc2 hinc n2b hx h7 (by
      rw [e2 _ (by
          have := f.2.2.2.2.2.2.2
          simp [stack_ne this.1, stack_ne this.2.2.1, stack_ne this.2.2.2.2.1, stack_ne g.2.2.1, stack_ne g.2.2.2.2.1]; omega),
        e2 _ (by
          have := f.2.2.2.2.2.2.2
          simp [stack_ne this.2.1, stack_ne this.2.2.2.1, stack_ne this.2.2.2.2.2, stack_ne g.2.2.2.1, stack_ne g.2.2.2.2.2]; omega),
        e0 _ (by omega) (by omega), e0 _ (by omega) (by omega)]
      exact hr) (switch_off (p + 1) _ (by omega)) (switch_on (p + 1) _ (by omega))
  refine ⟨s2', ?_, ⟨hret2.pc, hret2.sp, hret2.a, hret2.x, hret2.c, hret2.drive, ?_⟩, ?_⟩
  · ins hc 47 (.incZp 0x41)
    rw [h41]
    ins hcA 49 (.aslZp 0x40)
    have e40 : upd mem 0x41 (tr + 1) 0x40 = tr := (upd_ne (by decide)).trans h40
    rw [show decide (128 ≤ (upd mem 0x41 (tr + 1) 0x40).toNat) = false from decide_eq_false (by rw [e40]; omega), e40, hh, hm0]
    ins hc0 51 (.jsr 0x837)
    refine Runs.trans (t := ⟨0, x', y', sp, 0x836, true, z', mem', ⟨p + 1, [(p + 1) % 4]⟩⟩) ?_ ?_
    · rw [show 0x82F + 2 + 2 + 2 = 0x833 + 2 from rfl, hm1]
      exact hrun
    · ins hc2 54 .clc
      exact hrun2
  · intro addr ha
    simp only [List.mem_cons, List.not_mem_nil, or_false, not_or] at ha
    obtain ⟨b1, b2, b3, b4, b5, b6, b7⟩ := ha
    rw [hret2.mem addr (by simp [b1, b3, b4, b5]), e2 addr (by simp [b1, b3, b4, b5, b6, b7]), e0 addr b1 b2]
  · rw [hret2.mem _ (by simp; omega), n41]

/-! ### One page -/

open Verif.Spec

theorem visit_next (k : Nat) : ((visit k).2 + 2 < 16 ∧ visit (k + 1) = ((visit k).1, (visit k).2 + 2)) ∨
    ((visit k).2 + 2 = 16 ∧ visit (k + 1) = ((visit k).1, 1)) ∨
    ((visit k).2 + 2 = 17 ∧ visit (k + 1) = ((visit k).1 + 1, 0)) := by
  unfold visit
  dsimp only
  by_cases h1 : k % 16 = 15
  · right; right
    rw [if_neg (by omega), if_pos (by omega), show (k + 1) / 16 = k / 16 + 1 by omega, show 2 * ((k + 1) % 16) = 0 by omega]
    exact ⟨by omega, rfl⟩
  by_cases h2 : k % 16 = 7
  · right; left
    rw [if_pos (by omega), if_neg (by omega), show (k + 1) / 16 = k / 16 by omega, show 2 * ((k + 1) % 16) - 15 = 1 by omega]
    exact ⟨by omega, rfl⟩
  left
  rw [show (k + 1) / 16 = k / 16 by omega, show (k + 1) % 16 = k % 16 + 1 by omega]
  by_cases h3 : k % 16 < 8
  · rw [if_pos h3, if_pos (by omega)]
    refine ⟨by omega, ?_⟩
    rw [show 2 * (k % 16 + 1) = 2 * (k % 16) + 2 by omega]
  · rw [if_neg h3, if_neg (by omega)]
    refine ⟨by omega, ?_⟩
    rw [show 2 * (k % 16 + 1) - 15 = 2 * (k % 16) - 15 + 2 by omega]

/-- From the comparison with 16 to the place where Y is the next sector and the head is on its track. -/
theorem run_mid {m : Machine} {start : UInt16} {a x y sp tr sl : UInt8} {mem : Nat → UInt8} {k : Nat}
    (hw : WaitSound m) (hc : Code start mem) (hk : k < 500) (hy : y.toNat = (visit k).2 + 2)
    (h41 : mem 0x41 = tr) (h40 : mem 0x40 = tr) (htr : tr.toNat = (visit k).1)
    (hsl : mem 0x2B = sl) (hx : sl.toNat = 16 * m.slot) (h7 : m.slot ≤ 7) :
    ∃ s', Runs m (Loading m) ⟨a, x, y, sp, 0x811, decide (0x10 ≤ y), y == 0x10, mem, ⟨2 * (visit k).1, [2 * (visit k).1 % 4]⟩⟩ s' ∧
      s'.pc = 0x81C ∧ s'.x = x ∧ s'.sp = sp ∧ s'.y.toNat = (visit (k + 1)).2 ∧
      s'.drive = ⟨2 * (visit (k + 1)).1, [2 * (visit (k + 1)).1 % 4]⟩ ∧ (s'.mem 0x41).toNat = (visit (k + 1)).1 ∧
      (∀ addr, addr / 256 ≠ 1 → addr ≠ 0x40 → addr ≠ 0x41 → s'.mem addr = mem addr) := by
  have h16 : (0x10 : UInt8).toNat = 16 := rfl
  have ht : (visit k).1 < 35 := by unfold visit; dsimp only; omega
  rcases visit_next k with ⟨h1, h2⟩ | ⟨h1, h2⟩ | ⟨h1, h2⟩
  · refine ⟨⟨a, x, y, sp, 0x81C, decide (0x10 ≤ y), y == 0x10, mem, ⟨2 * (visit k).1, [2 * (visit k).1 % 4]⟩⟩, ?_, rfl, rfl, rfl, ?_, ?_, ?_, ?_⟩
    · ins hc 17 (.bcc 0x09)
      rw [if_pos (decide_eq_false (by rw [UInt8.le_iff_toNat_le]; omega))]
      exact .done
    · rw [h2]; exact hy
    · rw [h2]
    · rw [h2]; show (mem 0x41).toNat = _; rw [h41, htr]
    · intro addr _ _ _; rfl
  · refine ⟨⟨a, x, 1, sp, 0x81C, decide (0x10 ≤ y), false, mem, ⟨2 * (visit k).1, [2 * (visit k).1 % 4]⟩⟩, ?_, rfl, rfl, rfl, ?_, ?_, ?_, ?_⟩
    · ins hc 17 (.bcc 0x09)
      rw [if_neg (by rw [decide_eq_false_iff_not, UInt8.le_iff_toNat_le]; omega)]
      ins hc 19 (.beq 0x05)
      rw [if_pos (by rw [beq_iff_eq]; exact UInt8.toNat_inj.1 (by omega)), show branch (0x811 + 2) 5 = 0x81A by decide]
      ins hc 26 (.ldyImm 0x01)
      exact .done
    · rw [h2]; rfl
    · rw [h2]
    · rw [h2]; show (mem 0x41).toNat = _; rw [h41, htr]
    · intro addr _ _ _; rfl
  · have f := sp_facts sp
    have s1 := stack_page sp
    have s2 := stack_page (sp - 1)
    have s3 := stack_page (sp - 2)
    generalize hm1 : upd (upd mem (stack sp) (UInt8.ofNat ((0x815 + 2) / 256))) (stack (sp - 1)) (UInt8.ofNat ((0x815 + 2) % 256)) = mem1
    have e1 : ∀ addr, addr ≠ stack sp → addr ≠ stack (sp - 1) → mem1 addr = mem addr := by
      intro addr h1 h2
      rw [← hm1, upd_ne h2, upd_ne h1]
    have hc1 : Code start mem1 := hc.same fun addr ha => e1 addr (by omega) (by omega)
    obtain ⟨s', hrun, hret, hinc⟩ := run_82F (a := a) (x := x) (y := y) (sp := sp - 2) (c := decide (0x10 ≤ y)) (z := y == 0x10) (r := 0x817)
      (p := 2 * (visit k).1) hw hc1 ((e1 0x41 (by omega) (by omega)).trans h41) ((e1 0x40 (by omega) (by omega)).trans h40)
      (by omega) (by omega) ((e1 0x2B (by omega) (by omega)).trans hsl) hx h7 (by
        rw [f.2.2.2.1, f.2.2.2.2.1, ← hm1, upd_eq, upd_ne (stack_ne f.2.2.1), upd_eq]
        decide)
    obtain ⟨a', x', y', sp', pc', c', z', mem', dr'⟩ := s'
    obtain ⟨r1, r2, r3, r4, r5, r6, r7⟩ := hret
    dsimp only at r1 r2 r3 r4 r5 r6 r7 hinc
    subst r1 r2 r3 r4 r5 r6
    have e2 : ∀ addr, addr / 256 ≠ 1 → addr ≠ 0x40 → addr ≠ 0x41 → mem' addr = mem addr := by
      intro addr h1 h2 h3
      have t1 := stack_page (sp - 2 - 1)
      have t2 := stack_page (sp - 2 - 2)
      have t3 := stack_page (sp - 2 - 3)
      have t4 := stack_page (sp - 2 - 4)
      rw [r7 addr (by simp [h2, h3]; omega), e1 addr (by omega) (by omega)]
    have hc2 : Code start mem' := hc.same fun addr ha => e2 addr (by omega) (by omega) (by omega)
    rw [f.2.2.2.2.1] at hrun
    refine ⟨⟨0, x', 0, sp, 0x81C, true, 0 &&& mem' 0x1A0 == 0, mem', ⟨2 * (visit k).1 + 2, [(2 * (visit k).1 + 2) % 4]⟩⟩,
      ?_, rfl, rfl, rfl, ?_, ?_, ?_, e2⟩
    · ins hc 17 (.bcc 0x09)
      rw [if_neg (by rw [decide_eq_false_iff_not, UInt8.le_iff_toNat_le]; omega)]
      ins hc 19 (.beq 0x05)
      rw [if_neg (by rw [beq_iff_eq, ← UInt8.toNat_inj]; omega)]
      ins hc 21 (.jsr 0x82F)
      refine Runs.trans (t := ⟨0, x', y', sp, 0x818, true, z', mem', ⟨2 * (visit k).1 + 2, [(2 * (visit k).1 + 2) % 4]⟩⟩) ?_ ?_
      · rw [show 0x811 + 2 + 2 + 2 = 0x815 + 2 from rfl, hm1]
        exact hrun
      · ins hc2 24 .tay
        insx hc2 25 (.bitAbs 0x1A0) (exec_bitAbs (by decide))
        exact .done
    · rw [h2]; rfl
    · rw [h2]; rfl
    · rw [h2]
      show (mem' 0x41).toNat = _
      rw [hinc, UInt8.toNat_add, htr, show (1 : UInt8).toNat = 1 from rfl]
      dsimp only
      omega

/-- What is done at the end of the page table. -/
theorem run_end2 {m : Machine} {start : UInt16} {a x y sp v : UInt8} {c z : Bool} {mem : Nat → UInt8} {dr : Drive}
    (hc : Code start mem) (hv : mem 0x806 + 1 = v) (h6 : 0x800 + v.toNat ≠ 0x806) (hb : mem (0x800 + v.toNat) = 0xC0) :
    Runs m (Loading m) ⟨a, x, y, sp, 0x802, c, z, mem, dr⟩ ⟨0xC0, x, y, sp, start.toNat, true, true, upd mem 0x806 v, dr⟩ := by
  insx hc 2 (.incAbs 0x806) (exec_incAbs (by decide))
  rw [hv]
  have hc1 := hc.upd v (Or.inr rfl : 0x806 / 256 ≠ 8 ∨ 0x806 = 0x806)
  refine go (i := .ldaAbs (0x800 + v.toNat)) (by dsimp only; omega) ?_ (exec_ldaAbs (by have := v.toNat_lt; omega)) ?_
  · dsimp only
    rw [show upd mem 0x806 v (2050 + 3) = 0xAD from hc1 5 (by decide) (by decide), show upd mem 0x806 v (2050 + 3 + 1) = v from upd_eq,
      show upd mem 0x806 v (2050 + 3 + 2) = 8 from hc1 7 (by decide) (by decide)]
    show some (Instr.ldaAbs (word v 8)) = _
    refine congrArg (fun w => some (Instr.ldaAbs w)) ?_
    unfold word
    have : (8 : UInt8).toNat = 8 := rfl
    omega
  dsimp only
  rw [upd_ne h6, hb]
  ins hc1 8 (.cmpImm 0xC0)
  ins hc1 10 (.beq 0x40)
  rw [if_pos (by rfl)]
  refine goc (ins := .jmp start.toNat) 76 hc1 (by
      show branch (2050 + 3 + 3 + 2) 0x40 = _
      decide) (by decide) (by decide) ?_ rfl ?_
  · show some (Instr.jmp (word (lo8 start) (hi8 start))) = _
    refine congrArg (fun w => some (Instr.jmp w)) ?_
    unfold word
    rw [lo8_toNat, hi8_toNat]
    omega
  exact .done

theorem run_end {m : Machine} {start : UInt16} {a x y sp v : UInt8} {c z : Bool} {mem : Nat → UInt8} {dr : Drive}
    (hc : Code start mem) (hv : mem 0x806 + 1 = v) (h6 : 0x800 + v.toNat ≠ 0x806) (hb : mem (0x800 + v.toNat) = 0xC0) :
    Runs m (Loading m) ⟨a, x, y, sp, 0x801, c, z, mem, dr⟩ ⟨0xC0, x, a, sp, start.toNat, true, true, upd mem 0x806 v, dr⟩ := by
  ins hc 1 .tay
  exact run_end2 hc hv h6 hb

/-- Entries for page 0 are skipped. -/
theorem run_skip {m : Machine} {start : UInt16} {a x y sp : UInt8} {c z : Bool} {mem : Nat → UInt8} {dr : Drive} {t : State}
    (hc : Code start mem) (hp : mem 0x27 = 0)
    (k : Runs m (Loading m) ⟨0, x, y + 1, sp, 0x802, c, true, upd mem 0x3D y, dr⟩ t) :
    Runs m (Loading m) ⟨a, x, y, sp, 0x81C, c, z, mem, dr⟩ t := by
  ins hc 28 (.styZp 0x3D)
  have hc1 : Code start (upd mem 0x3D y) := hc.upd y (Or.inl (by decide))
  ins hc1 30 .iny
  ins hc1 31 (.ldaZp 0x27)
  rw [show upd mem 0x3D y 0x27 = 0 from hp]
  ins hc1 33 (.beq 0xDF)
  rw [if_pos (by rfl), show branch (2076 + 2 + 1 + 2) 0xDF = 0x802 by decide]
  exact k

/-! ### The machine is deterministic -/

theorem Runs.mono {m : Machine} {P Q : State → Prop} {s t : State} (h : Runs m P s t) (hq : ∀ u, P u → Q u) : Runs m Q s t := by
  induction h with
  | done => exact .done
  | more hp hs _ ih => exact .more (hq _ hp) hs ih

theorem Runs.first {m : Machine} {P : State → Prop} {s t u : State} (h : Runs m P s t) (h' : Runs m P s u) (ht : ¬ P t) (hu : ¬ P u) :
    t = u := by
  induction h with
  | done =>
    cases h' with
    | done => rfl
    | more hp _ _ => exact absurd hp ht
  | more hp hs _ ih =>
    cases h' with
    | done => exact absurd hp hu
    | more _ hs' hr =>
      rw [hs] at hs'
      cases hs'
      exact ih hr ht

/-- If the machine gets to a state that it never leaves, all it passes through are the states on the way. -/
theorem Runs.stuck {m : Machine} {P Q : State → Prop} {s t u : State} (h : Runs m P s u) (hu : step m u = some u) (h' : Runs m Q s t) :
    P t ∨ t = u := by
  induction h with
  | done =>
    right
    induction h' with
    | done => rfl
    | more _ hs _ ih =>
      rw [hu] at hs
      cases hs
      exact ih hu
  | more hp hs _ ih =>
    cases h' with
    | done => exact Or.inl hp
    | more _ hs' hr =>
      rw [hs] at hs'
      cases hs'
      exact ih hu hr

end Verif.Apple2
