import Verif.Proofs.BootRun

/-!
# C76: the disks that `mksd` makes boot

A disk made by `mksd` is booted by the ROM of the disk controller, which reads the boot sector and jumps to it.
`Verif.Spec.Apple2` says what the processor, the drive and the two ROM routines do; here the machine code that
`mksd` writes is run on it.
-/

set_option autoImplicit false

namespace Verif.Apple2

open Verif.Spec Verif.Cmd Verif.Disk

theorem getD_page {contents : Bytes} {i j : Nat} (hj : j < 256) : (page contents i).getD j 0 = contents.getD (256 * i + j) 0 := by
  unfold page
  simp [hj]

/-- C76 (partial): on any Apple II in which the disk is booted, the loader ends by jumping to the start address with the
whole binary in memory at the load address and X = 16 times the slot.  The binary must use none of the pages 0, 1, 3 and 8
(the `C76_violated` theorems below say what happens for 0 and 8; 1 and 3 are used by the ROM itself). -/
theorem C76_boots_partial (contents : Bytes) (address start : UInt16) (img : Bytes)
    (h : sdImage contents address start = .ok img) (m : Machine) (hm : Sound m img)
    (hp : ∀ i, i < pages contents → address.toNat / 256 + i ∉ [0, 1, 3, 8]) (s : State) (hs : Booted m s) :
    ∃ t, Runs m (Loading m) s t ∧ t.pc = start.toNat ∧ t.x.toNat = 16 * m.slot ∧ Holds t.mem address.toNat contents := by
  have hd := hm.2.2.1
  subst hd
  obtain ⟨s1, r1, h1⟩ := head_all h hm hp (head_booted h hs) (pages contents) (Nat.le_refl _)
  obtain ⟨t, r2, h2, h3, h4⟩ := head_end h h1
  refine ⟨t, r1.trans r2, h2, h3, fun i hi => ?_⟩
  have ha := ((C57_accepts_partial _ _ _).1 ⟨_, h⟩).1
  have hlt : i / 256 < pages contents := by unfold pages; omega
  have h8 := hp (i / 256) hlt
  simp only [List.mem_cons, List.not_mem_nil, or_false, not_or] at h8
  have e : address.toNat + i = 256 * (address.toNat / 256 + i / 256) + i % 256 := by omega
  rw [h4 _ (by omega), e, h1.loaded _ hlt _ (by omega), getD_page (by omega)]
  refine congrArg (fun n => contents.getD n 0) ?_
  omega

/-- C76 (partial), for the command: what `mksd` writes, put on a floppy disk in the order that was asked for, boots. -/
theorem C76_command_partial (env : Env) (w : World) (order : DiskOrder) (diskImage binary : Str) (address start : UInt16)
    (hd : diskImage ≠ str "-") (hb : binary ≠ str "-")
    (h : (run env (.mksd order diskImage binary address start) w).1 = .ok ()) :
    ∃ contents raw img, w.files binary = some contents ∧
      (run env (.mksd order diskImage binary address start) w).2.files diskImage = some raw ∧
      View (sdOrder order diskImage) (str "raw") raw img ∧
      ∀ m s, Sound m img → Booted m s → (∀ i, i < pages contents → address.toNat / 256 + i ∉ [0, 1, 3, 8]) →
        ∃ t, Runs m (Loading m) s t ∧ t.pc = (if start = 0xFFFF then address else start).toNat ∧
          Holds t.mem address.toNat contents := by
  obtain ⟨contents, img, raw, h1, h2, h3, _, h5⟩ := C56_command env w order diskImage binary address start hd hb h
  refine ⟨contents, raw, img, h1, h3, h5, fun m s hm hs hp => ?_⟩
  obtain ⟨t, g1, g2, _, g4⟩ := C76_boots_partial _ _ _ _ h2 m hm hp s hs
  exact ⟨t, g1, g2, g4⟩

/-! ### Machines on which the disk can be booted -/

/-- An Apple II whose ROM does no more than it has to. -/
def apple (slot : Nat) (img : Bytes) : Machine where
  slot := slot
  disk := img
  bus _ := 0
  wait s := { s with
    a := 0
    c := true
    sp := s.sp + 2
    pc := (word (s.mem (stack (s.sp + 1))) (s.mem (stack (s.sp + 2))) + 1) % 65536 }
  read s := { s with
    pc := 0x801
    a := s.mem 0x3D + 1
    mem := fun addr =>
      if addr / 256 = (s.mem 0x27).toNat then (sectorAt img (s.mem 0x41).toNat (s.mem 0x3D).toNat).getD (addr % 256) 0
      else if addr = 0x40 then s.mem 0x41 else s.mem addr }

/-- The state in which it starts the boot sector. -/
def booted (slot : Nat) (img : Bytes) (v : UInt8) : State where
  a := 1
  x := UInt8.ofNat (16 * slot)
  y := 0
  sp := 0xFD
  pc := 0x801
  c := false
  z := false
  mem addr := if addr / 256 = 8 then (sectorAt img 0 0).getD (addr % 256) 0
    else if addr = 0x2B then UInt8.ofNat (16 * slot) else if addr < 0x100 then (if addr = 0 then v else 0) else 0
  drive := ⟨0, [0]⟩

theorem apple_wait (slot : Nat) (img : Bytes) : WaitSound (apple slot img) :=
  fun _ _ => ⟨rfl, rfl, rfl, rfl, rfl, rfl, fun _ _ => rfl, rfl⟩

theorem apple_read (slot : Nat) (img : Bytes) : ReadSound (apple slot img) := by
  intro s _ _ h2B h26 track sector page h41 h3D h27 _ _ hsec hpage hlt _
  simp only [List.mem_cons, List.not_mem_nil, or_false, not_or] at hpage
  have hz : ∀ n, n < 256 → n / 256 ≠ (s.mem 0x27).toNat := by intro n hn; rw [h27]; omega
  refine ⟨rfl, ?_, rfl, rfl, rfl, ?_, ?_, ?_, ?_, ?_, ?_⟩
  · show (s.mem 0x3D + 1).toNat = _
    rw [UInt8.toNat_add, h3D, show (1 : UInt8).toNat = 1 from rfl]; omega
  · intro i hi
    show (if _ then _ else _) = _
    rw [if_pos (by rw [h27]; omega), h41, h3D, show (256 * page + i) % 256 = i by omega]
    rfl
  · show (if _ then _ else if _ then _ else _) = _
    rw [if_neg (hz _ (by decide)), if_neg (by decide)]; exact h26
  · show (if _ then _ else if _ then _ else _) = _
    rw [if_neg (hz _ (by decide)), if_neg (by decide)]
  · show (if _ then _ else if _ then _ else _) = _
    rw [if_neg (hz _ (by decide)), if_neg (by decide)]
  · show (if _ then _ else if _ then _ else _ : UInt8).toNat = _
    rw [if_neg (hz _ (by decide)), if_pos rfl]; exact h41
  · intro addr ha
    simp only [List.mem_cons, List.not_mem_nil, or_false, not_or] at ha
    show (if _ then _ else if _ then _ else _) = _
    rw [if_neg (by rw [h27]; omega), if_neg (by omega)]

/-- The hypotheses of `C76_boots_partial` on machine and state can be met with every image and slot, whatever is in the first byte of memory. -/
theorem C76_machines (slot : Nat) (img : Bytes) (v : UInt8) (h1 : 1 ≤ slot) (h7 : slot ≤ 7) :
    ∃ m s, m.slot = slot ∧ Sound m img ∧ Booted m s ∧ s.mem 0 = v := by
  refine ⟨apple slot img, booted slot img v, rfl, ⟨h1, h7, rfl, apple_wait _ _, apple_read _ _⟩, ⟨rfl, rfl, ?_, ?_, rfl, ?_, rfl, rfl, rfl⟩, rfl⟩
  · show (UInt8.ofNat (16 * slot)).toNat = 16 * slot
    rw [UInt8.toNat_ofNat']; omega
  · intro i hi
    show (if _ then _ else _) = _
    rw [if_pos (by omega), show (0x800 + i) % 256 = i by omega]
    rfl
  · show (UInt8.ofNat (16 * slot)).toNat = 16 * slot
    rw [UInt8.toNat_ofNat']; omega

/-- A disk of which the binary fills 128 pages from $1000, so that nine tracks are read. -/
example : ∃ img, sdImage (zeros 0x8000) 0x1000 0x1003 = .ok img ∧ pages (zeros 0x8000) = 128 ∧
    ∀ i, i < pages (zeros 0x8000) → (0x1000 : UInt16).toNat / 256 + i ∉ [0, 1, 3, 8] := by
  have hl : (zeros 0x8000).length = 0x8000 := zeros_length _
  have hp : pages (zeros 0x8000) = 128 := by unfold pages; rw [hl]
  have ha : (0x1000 : UInt16).toNat = 0x1000 := rfl
  have hs : (0x1003 : UInt16).toNat = 0x1003 := rfl
  obtain ⟨img, h⟩ := (C57_accepts_partial (zeros 0x8000) 0x1000 0x1003).2 ⟨by rw [ha], by rw [ha, hs]; omega, by rw [ha, hs, hl]; omega,
    by rw [hl, hs]; omega, by rw [hp]; omega⟩
  refine ⟨img, h, hp, fun i hi => ?_⟩
  rw [ha]
  simp
  omega

/-! ### Binaries for page 0 and page 8 -/

/-- C76 is not true for page 0: the page table's entry for it is skipped.  `mksd` accepts a binary for address 0, but
when the loader jumps to it, it has not been loaded: on no machine does that change what is at address 0. -/
theorem C76_violated_page_zero : ∃ (contents : Bytes) (address start : UInt16) (img : Bytes), contents ≠ [] ∧
    sdImage contents address start = .ok img ∧
    ∀ m s, Sound m img → Booted m s → s.mem 0 ≠ contents.getD 0 0 →
      (∃ t, Runs m (Loading m) s t ∧ t.pc = start.toNat) ∧
      ∀ t, Runs m (fun u => u.pc ≠ start.toNat) s t → t.pc = start.toNat → ¬ Holds t.mem address.toNat contents := by
  have hp : pages [0x60] = 1 := rfl
  obtain ⟨img, h⟩ := (C57_accepts_partial [0x60] 0 0).2 ⟨rfl, Nat.le_refl _, by decide, by decide, by decide⟩
  refine ⟨[0x60], 0, 0, img, by simp, h, fun m s hm hs h0 => ?_⟩
  have hd := hm.2.2.1
  subst hd
  have key : ∃ t, Runs m (Loading m) s t ∧ t.pc = 0 ∧ t.mem 0 = s.mem 0 := by
    have hh := head_booted h hs
    obtain ⟨_, h7, _, hw, _⟩ := hm
    obtain ⟨b1, b2, b3, b4⟩ := boot_bytes h
    have hc := hh.code h
    obtain ⟨pc, hA, hX, hboot, hcount, h26, h2B, h41, h40, hdr, hload⟩ := id hh
    obtain ⟨a, x, y, sp, pc', c, z, mem, dr⟩ := s
    dsimp only at *
    subst pc hdr
    have hpg : (sectorAt m.disk 0 0).getD 79 0 = 0 := by
      have := (b2 0 (by rw [hp]; decide)).1
      exact UInt8.toNat_inj.1 this
    have hc1 : Code 0 (upd (upd mem 0x806 0x4F) 0x27 0) := (hc.upd 0x4F (Or.inr rfl)).upd 0 (Or.inl (by decide))
    have tr_eq : mem 0x40 = mem 0x41 := UInt8.toNat_inj.1 (by omega)
    have hav : a = 1 := UInt8.toNat_inj.1 hA
    subst hav
    obtain ⟨s2, hrun2, q1, q2, q3, q4, q5, q6, q7⟩ := run_mid (a := 0) (x := x) (y := 1 + 1) (sp := sp) (sl := mem 0x2B) hw hc1 (by omega : 0 < 500) rfl
      (upd_ne (by decide) |>.trans (upd_ne (by decide))) ((upd_ne (by decide) |>.trans (upd_ne (by decide))).trans tr_eq) h41
      (upd_ne (by decide) |>.trans (upd_ne (by decide))) h2B h7
    obtain ⟨a2, x2, y2, sp2, pc2, c2, z2, mem2, dr2⟩ := s2
    dsimp only at q1 q2 q3 q4 q5 q6 q7
    subst q1 q2 q3 q5
    have hc2 : Code 0 mem2 := hc1.same fun addr ha => q7 addr (by omega) (by omega) (by omega)
    have h27 : mem2 0x27 = 0 := by rw [q7 _ (by decide) (by decide) (by decide), upd_eq]
    have hc3 : Code 0 (upd mem2 0x3D y2) := hc2.upd y2 (Or.inl (by decide))
    have hcnt : upd mem2 0x3D y2 0x806 = 0x4F := by
      rw [upd_ne (by decide), q7 _ (by decide) (by decide) (by decide), upd_ne (by decide), upd_eq]
    refine ⟨_, run_head (v := 0x4F) (b := 0) hc (by rw [hcount]; rfl) (by decide) (by
      rw [show (0x4F : UInt8).toNat = 79 from rfl, hboot 79 (by decide) (by decide), hpg]) (by decide)
      (hrun2.trans (run_skip hc2 h27 (run_end2 (v := 0x50) hc3 (by rw [hcnt]; rfl) (by decide) ?_))), rfl, ?_⟩
    · rw [show 0x800 + (0x50 : UInt8).toNat = 0x800 + 80 from rfl, upd_ne (by decide), q7 _ (by decide) (by decide) (by decide),
        upd_ne (by decide), upd_ne (by decide), hboot 80 (by decide) (by decide)]
      exact b3
    · dsimp only
      rw [upd_ne (by decide), upd_ne (by decide), q7 _ (by decide) (by decide) (by decide), upd_ne (by decide), upd_ne (by decide)]
  obtain ⟨t, r, ht, hm0⟩ := key
  refine ⟨⟨t, r, ht⟩, fun u ru hu hold => h0 ?_⟩
  have r' : Runs m (fun u => u.pc ≠ (0 : UInt16).toNat) s t := r.mono fun v hv => by
    rcases hv with hv | hv | hv
    · exact fun e => by rw [e] at hv; exact absurd hv.1 (by decide)
    · rw [hv]; decide
    · rw [hv]; unfold readEntry; exact fun e => by rw [show (0 : UInt16).toNat = 0 from rfl] at e; omega
  have := r'.first ru (fun e => e ht) (fun e => e hu)
  subst this
  rw [← hm0]
  exact hold 0 (by decide)

/-- C76 is not true for page 8: the loader is overwritten while it runs.  `mksd` accepts the binary 00 4C 01 08 for address $800, but
on no machine is its start address $800 ever reached. -/
theorem C76_violated_page_eight : ∃ (contents : Bytes) (address start : UInt16) (img : Bytes),
    sdImage contents address start = .ok img ∧
    ∀ m s, Sound m img → Booted m s → ∀ t, Runs m (fun _ => True) s t → t.pc ≠ start.toNat := by
  have hp : pages [0x00, 0x4C, 0x01, 0x08] = 1 := rfl
  obtain ⟨img, h⟩ := (C57_accepts_partial [0x00, 0x4C, 0x01, 0x08] 0x800 0x800).2 ⟨by decide, Nat.le_refl _, by decide, by decide, by decide⟩
  refine ⟨[0x00, 0x4C, 0x01, 0x08], 0x800, 0x800, img, h, fun m s hm hs t ht => ?_⟩
  have hd := hm.2.2.1
  subst hd
  have ha : (0x800 : UInt16).toNat = 0x800 := rfl
  have hh := head_booted h hs
  obtain ⟨s1, r1, hask⟩ := head_ask h hm (by rw [ha]; decide) (by rw [hp]; decide) hh
  obtain ⟨_, h7, _, _, hrd⟩ := hm
  have hsec := (C56_layout _ _ _ _ h).2.2.1 0 (by rw [hp]; decide)
  obtain ⟨w1, w2, w3, w4, w5, w6, w7, w8, w9, w10, w11⟩ := hrd s1 hask.pc hask.x hask.z2B hask.z26
    (visit 1).1 (visit 1).2 8 hask.z41 hask.z3D hask.z27
    (by rw [hask.drive]) (by decide) (by decide) (by decide) (by decide)
    (by rw [if_pos rfl, hsec]; decide)
  have e : ∀ i, i < 256 → (m.read s1).mem (0x800 + i) = (page [0x00, 0x4C, 0x01, 0x08] 0).getD i 0 := by
    intro i hi
    rw [show 0x800 + i = 256 * 8 + i by omega, w6 i hi, ← hsec]
  have hst : step m (m.read s1) = some (m.read s1) := by
    have e1 := e 1 (by decide)
    have e2 := e 2 (by decide)
    have e3 := e 3 (by decide)
    rw [getD_page (by decide)] at e1 e2 e3
    unfold step
    rw [w1, if_neg (by decide), if_neg (by unfold readEntry; omega), if_pos (by decide), e1, e2, e3]
    show some { m.read s1 with pc := word 0x01 0x08 } = _
    rw [show word 0x01 0x08 = 0x801 by decide, ← w1]
  rcases (r1.trans (.more (Or.inr (Or.inr hask.pc)) (step_read hask.pc h7) .done)).stuck hst ht with hl | rfl
  · rw [ha]
    rcases hl with hl | hl | hl
    · omega
    · rw [hl]; decide
    · rw [hl]; unfold readEntry; omega
  · rw [w1, ha]; decide

end Verif.Apple2
