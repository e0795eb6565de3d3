import Verif.Proofs.Boot
import Verif.Props.Sd

/-!
# Running the boot sector of a disk made by `mksd`
-/

set_option autoImplicit false

namespace Verif.Apple2

open Verif.Spec Verif.Cmd Verif.Disk

/-- The loader is about to load the `k`-th page. -/
structure Head (m : Machine) (contents : Bytes) (address start : UInt16) (k : Nat) (s : State) : Prop where
  pc : s.pc = 0x801
  a : s.a.toNat = (visit k).2 + 1
  x : s.x.toNat = 16 * m.slot
  boot : ∀ i, i < 256 → i ≠ 6 → s.mem (0x800 + i) = (sectorAt m.disk 0 0).getD i 0
  counter : s.mem 0x806 = UInt8.ofNat (0x4E + k)
  z26 : s.mem 0x26 = 0
  z2B : (s.mem 0x2B).toNat = 16 * m.slot
  z41 : (s.mem 0x41).toNat = (visit k).1
  z40 : (s.mem 0x40).toNat = (visit k).1
  drive : s.drive = ⟨2 * (visit k).1, [2 * (visit k).1 % 4]⟩
  loaded : ∀ i, i < k → ∀ j, j < 256 → s.mem (256 * (address.toNat / 256 + i) + j) = (page contents i).getD j 0

theorem getD_eq {l : Bytes} {i : Nat} {b : UInt8} (h : l[i]? = some b) : l.getD i 0 = b := by simp [h]

/-- What the boot sector of a disk made by `mksd` holds. -/
theorem boot_bytes {contents : Bytes} {address start : UInt16} {img : Bytes} (h : sdImage contents address start = .ok img) :
    (∀ i, i < 79 → (sectorAt img 0 0).getD i 0 = (sdLoader start).getD i 0) ∧
    (∀ i, i < pages contents → ((sectorAt img 0 0).getD (79 + i) 0).toNat = address.toNat / 256 + i ∧ address.toNat / 256 + i < 0xC0) ∧
    (sectorAt img 0 0).getD (79 + pages contents) 0 = 0xC0 ∧ pages contents ≤ 176 := by
  obtain ⟨_, ⟨rest, hr⟩, _⟩ := C56_layout _ _ _ _ h
  obtain ⟨_, _, _, h4, h5⟩ := C57_page_table _ _ _ _ h
  refine ⟨fun i hi => ?_, fun i hi => ?_, getD_eq h5, ?_⟩
  · rw [hr, List.getD_eq_getElem?_getD, List.getD_eq_getElem?_getD, List.getElem?_append_left (by rw [sdLoader_length]; exact hi)]
  · obtain ⟨b, e1, e2, e3⟩ := h4 i hi
    rw [getD_eq e1]
    exact ⟨e2, by omega⟩
  · exact (((C57_accepts_partial _ _ _).1 ⟨img, h⟩).2.2.2.2)

theorem Head.code {m : Machine} {contents : Bytes} {address start : UInt16} {k : Nat} {s : State}
    (hh : Head m contents address start k s) (h : sdImage contents address start = .ok m.disk) : Code start s.mem := by
  intro i hi h6
  rw [hh.boot i (by omega) h6, (boot_bytes h).1 i hi]

/-- The state in which the ROM is asked for the `k`-th page. -/
structure Ask (m : Machine) (contents : Bytes) (address start : UInt16) (k : Nat) (s0 s : State) : Prop where
  pc : s.pc = readEntry m
  x : s.x.toNat = 16 * m.slot
  z26 : s.mem 0x26 = 0
  z2B : (s.mem 0x2B).toNat = 16 * m.slot
  z41 : (s.mem 0x41).toNat = (visit (k + 1)).1
  z3D : (s.mem 0x3D).toNat = (visit (k + 1)).2
  z27 : (s.mem 0x27).toNat = address.toNat / 256 + k
  drive : s.drive = ⟨2 * (visit (k + 1)).1, [2 * (visit (k + 1)).1 % 4]⟩
  counter : s.mem 0x806 = UInt8.ofNat (0x4E + (k + 1))
  rest : ∀ addr, addr / 256 ≠ 1 → addr ≠ 0x3D → addr ≠ 0x40 → addr ≠ 0x41 → addr ≠ 0x806 → addr ≠ 0x27 → s.mem addr = s0.mem addr

theorem step_read {m : Machine} {s : State} (h : s.pc = readEntry m) (h7 : m.slot ≤ 7) : step m s = some (m.read s) := by
  unfold step
  rw [if_neg (by rw [h]; unfold readEntry waitEntry; omega), if_pos h]

theorem head_ask {m : Machine} {contents : Bytes} {address start : UInt16} {k : Nat} {s : State}
    (h : sdImage contents address start = .ok m.disk) (hm : Sound m m.disk)
    (hp : address.toNat / 256 + k ≠ 0)
    (hk : k < pages contents) (hh : Head m contents address start k s) :
    ∃ s', Runs m (Loading m) s s' ∧ Ask m contents address start k s s' := by
  obtain ⟨_, h7, _, hw, _⟩ := hm
  obtain ⟨b1, b2, b3, b4⟩ := boot_bytes h
  have hc := hh.code h
  obtain ⟨pc, hA, hX, hboot, hcount, h26, h2B, h41, h40, hdr, hload⟩ := id hh
  obtain ⟨a, x, y, sp, pc', c, z, mem, dr⟩ := s
  dsimp only at *
  subst pc
  -- the next page
  have hv : (UInt8.ofNat (0x4E + k) + 1).toNat = 0x4F + k := by
    rw [UInt8.toNat_add, UInt8.toNat_ofNat', show (1 : UInt8).toNat = 1 from rfl]; omega
  have hv' : UInt8.ofNat (0x4E + k) + 1 = UInt8.ofNat (0x4E + (k + 1)) := by
    apply UInt8.toNat_inj.1; rw [hv, UInt8.toNat_ofNat']; omega
  generalize hvv : UInt8.ofNat (0x4E + k) + 1 = v at hv hv'
  have hpg := b2 k hk
  have hmp : mem (0x800 + v.toNat) = (sectorAt m.disk 0 0).getD (79 + k) 0 := by
    rw [hv, hboot (0x4F + k) (by omega) (by omega)]
  generalize (sectorAt m.disk 0 0).getD (79 + k) 0 = p at hpg hmp
  have hp0 : p ≠ 0 := fun e => hp (by rw [← hpg.1, e]; rfl)
  -- from the head to the comparison
  generalize hm1 : upd (upd mem 0x806 v) 0x27 p = mem1
  have e1 : ∀ addr, addr ≠ 0x806 → addr ≠ 0x27 → mem1 addr = mem addr := by
    intro addr h1 h2; rw [← hm1, upd_ne h2, upd_ne h1]
  have hc1 : Code start mem1 := by
    rw [← hm1]; exact (hc.upd v (Or.inr rfl)).upd p (Or.inl (by decide))
  have ha1 : (a + 1).toNat = (visit k).2 + 2 := by
    have : (visit k).2 < 16 := (visit_lt (by omega)).2
    rw [UInt8.toNat_add, hA, show (1 : UInt8).toNat = 1 from rfl]; omega
  have tr_eq : mem 0x40 = mem 0x41 := UInt8.toNat_inj.1 (by omega)
  subst hdr
  obtain ⟨s2, hrun2, q1, q2, q3, q4, q5, q6, q7⟩ := run_mid (a := p) (x := x) (sp := sp) (sl := mem 0x2B) hw hc1 (by omega : k < 500) ha1
    (e1 0x41 (by decide) (by decide)) ((e1 0x40 (by decide) (by decide)).trans tr_eq) h41 (e1 0x2B (by decide) (by decide)) h2B h7
  obtain ⟨a2, x2, y2, sp2, pc2, c2, z2, mem2, dr2⟩ := s2
  dsimp only at q1 q2 q3 q4 q5 q6 q7
  subst q1 q2 q3 q5
  have hc2 : Code start mem2 := hc1.same fun addr ha => q7 addr (by omega) (by omega) (by omega)
  have h27 : mem2 0x27 = p := by rw [q7 _ (by decide) (by decide) (by decide), ← hm1, upd_eq]
  -- to the ROM
  generalize hm3 : upd (upd (upd mem2 0x3D y2) (stack sp2) (UInt8.ofNat (0xC0 + m.slot))) (stack (sp2 - 1)) 0x5B = mem3
  have s1 := stack_page sp2
  have s2 := stack_page (sp2 - 1)
  have e3 : ∀ addr, addr / 256 ≠ 1 → addr ≠ 0x3D → mem3 addr = mem2 addr := by
    intro addr g1 g2
    rw [← hm3, upd_ne (by omega), upd_ne (by omega), upd_ne g2]
  have e13 : ∀ addr, addr / 256 ≠ 1 → addr ≠ 0x3D → addr ≠ 0x40 → addr ≠ 0x41 → addr ≠ 0x806 → addr ≠ 0x27 → mem3 addr = mem addr := by
    intro addr g1 g2 g3 g4 g5 g6
    rw [e3 addr g1 g2, q7 addr g1 g3 g4, e1 addr g5 g6]
  have h3D : mem3 0x3D = y2 := by
    rw [← hm3, upd_ne (by omega), upd_ne (by omega), upd_eq]
  refine ⟨⟨0x5B, x2, y2 + 1, sp2, readEntry m,
      decide ((x2 >>> 1 >>> 1 >>> 1).toNat % 2 = 1), 0x5B == 0, mem3, ⟨2 * (visit (k + 1)).1, [2 * (visit (k + 1)).1 % 4]⟩⟩,
    ?_, rfl, hX, ?_, ?_, ?_, ?_, ?_, rfl, ?_, e13⟩
  · exact run_head hc (by rw [hcount, hvv]) (by omega) hmp (by intro e; rw [e] at hpg; exact absurd hpg.1 (by
        have : (0xC0 : UInt8).toNat = 0xC0 := rfl
        omega)) (by
      rw [hm1]
      exact hrun2.trans (run_tail hc2 h27 hp0 hX h7 (by rw [hm3]; exact .done)))
  · show mem3 0x26 = 0
    rw [e13 _ (by decide) (by decide) (by decide) (by decide) (by decide) (by decide)]; exact h26
  · show (mem3 0x2B).toNat = _
    rw [e13 _ (by decide) (by decide) (by decide) (by decide) (by decide) (by decide)]; exact h2B
  · show (mem3 0x41).toNat = _
    rw [e3 _ (by decide) (by decide)]; exact q6
  · show (mem3 0x3D).toNat = _
    rw [h3D]; exact q4
  · show (mem3 0x27).toNat = _
    rw [e3 _ (by decide) (by decide), h27]; exact hpg.1
  · show mem3 0x806 = _
    rw [e3 _ (by decide) (by decide), q7 _ (by decide) (by decide) (by decide), ← hm1, upd_ne (by decide), upd_eq]
    exact hv'

theorem head_step {m : Machine} {contents : Bytes} {address start : UInt16} {k : Nat} {s : State}
    (h : sdImage contents address start = .ok m.disk) (hm : Sound m m.disk)
    (hp : ∀ i, i < pages contents → address.toNat / 256 + i ∉ [0, 1, 3, 8])
    (hk : k < pages contents) (hh : Head m contents address start k s) :
    ∃ s', Runs m (Loading m) s s' ∧ Head m contents address start (k + 1) s' := by
  obtain ⟨s1, r1, hask⟩ := head_ask h hm (fun e => hp k hk (by rw [e]; decide)) hk hh
  obtain ⟨_, h7, _, hw, hrd⟩ := hm
  obtain ⟨b1, b2, b3, b4⟩ := boot_bytes h
  have hpk := hp k hk
  simp only [List.mem_cons, List.not_mem_nil, or_false, not_or] at hpk
  have hlt := (b2 k hk).2
  have hvis := visit_lt (k := k + 1) (by omega)
  have b0 : s1.mem 0x800 = 1 := by
    rw [hask.rest _ (by decide) (by decide) (by decide) (by decide) (by decide) (by decide), hh.boot 0 (by decide) (by decide), b1 0 (by decide)]
    rfl
  obtain ⟨w1, w2, w3, w4, w5, w6, w7, w8, w9, w10, w11⟩ := hrd s1 hask.pc hask.x hask.z2B hask.z26
    (visit (k + 1)).1 (visit (k + 1)).2 (address.toNat / 256 + k) hask.z41 hask.z3D hask.z27
    (by rw [hask.drive]) hvis.1 hvis.2 (by simp; omega) hlt
    (by
      rw [if_neg hpk.2.2.2, b0, show (1 : UInt8).toNat = 1 from rfl]; omega)
  refine ⟨m.read s1, r1.trans (.more (Or.inr (Or.inr hask.pc)) (step_read hask.pc h7) .done), w1, w2, ?_, ?_, ?_, w7, ?_, ?_, w10, ?_, ?_⟩
  · rw [w3]; exact hask.x
  · intro i hi h6
    rw [w11 _ (by simp [show (2048 + i) / 256 = 8 by omega]; omega),
      hask.rest _ (by omega) (by omega) (by omega) (by omega) (by omega) (by omega), hh.boot i hi h6]
  · rw [w11 _ (by simp; omega)]
    exact hask.counter
  · rw [w8]; exact hask.z2B
  · rw [w9]; exact hask.z41
  · rw [w5]; exact hask.drive
  · intro i hi j hj
    by_cases hik : i = k
    · subst hik
      rw [w6 j hj]
      refine congrArg (fun l : Bytes => l.getD j 0) ?_
      exact (C56_layout _ _ _ _ h).2.2.1 i hk
    · have hpi := hp i (by omega)
      simp only [List.mem_cons, List.not_mem_nil, or_false, not_or] at hpi
      have hdiv : (256 * (address.toNat / 256 + i) + j) / 256 = address.toNat / 256 + i := by omega
      rw [w11 _ (by rw [hdiv]; simp; omega),
        hask.rest _ (by omega) (by omega) (by omega) (by omega) (by omega) (by omega)]
      exact hh.loaded i (by omega) j hj

theorem head_all {m : Machine} {contents : Bytes} {address start : UInt16} {s : State}
    (h : sdImage contents address start = .ok m.disk) (hm : Sound m m.disk)
    (hp : ∀ i, i < pages contents → address.toNat / 256 + i ∉ [0, 1, 3, 8])
    (hh : Head m contents address start 0 s) : ∀ k, k ≤ pages contents →
    ∃ s', Runs m (Loading m) s s' ∧ Head m contents address start k s'
  | 0, _ => ⟨s, .done, hh⟩
  | k + 1, hk => by
    obtain ⟨s1, r1, h1⟩ := head_all h hm hp hh k (by omega)
    obtain ⟨s2, r2, h2⟩ := head_step h hm hp (by omega) h1
    exact ⟨s2, r1.trans r2, h2⟩

theorem head_booted {m : Machine} {contents : Bytes} {address start : UInt16} {s : State}
    (h : sdImage contents address start = .ok m.disk) (hb : Booted m s) : Head m contents address start 0 s := by
  obtain ⟨h1, h2, h3, h4, h5, h6, h7, h8, h9⟩ := hb
  refine ⟨h1, by rw [h2]; rfl, h3, fun i hi _ => h4 i hi, ?_, h5, h6, by rw [h8]; rfl, by rw [h7]; rfl, h9, fun i hi => by omega⟩
  rw [show 0x806 = 0x800 + 6 from rfl, h4 6 (by decide), (boot_bytes h).1 6 (by decide)]
  rfl

theorem head_end {m : Machine} {contents : Bytes} {address start : UInt16} {s : State}
    (h : sdImage contents address start = .ok m.disk) (hh : Head m contents address start (pages contents) s) :
    ∃ t, Runs m (Loading m) s t ∧ t.pc = start.toNat ∧ t.x.toNat = 16 * m.slot ∧ ∀ addr, addr ≠ 0x806 → t.mem addr = s.mem addr := by
  obtain ⟨b1, b2, b3, b4⟩ := boot_bytes h
  have hc := hh.code h
  obtain ⟨pc, hA, hX, hboot, hcount, h26, h2B, h41, h40, hdr, hload⟩ := id hh
  obtain ⟨a, x, y, sp, pc', c, z, mem, dr⟩ := s
  dsimp only at *
  subst pc
  have hv : (UInt8.ofNat (0x4E + pages contents) + 1).toNat = 0x4F + pages contents := by
    rw [UInt8.toNat_add, UInt8.toNat_ofNat', show (1 : UInt8).toNat = 1 from rfl]; omega
  refine ⟨_, run_end hc rfl ?_ ?_, rfl, hX, fun addr ha => upd_ne ha⟩
  · rw [hcount, hv]; omega
  · rw [hcount, hv, hboot _ (by omega) (by omega)]; exact b3

end Verif.Apple2
