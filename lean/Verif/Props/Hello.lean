import Verif.Props.ReopenWit
import Verif.Props.History
import Verif.Proofs.Boot
import Verif.Proofs.Settled
import Verif.Spec.Hello

/-!
# C97: FHELLO loads and starts the program
-/

set_option autoImplicit false

namespace Verif.Apple2
open Spec Cmd Disk

theorem covers_iff {page : Nat} {data : Bytes} {addr : Nat} (hl : data.length % 256 = 0) :
    Covers page data (addr / 256) ↔ 256 * page ≤ addr ∧ addr < 256 * page + data.length := by
  unfold Covers
  omega

/-- The bytes of the program. -/
theorem hello_byte (f : UInt8) (address start : UInt16) (rest : Bytes) {mem : Nat → UInt8} {base : Nat}
    (h : Holds mem base (helloBytes f address start ++ rest)) (i : Nat) (hi : i < 16) :
    mem (base + i) = (helloBytes f address start).getD i 0 := by
  have hl : (helloBytes f address start).length = 16 := rfl
  rw [h i (by rw [List.length_append]; omega), List.getD_eq_getElem?_getD, List.getElem?_append_left (by omega), ← List.getD_eq_getElem?_getD]

theorem NakedMachine.Runs.mono {m : NakedMachine} {P : State → Prop} {s t : State} (h : m.Runs P s t) : m.Runs (fun _ => True) s t := by
  induction h with
  | done => exact .done
  | more _ h _ ih => exact .more trivial h ih

theorem sp_ne (a : UInt8) : a ≠ a - 1 := by
  intro h
  have := congrArg UInt8.toNat h
  rw [UInt8.toNat_sub, show (1 : UInt8).toNat = 1 from rfl] at this
  have := a.toNat_lt
  omega

theorem sp_back1 (a : UInt8) : a - 2 + 1 = a - 1 := by
  apply UInt8.toNat_inj.1
  rw [UInt8.toNat_add, UInt8.toNat_sub, UInt8.toNat_sub, show (1 : UInt8).toNat = 1 from rfl, show (2 : UInt8).toNat = 2 from rfl]
  have := a.toNat_lt
  omega

theorem sp_back2 (a : UInt8) : a - 2 + 2 = a := by
  apply UInt8.toNat_inj.1
  rw [UInt8.toNat_add, UInt8.toNat_sub, show (2 : UInt8).toNat = 2 from rfl]
  have := a.toNat_lt
  omega

theorem step_instr {m : NakedMachine} {s : State} {i : Instr} (hne : s.pc ≠ nakedEntry) (hlt : s.pc < 0xBFFE) (hD8 : s.mem s.pc ≠ 0xD8)
    (hd : decode (s.mem s.pc) (s.mem (s.pc + 1)) (s.mem (s.pc + 2)) = some i) : m.step s = exec m.toMachine i s := by
  unfold NakedMachine.step
  rw [if_neg hne, if_pos hlt, if_neg hD8, hd]
  rfl

/-- C97, the program: started at `base`, in pages that are free and not those of the file, it gets to `start` with the file in memory. -/
theorem C97_program {m : NakedMachine} {img : Bytes} (hm : NakedSound m img) {f : UInt8} {address start : UInt16} {rest : Bytes}
    (h1 : fileOnDisk img 1 = helloBytes f address start ++ rest) (ha : address.toNat % 256 = 0) (hf : IsFileNumber f)
    (hne : fileOnDisk img f ≠ []) (hfree : ∀ p, Covers (address.toNat / 256) (fileOnDisk img f) p → m.Free p)
    {base : Nat} (hb : ∀ i, i < 16 → m.Free ((base + i) / 256) ∧ ¬ Covers (address.toNat / 256) (fileOnDisk img f) ((base + i) / 256))
    {s : State} (hs : Started m base s) :
    ∃ t, m.Runs (fun u => base ≤ u.pc ∧ u.pc < base + 16 ∨ u.pc = nakedEntry) s t ∧ t.pc = start.toNat ∧
      Holds t.mem address.toNat (fileOnDisk img f) := by
  obtain ⟨rfl, hk, hm⟩ := hm
  obtain ⟨hpc, hc⟩ := hs
  rw [h1] at hc
  have hbyte := hello_byte f address start rest hc
  have hne340 : ∀ i, i < 16 → base + i ≠ nakedEntry := fun i hi e => (hb i hi).1.2.2 (by rw [e]; exact hk)
  have htop : base + 15 < 0xC000 := by
    have := (hb 15 (by omega)).1.2.1
    omega
  have free1 : ∀ sp i, i < 16 → base + i ≠ stack sp := by
    intro sp i hi e
    exact (hb i hi).1.1 (by rw [e, stack_page])
  -- JSR
  have b0 : s.mem base = 0x20 := hbyte 0 (by omega)
  have b1 : s.mem (base + 1) = 0x40 := hbyte 1 (by omega)
  have b2 : s.mem (base + 2) = 0x03 := hbyte 2 (by omega)
  have e0 : m.step s = exec m.toMachine (.jsr 0x340) s := by
    refine step_instr ?_ ?_ ?_ ?_
    · rw [hpc]; exact hne340 0 (by omega)
    · omega
    · rw [hpc, b0]; decide
    · rw [hpc, b0, b1, b2]; rfl
  have hst : stack s.sp ≠ stack (s.sp - 1) := by
    intro e
    unfold stack at e
    exact sp_ne _ (UInt8.toNat_inj.1 (Nat.add_left_cancel e))
  generalize hs1 : ({ s with
      mem := upd (upd s.mem (stack s.sp) (UInt8.ofNat ((s.pc + 2) / 256))) (stack (s.sp - 1)) (UInt8.ofNat ((s.pc + 2) % 256))
      sp := s.sp - 2, pc := 0x340 } : State) = s1
  have e1 : m.step s = some s1 := by rw [e0, ← hs1]; rfl
  have hmem1 : ∀ i, i < 16 → s1.mem (base + i) = s.mem (base + i) := by
    intro i hi
    rw [← hs1]
    show upd _ _ _ _ = _
    rw [upd_ne (free1 _ i hi), upd_ne (free1 _ i hi)]
  have hpc1 : s1.pc = nakedEntry := by rw [← hs1]; rfl
  have hret : base + 3 = word (s1.mem (stack (s1.sp + 1))) (s1.mem (stack (s1.sp + 2))) + 1 := by
    have h1 : s1.sp + 1 = s.sp - 1 := by rw [← hs1]; exact sp_back1 _
    have h2 : s1.sp + 2 = s.sp := by rw [← hs1]; exact sp_back2 _
    rw [h1, h2, ← hs1]
    show _ = word (upd _ _ _ _) (upd _ _ _ _) + 1
    rw [upd_eq, upd_ne hst, upd_eq, hpc]
    unfold word
    rw [UInt8.toNat_ofNat', UInt8.toNat_ofNat']
    omega
  have hpar : Holds s1.mem (base + 3) [0x6D, 0x01, 0xDC, 0x2C, f, 0xDF, 0x2C, 0x00, UInt8.ofNat (address.toNat / 256), 0xD8] := by
    intro i hi
    simp only [List.length_cons, List.length_nil] at hi
    rw [Nat.add_assoc, hmem1 _ (by omega), hbyte _ (by omega)]
    unfold helloBytes
    rw [ha]
    have : i = 0 ∨ i = 1 ∨ i = 2 ∨ i = 3 ∨ i = 4 ∨ i = 5 ∨ i = 6 ∨ i = 7 ∨ i = 8 ∨ i = 9 := by omega
    rcases this with rfl | rfl | rfl | rfl | rfl | rfl | rfl | rfl | rfl | rfl <;> rfl
  have hpage : (UInt8.ofNat (address.toNat / 256)).toNat = address.toNat / 256 := by
    have := address.toNat_lt
    rw [UInt8.toNat_ofNat']
    omega
  obtain ⟨c1, c2, c3, c4⟩ := hm s1 (base + 3) f (UInt8.ofNat (address.toNat / 256)) hpc1 hret (by omega) hpar hf hne (by rw [hpage]; exact hfree)
  rw [hpage] at c3 c4
  rw [show 256 * (address.toNat / 256) = address.toNat by omega] at c3
  have e2 : m.step s1 = some (m.call s1) := by
    unfold NakedMachine.step
    rw [if_pos hpc1]
  generalize m.call s1 = s2 at c1 c2 c3 c4 e2
  have hmem2 : ∀ i, i < 16 → s2.mem (base + i) = (helloBytes f address start).getD i 0 := by
    intro i hi
    rw [c4 _ (hb i hi).1 (hb i hi).2, hmem1 i hi, hbyte i hi]
  -- CLD
  have e3 : m.step s2 = some { s2 with pc := base + 13 } := by
    unfold NakedMachine.step
    rw [c1, if_neg (hne340 12 (by omega)), if_pos (by omega), if_pos (show s2.mem (base + 12) = 0xD8 from hmem2 12 (by omega))]
  -- JMP
  have d0 : s2.mem (base + 13) = 0x4C := hmem2 13 (by omega)
  have d1 : s2.mem (base + 13 + 1) = UInt8.ofNat (start.toNat % 256) := hmem2 14 (by omega)
  have d2 : s2.mem (base + 13 + 2) = UInt8.ofNat (start.toNat / 256) := hmem2 15 (by omega)
  have hw : word (UInt8.ofNat (start.toNat % 256)) (UInt8.ofNat (start.toNat / 256)) = start.toNat := by
    have := start.toNat_lt
    unfold word
    rw [UInt8.toNat_ofNat', UInt8.toNat_ofNat']
    omega
  have e4 : m.step { s2 with pc := base + 13 } = some { s2 with pc := start.toNat } := by
    rw [step_instr (i := .jmp start.toNat)]
    · rfl
    · exact hne340 13 (by omega)
    · show base + 13 < _; omega
    · show s2.mem (base + 13) ≠ _; rw [d0]; decide
    · show decode (s2.mem (base + 13)) (s2.mem (base + 13 + 1)) (s2.mem (base + 13 + 2)) = _
      rw [d0, d1, d2]
      show some (Instr.jmp (word _ _)) = _
      rw [hw]
  refine ⟨{ s2 with pc := start.toNat }, .more (Or.inl (by omega)) e1 (.more (Or.inr hpc1) e2 (.more (Or.inl ?_) e3 (.more (Or.inl ?_) e4 .done))), rfl, c3⟩
  · omega
  · show base ≤ base + 13 ∧ base + 13 < base + 16
    omega

theorem asksFor_fileNumber {st : Supermon.SymbolTable} {name : Str} {f : UInt8} (h : AsksFor st name f) : IsFileNumber f := by
  rcases h with ⟨_, h⟩ | ⟨_, _, _, _, _, h, _⟩
  · rcases Supermon.C34_resolution_total st name with ⟨f', e, hf'⟩ | e
    · rw [h] at e; cases e; exact hf'
    · rw [h] at e; cases e
  · exact h.1

/-- C97: when `mkhello` succeeds, the disk is such that FHELLO, read from it by NakedOS to free memory and started, reads the file asked for
to the address asked for and jumps to the start asked for: if there is such a file, and it fits in free memory and not over FHELLO itself.  The
file is as it was before, unless it is FHELLO or one of those of the symbol table. -/
theorem C97_loads {env : Env} {order : DiskOrder} {image filename : Str} {address start : UInt16} {w : World}
    (hi : image ≠ str "-") (h : (run env (.mkhello order image filename address start) w).1 = .ok ()) :
    ∃ raw o ord f new img, w.files image = some raw ∧ openImage raw image order (str "auto") (factories env) = .ok (.nakedos o, ord) ∧
      AsksFor o.table filename f ∧ (run env (.mkhello order image filename address start) w).2.files image = some new ∧
      View ord (str "raw") new img ∧ NakedOS img ∧ (f ≠ 1 → f ≠ 3 → f ≠ 4 → fileOnDisk img f = fileOnDisk o.data f) ∧
      ∀ m base s, NakedSound m img → Started m base s → fileOnDisk img f ≠ [] →
        (∀ p, Covers (address.toNat / 256) (fileOnDisk img f) p → m.Free p) →
        (∀ i, i < 16 → m.Free ((base + i) / 256) ∧ ¬ Covers (address.toNat / 256) (fileOnDisk img f) ((base + i) / 256)) →
        ∃ t, m.Runs (fun u => base ≤ u.pc ∧ u.pc < base + 16 ∨ u.pc = nakedEntry) s t ∧
          t.pc = (if start = 0xFFFF then address else start).toNat ∧ Holds t.mem address.toNat (fileOnDisk img f) := by
  obtain ⟨ha, hle, raw, o, ord, f, new, o', h1, h2, h3, h4, g1, _, g3, _, g5, _⟩ := C61_mkhello_partial hi h
  have hnk := open_naked g1
  have hf := asksFor_fileNumber h3
  refine ⟨raw, o, ord, f, new, o'.data, h1, h2, h3, h4, (view_iff (order_named hnk.order) raw_named hnk.len).2 hnk.data,
    Supermon.good_nakedOS hnk.good, fun a b c => g5 f hf a b c, fun m base s hm hs hne hfree hb => ?_⟩
  have hst : (UInt16.ofNat (startOf address start)).toNat = (if start = 0xFFFF then address else start).toNat := by
    unfold startOf
    by_cases e : start = 0xFFFF
    · subst e
      rw [if_pos (show UInt16.toNat 0xFFFF = 0xFFFF from rfl), if_pos rfl, UInt16.toNat_ofNat']
      exact Nat.mod_eq_of_lt address.toNat_lt
    · rw [if_neg (fun h : start.toNat = 0xFFFF => e (UInt16.toNat_inj.1 h)), if_neg e, UInt16.toNat_ofNat']
      exact Nat.mod_eq_of_lt start.toNat_lt
  rw [← hst]
  exact C97_program hm g3 ha hf hne hfree hb hs

/-! ### A machine -/

/-- An Apple II running a NakedOS that keeps page 3. -/
def naked (img : Bytes) : NakedMachine where
  slot := 6
  disk := img
  bus _ := 0
  wait s := s
  read s := s
  keeps p := p = 3
  call s :=
    let ret := word (s.mem (stack (s.sp + 1))) (s.mem (stack (s.sp + 2))) + 1
    let file := fileOnDisk img (s.mem (ret + 4))
    let addr := 256 * (s.mem (ret + 8)).toNat
    { s with
      pc := ret + 9
      sp := s.sp + 2
      mem := fun a => if addr ≤ a ∧ a < addr + file.length then file.getD (a - addr) 0 else s.mem a }

theorem file_sectors (img : Bytes) (h : img.length = 143360) (f : UInt8) : (fileOnDisk img f).length % 256 = 0 := by
  unfold fileOnDisk fileBytes
  have : ∀ n ∈ ownedBy (owner img) f, n < 560 := fun n hn => List.mem_range.1 (List.mem_filter.1 hn).1
  generalize ownedBy (owner img) f = l at this
  induction l with
  | nil => rfl
  | cons n l ih =>
    have h1 := ih (fun x hx => this x (by simp [hx]))
    rw [List.flatMap_cons, List.length_append, Supermon.sectorNo_length h (this n (by simp))]
    omega

theorem naked_sound {img : Bytes} (h : img.length = 143360) : NakedSound (naked img) img := by
  refine ⟨rfl, rfl, ?_⟩
  intro s ret f page hpc hret _ hpar _ _ _
  have hd : (naked img).disk = img := rfl
  rw [hd]
  have h4 : s.mem (ret + 4) = f := hpar 4 (by simp)
  have h8 : s.mem (ret + 8) = page := hpar 8 (by simp)
  have hl := file_sectors img h f
  refine ⟨by rw [hret]; rfl, rfl, ?_, ?_⟩
  · intro i hi
    show (if _ then _ else _) = _
    rw [← hret, h4, h8, if_pos (by constructor <;> [omega; exact Nat.add_lt_add_left hi _]), Nat.add_sub_cancel_left]
  · intro addr _ hc
    show (if _ then _ else _) = _
    rw [← hret, h4, h8, if_neg (fun hh => hc ((covers_iff hl).2 hh))]

/-- The state in which it starts FHELLO at `base`. -/
def helloAt (img : Bytes) (base : Nat) : State where
  a := 0
  x := 0
  y := 0
  sp := 0xFD
  pc := base
  c := false
  z := false
  mem a := if base ≤ a then (fileOnDisk img 1).getD (a - base) 0 else 0
  drive := ⟨0, [0]⟩

theorem helloAt_started (img : Bytes) (base : Nat) : Started (naked img) base (helloAt img base) := by
  refine ⟨rfl, fun i _ => ?_⟩
  show (if _ then _ else _) = _
  rw [if_pos (by omega), Nat.add_sub_cancel_left]
  rfl

/-- Non-vacuity of C97: `mkhello a.do DF09` on a disk with a DF09 of one sector; the program, at $7000, reads it to $6000 and goes on there. -/
example (env : Env) : ∃ w new img t, (run env (.mkhello (str "do") (str "a.do") (str "DF09") 0x6000 0xFFFF) w).1 = .ok () ∧
    (run env (.mkhello (str "do") (str "a.do") (str "DF09") 0x6000 0xFFFF) w).2.files (str "a.do") = some new ∧ View (str "do") (str "raw") new img ∧
    (fileOnDisk img 9).length = 256 ∧ (naked img).Runs (fun _ => True) (helloAt img 0x7000) t ∧ t.pc = 0x6000 ∧ Holds t.mem 0x6000 (fileOnDisk img 9) := by
  obtain ⟨w, o, raw, h1, h2, ⟨h9, _⟩, _, hok⟩ := mkhello_example env
  obtain ⟨raw', o', ord, f, new, img, a1, a2, a3, a4, a5, hil, a6, a7⟩ := C97_loads (by decide +kernel) hok
  rw [h1] at a1
  cases a1
  rw [h2] at a2
  cases a2
  have hn : NumericName (str "DF09") 9 := (Supermon.parseAddressFilename_iff (by decide)).1 (by decide +kernel)
  have hf : f = 9 := asksFor_number a3 (.plain (by decide +kernel)) hn
  subst hf
  have hnk := open_naked h2
  have hl9 : (fileOnDisk img 9).length = 256 := by
    rw [a6 (by decide) (by decide) (by decide), ← hnk.good.onDisk, Supermon.fileBytes_length hnk.good.len, h9]
    rfl
  have ha : (0x6000 : UInt16).toNat / 256 = 0x60 := rfl
  have hcov : ∀ p, Covers ((0x6000 : UInt16).toNat / 256) (fileOnDisk img 9) p ↔ p = 0x60 := by
    intro p
    unfold Covers
    rw [ha, hl9]
    omega
  obtain ⟨t, b1, b2, b3⟩ := a7 (naked img) 0x7000 (helloAt img 0x7000) (naked_sound hil.1) (helloAt_started img 0x7000)
    (fun e => by rw [e] at hl9; cases hl9)
    (fun p hp => by rw [(hcov p).1 hp]; exact ⟨by decide, by decide, by show ¬ (0x60 = 3); decide⟩)
    (fun i hi => by
      rw [hcov]
      have : (0x7000 + i) / 256 = 0x70 := by omega
      rw [this]
      exact ⟨⟨by decide, by decide, by show ¬ (0x70 = 3); decide⟩, by decide⟩)
  exact ⟨w, new, img, t, hok, a4, a5, hl9, b1.mono, b2, b3⟩

/-- `mkhello` does not look whether there is such a file: it makes an FHELLO for a file that is not there. -/
theorem C97_missing_file (env : Env) : ∃ w new img, (run env (.mkhello (str "do") (str "a.do") (str "DF08") 0x6000 0xFFFF) w).1 = .ok () ∧
    (run env (.mkhello (str "do") (str "a.do") (str "DF08") 0x6000 0xFFFF) w).2.files (str "a.do") = some new ∧ View (str "do") (str "raw") new img ∧
    fileOnDisk img 8 = [] ∧ ∃ rest, fileOnDisk img 1 = helloBytes 8 0x6000 0x6000 ++ rest := by
  have hn : NumericName (str "DF08") 8 := (Supermon.parseAddressFilename_iff (by decide)).1 (by decide +kernel)
  obtain ⟨w, o, raw, h1, h2, ⟨_, h8⟩, _, hok⟩ := mkhello_tabled env (by decide +kernel) hn
  obtain ⟨_, _, raw', o1, ord, f, new, o', a1, a2, a3, a4, g1, _, g3, _, g5, _⟩ := C61_mkhello_partial (by decide +kernel) hok
  rw [h1] at a1
  cases a1
  rw [h2] at a2
  cases a2
  have hf : f = 8 := asksFor_number a3 (.plain (by decide +kernel)) hn
  subst hf
  have hnk := open_naked g1
  have hnk0 := open_naked h2
  refine ⟨w, new, o'.data, hok, a4, (view_iff (order_named hnk.order) raw_named hnk.len).2 hnk.data, ?_, _, g3⟩
  rw [g5 8 hn.1 (by decide) (by decide) (by decide), ← hnk0.good.onDisk]
  unfold fileBytes
  rw [h8]
  rfl

end Verif.Apple2
