import Verif.Proofs.Values
import Verif.Proofs.Open
import Verif.Props.ReopenWit

/-!
# C113: what the library takes in and hands out is a copy
-/

set_option autoImplicit false

namespace Verif.Heap
open Disk Supermon Spec

variable {grow : Nat → Nat → Nat}

theorem step_agree {s : State} {v : Values} (h : Agree s v) (c : Call) : (s.step grow c).1 = (v.step c).1 ∧ Agree (s.step grow c).2 (v.step c).2 := by
  cases c with
  | make b =>
    unfold State.step Values.step
    dsimp only
    rw [alloc_run]
    have := h.add [b] (fresh_valid s.mem b [] (Nat.le_refl _) (Nat.le_refl _)) (Nat.le_refl _) (bytesOf_fresh s.mem b [] _ rfl)
    exact ⟨this.sight _ _ _, this⟩
  | get name =>
    unfold State.step Values.step
    dsimp only
    rcases getFile_run (grow := grow) h.rep name with ⟨f, h1, x, r, h2, hn, hne⟩ | ⟨k, hk, h1, x, h2, h3⟩
    · rw [h1, h2]
      have hp : Valid (s.mem ++ x) r ∧ s.mem.length ≤ r.arr := by
        rcases hn.place with h0 | h0
        · exact absurd (List.eq_nil_of_length_eq_zero (hn.len.symm.trans h0.2)) hne
        · exact h0
      have := h.add x hp.1 hp.2 hn.bytes
      exact ⟨this.sight _ _ _, this⟩
    · generalize s.op.getFile grow name s.mem = r at h2 h3
      obtain ⟨o, m'⟩ := r
      dsimp only at h2 h3
      subst h3
      have := h.grow x
      generalize v.op.getFile name = q at h1
      cases o <;> cases q <;> cases h1 <;> first | (exact absurd rfl (hk _)) | skip
      all_goals first | (cases h2; done) | skip
      · cases h2; exact ⟨this.sight _ _ _, this⟩
      · exact ⟨this.sight _ _ _, this⟩
      · exact ⟨this.sight _ _ _, this⟩
  | put name p ow =>
    unfold State.step Values.step
    dsimp only
    rcases h.piece p with ⟨t, h1, hv, h2⟩ | ⟨h1, h2⟩
    · rw [h1, h2]
      dsimp only
      have hs := putFile_same h.rep ⟨{ name := name, length := (bytesOf s.mem t).length, type := filetypeBinary }, bytesOf s.mem t, 0⟩ rfl hv rfl rfl ow
      have := h.call hs
      dsimp only at hs
      rw [hs.out, hs.existed]
      exact ⟨this.sight _ _ _, this⟩
    · rw [h1, h2]
      exact ⟨h.sight _ _ _, h⟩
  | delete name =>
    unfold State.step Values.step
    dsimp only
    have hs := delete_same h.rep name
    have := h.call hs
    rw [hs.out, hs.existed]
    exact ⟨this.sight _ _ _, this⟩
  | write k i b =>
    unfold State.step Values.step
    dsimp only
    have hm : v.mine[k]? = s.mine[k]?.map (bytesOf s.mem) := by rw [← h.mine, List.getElem?_map]
    rw [hm]
    cases hk : s.mine[k]? with
    | none => exact ⟨h.sight _ _ _, h⟩
    | some t =>
      have hv := h.valid t (List.mem_of_getElem? hk)
      have hl := bytesOf_length hv
      rw [Option.map_some]
      dsimp only
      by_cases hi : i < t.len
      · rw [setIndex_run hv hi, if_pos (by omega)]
        have := h.write hk ((bytesOf s.mem t).set i b) (by rw [List.length_set, hl])
        exact ⟨this.sight _ _ _, this⟩
      · rw [setIndex_out hi, if_neg (by omega)]
        exact ⟨h.sight _ _ _, h⟩
  | poke i b =>
    unfold State.step Values.step
    dsimp only
    have hl := h.rep.disks.dlen
    by_cases hi : i < s.op.data.len
    · rw [setIndex_run h.rep.disks.vd hi, if_pos (by omega), h.rep.disks.hd]
      have := h.poke (v.op.data.set i b) (by rw [List.length_set, hl])
      exact ⟨this.sight _ _ _, this⟩
    · rw [setIndex_out hi, if_neg (by omega)]
      exact ⟨h.sight _ _ _, h⟩
  | save order =>
    unfold State.step Values.step Op.writeBack writeBackBytes
    dsimp only
    rw [show OperatorLike.getBytes v.op = v.op.data from rfl, h.rep.disks.dlen]
    by_cases hl : s.op.data.len ≠ floppyDiskBytes
    · rw [if_pos hl, if_pos hl]
      show ((s.sight (.ok ()) (file := some (bytesOf s.mem s.op.data)), s) : Sight × State).1 = _ ∧ _
      rw [h.rep.disks.hd]
      exact ⟨h.sight _ _ _, h⟩
    · rw [if_neg hl, if_neg hl]
      rw [show OperatorLike.diskOrder v.op = orderRaw from rfl]
      rcases swizzle2_run (logicalToPhysicalByName orderRaw) (physicalToLogicalByName order) h.rep.disks.vd h.rep.disks.hd with
        ⟨b, h1, x, r, h2, hv, ha, hb⟩ | ⟨k, hk, h1, x, h2, h3⟩
      · rw [h1, h2]
        dsimp only
        rw [hb]
        have := h.grow x
        exact ⟨this.sight _ _ _, this⟩
      · generalize (Heap.swizzle s.op.data (logicalToPhysicalByName orderRaw) >>= fun p => Heap.swizzle p (physicalToLogicalByName order)) s.mem = r at h2 h3
        obtain ⟨o, m'⟩ := r
        dsimp only at h2 h3
        subst h3
        have := h.grow x
        generalize (Disk.swizzle v.op.data (logicalToPhysicalByName orderRaw) >>= fun p => Disk.swizzle p (physicalToLogicalByName order)) = q at h1
        cases o <;> cases q <;> cases h1 <;> first | (exact absurd rfl (hk _)) | skip
        all_goals first | (cases h2; done) | skip
        · cases h2; exact ⟨this.sight _ _ _, this⟩
        · exact ⟨this.sight _ _ _, this⟩
        · exact ⟨this.sight _ _ _, this⟩

theorem run_agree {s : State} {v : Values} (h : Agree s v) (calls : List Call) : s.run grow calls = v.run calls := by
  induction calls generalizing s v with
  | nil => rfl
  | cons c rest ih =>
    unfold State.run Values.run
    rw [(step_agree h c).1, ih (step_agree h c).2]

theorem openFloppy_run {m : Mem} {raw : Slice} (hv : Valid m raw) (order : DiskOrder) :
    (∃ O, openBytes (bytesOf m raw) order = .ok O ∧
      ∃ x o, openFloppy grow raw order m = (.ok o, m ++ x) ∧ m.length ≤ o.data.arr ∧ m.length ≤ o.sm.arr ∧ Rep (m ++ x) o O) ∨
    ∃ k : Out Unit, (∀ a, k ≠ .ok a) ∧ outcome (openBytes (bytesOf m raw) order) = k ∧
      ∃ x, outcome (openFloppy grow raw order m).1 = k ∧ (openFloppy grow raw order m).2 = m ++ x := by
  unfold openBytes openFloppy
  rcases swizzle_run (logicalToPhysicalByName order) hv rfl with ⟨b, h1, x, r, h2, hv1, ha1, hb⟩ | ⟨k, hk, h1, x, h2, h3⟩
  case inr => exact Or.inr ⟨k, hk, out_bind_fail hk h1, x, bind_fail hk h2 h3⟩
  rw [h1, Out.bind_ok, bind_ok h2]
  rcases swizzle_run (physicalToLogicalByName orderRaw) hv1 hb with ⟨b', h1', x', r', h2', hv', ha', hb'⟩ | ⟨k, hk, h1', x', h2', h3'⟩
  case inr =>
    rw [List.append_assoc] at h3'
    refine Or.inr ⟨k, hk, out_bind_fail hk h1', x ++ x', ?_⟩
    generalize hM : m ++ x = M at *
    have := bind_fail (f := openOperator grow) (y := x') hk h2' (by rw [h3', ← hM, List.append_assoc])
    exact ⟨this.1, this.2.trans (by rw [← hM, List.append_assoc])⟩
  rw [h1', Out.bind_ok, bind_ok h2']
  rw [List.length_append] at ha'
  rcases openOperator_run (grow := grow) hv' hb' with ⟨O, g1, y, o, g2, gd, gs, gr⟩ | ⟨k, hk, g1, y, g2, g3⟩
  · refine Or.inl ⟨O, g1, x ++ x' ++ y, o, ?_, ?_, ?_, ?_⟩
    · rw [g2]; simp only [List.append_assoc]
    · rw [gd]; omega
    · simp only [List.length_append] at gs; omega
    · simp only [List.append_assoc] at gr ⊢; exact gr
  · exact Or.inr ⟨k, hk, g1, x ++ x' ++ y, g2, by rw [g3]; simp only [List.append_assoc]⟩

/-- Opening a floppy image succeeds or fails as it does when slices are values, and leaves all memory that was there as it was. -/
theorem C113_open {m : Mem} {raw : Slice} (hv : Valid m raw) (order : DiskOrder) :
    outcome (openFloppy grow raw order m).1 = outcome (openBytes (bytesOf m raw) order) ∧ ∃ x, (openFloppy grow raw order m).2 = m ++ x := by
  rcases openFloppy_run (grow := grow) hv order with ⟨O, h1, x, o, h2, _⟩ | ⟨k, _, h1, x, h2, h3⟩
  · rw [h1, h2]; exact ⟨rfl, x, rfl⟩
  · exact ⟨h2.trans h1.symm, x, h3⟩

/-- A program that has opened a floppy image from a slice `raw`, and does anything with it, with `raw` and with what it gets, sees what it would see
if each slice were a value of its own: what it does to its own slices does not change the disk, what it does to the disk does not change them, and
data may be put on the disk from the disk itself. -/
theorem C113_values {m m' : Mem} {raw : Slice} {order : DiskOrder} {o : Op} (hv : Valid m raw) (h : openFloppy grow raw order m = (.ok o, m')) :
    ∃ O, openBytes (bytesOf m raw) order = .ok O ∧ ∀ calls, State.run grow ⟨o, [raw], m'⟩ calls = Values.run ⟨O, [bytesOf m raw]⟩ calls := by
  rcases openFloppy_run (grow := grow) hv order with ⟨O, h1, x, o', h2, hd, hs, hr⟩ | ⟨k, hk, h1, x, h2, h3⟩
  · rw [h2] at h
    cases h
    refine ⟨O, h1, fun calls => run_agree ⟨hr, ?_, ?_, ?_, ?_⟩ calls⟩
    · show [bytesOf (m ++ x) raw] = _
      rw [bytesOf_append hv.arr]
    · intro t ht
      rw [List.mem_singleton.1 ht]
      exact hv.append x
    · intro t ht
      rw [List.mem_singleton.1 ht]
      have := hv.arr
      exact ⟨by show raw.arr ≠ o.data.arr; omega, by show raw.arr ≠ o.sm.arr; omega⟩
    · simp
  · rw [h] at h2
    exact absurd h2.symm (hk ())

/-- The operator itself makes no copy of the disk (`Swizzle` did): over a slice of the caller it is that slice. -/
theorem C113_adopts {m m' : Mem} {d : Slice} {o : Op} (hv : Valid m d) (h : openOperator grow d m = (.ok o, m')) :
    ∃ O, Supermon.openOperator (bytesOf m d) = .ok O ∧ (∀ calls, State.run grow ⟨o, [], m'⟩ calls = Values.run ⟨O, []⟩ calls) ∧
      ∀ i, i < d.len → ∀ b, (State.step grow ⟨o, [d], m'⟩ (.write 0 i b)).1.disk = (bytesOf m d).set i b := by
  rcases openOperator_run (grow := grow) hv rfl with ⟨O, h1, x, o', h2, hd, hs, hr⟩ | ⟨k, hk, h1, x, h2, h3⟩
  · rw [h2] at h
    cases h
    refine ⟨O, h1, fun calls => run_agree ⟨hr, rfl, (fun t ht => absurd ht (by simp)), (fun t ht => absurd ht (by simp)), by simp⟩ calls, ?_⟩
    intro i hi b
    have hv' := hv.append x
    have e : (State.step grow ⟨o, [d], m ++ x⟩ (.write 0 i b)).1.disk = bytesOf (setIndex d i b (m ++ x)).2 o.data := rfl
    rw [e, setIndex_run hv' hi, hd]
    have hl := bytesOf_length hv'
    rw [bytesOf_store_same hv' (by rw [List.length_set, hl]), bytesOf_append hv.arr]
  · rw [h] at h2
    exact absurd h2.symm (hk ())

/-- The hypotheses of `C113_values` hold for a disk with a symbol table, in a slice that is in the middle of a larger array. -/
example : ∃ (m m' : Mem) (raw : Slice) (o : Op), Valid m raw ∧ raw.len = 143360 ∧ 0 < raw.off ∧ openFloppy grow raw orderDO m = (.ok o, m') := by
  obtain ⟨img, sm, hg, ho, _⟩ := tabled
  have hl : img.length = 143360 := hg.len
  have hm1 : orderDO ∈ [orderDO, orderPO, orderRaw] := by simp
  have hm2 : orderRaw ∈ [orderDO, orderPO, orderRaw] := by simp
  have hrl := viewOf_length hm2 hm1 hl
  have hback := viewOf_viewOf hm2 hm1 hl
  generalize viewOf orderRaw orderDO img = b at hrl hback
  have hv : Valid [[7] ++ b ++ [7]] ⟨0, 1, 143360, 143361⟩ := by
    refine ⟨by simp, ?_, by decide⟩
    show 1 + 143361 ≤ ([7] ++ b ++ [7]).length
    simp only [List.length_append, List.length_singleton]
    omega
  have hb : bytesOf [[7] ++ b ++ [7]] ⟨0, 1, 143360, 143361⟩ = b := by
    unfold bytesOf slice
    show (([7] ++ b ++ [7]).drop 1).take 143360 = b
    rw [List.append_assoc]
    show (b ++ [7]).take 143360 = b
    rw [List.take_left' hrl]
  have hopen : openBytes b orderDO = .ok ⟨img, sm, some chainTable⟩ := by
    unfold openBytes
    rw [(swizzle_named_l2p hm1 hrl).1, Out.bind_ok, (swizzle_named_p2l hm2 (swizzle_named_l2p hm1 hrl).2).1, Out.bind_ok]
    have : swizzled (swizzled b (logicalToPhysicalByName orderDO)) (physicalToLogicalByName orderRaw) = img := hback
    rw [this, ho]
  rcases openFloppy_run (grow := grow) hv orderDO with ⟨O, h1, x, o', h2, hd, hs, hr⟩ | ⟨k, hk, h1, x, h2, h3⟩
  · exact ⟨_, _, _, o', hv, rfl, by decide, h2⟩
  · rw [hb, hopen] at h1
    exact absurd h1.symm (hk ())

end Verif.Heap
