import Verif.Proofs.ValuesDos3
import Verif.Proofs.Open
import Verif.Props.Dos3Wit

/-!
# C113 for DOS 3.3 disks
-/

set_option autoImplicit false

namespace Verif.HeapDos3
open Disk Heap Spec

variable {grow : Nat → Nat → Nat}

theorem step_agree {s : Dos3State} {v : Dos3Values} (h : Agree3 s v) (c : Call) :
    (s.step grow c).1 = (v.step c).1 ∧ Agree3 (s.step grow c).2 (v.step c).2 := by
  cases c with
  | make b =>
    unfold Dos3State.step Dos3Values.step
    dsimp only
    rw [alloc_run]
    have := h.add [b] (fresh_valid s.mem b [] (Nat.le_refl _) (Nat.le_refl _)) (Nat.le_refl _) (bytesOf_fresh s.mem b [] _ rfl)
    exact ⟨this.sight _ _, this⟩
  | get name =>
    unfold Dos3State.step Dos3Values.step
    dsimp only
    rcases getFile_run (grow := grow) h.vd h.hd name with ⟨f, h1, x, r, h2, hb, hv, ha⟩ | ⟨k, hk, h1, x, h2, h3⟩
    · rw [show v.op = ⟨v.op.data⟩ from rfl, h1, h2]
      have := h.add x hv ha hb
      exact ⟨this.sight _ _, this⟩
    · generalize getFile grow s.disk name s.mem = r at h2 h3
      obtain ⟨o, m'⟩ := r
      dsimp only at h2 h3
      subst h3
      have := h.grow x
      change outcome (v.op.getFile name) = k at h1
      generalize v.op.getFile name = q at h1
      cases o <;> cases q <;> cases h1 <;> first | (exact absurd rfl (hk _)) | skip
      all_goals first | (cases h2; done) | skip
      · cases h2; exact ⟨this.sight _ _, this⟩
      · exact ⟨this.sight _ _, this⟩
      · exact ⟨this.sight _ _, this⟩
  | put name p ow =>
    unfold Dos3State.step Dos3Values.step
    dsimp only
    rcases h.piece p with ⟨t, h1, h2⟩ | ⟨h1, h2⟩
    · rw [h1, h2]
      exact ⟨h.sight _ _, h⟩
    · rw [h1, h2]
      exact ⟨h.sight _ _, h⟩
  | delete name => exact ⟨h.sight _ _, h⟩
  | write k i b =>
    unfold Dos3State.step Dos3Values.step
    dsimp only
    have hm : v.mine[k]? = s.mine[k]?.map (bytesOf s.mem) := by rw [← h.own.holds, List.getElem?_map]
    rw [hm]
    cases hk : s.mine[k]? with
    | none => exact ⟨h.sight _ _, h⟩
    | some t =>
      have hv := h.own.valid t (List.mem_of_getElem? hk)
      have hl := bytesOf_length hv
      rw [Option.map_some]
      dsimp only
      by_cases hi : i < t.len
      · rw [setIndex_run hv hi, if_pos (by omega)]
        have := h.write hk ((bytesOf s.mem t).set i b) (by rw [List.length_set, hl])
        exact ⟨this.sight _ _, this⟩
      · rw [setIndex_out hi, if_neg (by omega)]
        exact ⟨h.sight _ _, h⟩
  | poke i b =>
    unfold Dos3State.step Dos3Values.step
    dsimp only
    have hl := bytesOf_length h.vd
    rw [h.hd] at hl
    by_cases hi : i < s.disk.len
    · rw [setIndex_run h.vd hi, if_pos (by omega), h.hd]
      have := h.poke (v.op.data.set i b) (by rw [List.length_set, hl])
      exact ⟨this.sight _ _, this⟩
    · rw [setIndex_out hi, if_neg (by omega)]
      exact ⟨h.sight _ _, h⟩
  | save order =>
    have hl := bytesOf_length h.vd
    rw [h.hd] at hl
    unfold Dos3State.step Dos3Values.step writeBack writeBackBytes
    dsimp only
    rw [show OperatorLike.getBytes v.op = v.op.data from rfl, hl]
    by_cases hl : s.disk.len ≠ floppyDiskBytes
    · rw [if_pos hl, if_pos hl]
      show ((s.sight (.ok ()) (file := some (bytesOf s.mem s.disk)), s) : Sight × Dos3State).1 = _ ∧ _
      rw [h.hd]
      exact ⟨h.sight _ _, h⟩
    · rw [if_neg hl, if_neg hl]
      rw [show OperatorLike.diskOrder v.op = orderDO from rfl]
      rcases swizzle2_run (logicalToPhysicalByName orderDO) (physicalToLogicalByName order) h.vd h.hd with
        ⟨b, h1, x, r, h2, hv, ha, hb⟩ | ⟨k, hk, h1, x, h2, h3⟩
      · rw [h1, h2]
        dsimp only
        rw [hb]
        have := h.grow x
        exact ⟨this.sight _ _, this⟩
      · generalize (Heap.swizzle s.disk (logicalToPhysicalByName orderDO) >>= fun p => Heap.swizzle p (physicalToLogicalByName order)) s.mem = r at h2 h3
        obtain ⟨o, m'⟩ := r
        dsimp only at h2 h3
        subst h3
        have := h.grow x
        generalize (Disk.swizzle v.op.data (logicalToPhysicalByName orderDO) >>= fun p => Disk.swizzle p (physicalToLogicalByName order)) = q at h1
        cases o <;> cases q <;> cases h1 <;> first | (exact absurd rfl (hk _)) | skip
        all_goals first | (cases h2; done) | skip
        · cases h2; exact ⟨this.sight _ _, this⟩
        · exact ⟨this.sight _ _, this⟩
        · exact ⟨this.sight _ _, this⟩

theorem run_agree {s : Dos3State} {v : Dos3Values} (h : Agree3 s v) (calls : List Call) : s.run grow calls = v.run calls := by
  induction calls generalizing s v with
  | nil => rfl
  | cons c rest ih =>
    unfold Dos3State.run Dos3Values.run
    rw [(step_agree h c).1, ih (step_agree h c).2]

theorem openFloppy_run {m : Mem} {raw : Slice} (hv : Valid m raw) (order : DiskOrder) :
    (∃ O, openDos3Bytes (bytesOf m raw) order = .ok O ∧
      ∃ x d, openFloppy raw order m = (.ok d, m ++ x) ∧ m.length ≤ d.arr ∧ Valid (m ++ x) d ∧ bytesOf (m ++ x) d = O.data) ∨
    ∃ k : Out Unit, (∀ a, k ≠ .ok a) ∧ outcome (openDos3Bytes (bytesOf m raw) order) = k ∧
      ∃ x, outcome (openFloppy raw order m).1 = k ∧ (openFloppy raw order m).2 = m ++ x := by
  have e : openDos3Bytes (bytesOf m raw) order =
      (Disk.swizzle (bytesOf m raw) (logicalToPhysicalByName order) >>= fun p => Disk.swizzle p (physicalToLogicalByName orderDO)) >>= fun b => .ok ⟨b⟩ := by
    unfold openDos3Bytes
    cases Disk.swizzle (bytesOf m raw) (logicalToPhysicalByName order) <;> rfl
  rw [e]
  unfold openFloppy
  rcases swizzle2_run (logicalToPhysicalByName order) (physicalToLogicalByName orderDO) hv rfl with ⟨b, h1, x, r, h2, hv, ha, hb⟩ | ⟨k, hk, h1, x, h2, h3⟩
  · rw [h1, Out.bind_ok]
    exact Or.inl ⟨_, rfl, x, r, h2, ha, hv, hb⟩
  · exact Or.inr ⟨k, hk, out_bind_fail hk h1, x, h2, h3⟩

/-- Opening a floppy image as DOS 3.3 succeeds or fails as it does when slices are values, and leaves all memory that was there as it was. -/
theorem C113_dos3_open {m : Mem} {raw : Slice} (hv : Valid m raw) (order : DiskOrder) :
    outcome (openFloppy raw order m).1 = outcome (openDos3Bytes (bytesOf m raw) order) ∧ ∃ x, (openFloppy raw order m).2 = m ++ x := by
  rcases openFloppy_run hv order with ⟨O, h1, x, o, h2, _⟩ | ⟨k, _, h1, x, h2, h3⟩
  · rw [h1, h2]; exact ⟨rfl, x, rfl⟩
  · exact ⟨h2.trans h1.symm, x, h3⟩

/-- A program that has opened a DOS 3.3 floppy image from a slice `raw`, and does anything with it, with `raw` and with the files it gets, sees what
it would see if each slice were a value of its own. -/
theorem C113_dos3_values {m m' : Mem} {raw d : Slice} {order : DiskOrder} (hv : Valid m raw) (h : openFloppy raw order m = (.ok d, m')) :
    ∃ O, openDos3Bytes (bytesOf m raw) order = .ok O ∧ ∀ calls, Dos3State.run grow ⟨d, [raw], m'⟩ calls = Dos3Values.run ⟨O, [bytesOf m raw]⟩ calls := by
  rcases openFloppy_run hv order with ⟨O, h1, x, o', h2, ha, hd, hb⟩ | ⟨k, hk, h1, x, h2, h3⟩
  · rw [h2] at h
    cases h
    refine ⟨O, h1, fun calls => run_agree ⟨hd, hb, ?_, ?_, ?_, ?_⟩ calls⟩
    · show [bytesOf (m ++ x) raw] = _
      rw [bytesOf_append hv.arr]
    · intro t ht
      rw [List.mem_singleton.1 ht]
      exact hv.append x
    · intro t ht
      rw [List.mem_singleton.1 ht]
      have := hv.arr
      show raw.arr ≠ d.arr
      omega
    · simp
  · rw [h] at h2
    exact absurd h2.symm (hk ())

/-- The operator itself makes no copy: it is the slice it is given. -/
theorem C113_dos3_adopts {m : Mem} {d : Slice} (hv : Valid m d) :
    (∀ calls, Dos3State.run grow ⟨d, [], m⟩ calls = Dos3Values.run ⟨⟨bytesOf m d⟩, []⟩ calls) ∧
      ∀ i, i < d.len → ∀ b, (Dos3State.step grow ⟨d, [d], m⟩ (.write 0 i b)).1.disk = (bytesOf m d).set i b := by
  refine ⟨fun calls => run_agree ⟨hv, rfl, rfl, (fun t ht => absurd ht (by simp)), (fun t ht => absurd ht (by simp)), by simp⟩ calls, ?_⟩
  intro i hi b
  have e : (Dos3State.step grow ⟨d, [d], m⟩ (.write 0 i b)).1.disk = bytesOf (setIndex d i b m).2 d := rfl
  rw [e, setIndex_run hv hi, bytesOf_store_same hv (by rw [List.length_set, bytesOf_length hv])]

theorem opened {m : Mem} {raw : Slice} {b : Bytes} {order : DiskOrder} {O : Dos3.Operator} (hv : Valid m raw) (hb : bytesOf m raw = b)
    (ho : openDos3Bytes b order = .ok O) :
    ∃ m' d, openFloppy raw order m = (.ok d, m') ∧ ∀ calls, Dos3State.run grow ⟨d, [raw], m'⟩ calls = Dos3Values.run ⟨O, [b]⟩ calls := by
  subst hb
  rcases openFloppy_run hv order with ⟨O', h1, x, d, h2, _⟩ | ⟨k, hk, h1, x, h2, h3⟩
  · obtain ⟨O'', e, hrun⟩ := C113_dos3_values (grow := grow) hv h2
    rw [ho] at e
    cases e
    exact ⟨_, d, h2, hrun⟩
  · rw [ho] at h1
    exact absurd h1.symm (hk ())

theorem inside {b : Bytes} {n : Nat} (hb : b.length = n) : Valid [7 :: (b ++ [7])] ⟨0, 1, n, n + 1⟩ ∧ bytesOf [7 :: (b ++ [7])] ⟨0, 1, n, n + 1⟩ = b := by
  refine ⟨⟨by simp, ?_, by simp⟩, ?_⟩
  · show 1 + (n + 1) ≤ (7 :: (b ++ [7])).length
    simp only [List.length_cons, List.length_append, List.length_nil]
    omega
  · unfold bytesOf slice
    show (b ++ [7]).take n = b
    rw [List.take_left' hb]

theorem viewed {img : Bytes} (hl : img.length = 143360) : ∃ b, b.length = 143360 ∧ openDos3Bytes b orderPO = .ok ⟨img⟩ := by
  have hm1 : orderPO ∈ [orderDO, orderPO, orderRaw] := by simp
  have hm2 : orderDO ∈ [orderDO, orderPO, orderRaw] := by simp
  have hrl := viewOf_length hm2 hm1 hl
  have hback := viewOf_viewOf hm2 hm1 hl
  refine ⟨_, hrl, ?_⟩
  generalize viewOf orderDO orderPO img = b at hrl hback
  unfold openDos3Bytes
  rw [(swizzle_named_l2p hm1 hrl).1, Out.bind_ok, (swizzle_named_p2l hm2 (swizzle_named_l2p hm1 hrl).2).1, Out.bind_ok]
  have : swizzled (swizzled b (logicalToPhysicalByName orderPO)) (physicalToLogicalByName orderDO) = img := hback
  rw [this]

/-- The hypotheses of `C113_dos3_values` hold for a disk with files, in a slice that is in the middle of a larger array; a program that gets a file,
writes into it and gets it again sees the file as it was. -/
example : ∃ (m m' : Mem) (raw d : Slice), Valid m raw ∧ raw.len = 143360 ∧ 0 < raw.off ∧ openFloppy raw orderPO m = (.ok d, m') ∧
    (Dos3State.run grow ⟨d, [raw], m'⟩ [.get (str "HI"), .write 1 0 7, .get (str "HI")]).map (fun s => (s.out, s.mine.drop 1)) =
      [(.ok (), [[0xC8, 0xC9, 0x8D]]), (.ok (), [[7, 0xC9, 0x8D]]), (.ok (), [[7, 0xC9, 0x8D], [0xC8, 0xC9, 0x8D]])] := by
  obtain ⟨fi, hg, hfi⟩ := Dos3.exDisk_hi
  have hl : Dos3.exDisk.length = 143360 := Dos3.exDisk_length
  generalize Dos3.exDisk = img at hg hl
  obtain ⟨b, hb, ho⟩ := viewed hl
  obtain ⟨hv, hi⟩ := inside hb
  obtain ⟨m', d, h2, hrun⟩ := opened (grow := grow) hv hi ho
  refine ⟨_, m', _, d, hv, rfl, Nat.one_pos, h2, ?_⟩
  rw [hrun]
  have hs : ∀ v : Dos3Values, v.op = ⟨img⟩ → v.step (.get (str "HI")) = (⟨.ok (), false, v.mine ++ [[0xC8, 0xC9, 0x8D]], img, Dos3.Operator.catalog ⟨img⟩ [], none⟩, ⟨⟨img⟩, v.mine ++ [[0xC8, 0xC9, 0x8D]]⟩) := by
    intro v hv
    obtain ⟨op, mine⟩ := v
    cases hv
    unfold Dos3Values.step
    dsimp only
    rw [hg]
    dsimp only
    rw [hfi]
    rfl
  unfold Dos3Values.run
  rw [hs _ rfl]
  unfold Dos3Values.run
  unfold Dos3Values.run
  rw [hs _ rfl]
  rfl

end Verif.HeapDos3
