import Verif.Proofs.HeapOp
import Verif.Spec.Values

/-!
# Lemmas for C113: the slices of a caller
-/

set_option autoImplicit false

namespace Verif.Spec
open Disk Supermon Heap

theorem setIndex_run {m : Mem} {t : Slice} (h : Valid m t) {i : Nat} (hi : i < t.len) (b : UInt8) :
    setIndex t i b m = (.ok (), store t ((bytesOf m t).set i b) m) := by
  have hl := bytesOf_length h
  unfold setIndex
  rw [if_pos hi, store_part h (lo := i) ⟨t.arr, t.off + i, 1, 1⟩ rfl rfl (by show i + 1 ≤ _; omega)]
  have : put (bytesOf m t) i [b] = (bytesOf m t).set i b := by
    rw [List.set_eq_take_append_cons_drop, if_pos (by omega)]
    unfold put
    simp
  rw [this]

theorem setIndex_out {m : Mem} {t : Slice} {i : Nat} (hi : ¬ i < t.len) (b : UInt8) : setIndex t i b m = (.panic, m) := by
  unfold setIndex
  rw [if_neg hi]

/-- The state and the values agree, and no two slices share an array. -/
structure Agree (s : State) (v : Values) : Prop where
  rep : Rep s.mem s.op v.op
  mine : s.mine.map (bytesOf s.mem) = v.mine
  valid : ∀ t ∈ s.mine, Valid s.mem t
  apart : ∀ t ∈ s.mine, t.arr ≠ s.op.data.arr ∧ t.arr ≠ s.op.sm.arr
  distinct : (s.mine.map Slice.arr).Nodup

theorem Agree.sight {s : State} {v : Values} (h : Agree s v) (out : Out Unit) (e : Bool) (f : Option Bytes) : s.sight out e f = v.sight out e f := by
  have hc : (s.op.catalog s.mem).1 = .ok v.op.catalog := by
    unfold Op.catalog
    rw [bind_ok (theMap_run h.rep.disks), h.rep.st]
    rfl
  unfold State.sight Values.sight
  rw [h.mine, h.rep.disks.hd, hc]

theorem Agree.grow {s : State} {v : Values} (h : Agree s v) (x : Mem) : Agree { s with mem := s.mem ++ x } v := by
  refine ⟨⟨h.rep.disks.append x, h.rep.st⟩, ?_, fun t ht => (h.valid t ht).append x, h.apart, h.distinct⟩
  rw [← h.mine]
  exact List.map_congr_left fun t ht => bytesOf_append (h.valid t ht).arr x

/-- One more slice, in an array that was not there. -/
theorem Agree.add {s : State} {v : Values} (h : Agree s v) (x : Mem) {t : Slice} {b : Bytes} (ht : Valid (s.mem ++ x) t) (ha : s.mem.length ≤ t.arr)
    (hb : bytesOf (s.mem ++ x) t = b) : Agree { s with mine := s.mine ++ [t], mem := s.mem ++ x } { v with mine := v.mine ++ [b] } := by
  have hg := h.grow x
  refine ⟨hg.rep, ?_, ?_, ?_, ?_⟩
  · show (s.mine ++ [t]).map _ = _
    rw [List.map_append, hg.mine, List.map_singleton, hb]
  · intro u hu
    rcases List.mem_append.1 hu with hu | hu
    · exact hg.valid u hu
    · rw [List.mem_singleton.1 hu]; exact ht
  · intro u hu
    rcases List.mem_append.1 hu with hu | hu
    · exact h.apart u hu
    · rw [List.mem_singleton.1 hu]
      have h1 := h.rep.disks.vd.arr
      have h2 := h.rep.disks.vsm.arr
      exact ⟨by show t.arr ≠ s.op.data.arr; omega, by show t.arr ≠ s.op.sm.arr; omega⟩
  · show ((s.mine ++ [t]).map Slice.arr).Nodup
    rw [List.map_append, List.nodup_append]
    refine ⟨h.distinct, by simp, ?_⟩
    intro a ha' b hb' e
    obtain ⟨u, hu, rfl⟩ := List.mem_map.1 ha'
    have : b = t.arr := by simpa using hb'
    have := (h.valid u hu).arr
    omega

/-- A call that changes the disk. -/
theorem Agree.call {s : State} {v : Values} (h : Agree s v) {r : Heap.Res} {R : Operator.Res} (hs : Same s.mem s.op v.op r R) :
    Agree { s with op := r.op, mem := r.mem } { v with op := R.op } := by
  refine ⟨hs.rep h.rep, ?_, ?_, ?_, h.distinct⟩
  · rw [← h.mine]
    exact List.map_congr_left fun t ht => (hs.mem.other h.rep.disks hs.len (h.valid t ht) (h.apart t ht).1 (h.apart t ht).2).2
  · intro t ht
    exact (hs.mem.other h.rep.disks hs.len (h.valid t ht) (h.apart t ht).1 (h.apart t ht).2).1
  · intro t ht
    show t.arr ≠ r.op.data.arr ∧ t.arr ≠ r.op.sm.arr
    rw [hs.data, hs.sm]
    exact h.apart t ht

theorem Agree.poke {s : State} {v : Values} (h : Agree s v) (b : Bytes) (hb : b.length = s.op.data.len) :
    Agree { s with mem := store s.op.data b s.mem } { v with op := { v.op with data := b } } := by
  have hl : b.length = v.op.data.length := by rw [hb, h.rep.disks.dlen]
  have ha : After s.mem s.op.data s.op.sm b v.op.sm (store s.op.data b s.mem) := After.toImg h.rep.disks b
  refine ⟨⟨ha.disks h.rep.disks hl, h.rep.st⟩, ?_, ?_, h.apart, h.distinct⟩
  · rw [← h.mine]
    exact List.map_congr_left fun t ht => (ha.other h.rep.disks hl (h.valid t ht) (h.apart t ht).1 (h.apart t ht).2).2
  · intro t ht
    exact (ha.other h.rep.disks hl (h.valid t ht) (h.apart t ht).1 (h.apart t ht).2).1

theorem Agree.write {s : State} {v : Values} (h : Agree s v) {k : Nat} {t : Slice} (hk : s.mine[k]? = some t) (b : Bytes) (hb : b.length = t.len) :
    Agree { s with mem := store t b s.mem } { v with mine := v.mine.set k b } := by
  have ht : t ∈ s.mine := List.mem_of_getElem? hk
  have hv := h.valid t ht
  have hc : b.length ≤ t.cap := by rw [hb]; exact hv.len
  have hd := h.rep.disks
  obtain ⟨n1, n2⟩ := h.apart t ht
  refine ⟨⟨⟨hd.vd.store hv hc, hd.vsm.store hv hc, hd.ne, ?_, ?_⟩, h.rep.st⟩, ?_, fun u hu => (h.valid u hu).store hv hc, h.apart, h.distinct⟩
  · rw [← hd.hd]; exact bytesOf_store_other (Ne.symm n1) b
  · rw [← hd.hsm]; exact bytesOf_store_other (Ne.symm n2) b
  · show s.mine.map (bytesOf (store t b s.mem)) = v.mine.set k b
    rw [← h.mine]
    apply List.ext_getElem?
    intro i
    rw [List.getElem?_map, List.getElem?_set, List.getElem?_map, List.length_map]
    by_cases hik : k = i
    · subst hik
      rw [if_pos rfl, hk, if_pos (List.getElem?_eq_some_iff.1 hk).1]
      rw [Option.map_some, bytesOf_store_same hv hb]
    · rw [if_neg hik]
      cases hi : s.mine[i]? with
      | none => rfl
      | some u =>
        rw [Option.map_some, Option.map_some, bytesOf_store_other]
        intro e
        have h1 := List.getElem?_eq_some_iff.1 hk
        have h2 := List.getElem?_eq_some_iff.1 hi
        obtain ⟨l1, e1⟩ := h1
        obtain ⟨l2, e2⟩ := h2
        have := (List.nodup_iff_pairwise_ne.1 h.distinct)
        rw [List.pairwise_iff_getElem] at this
        rcases Nat.lt_or_gt_of_ne hik with hlt | hlt
        · refine this k i (by simpa using l1) (by simpa using l2) hlt ?_
          rw [List.getElem_map, List.getElem_map, e1, e2, e]
        · refine this i k (by simpa using l2) (by simpa using l1) hlt ?_
          rw [List.getElem_map, List.getElem_map, e1, e2, e]

theorem Agree.piece {s : State} {v : Values} (h : Agree s v) (p : Piece) :
    (∃ t, s.piece p = some t ∧ Valid s.mem t ∧ v.piece p = some (bytesOf s.mem t)) ∨ s.piece p = none ∧ v.piece p = none := by
  have key : ∀ t lo hi, Valid s.mem t → (lo ≤ hi ∧ hi ≤ t.len) → cut (bytesOf s.mem t) lo hi = some (bytesOf s.mem ⟨t.arr, t.off + lo, hi - lo, t.cap - lo⟩) := by
    intro t lo hi hv hlh
    unfold cut
    rw [bytesOf_length hv, if_pos hlh]
    exact congrArg some (bytesOf_part hlh.1 hlh.2).symm
  have key2 : ∀ t lo hi, Valid s.mem t → ¬ (lo ≤ hi ∧ hi ≤ t.len) → cut (bytesOf s.mem t) lo hi = none := by
    intro t lo hi hv hlh
    unfold cut
    rw [bytesOf_length hv, if_neg hlh]
  cases p with
  | mine k lo hi =>
    unfold State.piece Values.piece
    dsimp only
    rw [← h.mine, List.getElem?_map]
    cases hk : s.mine[k]? with
    | none => exact Or.inr ⟨rfl, rfl⟩
    | some t =>
      have hv := h.valid t (List.mem_of_getElem? hk)
      rw [Option.map_some, Option.bind_some, Option.bind_some]
      by_cases hlh : lo ≤ hi ∧ hi ≤ t.len
      · rw [if_pos hlh]
        exact Or.inl ⟨_, rfl, part_valid hv hlh.1 (Nat.le_trans hlh.2 hv.len), key t lo hi hv hlh⟩
      · rw [if_neg hlh]
        exact Or.inr ⟨rfl, key2 t lo hi hv hlh⟩
  | disk lo hi =>
    unfold State.piece Values.piece
    dsimp only
    rw [← h.rep.disks.hd]
    have hv := h.rep.disks.vd
    by_cases hlh : lo ≤ hi ∧ hi ≤ s.op.data.len
    · rw [if_pos hlh]
      exact Or.inl ⟨_, rfl, part_valid hv hlh.1 (Nat.le_trans hlh.2 hv.len), key _ lo hi hv hlh⟩
    · rw [if_neg hlh]
      exact Or.inr ⟨rfl, key2 _ lo hi hv hlh⟩

/-- A chain of two swizzles. -/
theorem swizzle2_run {m : Mem} {d : Slice} {img : Bytes} (o1 o2 : List Int) (hd : Valid m d) (hi : bytesOf m d = img) :
    (∃ b, (Disk.swizzle img o1 >>= fun p => Disk.swizzle p o2) = .ok b ∧ ∃ x r, (Heap.swizzle d o1 >>= fun p => Heap.swizzle p o2) m = (.ok r, m ++ x) ∧
      Valid (m ++ x) r ∧ m.length ≤ r.arr ∧ bytesOf (m ++ x) r = b) ∨
    ∃ k : Out Unit, (∀ a, k ≠ .ok a) ∧ outcome (Disk.swizzle img o1 >>= fun p => Disk.swizzle p o2) = k ∧
      ∃ x, outcome ((Heap.swizzle d o1 >>= fun p => Heap.swizzle p o2) m).1 = k ∧ ((Heap.swizzle d o1 >>= fun p => Heap.swizzle p o2) m).2 = m ++ x := by
  rcases swizzle_run o1 hd hi with ⟨b, h1, x, r, h2, hv, ha, hb⟩ | ⟨k, hk, h1, x, h2, h3⟩
  · rw [h1, Out.bind_ok, bind_ok h2]
    rcases swizzle_run o2 hv hb with ⟨b', h1', x', r', h2', hv', ha', hb'⟩ | ⟨k, hk, h1', x', h2', h3'⟩
    · refine Or.inl ⟨b', h1', x ++ x', r', ?_, ?_, ?_, ?_⟩
      · rw [h2', List.append_assoc]
      · rw [← List.append_assoc]; exact hv'
      · rw [List.length_append] at ha'; omega
      · rw [← List.append_assoc]; exact hb'
    · exact Or.inr ⟨k, hk, h1', x ++ x', h2', by rw [h3', List.append_assoc]⟩
  · right
    generalize hh : Heap.swizzle d o1 m = r at h2 h3
    obtain ⟨o, m'⟩ := r
    dsimp only at h2 h3
    subst h3
    cases ho : Disk.swizzle img o1 <;> rw [ho] at h1 <;> cases o <;> cases h1 <;> first | (exact absurd rfl (hk _)) | skip
    all_goals first | (cases h2; done) | skip
    · cases h2; rw [bind_err hh]; exact ⟨_, hk, rfl, x, rfl, rfl⟩
    · rw [bind_panic hh]; exact ⟨_, hk, rfl, x, rfl, rfl⟩
    · rw [bind_timeout hh]; exact ⟨_, hk, rfl, x, rfl, rfl⟩

end Verif.Spec
