import Verif.Proofs.Heap

/-!
# Lemmas: the NakedOS operator on slices in memory
-/

set_option autoImplicit false

namespace Verif.Heap
open Disk Supermon

theorem bind_fail {α β : Type} {x : M α} {f : α → M β} {m y : Mem} {k : Out Unit} (hk : ∀ a, k ≠ .ok a) (h1 : outcome (x m).1 = k)
    (h2 : (x m).2 = m ++ y) : outcome ((x >>= f) m).1 = k ∧ ((x >>= f) m).2 = m ++ y := by
  generalize hh : x m = r at h1 h2
  obtain ⟨o, m'⟩ := r
  cases o with
  | ok a => exact absurd h1.symm (hk ())
  | err e => rw [bind_err hh]; exact ⟨h1, h2⟩
  | panic => rw [bind_panic hh]; exact ⟨h1, h2⟩
  | timeout => rw [bind_timeout hh]; exact ⟨h1, h2⟩

theorem out_bind_fail {α β : Type} {x : Out α} {f : α → Out β} {k : Out Unit} (hk : ∀ a, k ≠ .ok a) (h1 : outcome x = k) : outcome (x >>= f) = k := by
  cases x with
  | ok a => exact absurd h1.symm (hk ())
  | err e => exact h1
  | panic => exact h1
  | timeout => exact h1

theorem bytesOf_fresh_take (m : Mem) (b : Bytes) (x : Mem) (n c : Nat) : bytesOf (m ++ b :: x) ⟨m.length, 0, n, c⟩ = b.take n := by
  unfold bytesOf
  dsimp only
  rw [List.getD_eq_getElem?_getD, List.getElem?_append_right (Nat.le_refl _)]
  simp [slice]

theorem store_right {m x : Mem} {s : Slice} (h : m.length ≤ s.arr) (b : Bytes) : ∃ x', store s b (m ++ x) = m ++ x' := by
  unfold store
  rw [List.set_append_right _ _ h]
  exact ⟨_, rfl⟩

/-- A slice with these bytes, in an array that is not of `m`. -/
structure New (m : Mem) (m' : Mem) (r : Slice) (b : Bytes) : Prop where
  bytes : bytesOf m' r = b
  len : r.len = b.length
  place : r.cap = 0 ∧ r.len = 0 ∨ Valid m' r ∧ m.length ≤ r.arr

theorem New.append {m m' : Mem} {r : Slice} {b : Bytes} (h : New m m' r b) (x : Mem) : New m (m' ++ x) r b := by
  rcases h.place with h0 | ⟨hv, ha⟩
  · refine ⟨?_, h.len, Or.inl h0⟩
    have h1 := h.len
    rw [h0.2] at h1
    rw [List.eq_nil_of_length_eq_zero h1.symm]
    unfold bytesOf slice
    rw [h0.2, List.take_zero]
  · exact ⟨by rw [bytesOf_append hv.arr]; exact h.bytes, h.len, Or.inr ⟨hv.append x, ha⟩⟩

theorem append_run {grow : Nat → Nat → Nat} {m x : Mem} {r t : Slice} {bs b : Bytes} (hr : New m (m ++ x) r bs) (hv : Valid (m ++ x) t)
    (hb : bytesOf (m ++ x) t = b) (hb0 : 0 < b.length) : ∃ x' r', append grow r t (m ++ x) = (.ok r', m ++ x') ∧ New m (m ++ x') r' (bs ++ b) := by
  have htl : t.len = b.length := by rw [← hb]; exact (bytesOf_length hv).symm
  unfold append
  by_cases hc : r.len + t.len ≤ r.cap
  · rw [if_pos hc]
    rcases hr.place with h0 | ⟨hrv, ha⟩
    · omega
    · obtain ⟨x', hx'⟩ := store_right (m := m) (x := x) (s := ⟨r.arr, r.off + r.len, t.len, t.len⟩) ha (bytesOf (m ++ x) t)
      rw [hx']
      refine ⟨x', _, rfl, ?_⟩
      rw [← hx', hb]
      have hR : Valid (m ++ x) ⟨r.arr, r.off, r.cap, r.cap⟩ := ⟨hrv.arr, hrv.room, Nat.le_refl _⟩
      have hRl := bytesOf_length hR
      dsimp only at hRl
      rw [store_part hR (lo := r.len) ⟨r.arr, r.off + r.len, t.len, t.len⟩ rfl rfl (by show r.len + b.length ≤ r.cap; omega)]
      generalize hl : bytesOf (m ++ x) ⟨r.arr, r.off, r.cap, r.cap⟩ = l at *
      have hpl : (put l r.len b).length = r.cap := by rw [put_length (by omega), hRl]
      have hl' : l.take r.len = bs := by
        rw [← hr.bytes, ← hl]
        unfold bytesOf slice
        dsimp only
        rw [List.take_take, Nat.min_eq_left (by omega)]
      refine ⟨?_, by show r.len + t.len = _; rw [List.length_append, ← hr.len, htl], Or.inr ⟨?_, ha⟩⟩
      · have hR' : Valid (store ⟨r.arr, r.off, r.cap, r.cap⟩ (put l r.len b) (m ++ x)) ⟨r.arr, r.off, r.cap, r.cap⟩ :=
          hR.store hR (by rw [hpl]; exact Nat.le_refl _)
        have e := bytesOf_store_same hR (b := put l r.len b) hpl
        have e2 : ∀ M : Mem, bytesOf M ⟨r.arr, r.off, r.len + t.len, r.cap⟩ = (bytesOf M ⟨r.arr, r.off, r.cap, r.cap⟩).take (r.len + t.len) := by
          intro M
          unfold bytesOf slice
          dsimp only
          rw [List.take_take, Nat.min_eq_left (by omega)]
        rw [e2, e]
        unfold put
        rw [hl', List.take_left' (by rw [List.length_append, ← hr.len, htl])]
      · have hR' : Valid (m ++ x) ⟨r.arr, r.off, r.len + t.len, r.cap⟩ := ⟨hrv.arr, hrv.room, hc⟩
        exact hR'.store hR (by rw [hpl]; exact Nat.le_refl _)
  · rw [if_neg hc]
    refine ⟨x ++ [bs ++ b ++ zeros (grow r.cap (r.len + t.len))], ⟨(m ++ x).length, 0, r.len + t.len, r.len + t.len + grow r.cap (r.len + t.len)⟩, ?_, ?_⟩
    · rw [hr.bytes, hb, List.append_assoc m x]
    · rw [← List.append_assoc m x]
      refine ⟨?_, by show r.len + t.len = _; rw [List.length_append, ← hr.len, htl], Or.inr ⟨?_, by show m.length ≤ (m ++ x).length; simp⟩⟩
      · rw [bytesOf_fresh_take, List.take_left' (by rw [List.length_append, ← hr.len, htl])]
      · exact fresh_valid _ _ _ (by omega) (by rw [List.length_append, List.length_append, zeros_length, ← hr.len, ← htl]; exact Nat.le_refl _)

theorem readFileLoop_run {grow : Nat → Nat → Nat} {m : Mem} {d : Slice} {img : Bytes} (hd : Valid m d) (hi : bytesOf m d = img)
    (l : List (UInt8 × UInt8)) {x : Mem} {r : Slice} {bs : Bytes} (hr : New m (m ++ x) r bs) :
    (∃ b, Supermon.readFileLoop img l bs = .ok b ∧ ∃ x' r', readFileLoop grow d l r (m ++ x) = (.ok r', m ++ x') ∧ New m (m ++ x') r' b) ∨
    ∃ k, Supermon.readFileLoop img l bs = .err k ∧ ∃ x', readFileLoop grow d l r (m ++ x) = (.err k, m ++ x') := by
  induction l generalizing x r bs with
  | nil => exact Or.inl ⟨bs, rfl, x, r, rfl, hr⟩
  | cons ts rest ih =>
    unfold readFileLoop Supermon.readFileLoop
    rcases readSector_run (hd.append x) ts.1 ts.2 with ⟨b, h1, h2, h3⟩ | ⟨k, h1, h2⟩
    · rw [bytesOf_append hd.arr, hi] at h1
      rw [h1, Out.bind_ok, bind_ok h2]
      have hv := fresh_valid (m ++ x) b [] (n := 256) (Nat.le_refl _) (Nat.le_of_eq h3.symm)
      have hb := bytesOf_fresh (m ++ x) b [] 256 h3.symm
      rw [List.append_assoc] at hv hb ⊢
      have hr' := hr.append [b]
      rw [List.append_assoc] at hr'
      obtain ⟨x', r', e, hn⟩ := append_run (grow := grow) hr' hv hb (by omega)
      rw [bind_ok e]
      exact ih hn
    · rw [bytesOf_append hd.arr, hi] at h1
      rw [h1, bind_err h2]
      exact Or.inr ⟨k, rfl, x, rfl⟩

section
variable {grow : Nat → Nat → Nat} {m m' : Mem} {d sm : Slice} {img img' : Bytes} {v v' : SectorMap}

theorem readFile_run (h : Disks m d sm img v) (f : UInt8) :
    (∃ b, Supermon.readFile v img f = .ok b ∧ ∃ x r, readFile grow sm d f m = (.ok r, m ++ x) ∧ New m (m ++ x) r b) ∨
    ∃ k, Supermon.readFile v img f = .err k ∧ ∃ x, readFile grow sm d f m = (.err k, m ++ x) := by
  unfold readFile Supermon.readFile
  rw [bind_ok (theMap_run h)]
  have := readFileLoop_run (grow := grow) h.vd h.hd (sectorsForFile v f) (x := []) (r := nilSlice) (bs := []) ⟨by unfold bytesOf slice nilSlice; simp, rfl, Or.inl ⟨rfl, rfl⟩⟩
  rw [List.append_nil] at this
  exact this

theorem alloc_run (b : Bytes) (m : Mem) : alloc b m = (.ok ⟨m.length, 0, b.length, b.length⟩, m ++ [b]) := rfl

theorem writeSymbolTable_after (h : Disks m d sm img v) (st : SymbolTable) :
    ∃ m', writeSymbolTable sm d st m = ((Supermon.writeSymbolTable v img st).1, m') ∧
      After m d sm (Supermon.writeSymbolTable v img st).2.2 (Supermon.writeSymbolTable v img st).2.1 m' ∧
      (Supermon.writeSymbolTable v img st).2.2.length = img.length := by
  have h0 : After m d sm img v m := by have := After.refl h []; rw [List.append_nil] at this; exact this
  unfold writeSymbolTable Supermon.writeSymbolTable
  generalize fillTables st 0 (zeros 0x1000) (zeros 0x1000) = r
  cases r with
  | err k => exact ⟨m, rfl, h0, rfl⟩
  | panic => exact ⟨m, rfl, h0, rfl⟩
  | timeout => exact ⟨m, rfl, h0, rfl⟩
  | ok p =>
  obtain ⟨b1, b2⟩ := p
  dsimp only
  rw [alloc_run]
  dsimp only
  rw [alloc_run]
  dsimp only
  have hD := (h.append [b1]).append [b2]
  have hA := After.refl h ([b1] ++ [b2])
  rw [← List.append_assoc] at hA
  have hv1 : Valid (m ++ [b1] ++ [b2]) ⟨m.length, 0, b1.length, b1.length⟩ := (fresh_valid m b1 [] (Nat.le_refl _) (Nat.le_refl _)).append [b2]
  have hb1 : bytesOf (m ++ [b1] ++ [b2]) ⟨m.length, 0, b1.length, b1.length⟩ = b1 := by
    rw [bytesOf_append (by show m.length < _; simp), bytesOf_fresh m b1 [] _ rfl]
  have hv2 : Valid (m ++ [b1] ++ [b2]) ⟨(m ++ [b1]).length, 0, b2.length, b2.length⟩ := fresh_valid (m ++ [b1]) b2 [] (Nat.le_refl _) (Nat.le_refl _)
  have hb2 : bytesOf (m ++ [b1] ++ [b2]) ⟨(m ++ [b1]).length, 0, b2.length, b2.length⟩ = b2 := bytesOf_fresh (m ++ [b1]) b2 [] _ rfl
  have hn1 : (m ++ [b1]).length ≠ d.arr := by have := h.vd.arr; simp; omega
  have hn2 : (m ++ [b1]).length ≠ sm.arr := by have := h.vsm.arr; simp; omega
  obtain ⟨m1, e1, a1, l1⟩ := writeFile_after hD 3 hv1 true
  rw [hb1] at e1 a1 l1
  rw [e1]
  obtain ⟨hv2', hb2'⟩ := a1.other hD l1 hv2 hn1 hn2
  rw [hb2] at hb2'
  have a1' := After.trans h rfl l1 hA a1
  generalize Supermon.writeFile v img 3 b1 true = r1 at *
  obtain ⟨ex1, o1, v1, img1⟩ := r1
  dsimp only at *
  cases o1 with
  | err k => exact ⟨m1, rfl, a1', l1⟩
  | panic => exact ⟨m1, rfl, a1', l1⟩
  | timeout => exact ⟨m1, rfl, a1', l1⟩
  | ok _ =>
  dsimp only
  have hD1 := a1'.disks h l1
  obtain ⟨m2, e2, a2, l2⟩ := writeFile_after hD1 4 hv2' true
  rw [hb2'] at e2 a2 l2
  rw [e2]
  have a2' := After.trans h l1 (l2.trans l1) a1' a2
  have l2' := l2.trans l1
  generalize Supermon.writeFile v1 img1 4 b2 true = r2 at *
  obtain ⟨ex2, o2, v2, img2⟩ := r2
  dsimp only at *
  cases o2 with
  | err k => exact ⟨m2, rfl, a2', l2'⟩
  | panic => exact ⟨m2, rfl, a2', l2'⟩
  | timeout => exact ⟨m2, rfl, a2', l2'⟩
  | ok _ => exact ⟨m2, rfl, a2', l2'⟩

theorem copyTo_run {m : Mem} {dst src : Slice} {b : Bytes} (h : (bytesOf m src).take dst.len = b) : copyTo dst src m = (.ok (), store dst b m) := by
  unfold copyTo
  rw [h]

/-- Loading the sector map makes a new slice for it. -/
theorem loadSectorMap_run (hd : Valid m d) (hi : bytesOf m d = img) :
    (∃ v, Supermon.loadSectorMap img = .ok v ∧ ∃ x sm, loadSectorMap d m = (.ok sm, m ++ x) ∧ m.length ≤ sm.arr ∧ Disks (m ++ x) d sm img v) ∨
    ∃ k, Supermon.loadSectorMap img = .err k ∧ ∃ x, loadSectorMap d m = (.err k, m ++ x) := by
  unfold loadSectorMap Supermon.loadSectorMap
  rw [bind_ok (make_run 560 m)]
  rcases readSector_run (hd.append [zeros 560]) 0 9 with ⟨b1, h1, r1, l1⟩ | ⟨k, h1, r1⟩ <;> rw [bytesOf_append hd.arr, hi] at h1 <;> rw [h1]
  case inr => rw [bind_err r1]; exact Or.inr ⟨k, rfl, _, rfl⟩
  rw [bind_ok r1, Out.bind_ok]
  rcases readSector_run ((hd.append [zeros 560]).append [b1]) 0 0xA with ⟨b2, h2, r2, l2⟩ | ⟨k, h2, r2⟩ <;>
    rw [bytesOf_append ((hd.append [zeros 560]).arr), bytesOf_append hd.arr, hi] at h2 <;> rw [h2]
  case inr => rw [bind_err r2]; exact Or.inr ⟨k, rfl, [zeros 560] ++ [b1], by rw [List.append_assoc]⟩
  rw [bind_ok r2, Out.bind_ok]
  rcases readSector_run (((hd.append [zeros 560]).append [b1]).append [b2]) 0 0xB with ⟨b3, h3, r3, l3⟩ | ⟨k, h3, r3⟩ <;>
    rw [bytesOf_append (((hd.append [zeros 560]).append [b1]).arr), bytesOf_append ((hd.append [zeros 560]).arr), bytesOf_append hd.arr, hi] at h3 <;> rw [h3]
  case inr => rw [bind_err r3]; exact Or.inr ⟨k, rfl, [zeros 560] ++ [b1] ++ [b2], by simp only [List.append_assoc]⟩
  rw [bind_ok r3, Out.bind_ok]
  have hS : Valid (m ++ [zeros 560] ++ [b1] ++ [b2] ++ [b3]) ⟨m.length, 0, 560, 560⟩ :=
    (((fresh_valid m (zeros 560) [] (Nat.le_refl _) (Nat.le_of_eq (zeros_length 560).symm)).append [b1]).append [b2]).append [b3]
  have hB1 : Valid (m ++ [zeros 560] ++ [b1] ++ [b2] ++ [b3]) ⟨(m ++ [zeros 560]).length, 0, 256, 256⟩ :=
    ((fresh_valid (m ++ [zeros 560]) b1 [] (Nat.le_refl _) (Nat.le_of_eq l1.symm)).append [b2]).append [b3]
  have hB2 : Valid (m ++ [zeros 560] ++ [b1] ++ [b2] ++ [b3]) ⟨(m ++ [zeros 560] ++ [b1]).length, 0, 256, 256⟩ :=
    (fresh_valid (m ++ [zeros 560] ++ [b1]) b2 [] (Nat.le_refl _) (Nat.le_of_eq l2.symm)).append [b3]
  have e0 : bytesOf (m ++ [zeros 560] ++ [b1] ++ [b2] ++ [b3]) ⟨m.length, 0, 560, 560⟩ = zeros 560 := by
    simp only [List.append_assoc, List.singleton_append]
    exact bytesOf_fresh m (zeros 560) _ _ (zeros_length 560).symm
  have e1 : bytesOf (m ++ [zeros 560] ++ [b1] ++ [b2] ++ [b3]) ⟨(m ++ [zeros 560]).length, 0, 256, 256⟩ = b1 := by
    rw [List.append_assoc _ [b2], List.append_assoc _ [b1]]
    exact bytesOf_fresh (m ++ [zeros 560]) b1 _ _ l1.symm
  have e2 : bytesOf (m ++ [zeros 560] ++ [b1] ++ [b2] ++ [b3]) ⟨(m ++ [zeros 560] ++ [b1]).length, 0, 256, 256⟩ = b2 := by
    rw [List.append_assoc _ [b2]]
    exact bytesOf_fresh (m ++ [zeros 560] ++ [b1]) b2 _ _ l2.symm
  have e3 : bytesOf (m ++ [zeros 560] ++ [b1] ++ [b2] ++ [b3]) ⟨(m ++ [zeros 560] ++ [b1] ++ [b2]).length, 0, 256, 256⟩ = b3 :=
    bytesOf_fresh (m ++ [zeros 560] ++ [b1] ++ [b2]) b3 _ _ l3.symm
  have hM : m ++ [zeros 560] ++ [b1] ++ [b2] ++ [b3] = m ++ zeros 560 :: [b1, b2, b3] := by simp
  have n1 : (m ++ [zeros 560]).length ≠ m.length := by simp
  have n2 : (m ++ [zeros 560] ++ [b1]).length ≠ m.length := by simp
  have n3 : (m ++ [zeros 560] ++ [b1] ++ [b2]).length ≠ m.length := by simp
  generalize (m ++ [zeros 560]).length = a1 at *
  generalize (m ++ [zeros 560] ++ [b1]).length = a2 at *
  generalize (m ++ [zeros 560] ++ [b1] ++ [b2]).length = a3 at *
  generalize m ++ [zeros 560] ++ [b1] ++ [b2] ++ [b3] = M at *
  generalize hS0 : (⟨m.length, 0, 560, 560⟩ : Slice) = S at *
  have hSl : S.len = 560 := by rw [← hS0]
  have hSc : S.cap = 560 := by rw [← hS0]
  have hSa : S.arr = m.length := by rw [← hS0]
  have hz : (zeros 560).length = 560 := zeros_length 560
  have pl1 : (put (zeros 560) 0 (b1.drop 0xd0)).length = 560 := by rw [put_length (by rw [List.length_drop]; omega), hz]
  have pl2 : (put (put (zeros 560) 0 (b1.drop 0xd0)) 0x30 b2).length = 560 := by rw [put_length (by omega), pl1]
  have pl3 : (put (put (put (zeros 560) 0 (b1.drop 0xd0)) 0x30 b2) 0x130 b3).length = 560 := by rw [put_length (by omega), pl2]
  dsimp only
  rw [dif_pos pl3]
  -- the first copy
  rw [bind_ok (sub_run (by decide) (by omega) _), bind_ok (sub_run (by show 0xd0 ≤ 256; decide) (Nat.le_refl _) _)]
  rw [bind_ok (copyTo_run (b := b1.drop 0xd0) (by
    rw [bytesOf_part (by show 0xd0 ≤ 256; decide) (Nat.le_refl _), e1]
    show ((b1.drop 0xd0).take (256 - 0xd0)).take (0x30 - 0) = _
    rw [List.take_take, List.take_of_length_le (by rw [List.length_drop]; omega)])),
    store_part hS (part S 0 0x30) (lo := 0) rfl rfl (by rw [List.length_drop]; omega), e0]
  have hS1 : Valid (store S (put (zeros 560) 0 (b1.drop 0xd0)) M) S := hS.store hS (by omega)
  -- the second
  rw [bind_ok (sub_run (by decide) (by omega) _)]
  rw [bind_ok (copyTo_run (b := b2) (by
    rw [bytesOf_store_other (by rw [hSa]; exact n2), e2]
    exact List.take_of_length_le (by show _ ≤ 0x130 - 0x30; omega))),
    store_part hS1 (part S 0x30 0x130) (lo := 0x30) rfl rfl (by omega), bytesOf_store_same hS (by omega), store_store_same hS (by omega) (by omega)]
  have hS2 : Valid (store S (put (put (zeros 560) 0 (b1.drop 0xd0)) 0x30 b2) M) S := hS.store hS (by omega)
  -- the third
  rw [bind_ok (sub_run (by decide) (by omega) _)]
  rw [bind_ok (copyTo_run (b := b3) (by
    rw [bytesOf_store_other (by rw [hSa]; exact n3), e3]
    exact List.take_of_length_le (by show _ ≤ 0x230 - 0x130; omega))),
    store_part hS2 (part S 0x130 0x230) (lo := 0x130) rfl rfl (by omega), bytesOf_store_same hS (by omega), store_store_same hS (by omega) (by omega)]
  refine Or.inl ⟨_, rfl, put (put (put (zeros 560) 0 (b1.drop 0xd0)) 0x30 b2) 0x130 b3 :: [b1, b2, b3], S, ?_, Nat.le_of_eq hSa.symm, ?_⟩
  · rw [hM, ← hS0, store_fresh _ _ _ _ _ _ (by omega)]
    rfl
  · refine ⟨hd.append _, ?_, ?_, ?_, ?_⟩
    · rw [← hS0]; exact fresh_valid _ _ _ (Nat.le_refl _) (by omega)
    · rw [hSa]; have := hd.arr; omega
    · rw [bytesOf_append hd.arr]; exact hi
    · rw [← hS0, bytesOf_fresh _ _ _ _ (by omega)]
      exact (List.toList_toArray (as := _)).symm

/-- An operator over slices in memory, and the operator with the bytes that they have. -/
structure Rep (m : Mem) (o : Op) (O : Supermon.Operator) : Prop where
  disks : Disks m o.data o.sm O.data O.sm
  st : o.st = O.st

theorem Rep.table {o : Op} {O : Supermon.Operator} (h : Rep m o O) : o.table = O.table := by
  unfold Op.table Operator.table
  rw [h.st]

/-- A result in memory is the result on bytes, and the memory has changed only at the disk and its sector map. -/
structure Same (m : Mem) (o : Op) (O : Supermon.Operator) (r : Res) (R : Operator.Res) : Prop where
  existed : r.existed = R.existed
  out : r.out = R.out
  data : r.op.data = o.data
  sm : r.op.sm = o.sm
  st : r.op.st = R.op.st
  mem : After m o.data o.sm R.op.data R.op.sm r.mem
  len : R.op.data.length = O.data.length

theorem Same.rep {o : Op} {O : Supermon.Operator} {r : Res} {R : Operator.Res} (h : Rep m o O) (hs : Same m o O r R) : Rep r.mem r.op R.op := by
  refine ⟨?_, hs.st⟩
  rw [hs.data, hs.sm]
  exact hs.mem.disks h.disks hs.len

theorem Same.none {o : Op} {O : Supermon.Operator} (h : Rep m o O) (e : Bool) (k : Out Unit) : Same m o O ⟨e, k, o, m⟩ ⟨e, k, O⟩ := by
  refine ⟨rfl, rfl, rfl, rfl, h.st, ?_, rfl⟩
  have := After.refl h.disks []
  rw [List.append_nil] at this
  exact this

theorem getFile_run {o : Op} {O : Supermon.Operator} (h : Rep m o O) (name : Str) :
    (∃ f, O.getFile name = .ok f ∧ ∃ x r, o.getFile grow name m = (.ok r, m ++ x) ∧ New m (m ++ x) r f.data ∧ f.data ≠ []) ∨
    ∃ k : Out Unit, (∀ a, k ≠ .ok a) ∧ outcome (O.getFile name) = k ∧ ∃ x, outcome (o.getFile grow name m).1 = k ∧
      (o.getFile grow name m).2 = m ++ x := by
  unfold Op.getFile Operator.getFile
  rw [h.table]
  cases fileForName O.table name with
  | err k => exact Or.inr ⟨.err k, (fun _ => by simp), rfl, [], rfl, by simp⟩
  | panic => exact Or.inr ⟨.panic, (fun _ => by simp), rfl, [], rfl, by simp⟩
  | timeout => exact Or.inr ⟨.timeout, (fun _ => by simp), rfl, [], rfl, by simp⟩
  | ok file =>
  rw [Out.bind_ok]
  dsimp only
  rcases readFile_run (grow := grow) h.disks file with ⟨b, h1, x, r, h2, hn⟩ | ⟨k, h1, x, h2⟩
  · rw [h1, h2]
    dsimp only
    rw [hn.len]
    by_cases hb : b.length = 0
    · rw [if_pos hb, if_pos hb]
      exact Or.inr ⟨.err .other, (fun _ => by simp), rfl, x, rfl, rfl⟩
    · rw [if_neg hb, if_neg hb]
      exact Or.inl ⟨_, rfl, x, r, rfl, hn, fun e => hb (by rw [show b = [] from e]; rfl)⟩
  · rw [h1, h2]
    exact Or.inr ⟨.err .other, (fun _ => by simp), rfl, x, rfl, rfl⟩

theorem delete_same {o : Op} {O : Supermon.Operator} (h : Rep m o O) (name : Str) : Same m o O (o.delete name m) (O.delete name) := by
  unfold Op.delete Operator.delete
  rw [h.table]
  cases fileForName O.table name with
  | err k => exact Same.none h _ _
  | panic => exact Same.none h _ _
  | timeout => exact Same.none h _ _
  | ok file =>
  dsimp only
  rw [theMap_run h.disks]
  dsimp only
  obtain ⟨m1, e1, a1⟩ := deleteFile_after h.disks file
  have D1 := a1.disks h.disks rfl
  obtain ⟨m2, e2, a2, l2⟩ := persist_after D1
  rw [bind_ok e1, e2]
  have a2' := After.trans h.disks rfl l2 a1 a2
  generalize Supermon.persist (Supermon.deleteFile O.sm file) O.data = p at *
  obtain ⟨out, data⟩ := p
  dsimp only at *
  cases out with
  | err k => exact ⟨rfl, rfl, rfl, rfl, h.st, a2', l2⟩
  | panic => exact ⟨rfl, rfl, rfl, rfl, h.st, a2', l2⟩
  | timeout => exact ⟨rfl, rfl, rfl, rfl, h.st, a2', l2⟩
  | ok _ =>
  dsimp only
  rw [h.st]
  cases hst : O.st with
  | none => exact ⟨rfl, rfl, rfl, rfl, h.st.trans hst, a2', l2⟩
  | some st =>
  dsimp only
  generalize deleteSymbol st name = q
  obtain ⟨b, st'⟩ := q
  cases b with
  | false => exact ⟨rfl, rfl, rfl, rfl, rfl, a2', l2⟩
  | true =>
  dsimp only
  obtain ⟨m3, e3, a3, l3⟩ := writeSymbolTable_after (a2'.disks h.disks l2) st'
  rw [e3]
  exact ⟨rfl, rfl, rfl, rfl, rfl, After.trans h.disks l2 (l3.trans l2) a2' a3, l3.trans l2⟩

theorem putNumbered_same {o : Op} {O : Supermon.Operator} (h : Rep m o O) (a b : UInt8) (symbol : Str) {data : Slice} (hv : Valid m data) (ow : Bool) :
    Same m o O (o.putNumbered a b symbol data ow m) (O.putNumbered a b symbol (bytesOf m data) ow) := by
  unfold Op.putNumbered Operator.putNumbered
  obtain ⟨m1, e1, a1, l1⟩ := writeFile_after h.disks a hv ow
  rw [e1]
  generalize Supermon.writeFile O.sm O.data a (bytesOf m data) ow = r at *
  obtain ⟨ex, out, v1, img1⟩ := r
  dsimp only at *
  cases out with
  | err k => exact ⟨rfl, rfl, rfl, rfl, h.st, a1, l1⟩
  | panic => exact ⟨rfl, rfl, rfl, rfl, h.st, a1, l1⟩
  | timeout => exact ⟨rfl, rfl, rfl, rfl, h.st, a1, l1⟩
  | ok _ =>
  dsimp only
  by_cases hc : b ≠ a ∧ symbol ≠ []
  · rw [if_pos hc, if_pos hc, h.st]
    cases hst : O.st with
    | none => exact ⟨rfl, rfl, rfl, rfl, h.st.trans hst, a1, l1⟩
    | some st =>
    dsimp only
    generalize addSymbol st symbol (0xDF00 + a.toUInt16) = q
    obtain ⟨out, st'⟩ := q
    cases out with
    | err k => exact ⟨rfl, rfl, rfl, rfl, rfl, a1, l1⟩
    | panic => exact ⟨rfl, rfl, rfl, rfl, rfl, a1, l1⟩
    | timeout => exact ⟨rfl, rfl, rfl, rfl, rfl, a1, l1⟩
    | ok _ =>
    dsimp only
    obtain ⟨m3, e3, a3, l3⟩ := writeSymbolTable_after (a1.disks h.disks l1) st'
    rw [e3]
    exact ⟨rfl, rfl, rfl, rfl, rfl, After.trans h.disks l1 (l3.trans l1) a1 a3, l3.trans l1⟩
  · rw [if_neg hc, if_neg hc]
    exact ⟨rfl, rfl, rfl, rfl, h.st, a1, l1⟩

theorem putFile_same {o : Op} {O : Supermon.Operator} (h : Rep m o O) (f : FileInfo) (ht : f.descriptor.type = filetypeBinary)
    {data : Slice} (hv : Valid m data) (hb : bytesOf m data = f.data) (hl : f.descriptor.length = f.data.length) (ow : Bool) :
    Same m o O (o.putFile f.descriptor.name data ow m) (O.putFile f ow) := by
  unfold Op.putFile Operator.putFile
  rw [if_neg (by simp [ht]), if_neg (by simp [hl]), h.table]
  cases filesForCompoundName O.table f.descriptor.name with
  | err k => exact Same.none h _ _
  | panic => exact Same.none h _ _
  | timeout => exact Same.none h _ _
  | ok p =>
  obtain ⟨a, b, symbol⟩ := p
  dsimp only
  rw [h.st]
  by_cases h1 : symbol ≠ [] ∧ O.st = none
  · rw [if_pos h1, if_pos h1]; exact Same.none h _ _
  rw [if_neg h1, if_neg h1]
  by_cases h2 : symbol ≠ [] ∧ (encodeSymbol symbol).isErr
  · rw [if_pos h2, if_pos h2]; exact Same.none h _ _
  rw [if_neg h2, if_neg h2, theMap_run h.disks]
  dsimp only
  generalize (if a = 0 then firstFreeFile O.sm else a) = n
  by_cases h3 : n = 0
  · rw [if_pos h3, if_pos h3]; exact Same.none h _ _
  rw [if_neg h3, if_neg h3, ← hb]
  exact putNumbered_same h _ _ _ hv _

theorem readSymbolTable_run (h : Disks m d sm img v) : ∃ x, (readSymbolTable grow sm d m).2 = m ++ x ∧
    (readSymbolTable grow sm d m).1 = match Supermon.readSymbolTable v img with
      | .ok st => .ok (some st)
      | .err _ => .ok none
      | .panic => .panic
      | .timeout => .timeout := by
  unfold readSymbolTable Supermon.readSymbolTable
  rcases readFile_run (grow := grow) h 3 with ⟨b, h1, x, r, h2, hn⟩ | ⟨k, h1, x, h2⟩
  · rw [h1, h2, Out.bind_ok]
    dsimp only
    rw [hn.len]
    by_cases hb : b.length = 0x1000
    · rw [dif_pos hb, if_neg (by simpa using hb)]
      rcases readFile_run (grow := grow) (h.append x) 4 with ⟨b', h1', x', r', h2', hn'⟩ | ⟨k, h1', x', h2'⟩
      · rw [h1', h2', Out.bind_ok]
        dsimp only
        rw [(hn.append x').bytes, hn'.bytes]
        unfold parseTables
        rw [dif_pos hb]
        refine ⟨x ++ x', ?_, ?_⟩
        · rw [← List.append_assoc]
          split <;> rfl
        · split <;> rename_i e <;> rw [e]
      · rw [h1', h2']
        exact ⟨x ++ x', by simp, rfl⟩
    · rw [dif_neg hb, if_pos hb]
      exact ⟨x, rfl, rfl⟩
  · rw [h1, h2]
    exact ⟨x, rfl, rfl⟩

theorem openOperator_run (hd : Valid m d) (hi : bytesOf m d = img) :
    (∃ O, Supermon.openOperator img = .ok O ∧ ∃ x o, openOperator grow d m = (.ok o, m ++ x) ∧ o.data = d ∧ m.length ≤ o.sm.arr ∧ Rep (m ++ x) o O) ∨
    ∃ k : Out Unit, (∀ a, k ≠ .ok a) ∧ outcome (Supermon.openOperator img) = k ∧ ∃ x, outcome (openOperator grow d m).1 = k ∧
      (openOperator grow d m).2 = m ++ x := by
  unfold openOperator Supermon.openOperator
  rcases loadSectorMap_run hd hi with ⟨v, h1, x, sm, h2, ha, hD⟩ | ⟨k, h1, x, h2⟩
  · rw [h1, bind_ok h2, Out.bind_ok, bind_ok (theMap_run hD)]
    cases hv : verify v with
    | err k =>
      rw [bind_err (x := lift (.err k)) (k := k) (m' := m ++ x) rfl]
      exact Or.inr ⟨.err k, (fun _ => by simp), rfl, x, rfl, rfl⟩
    | panic =>
      rw [bind_panic (x := lift .panic) (m' := m ++ x) rfl]
      exact Or.inr ⟨.panic, (fun _ => by simp), rfl, x, rfl, rfl⟩
    | timeout =>
      rw [bind_timeout (x := lift .timeout) (m' := m ++ x) rfl]
      exact Or.inr ⟨.timeout, (fun _ => by simp), rfl, x, rfl, rfl⟩
    | ok u =>
    rw [bind_ok (x := lift (.ok u)) (a := u) (m' := m ++ x) rfl, Out.bind_ok]
    obtain ⟨y, hy1, hy2⟩ := readSymbolTable_run (grow := grow) hD
    have hp : readSymbolTable grow sm d (m ++ x) = ((readSymbolTable grow sm d (m ++ x)).1, m ++ (x ++ y)) := by rw [← List.append_assoc, ← hy1]
    rw [hy2] at hp
    have hD' := hD.append y
    rw [List.append_assoc] at hD'
    cases hst : Supermon.readSymbolTable v img with
    | ok st =>
      rw [hst] at hp
      rw [bind_ok hp]
      exact Or.inl ⟨_, rfl, x ++ y, _, rfl, rfl, ha, hD', rfl⟩
    | err k =>
      rw [hst] at hp
      rw [bind_ok hp]
      exact Or.inl ⟨_, rfl, x ++ y, _, rfl, rfl, ha, hD', rfl⟩
    | panic =>
      rw [hst] at hp
      rw [bind_panic hp]
      exact Or.inr ⟨.panic, (fun _ => by simp), rfl, x ++ y, rfl, rfl⟩
    | timeout =>
      rw [hst] at hp
      rw [bind_timeout hp]
      exact Or.inr ⟨.timeout, (fun _ => by simp), rfl, x ++ y, rfl, rfl⟩
  · rw [h1, bind_err h2]
    exact Or.inr ⟨.err k, (fun _ => by simp), rfl, x, rfl, rfl⟩

end

/-! ## Swizzling -/

theorem swizzleLoop_run {d : Slice} {img : Bytes} (order : List Int) (l : List (Nat × Nat)) {m : Mem} {r : Slice} {b : Bytes} (hd : Valid m d)
    (hi : bytesOf m d = img) (hr : Valid m r) (hb : bytesOf m r = b) (hne : d.arr ≠ r.arr) :
    ∃ x b' , swizzleLoop d order r l m = (outcome (l.foldlM (swizzleStep img order) b), store r b' m ++ x) ∧ b'.length = b.length ∧
      ∀ c, l.foldlM (swizzleStep img order) b = .ok c → c = b' := by
  induction l generalizing m b with
  | nil => 
    refine ⟨[], b, ?_, rfl, fun c h => by cases h; rfl⟩
    rw [List.append_nil, ← hb, store_self hr]
    rfl
  | cons ts rest ih =>
    have hbl := bytesOf_length hr
    unfold swizzleLoop
    rw [List.foldlM_cons]
    rcases readSector_run hd (UInt8.ofNat ts.1) (UInt8.ofNat ts.2) with ⟨t, h1, h2, h3⟩ | ⟨k, h1, h2⟩
    · rw [hi] at h1
      rw [bind_ok h2]
      unfold swizzleStep
      rw [h1, Out.bind_ok]
      cases ho : order[ts.2]? with
      | none => exact ⟨[t], b, by rw [← hb, store_self hr]; rfl, rfl, fun c h => by cases h⟩
      | some y =>
        have hv := fresh_valid m t [] (n := 256) (Nat.le_refl _) (Nat.le_of_eq h3.symm)
        have hw := writeSector_run (hr.append [t]) hv (UInt8.ofNat ts.1) (intToByte y)
        have hwl := @writeSector_length b (UInt8.ofNat ts.1) (intToByte y) t
        rw [bytesOf_append hr.arr, hb, bytesOf_fresh m t [] _ h3.symm, store_append hr.arr] at hw
        dsimp only
        generalize Disk.writeSector b (UInt8.ofNat ts.1) (intToByte y) t = w at *
        obtain ⟨out, b1⟩ := w
        dsimp only at *
        have hb1 : b1.length = r.len := by rw [hwl, ← hb, hbl]
        cases out with
        | err k => exact ⟨[t], b1, by rw [bind_err hw]; rfl, hwl, fun c h => by cases h⟩
        | panic => exact ⟨[t], b1, by rw [bind_panic hw]; rfl, hwl, fun c h => by cases h⟩
        | timeout => exact ⟨[t], b1, by rw [bind_timeout hw]; rfl, hwl, fun c h => by cases h⟩
        | ok u =>
          rw [bind_ok hw]
          have hc : b1.length ≤ r.cap := by rw [hb1]; exact hr.len
          have hr1 : Valid (store r b1 m ++ [t]) r := (hr.store hr hc).append [t]
          obtain ⟨x, b', e, hl, hx⟩ := ih (b := b1) ((hd.store hr hc).append [t]) (by rw [bytesOf_append (by simpa using hd.arr), bytesOf_store_other hne]; exact hi)
            hr1 (by rw [bytesOf_append (by simpa using hr.arr)]; exact bytesOf_store_same hr hb1)
          refine ⟨[t] ++ x, b', ?_, hl.trans hwl, hx⟩
          rw [e, store_append (by simpa using hr.arr), store_store_same hr hb1 (by rw [hl, hb1]), List.append_assoc]
          rfl
    · rw [hi] at h1
      rw [bind_err h2]
      unfold swizzleStep
      rw [h1]
      exact ⟨[], b, by rw [← hb, store_self hr, List.append_nil]; rfl, rfl, fun c h => by cases h⟩

/-- `Swizzle` gives the bytes it should in a new array, and changes no other. -/
theorem swizzle_run {m : Mem} {d : Slice} {img : Bytes} (order : List Int) (hd : Valid m d) (hi : bytesOf m d = img) :
    (∃ b, Disk.swizzle img order = .ok b ∧ ∃ x r, swizzle d order m = (.ok r, m ++ x) ∧ Valid (m ++ x) r ∧ m.length ≤ r.arr ∧ bytesOf (m ++ x) r = b) ∨
    ∃ k : Out Unit, (∀ a, k ≠ .ok a) ∧ outcome (Disk.swizzle img order) = k ∧ ∃ x, outcome (swizzle d order m).1 = k ∧
      (swizzle d order m).2 = m ++ x := by
  have hl : img.length = d.len := by rw [← hi]; exact bytesOf_length hd
  unfold swizzle Disk.swizzle
  rw [hl]
  by_cases h1 : d.len ≠ floppyDiskBytes
  · rw [if_pos h1, if_pos h1]
    exact Or.inr ⟨.err .other, (fun _ => by simp), rfl, [], rfl, by simp [lift]⟩
  rw [if_neg h1, if_neg h1]
  cases hv : validateOrder order with
  | err k => rw [bind_err (x := lift (.err k)) (k := k) (m' := m) rfl]; exact Or.inr ⟨.err k, (fun _ => by simp), rfl, [], rfl, by simp⟩
  | panic => rw [bind_panic (x := lift .panic) (m' := m) rfl]; exact Or.inr ⟨.panic, (fun _ => by simp), rfl, [], rfl, by simp⟩
  | timeout => rw [bind_timeout (x := lift .timeout) (m' := m) rfl]; exact Or.inr ⟨.timeout, (fun _ => by simp), rfl, [], rfl, by simp⟩
  | ok u =>
  rw [bind_ok (x := lift (.ok u)) (a := u) (m' := m) rfl, Out.bind_ok, bind_ok (make_run _ m)]
  generalize floppyDiskBytes = n
  have hz := zeros_length n
  generalize zeros n = z at *
  obtain ⟨x, b', e, hbl, hx⟩ := swizzleLoop_run (img := img) order trackSectorPairs (b := z) (hd.append [z]) (by rw [bytesOf_append hd.arr]; exact hi)
    (fresh_valid m z [] (Nat.le_refl n) (Nat.le_of_eq hz.symm)) (bytesOf_fresh m z [] n hz.symm) (by show d.arr ≠ m.length; have := hd.arr; omega)
  have hst : store ⟨m.length, 0, n, n⟩ b' (m ++ [z]) = m ++ [b'] := store_fresh _ _ _ _ _ _ hbl
  rw [hst, List.append_assoc] at e
  cases hf : trackSectorPairs.foldlM (swizzleStep img order) z with
  | ok c =>
    rw [hf] at e
    rw [bind_ok e]
    have := hx c hf
    subst this
    refine Or.inl ⟨c, rfl, [c] ++ x, ⟨m.length, 0, n, n⟩, rfl, ?_, Nat.le_refl _, ?_⟩
    · exact fresh_valid m c x (Nat.le_refl _) (by omega)
    · exact bytesOf_fresh m c x _ (by omega)
  | err k =>
    rw [hf] at e
    rw [bind_err e]
    exact Or.inr ⟨.err k, (fun _ => by simp), rfl, _, rfl, rfl⟩
  | panic =>
    rw [hf] at e
    rw [bind_panic e]
    exact Or.inr ⟨.panic, (fun _ => by simp), rfl, _, rfl, rfl⟩
  | timeout =>
    rw [hf] at e
    rw [bind_timeout e]
    exact Or.inr ⟨.timeout, (fun _ => by simp), rfl, _, rfl, rfl⟩

end Verif.Heap
