import Verif.Model.Heap

/-!
# Lemmas: slices in memory
-/

set_option autoImplicit false

namespace Verif.Heap
open Disk Supermon

theorem bytesOf_length {m : Mem} {s : Slice} (h : Valid m s) : (bytesOf m s).length = s.len :=
  slice_length_of_le (by have := h.room; have := h.len; omega)

@[simp] theorem store_length (s : Slice) (b : Bytes) (m : Mem) : (store s b m).length = m.length := List.length_set

theorem store_getD_same {m : Mem} {s : Slice} (h : s.arr < m.length) (b : Bytes) :
    (store s b m).getD s.arr [] = put (m.getD s.arr []) s.off b := by
  unfold store
  rw [List.getD_eq_getElem?_getD, List.getElem?_set_self h]
  rfl

theorem store_getD_other {m : Mem} {s : Slice} {a : Nat} (h : a ≠ s.arr) (b : Bytes) : (store s b m).getD a [] = m.getD a [] := by
  unfold store
  rw [List.getD_eq_getElem?_getD, List.getElem?_set_ne (Ne.symm h), ← List.getD_eq_getElem?_getD]

theorem getD_append_left {m x : Mem} {a : Nat} (h : a < m.length) : (m ++ x).getD a [] = m.getD a [] := by
  rw [List.getD_eq_getElem?_getD, List.getElem?_append_left h, ← List.getD_eq_getElem?_getD]

theorem bytesOf_append {m : Mem} {s : Slice} (h : s.arr < m.length) (x : Mem) : bytesOf (m ++ x) s = bytesOf m s := by
  unfold bytesOf
  rw [getD_append_left h]

theorem Valid.append {m : Mem} {s : Slice} (h : Valid m s) (x : Mem) : Valid (m ++ x) s :=
  ⟨by rw [List.length_append]; have := h.arr; omega, by rw [getD_append_left h.arr]; exact h.room, h.len⟩

theorem store_append {m : Mem} {s : Slice} (h : s.arr < m.length) (b : Bytes) (x : Mem) : store s b (m ++ x) = store s b m ++ x := by
  unfold store
  rw [getD_append_left h, List.set_append_left _ _ h]

theorem bytesOf_store_same {m : Mem} {s : Slice} (h : Valid m s) {b : Bytes} (hb : b.length = s.len) : bytesOf (store s b m) s = b := by
  unfold bytesOf
  rw [store_getD_same h.arr, ← hb]
  exact slice_put_same (by have := h.room; have := h.len; omega)

theorem bytesOf_store_other {m : Mem} {s t : Slice} (h : t.arr ≠ s.arr) (b : Bytes) : bytesOf (store s b m) t = bytesOf m t := by
  unfold bytesOf
  rw [store_getD_other h]

theorem Valid.store {m : Mem} {s t : Slice} (h : Valid m t) (hs : Valid m s) {b : Bytes} (hb : b.length ≤ s.cap) : Valid (store s b m) t := by
  refine ⟨by rw [store_length]; exact h.arr, ?_, h.len⟩
  by_cases e : t.arr = s.arr
  · have h1 := h.room
    rw [e] at h1
    rw [e, store_getD_same hs.arr, put_length (by have := hs.room; omega)]
    exact h1
  · rw [store_getD_other e]; exact h.room

theorem store_store_same {m : Mem} {s : Slice} (h : Valid m s) {b c : Bytes} (hb : b.length = s.len) (hc : c.length = s.len) :
    store s c (store s b m) = store s c m := by
  show (store s b m).set s.arr (put ((store s b m).getD s.arr []) s.off c) = _
  rw [store_getD_same h.arr]
  unfold store
  rw [List.set_set, put_put_same (by have := h.room; have := h.len; omega) (by omega)]

theorem store_comm {m : Mem} {s t : Slice} (h : s.arr ≠ t.arr) (b c : Bytes) : store t c (store s b m) = store s b (store t c m) := by
  show (store s b m).set t.arr (put ((store s b m).getD t.arr []) t.off c) = (store t c m).set s.arr (put ((store t c m).getD s.arr []) s.off b)
  rw [store_getD_other (Ne.symm h), store_getD_other h]
  unfold store
  exact List.set_comm _ _ h

theorem store_self {m : Mem} {s : Slice} (h : Valid m s) : store s (bytesOf m s) m = m := by
  unfold store bytesOf
  rw [put_slice_self (by have := h.room; have := h.len; omega)]
  refine List.ext_getElem? fun i => ?_
  by_cases e : s.arr = i
  · subst e
    rw [List.getElem?_set_self h.arr, List.getD_eq_getElem?_getD, List.getElem?_eq_getElem h.arr]
    rfl
  · rw [List.getElem?_set_ne e]

/-- Part of a slice. -/
def part (s : Slice) (lo hi : Nat) : Slice := ⟨s.arr, s.off + lo, hi - lo, s.cap - lo⟩

theorem part_valid {m : Mem} {s : Slice} (h : Valid m s) {lo hi : Nat} (h1 : lo ≤ hi) (h2 : hi ≤ s.cap) : Valid m (part s lo hi) :=
  ⟨h.arr, by unfold part; have := h.room; dsimp only; omega, by unfold part; dsimp only; omega⟩

theorem slice_slice {α : Type} (l : List α) (o n o' n' : Nat) (h : o' + n' ≤ n) : slice (slice l o n) o' n' = slice l (o + o') n' := by
  unfold slice
  rw [List.drop_take, List.take_take, List.drop_drop, Nat.min_eq_left (by omega)]

theorem bytesOf_part {m : Mem} {s : Slice} {lo hi : Nat} (h1 : lo ≤ hi) (h2 : hi ≤ s.len) :
    bytesOf m (part s lo hi) = slice (bytesOf m s) lo (hi - lo) := by
  unfold bytesOf part
  dsimp only
  rw [slice_slice _ _ _ _ _ (by omega)]

theorem put_in_part {α : Type} {l : List α} {o n lo : Nat} {b : List α} (h : o + n ≤ l.length) (hb : lo + b.length ≤ n) :
    put l (o + lo) b = put l o (put (slice l o n) lo b) := by
  have hs : (slice l o n).length = n := slice_length_of_le h
  have hp : (put (slice l o n) lo b).length = n := by rw [put_length (by omega)]; exact hs
  refine List.ext_getElem? fun i => ?_
  rw [getElem?_put (by omega), getElem?_put (by omega), hp, getElem?_put (by omega), getElem?_slice]
  repeat' split
  all_goals first
    | rfl
    | omega
    | (congr 1; omega)

/-- Writing in a part of a slice. -/
theorem store_part {m : Mem} {s : Slice} (h : Valid m s) (t : Slice) {lo : Nat} (ht : t.arr = s.arr) (ho : t.off = s.off + lo) {b : Bytes}
    (hb : lo + b.length ≤ s.len) : store t b m = store s (put (bytesOf m s) lo b) m := by
  unfold store bytesOf
  rw [ht, ho, put_in_part (by have := h.room; have := h.len; omega) hb]

/-! ## The monad -/

section
variable {α β : Type}

theorem bind_ok {x : M α} {f : α → M β} {m m' : Mem} {a : α} (h : x m = (.ok a, m')) : (x >>= f) m = f a m' := by
  show (match x m with | (.ok a, m) => f a m | (.err k, m) => (.err k, m) | (.panic, m) => (.panic, m) | (.timeout, m) => (.timeout, m)) = _
  rw [h]

theorem bind_err {x : M α} {f : α → M β} {m m' : Mem} {k : ErrKind} (h : x m = (.err k, m')) : (x >>= f) m = (.err k, m') := by
  show (match x m with | (.ok a, m) => f a m | (.err k, m) => (.err k, m) | (.panic, m) => (.panic, m) | (.timeout, m) => (.timeout, m)) = _
  rw [h]

theorem bind_timeout {x : M α} {f : α → M β} {m m' : Mem} (h : x m = (.timeout, m')) : (x >>= f) m = (.timeout, m') := by
  show (match x m with | (.ok a, m) => f a m | (.err k, m) => (.err k, m) | (.panic, m) => (.panic, m) | (.timeout, m) => (.timeout, m)) = _
  rw [h]

theorem bind_panic {x : M α} {f : α → M β} {m m' : Mem} (h : x m = (.panic, m')) : (x >>= f) m = (.panic, m') := by
  show (match x m with | (.ok a, m) => f a m | (.err k, m) => (.err k, m) | (.panic, m) => (.panic, m) | (.timeout, m) => (.timeout, m)) = _
  rw [h]

end

theorem make_run (n : Nat) (m : Mem) : make n m = (.ok ⟨m.length, 0, n, n⟩, m ++ [zeros n]) := rfl

theorem fresh_valid (m : Mem) (b : Bytes) (x : Mem) {n c : Nat} (h : n ≤ c) (hc : c ≤ b.length) : Valid (m ++ b :: x) ⟨m.length, 0, n, c⟩ := by
  refine ⟨by simp, ?_, h⟩
  rw [List.getD_eq_getElem?_getD, List.getElem?_append_right (Nat.le_refl _)]
  simpa using hc

theorem bytesOf_fresh (m : Mem) (b : Bytes) (x : Mem) (c : Nat) {n : Nat} (h : n = b.length) : bytesOf (m ++ b :: x) ⟨m.length, 0, n, c⟩ = b := by
  unfold bytesOf
  dsimp only
  rw [List.getD_eq_getElem?_getD, List.getElem?_append_right (Nat.le_refl _), h]
  simp [slice_full]

theorem store_fresh (m : Mem) (b c : Bytes) (x : Mem) (n k : Nat) (h : c.length = b.length) :
    store ⟨m.length, 0, n, k⟩ c (m ++ b :: x) = m ++ c :: x := by
  unfold store
  dsimp only
  rw [List.getD_eq_getElem?_getD, List.getElem?_append_right (Nat.le_refl _)]
  rw [List.set_append_right _ _ (Nat.le_refl _)]
  simp [put, h]

theorem sub_run {s : Slice} {lo hi : Nat} (h1 : lo ≤ hi) (h2 : hi ≤ s.cap) (m : Mem) : sub s lo hi m = (.ok (part s lo hi), m) := by
  unfold sub
  rw [if_pos ⟨h1, h2⟩]
  rfl

/-! ## Sectors -/

theorem readSector_run {m : Mem} {d : Slice} (h : Valid m d) (t s : UInt8) :
    (∃ b, Disk.readSector (bytesOf m d) t s = .ok b ∧ readSector d t s m = (.ok ⟨m.length, 0, 256, 256⟩, m ++ [b]) ∧ b.length = 256) ∨
    ∃ k, Disk.readSector (bytesOf m d) t s = .err k ∧ readSector d t s m = (.err k, m) := by
  have hl := bytesOf_length h
  unfold Disk.readSector readSector
  simp only [hl]
  by_cases hd : d.len < t.toNat * floppyTrackBytes + s.toNat * 256 + 256
  · rw [if_pos hd, if_pos hd]
    exact Or.inr ⟨_, rfl, rfl⟩
  · rw [if_neg hd, if_neg hd]
    have hc := h.len
    generalize t.toNat * floppyTrackBytes + s.toNat * 256 = st at hd
    have hs : (slice (bytesOf m d) st 256).length = 256 := slice_length_of_le (by omega)
    refine Or.inl ⟨_, rfl, ?_, hs⟩
    rw [bind_ok (make_run 256 m), bind_ok (sub_run (by omega) (by omega) _)]
    have : copyTo ⟨m.length, 0, 256, 256⟩ (part d st (st + 256)) (m ++ [zeros 256]) = (.ok (), m ++ [slice (bytesOf m d) st 256]) := by
      unfold copyTo
      rw [bytesOf_append (by exact h.arr), bytesOf_part (by omega) (by omega), Nat.add_sub_cancel_left,
        List.take_of_length_le (Nat.le_of_eq hs), store_fresh _ _ _ _ _ _ (by rw [hs, zeros_length])]
    rw [bind_ok this]
    rfl

theorem writeSector_run {m : Mem} {d data : Slice} (h : Valid m d) (hdata : Valid m data) (t s : UInt8) :
    writeSector d t s data m = ((Disk.writeSector (bytesOf m d) t s (bytesOf m data)).1,
      store d (Disk.writeSector (bytesOf m d) t s (bytesOf m data)).2 m) := by
  have hl := bytesOf_length h
  have hl' := bytesOf_length hdata
  unfold Disk.writeSector writeSector
  simp only [hl, hl']
  by_cases h2 : data.len ≠ 256
  · rw [if_pos h2, if_pos h2, store_self h]
    rfl
  · rw [if_neg h2, if_neg h2]
    by_cases hd : d.len < t.toNat * floppyTrackBytes + s.toNat * 256 + 256
    · rw [if_pos hd, if_pos hd, store_self h]
      rfl
    · rw [if_neg hd, if_neg hd]
      have hc := h.len
      generalize t.toNat * floppyTrackBytes + s.toNat * 256 = st at hd
      rw [bind_ok (sub_run (by omega) (by omega) _)]
      unfold copyTo
      rw [List.take_of_length_le (by rw [hl']; unfold part; dsimp only; omega), store_part h (lo := st) (part d st (st + 256)) rfl rfl (by omega)]

theorem writeSector_length {img : Bytes} {t s : UInt8} {data : Bytes} : (Disk.writeSector img t s data).2.length = img.length := by
  unfold Disk.writeSector
  split
  · rfl
  · dsimp only
    split
    · rfl
    · exact put_length (by omega)

/-! ## A disk and its sector map -/

/-- The slices of a disk and of its sector map, in different arrays, and their bytes. -/
structure Disks (m : Mem) (d sm : Slice) (img : Bytes) (v : SectorMap) : Prop where
  vd : Valid m d
  vsm : Valid m sm
  ne : d.arr ≠ sm.arr
  hd : bytesOf m d = img
  hsm : bytesOf m sm = v.toList

/-- The memory has a new disk and a new sector map, perhaps more arrays, and is the same otherwise. -/
def After (m : Mem) (d sm : Slice) (img : Bytes) (v : SectorMap) (m' : Mem) : Prop :=
  ∃ x, m' = store sm v.toList (store d img m) ++ x

section
variable {m m' : Mem} {d sm : Slice} {img img' : Bytes} {v v' : SectorMap}

theorem Disks.dlen (h : Disks m d sm img v) : img.length = d.len := by rw [← h.hd]; exact bytesOf_length h.vd

theorem Disks.smlen (h : Disks m d sm img v) : sm.len = 560 := by
  rw [← bytesOf_length h.vsm, h.hsm]
  simp

theorem Disks.smlen' (h : Disks m d sm img v) (w : SectorMap) : w.toList.length = sm.len := by
  rw [h.smlen]
  simp

theorem Disks.append (h : Disks m d sm img v) (x : Mem) : Disks (m ++ x) d sm img v :=
  ⟨h.vd.append x, h.vsm.append x, h.ne, by rw [bytesOf_append h.vd.arr, h.hd], by rw [bytesOf_append h.vsm.arr, h.hsm]⟩

theorem After.refl (h : Disks m d sm img v) (x : Mem) : After m d sm img v (m ++ x) := by
  refine ⟨x, ?_⟩
  rw [← h.hd, store_self h.vd, ← h.hsm, store_self h.vsm]

theorem After.toImg (h : Disks m d sm img v) (b : Bytes) : After m d sm b v (store d b m) := by
  refine ⟨[], ?_⟩
  rw [List.append_nil, store_comm h.ne, ← h.hsm, store_self h.vsm]

theorem After.toMap (h : Disks m d sm img v) (w : SectorMap) : After m d sm img w (store sm w.toList m) := by
  refine ⟨[], ?_⟩
  rw [List.append_nil, ← h.hd, store_self h.vd]

theorem After.disks (h : Disks m d sm img v) (hl : img'.length = img.length) (ha : After m d sm img' v' m') : Disks m' d sm img' v' := by
  obtain ⟨x, rfl⟩ := ha
  have hl : img'.length = d.len := by rw [hl, h.dlen]
  have hd : Valid (store d img' m) d := h.vd.store h.vd (by have := h.vd.len; omega)
  have hs : Valid (store d img' m) sm := h.vsm.store h.vd (by have := h.vd.len; omega)
  have hm : v'.toList.length ≤ sm.cap := by rw [h.smlen' v']; exact h.vsm.len
  refine Disks.append ⟨hd.store hs hm, hs.store hs hm, h.ne, ?_, ?_⟩ x
  · rw [bytesOf_store_other h.ne, bytesOf_store_same h.vd hl]
  · exact bytesOf_store_same hs (h.smlen' v')

theorem After.trans {m'' : Mem} {img'' : Bytes} {v'' : SectorMap} (h : Disks m d sm img v) (hl : img'.length = img.length)
    (hl' : img''.length = img.length) (ha : After m d sm img' v' m') (hb : After m' d sm img'' v'' m'') : After m d sm img'' v'' m'' := by
  obtain ⟨x, rfl⟩ := ha
  obtain ⟨y, rfl⟩ := hb
  refine ⟨x ++ y, ?_⟩
  have hl : img'.length = d.len := by rw [hl, h.dlen]
  have hl' : img''.length = d.len := by rw [hl', h.dlen]
  have hd : d.arr < (store sm v'.toList (store d img' m)).length := by simpa using h.vd.arr
  rw [store_append hd, store_append (by simpa using h.vsm.arr), List.append_assoc]
  have hs : Valid (store d img'' m) sm := h.vsm.store h.vd (by have := h.vd.len; omega)
  rw [store_comm (s := sm) (t := d) (Ne.symm h.ne), store_store_same h.vd hl hl', store_store_same hs (h.smlen' v') (h.smlen' v'')]

/-- What is in other arrays stays. -/
theorem After.other (h : Disks m d sm img v) (hl : img'.length = img.length) (ha : After m d sm img' v' m') {t : Slice} (ht : Valid m t)
    (h1 : t.arr ≠ d.arr) (h2 : t.arr ≠ sm.arr) : Valid m' t ∧ bytesOf m' t = bytesOf m t := by
  obtain ⟨x, rfl⟩ := ha
  have hl : img'.length = d.len := by rw [hl, h.dlen]
  have hs : Valid (store d img' m) sm := h.vsm.store h.vd (by have := h.vd.len; omega)
  have ht' : Valid (store d img' m) t := ht.store h.vd (by have := h.vd.len; omega)
  have hm : v'.toList.length ≤ sm.cap := by rw [h.smlen' v']; exact h.vsm.len
  refine ⟨(ht'.store hs hm).append x, ?_⟩
  rw [bytesOf_append (by simpa using ht.arr), bytesOf_store_other h2, bytesOf_store_other h1]

theorem After.length (ha : After m d sm img' v' m') : m.length ≤ m'.length := by
  obtain ⟨x, rfl⟩ := ha
  simp

theorem theMap_run (h : Disks m d sm img v) : theMap sm m = (.ok v, m) := by
  unfold theMap
  rw [dif_pos (by rw [h.hsm]; simp)]
  have : ∀ (l : Bytes) (hl : l.length = 560), l = v.toList → (⟨l.toArray, by simpa using hl⟩ : SectorMap) = v := by
    rintro l hl rfl
    apply Vector.toArray_inj.1
    exact Array.toArray_toList
  rw [this _ (by rw [h.hsm]; simp) h.hsm]

theorem writeSector_after (h : Disks m d sm img v) {data : Slice} (hdata : Valid m data) (t s : UInt8) :
    ∃ m', writeSector d t s data m = ((Disk.writeSector img t s (bytesOf m data)).1, m') ∧
      After m d sm (Disk.writeSector img t s (bytesOf m data)).2 v m' := by
  have := writeSector_run h.vd hdata t s
  rw [h.hd] at this
  exact ⟨_, this, After.toImg h _⟩

theorem setFile_after (h : Disks m d sm img v) (t s f : UInt8) :
    ∃ m', setFileForSector sm t s f m = ((Supermon.setFileForSector v t s f).1, m') ∧
      After m d sm img (Supermon.setFileForSector v t s f).2 m' := by
  unfold setFileForSector Supermon.setFileForSector
  have h0 : After m d sm img v m := by simpa using After.refl h []
  by_cases ht : t.toNat ≥ 35
  · rw [if_pos ht, dif_pos ht]; exact ⟨m, rfl, h0⟩
  · rw [if_neg ht, dif_neg ht]
    by_cases hs : s.toNat ≥ 16
    · rw [if_pos hs, dif_pos hs]; exact ⟨m, rfl, h0⟩
    · rw [if_neg hs, dif_neg hs]
      by_cases hf : f = fileIllegal ∨ f = fileFree ∨ f = fileReserved
      · rw [if_pos hf, if_pos hf]; exact ⟨m, rfl, h0⟩
      · rw [if_neg hf, if_neg hf]
        have hi : t.toNat * 16 + s.toNat < 560 := by omega
        refine ⟨store sm (v.set (t.toNat * 16 + s.toNat) f hi).toList m, ?_, After.toMap h _⟩
        unfold setIndex
        rw [if_pos (by rw [h.smlen]; exact hi)]
        rw [store_part h.vsm (lo := t.toNat * 16 + s.toNat) ⟨sm.arr, sm.off + (t.toNat * 16 + s.toNat), 1, 1⟩ rfl rfl (by rw [h.smlen]; exact hi), h.hsm]
        have : put v.toList (t.toNat * 16 + s.toNat) [f] = (v.set (t.toNat * 16 + s.toNat) f hi).toList := by
          rw [Vector.toList_set, List.set_eq_take_append_cons_drop, if_pos (by simpa using hi)]
          unfold put
          simp
        rw [this]

end

theorem index_run {m : Mem} {s : Slice} {i : Nat} (h : Valid m s) (hi : i < s.len) :
    index s i m = (.ok ((bytesOf m s)[i]'(by rw [bytesOf_length h]; exact hi)), m) := by
  unfold index
  rw [List.getElem?_eq_getElem (by rw [bytesOf_length h]; exact hi)]

theorem deleteLoop_run (f : UInt8) (n : Nat) {m : Mem} {s : Slice} (h : Valid m s) (i : Nat) (hi : i + n = s.len) :
    deleteLoop s f i n m = (.ok (), store s ((bytesOf m s).take i ++ ((bytesOf m s).drop i).map fun b => if b = f then fileFree else b) m) := by
  have hl := bytesOf_length h
  induction n generalizing i m with
  | zero =>
    unfold deleteLoop
    rw [List.take_of_length_le (by omega), List.drop_eq_nil_of_le (by omega), List.map_nil, List.append_nil, store_self h]
    rfl
  | succ n ih =>
    unfold deleteLoop
    have hi' : i < (bytesOf m s).length := by omega
    rw [bind_ok (index_run h (by omega))]
    have hcons : (bytesOf m s).drop i = (bytesOf m s)[i] :: (bytesOf m s).drop (i + 1) := List.drop_eq_getElem_cons hi'
    have htake : (bytesOf m s).take (i + 1) = (bytesOf m s).take i ++ [(bytesOf m s)[i]] := by simp
    by_cases hf : (bytesOf m s)[i] = f
    · rw [if_pos hf]
      have hset : setIndex s i fileFree m = (.ok (), store s (put (bytesOf m s) i [fileFree]) m) := by
        unfold setIndex
        rw [if_pos (by omega), store_part h (lo := i) ⟨s.arr, s.off + i, 1, 1⟩ rfl rfl (by rw [List.length_singleton]; omega)]
      have hpl : (put (bytesOf m s) i [fileFree]).length = s.len := by rw [put_length (by simp; omega), hl]
      rw [bind_ok hset, ih (h.store h (by rw [hpl]; exact h.len)) (i + 1) (by omega) (bytesOf_length (h.store h (by rw [hpl]; exact h.len)))]
      rw [bytesOf_store_same h hpl]
      have e1 : (put (bytesOf m s) i [fileFree]).take (i + 1) = (bytesOf m s).take i ++ [fileFree] := by
        unfold put
        rw [List.take_left' (by simp; omega)]
      have e2 : (put (bytesOf m s) i [fileFree]).drop (i + 1) = (bytesOf m s).drop (i + 1) := by
        unfold put
        rw [List.drop_left' (by simp; omega)]
        rfl
      rw [e1, e2, hcons, List.map_cons, if_pos hf, store_store_same h hpl (by simp; omega)]
      simp
    · rw [if_neg hf, ih h (i + 1) (by omega) hl, htake, hcons, List.map_cons, if_neg hf, List.append_assoc, List.singleton_append]

section
variable {m m' : Mem} {d sm : Slice} {img img' : Bytes} {v v' : SectorMap}

theorem deleteFile_after (h : Disks m d sm img v) (f : UInt8) :
    ∃ m', deleteFile sm f m = (.ok (), m') ∧ After m d sm img (Supermon.deleteFile v f) m' := by
  unfold deleteFile
  rw [deleteLoop_run f _ h.vsm 0 (by omega)]
  refine ⟨_, rfl, ?_⟩
  have := After.toMap h (Supermon.deleteFile v f)
  have e : (Supermon.deleteFile v f).toList = (bytesOf m sm).take 0 ++ ((bytesOf m sm).drop 0).map fun b => if b = f then fileFree else b := by
    unfold Supermon.deleteFile
    rw [h.hsm, Vector.toList_map]
    rfl
  rw [e] at this
  exact this

theorem persist_after (h : Disks m d sm img v) :
    ∃ m', persist sm d m = ((Supermon.persist v img).1, m') ∧ After m d sm (Supermon.persist v img).2 v m' ∧
      (Supermon.persist v img).2.length = img.length := by
  have h0 : After m d sm img v m := by simpa using After.refl h []
  unfold persist Supermon.persist
  have hcap : sm.len ≤ sm.cap := h.vsm.len
  have hsl := h.smlen
  rcases readSector_run h.vd 0 9 with ⟨b, hx, hr, hb⟩ | ⟨k, hx, hr⟩
  · rw [h.hd] at hx
    rw [hx]
    rw [bind_ok hr, bind_ok (sub_run (by show 208 ≤ 256; decide) (Nat.le_refl _) _), bind_ok (sub_run (by decide) (by omega) _)]
    dsimp only
    have hv1 : Valid (m ++ [b]) ⟨m.length, 0, 256, 256⟩ := fresh_valid m b [] (Nat.le_refl _) (by omega)
    have hbb : bytesOf (m ++ [b]) ⟨m.length, 0, 256, 256⟩ = b := bytesOf_fresh m b [] _ hb.symm
    have hsl0 : (slice v.toList 0 0x30).length = 0x30 := slice_length_of_le (by simp)
    have hpl : (put b 0xd0 (slice v.toList 0 0x30)).length = 256 := by rw [put_length (by omega), hb]
    have hc : copyTo (part ⟨m.length, 0, 256, 256⟩ 0xd0 256) (part sm 0 0x30) (m ++ [b]) =
        (.ok (), m ++ [put b 0xd0 (slice v.toList 0 0x30)]) := by
      unfold copyTo
      rw [bytesOf_append (by exact h.vsm.arr), bytesOf_part (by omega) (by omega), h.hsm]
      rw [show (48 - 0 : Nat) = 48 from rfl, show (part ⟨m.length, 0, 256, 256⟩ 208 256).len = 48 from rfl, List.take_of_length_le (Nat.le_of_eq hsl0)]
      rw [store_part hv1 (lo := 0xd0) (part ⟨m.length, 0, 256, 256⟩ 0xd0 256) rfl rfl (by rw [hsl0]; show 208 + 48 ≤ 256; decide), hbb]
      rw [store_fresh _ _ _ _ _ _ (by rw [hpl, hb])]
    rw [bind_ok hc]
    have hD1 := h.append [put b 0xd0 (slice v.toList 0 0x30)]
    have hvb := fresh_valid m (put b 0xd0 (slice v.toList 0 0x30)) [] (n := 256) (Nat.le_refl _) (by omega)
    have hbb2 : bytesOf (m ++ [put b 0xd0 (slice v.toList 0 0x30)]) ⟨m.length, 0, 256, 256⟩ = put b 0xd0 (slice v.toList 0 0x30) :=
      bytesOf_fresh m _ [] _ hpl.symm
    obtain ⟨m2, e2, a2⟩ := writeSector_after hD1 hvb 0 9
    rw [hbb2] at e2 a2
    have a2' := After.trans h rfl writeSector_length (After.refl h _) a2
    cases hw : Disk.writeSector img 0 9 (put b 0xd0 (slice v.toList 0 0x30)) with
    | mk o1 img1 =>
    have hl1 : img1.length = img.length := by have := @writeSector_length img 0 9 (put b 0xd0 (slice v.toList 0 0x30)); rw [hw] at this; exact this
    rw [hw] at e2 a2'
    cases o1 with
    | err k => rw [bind_err e2]; exact ⟨m2, rfl, a2', hl1⟩
    | panic => rw [bind_panic e2]; exact ⟨m2, rfl, a2', hl1⟩
    | timeout =>
      exfalso
      unfold Disk.writeSector at hw
      split at hw
      · cases hw
      · dsimp only at hw; split at hw <;> cases hw
    | ok _ =>
    rw [bind_ok e2]
    dsimp only
    have hD2 := a2'.disks h hl1
    rw [bind_ok (sub_run (by decide) (by omega) _)]
    obtain ⟨m3, e3, a3⟩ := writeSector_after hD2 (part_valid hD2.vsm (lo := 0x30) (hi := 0x130) (by omega) (by omega)) 0 0xA
    rw [bytesOf_part (by omega) (by omega), hD2.hsm] at e3 a3
    cases hw3 : Disk.writeSector img1 0 0xA (slice v.toList 0x30 0x100) with
    | mk o2 img2 =>
    have hl2 : img2.length = img.length := by
      have := @writeSector_length img1 0 0xA (slice v.toList 0x30 0x100); rw [hw3] at this; exact this.trans hl1
    rw [show (0x130 - 0x30 : Nat) = 0x100 from rfl, hw3] at e3 a3
    have a3' := After.trans h hl1 hl2 a2' a3
    cases o2 with
    | err k => rw [bind_err e3]; exact ⟨m3, rfl, a3', hl2⟩
    | panic => rw [bind_panic e3]; exact ⟨m3, rfl, a3', hl2⟩
    | timeout =>
      exfalso
      unfold Disk.writeSector at hw3
      split at hw3
      · cases hw3
      · dsimp only at hw3; split at hw3 <;> cases hw3
    | ok _ =>
    rw [bind_ok e3]
    dsimp only
    have hD3 := a3'.disks h hl2
    rw [bind_ok (sub_run (by decide) (by omega) _)]
    obtain ⟨m4, e4, a4⟩ := writeSector_after hD3 (part_valid hD3.vsm (lo := 0x130) (hi := 0x230) (by omega) (by omega)) 0 0xB
    rw [bytesOf_part (by omega) (by omega), hD3.hsm, show (0x230 - 0x130 : Nat) = 0x100 from rfl] at e4 a4
    exact ⟨m4, e4, After.trans h hl2 (writeSector_length.trans hl2) a3' a4, writeSector_length.trans hl2⟩
  · rw [h.hd] at hx
    rw [hx, bind_err hr]
    exact ⟨m, rfl, h0, rfl⟩

theorem writeSector_not {img : Bytes} {t s : UInt8} {data : Bytes} : (Disk.writeSector img t s data).1 ≠ .timeout := by
  unfold Disk.writeSector
  split
  · exact fun h => by cases h
  · dsimp only
    split <;> exact fun h => by cases h

theorem setFile_not {v : SectorMap} {t s f : UInt8} : (Supermon.setFileForSector v t s f).1 ≠ .timeout := by
  unfold Supermon.setFileForSector
  repeat' split
  all_goals exact fun h => by cases h

theorem setFile_not' {v : SectorMap} {t s f : UInt8} : (Supermon.setFileForSector v t s f).1 ≠ .panic := by
  unfold Supermon.setFileForSector
  repeat' split
  all_goals exact fun h => by cases h

theorem writeLoop_after {cts : Slice} (needed : Nat) (file : UInt8) (l : List (UInt8 × UInt8)) (hcap : cts.cap = cts.len) (h1 : cts.arr ≠ d.arr)
    (h2 : cts.arr ≠ sm.arr) (c : Bytes) (i : Nat) (h : Disks m d sm img v) (hc : Valid m cts) (hcb : bytesOf m cts = c) :
    ∃ m', writeLoop cts sm d needed file l i m = ((Supermon.writeLoop c needed file l i v img).1, m') ∧
      After m d sm (Supermon.writeLoop c needed file l i v img).2.2 (Supermon.writeLoop c needed file l i v img).2.1 m' ∧
      (Supermon.writeLoop c needed file l i v img).2.2.length = img.length := by
  induction l generalizing m i img v with
  | nil => exact ⟨m, rfl, by have := After.refl h []; rw [List.append_nil] at this; exact this, rfl⟩
  | cons ts rest ih =>
    unfold writeLoop Supermon.writeLoop
    rw [bind_ok (theMap_run h)]
    by_cases hf : fileForSector v ts.1 ts.2 = fileFree
    · rw [if_pos hf, if_pos hf]
      have hcl : c.length = cts.len := by rw [← hcb]; exact bytesOf_length hc
      by_cases hp : (i + 1) * 256 > c.length
      · rw [if_pos hp]
        have : sub cts (i * 256) ((i + 1) * 256) m = (.panic, m) := by
          unfold sub
          rw [if_neg (by omega)]
          rfl
        rw [bind_panic this]
        exact ⟨m, rfl, by simpa using After.refl h [], rfl⟩
      · rw [if_neg hp, bind_ok (sub_run (by omega) (by omega) _)]
        obtain ⟨m1, e1, a1⟩ := writeSector_after h (part_valid hc (lo := i * 256) (hi := (i + 1) * 256) (by omega) (by omega)) ts.1 ts.2
        rw [bytesOf_part (by omega) (by omega), hcb, show (i + 1) * 256 - i * 256 = 256 by omega] at e1 a1
        have hl1 := @writeSector_length img ts.1 ts.2 (slice c (i * 256) 256)
        have ht1 := @writeSector_not img ts.1 ts.2 (slice c (i * 256) 256)
        generalize Disk.writeSector img ts.1 ts.2 (slice c (i * 256) 256) = r at *
        obtain ⟨o1, img1⟩ := r
        cases o1 with
        | err k => rw [bind_err e1]; exact ⟨m1, rfl, a1, hl1⟩
        | panic => rw [bind_panic e1]; exact ⟨m1, rfl, a1, hl1⟩
        | timeout => exact absurd rfl ht1
        | ok _ =>
        rw [bind_ok e1]
        dsimp only
        have hD1 := a1.disks h hl1
        obtain ⟨hc1, hcb1⟩ := a1.other h hl1 hc h1 h2
        rw [hcb] at hcb1
        obtain ⟨m2, e2, a2⟩ := setFile_after hD1 ts.1 ts.2 file
        have ht2 := @setFile_not v ts.1 ts.2 file
        have ht3 := @setFile_not' v ts.1 ts.2 file
        generalize Supermon.setFileForSector v ts.1 ts.2 file = r at *
        obtain ⟨o2, v2⟩ := r
        have a2' := After.trans h hl1 hl1 a1 a2
        cases o2 with
        | err k => rw [bind_err e2]; exact ⟨m2, rfl, a2', hl1⟩
        | panic => exact absurd rfl ht3
        | timeout => exact absurd rfl ht2
        | ok _ =>
        rw [bind_ok e2]
        dsimp only
        have hD2 := a2'.disks h hl1
        by_cases hn : i + 1 = needed
        · rw [if_pos hn, if_pos hn]
          exact ⟨m2, rfl, a2', hl1⟩
        · rw [if_neg hn, if_neg hn]
          obtain ⟨hc2, hcb2⟩ := a2'.other h hl1 hc h1 h2
          rw [hcb] at hcb2
          obtain ⟨m3, e3, a3, hl3⟩ := ih (i + 1) hD2 hc2 hcb2
          exact ⟨m3, e3, After.trans h hl1 (hl3.trans hl1) a2' a3, hl3.trans hl1⟩
    · rw [if_neg hf, if_neg hf]
      exact ih i h hc hcb

theorem put_zeros (c : Bytes) (n : Nat) (h : c.length ≤ n) : (put (zeros n) 0 c).length = n := by
  rw [put_length (by simpa using h), zeros_length]

/-- The contents may be anywhere in memory, also on the disk itself. -/
theorem writeFile_after (h : Disks m d sm img v) (file : UInt8) {contents : Slice} (hc : Valid m contents) (ow : Bool) :
    ∃ m', writeFile sm d file contents ow m = ((Supermon.writeFile v img file (bytesOf m contents) ow).existed,
        (Supermon.writeFile v img file (bytesOf m contents) ow).out, m') ∧
      After m d sm (Supermon.writeFile v img file (bytesOf m contents) ow).img (Supermon.writeFile v img file (bytesOf m contents) ow).sm m' ∧
      (Supermon.writeFile v img file (bytesOf m contents) ow).img.length = img.length := by
  have hcl := bytesOf_length hc
  generalize hcb : bytesOf m contents = c at hcl
  unfold writeFile Supermon.writeFile
  dsimp only
  rw [hcl]
  generalize hn : (contents.len + 255) / 256 = needed
  have hpl : (put (zeros (256 * needed)) 0 c).length = 256 * needed := put_zeros _ _ (by omega)
  have hstart : writeStart sm file contents m = (.ok (⟨m.length, 0, 256 * needed, 256 * needed⟩, (sectorsForFile v file).length, freeSectors v),
      m ++ [put (zeros (256 * needed)) 0 c]) := by
    unfold writeStart
    rw [hn, bind_ok (make_run _ m)]
    have hcopy : copyTo ⟨m.length, 0, 256 * needed, 256 * needed⟩ contents (m ++ [zeros (256 * needed)]) =
        (.ok (), m ++ [put (zeros (256 * needed)) 0 c]) := by
      unfold copyTo
      rw [bytesOf_append hc.arr, hcb, List.take_of_length_le (by show c.length ≤ 256 * needed; omega)]
      rw [store_part (fresh_valid m (zeros (256 * needed)) [] (n := 256 * needed) (Nat.le_refl _) (by simp)) (lo := 0)
        ⟨m.length, 0, 256 * needed, 256 * needed⟩ rfl rfl (by show 0 + c.length ≤ 256 * needed; omega),
        bytesOf_fresh _ _ _ _ (by simp), store_fresh _ _ _ _ _ _ (by rw [hpl]; simp)]
    rw [bind_ok hcopy, bind_ok (theMap_run (h.append _))]
    rfl
  rw [hstart]
  dsimp only
  have hD := h.append [put (zeros (256 * needed)) 0 c]
  have hA := After.refl h [put (zeros (256 * needed)) 0 c]
  have hvc : Valid (m ++ [put (zeros (256 * needed)) 0 c]) ⟨m.length, 0, 256 * needed, 256 * needed⟩ :=
    fresh_valid m _ [] (Nat.le_refl _) (by rw [hpl]; exact Nat.le_refl _)
  have hbc : bytesOf (m ++ [put (zeros (256 * needed)) 0 c]) ⟨m.length, 0, 256 * needed, 256 * needed⟩ = put (zeros (256 * needed)) 0 c :=
    bytesOf_fresh m _ [] _ hpl.symm
  have hne1 : m.length ≠ d.arr := by have := h.vd.arr; omega
  have hne2 : m.length ≠ sm.arr := by have := h.vsm.arr; omega
  generalize put (zeros (256 * needed)) 0 c = cc at *
  by_cases hsp : freeSectors v + (sectorsForFile v file).length < needed
  · rw [if_pos hsp, if_pos hsp]
    exact ⟨_, rfl, hA, rfl⟩
  rw [if_neg hsp, if_neg hsp]
  by_cases hex : decide ((sectorsForFile v file).length > 0) ∧ !ow
  · rw [if_pos hex, if_pos hex]
    exact ⟨_, rfl, hA, rfl⟩
  rw [if_neg hex, if_neg hex]
  generalize decide ((sectorsForFile v file).length > 0) = existed
  obtain ⟨m1, e1, a1⟩ : ∃ m1, (if existed = true then deleteFile sm file else pure ()) (m ++ [cc]) = (.ok (), m1) ∧
      After m d sm img (if existed = true then Supermon.deleteFile v file else v) m1 := by
    cases existed with
    | false => exact ⟨_, rfl, hA⟩
    | true =>
      obtain ⟨m1, e1, a1⟩ := deleteFile_after hD file
      exact ⟨m1, e1, After.trans h rfl rfl hA a1⟩
  have hD1 := a1.disks h rfl
  obtain ⟨hvc1, hbc1⟩ : Valid m1 ⟨m.length, 0, 256 * needed, 256 * needed⟩ ∧ bytesOf m1 ⟨m.length, 0, 256 * needed, 256 * needed⟩ = cc := by
    cases existed with
    | false => cases e1; exact ⟨hvc, hbc⟩
    | true =>
      obtain ⟨m1', e1', a1'⟩ := deleteFile_after hD file
      rw [if_pos rfl, e1'] at e1
      cases e1
      have := a1'.other hD rfl hvc hne1 hne2
      rw [hbc] at this
      exact this
  generalize (if existed = true then Supermon.deleteFile v file else v) = v1 at *
  obtain ⟨m2, e2, a2, hl2⟩ := writeLoop_after (cts := ⟨m.length, 0, 256 * needed, 256 * needed⟩) needed file allSectors rfl hne1 hne2 cc 0 hD1 hvc1 hbc1
  generalize Supermon.writeLoop cc needed file allSectors 0 v1 img = r at *
  obtain ⟨o2, v2, img2⟩ := r
  dsimp only at e2 a2 hl2
  have a2' := After.trans h rfl hl2 a1 a2
  have hrun : ∀ {o : Out Unit} {m' : Mem}, (do writeLoop ⟨m.length, 0, 256 * needed, 256 * needed⟩ sm d needed file allSectors 0; persist sm d : M Unit) m1 = (o, m') →
      writeEnd sm d file ⟨m.length, 0, 256 * needed, 256 * needed⟩ needed existed (m ++ [cc]) = (o, m') := by
    intro o m' hh
    unfold writeEnd
    cases existed with
    | false => cases e1; exact hh
    | true => exact (bind_ok (x := deleteFile sm file) e1).trans hh
  cases o2 with
  | err k => exact ⟨m2, by rw [hrun (bind_err e2)], a2', hl2⟩
  | panic => exact ⟨m2, by rw [hrun (bind_panic e2)], a2', hl2⟩
  | timeout =>
    refine ⟨m2, ?_, a2', hl2⟩
    rw [hrun (bind_timeout e2)]
  | ok _ =>
  have hD2 := a2'.disks h hl2
  obtain ⟨m3, e3, a3, hl3⟩ := persist_after hD2
  exact ⟨m3, by rw [hrun ((bind_ok e2).trans e3)], After.trans h hl2 (hl3.trans hl2) a2' a3, hl3.trans hl2⟩

end

end Verif.Heap
