import Verif.Proofs.Values
import Verif.Proofs.HeapDos3
import Verif.Spec.ValuesDos3

/-!
# Lemmas for C113: the slices of a caller, with a DOS 3.3 disk
-/

set_option autoImplicit false

namespace Verif.Spec
open Disk Heap

/-- The slices of the caller: what they hold, and that no two share an array. -/
structure Own (m : Mem) (disk : Slice) (mine : List Slice) (b : List Bytes) : Prop where
  holds : mine.map (bytesOf m) = b
  valid : ∀ t ∈ mine, Valid m t
  apart : ∀ t ∈ mine, t.arr ≠ disk.arr
  distinct : (mine.map Slice.arr).Nodup

theorem Own.grow {m : Mem} {d : Slice} {mine : List Slice} {b : List Bytes} (h : Own m d mine b) (x : Mem) : Own (m ++ x) d mine b :=
  ⟨(List.map_congr_left fun t ht => bytesOf_append (h.valid t ht).arr x).trans h.holds, fun t ht => (h.valid t ht).append x, h.apart, h.distinct⟩

theorem Own.add {m : Mem} {d : Slice} {mine : List Slice} {b : List Bytes} (h : Own m d mine b) (hd : d.arr < m.length) (x : Mem) {t : Slice} {c : Bytes}
    (ht : Valid (m ++ x) t) (ha : m.length ≤ t.arr) (hb : bytesOf (m ++ x) t = c) : Own (m ++ x) d (mine ++ [t]) (b ++ [c]) := by
  have hg := h.grow x
  refine ⟨?_, ?_, ?_, ?_⟩
  · rw [List.map_append, hg.holds, List.map_singleton, hb]
  · intro u hu
    rcases List.mem_append.1 hu with hu | hu
    · exact hg.valid u hu
    · rw [List.mem_singleton.1 hu]; exact ht
  · intro u hu
    rcases List.mem_append.1 hu with hu | hu
    · exact h.apart u hu
    · rw [List.mem_singleton.1 hu]; omega
  · rw [List.map_append, List.nodup_append]
    refine ⟨h.distinct, by simp, ?_⟩
    intro a ha' c' hb' e
    obtain ⟨u, hu, rfl⟩ := List.mem_map.1 ha'
    have : c' = t.arr := by simpa using hb'
    have := (h.valid u hu).arr
    omega

theorem Own.poke {m : Mem} {d : Slice} {mine : List Slice} {b : List Bytes} (h : Own m d mine b) (hv : Valid m d) {c : Bytes} (hc : c.length ≤ d.cap) :
    Own (store d c m) d mine b :=
  ⟨(List.map_congr_left fun t ht => bytesOf_store_other (h.apart t ht) c).trans h.holds, fun t ht => (h.valid t ht).store hv hc, h.apart, h.distinct⟩

theorem Own.write {m : Mem} {d : Slice} {mine : List Slice} {b : List Bytes} (h : Own m d mine b) {k : Nat} {t : Slice} (hk : mine[k]? = some t)
    {c : Bytes} (hc : c.length = t.len) : Own (store t c m) d mine (b.set k c) := by
  have hv := h.valid t (List.mem_of_getElem? hk)
  have hcap : c.length ≤ t.cap := by rw [hc]; exact hv.len
  refine ⟨?_, fun u hu => (h.valid u hu).store hv hcap, h.apart, h.distinct⟩
  rw [← h.holds]
  apply List.ext_getElem?
  intro i
  rw [List.getElem?_map, List.getElem?_set, List.getElem?_map, List.length_map]
  by_cases hik : k = i
  · subst hik
    rw [if_pos rfl, hk, if_pos (List.getElem?_eq_some_iff.1 hk).1]
    rw [Option.map_some, bytesOf_store_same hv hc]
  · rw [if_neg hik]
    cases hi : mine[i]? with
    | none => rfl
    | some u =>
      rw [Option.map_some, Option.map_some, bytesOf_store_other]
      intro e
      obtain ⟨l1, e1⟩ := List.getElem?_eq_some_iff.1 hk
      obtain ⟨l2, e2⟩ := List.getElem?_eq_some_iff.1 hi
      have := (List.nodup_iff_pairwise_ne.1 h.distinct)
      rw [List.pairwise_iff_getElem] at this
      rcases Nat.lt_or_gt_of_ne hik with hlt | hlt
      · refine this k i (by simpa using l1) (by simpa using l2) hlt ?_
        rw [List.getElem_map, List.getElem_map, e1, e2, e]
      · refine this i k (by simpa using l2) (by simpa using l1) hlt ?_
        rw [List.getElem_map, List.getElem_map, e1, e2, e]

/-- The state and the values agree. -/
structure Agree3 (s : Dos3State) (v : Dos3Values) : Prop where
  vd : Valid s.mem s.disk
  hd : bytesOf s.mem s.disk = v.op.data
  own : Own s.mem s.disk s.mine v.mine

theorem Agree3.sight {s : Dos3State} {v : Dos3Values} (h : Agree3 s v) (out : Out Unit) (f : Option Bytes) : s.sight out f = v.sight out f := by
  have hc : (HeapDos3.catalog s.disk s.mem).1 = v.op.catalog [] := by
    unfold HeapDos3.catalog
    rw [bind_ok (x := HeapDos3.read s.disk) (a := v.op.data) (m' := s.mem) (by unfold HeapDos3.read; rw [h.hd])]
    rfl
  unfold Dos3State.sight Dos3Values.sight
  rw [h.own.holds, h.hd, hc]

theorem Agree3.grow {s : Dos3State} {v : Dos3Values} (h : Agree3 s v) (x : Mem) : Agree3 { s with mem := s.mem ++ x } v :=
  ⟨h.vd.append x, (bytesOf_append h.vd.arr x).trans h.hd, h.own.grow x⟩

theorem Agree3.add {s : Dos3State} {v : Dos3Values} (h : Agree3 s v) (x : Mem) {t : Slice} {b : Bytes} (ht : Valid (s.mem ++ x) t) (ha : s.mem.length ≤ t.arr)
    (hb : bytesOf (s.mem ++ x) t = b) : Agree3 { s with mine := s.mine ++ [t], mem := s.mem ++ x } { v with mine := v.mine ++ [b] } :=
  ⟨h.vd.append x, (bytesOf_append h.vd.arr x).trans h.hd, h.own.add h.vd.arr x ht ha hb⟩

theorem Agree3.poke {s : Dos3State} {v : Dos3Values} (h : Agree3 s v) (b : Bytes) (hb : b.length = s.disk.len) :
    Agree3 { s with mem := store s.disk b s.mem } { v with op := ⟨b⟩ } := by
  have hc : b.length ≤ s.disk.cap := by rw [hb]; exact h.vd.len
  exact ⟨h.vd.store h.vd hc, bytesOf_store_same h.vd hb, h.own.poke h.vd hc⟩

theorem Agree3.write {s : Dos3State} {v : Dos3Values} (h : Agree3 s v) {k : Nat} {t : Slice} (hk : s.mine[k]? = some t) (b : Bytes) (hb : b.length = t.len) :
    Agree3 { s with mem := store t b s.mem } { v with mine := v.mine.set k b } := by
  have ht := List.mem_of_getElem? hk
  have hv := h.own.valid t ht
  have hc : b.length ≤ t.cap := by rw [hb]; exact hv.len
  exact ⟨h.vd.store hv hc, (bytesOf_store_other (Ne.symm (h.own.apart t ht)) b).trans h.hd, h.own.write hk hb⟩

theorem Agree3.piece {s : Dos3State} {v : Dos3Values} (h : Agree3 s v) (p : Piece) :
    (∃ t, s.piece p = some t ∧ v.piece p = some (bytesOf s.mem t)) ∨ s.piece p = none ∧ v.piece p = none := by
  have key : ∀ t lo hi, Valid s.mem t → (lo ≤ hi ∧ hi ≤ t.len) → cut (bytesOf s.mem t) lo hi = some (bytesOf s.mem ⟨t.arr, t.off + lo, hi - lo, t.cap - lo⟩) := by
    intro t lo hi hv hlh
    unfold cut
    rw [bytesOf_length hv, if_pos hlh]
    exact congrArg some (bytesOf_part hlh.1 hlh.2).symm
  have key2 : ∀ t lo hi, Valid s.mem t → ¬ (lo ≤ hi ∧ hi ≤ t.len) → cut (bytesOf s.mem t) lo hi = none := by
    intro t lo hi hv hlh
    unfold cut
    rw [bytesOf_length hv, if_neg hlh]
  cases p with
  | mine k lo hi =>
    unfold Dos3State.piece Dos3Values.piece
    dsimp only
    rw [← h.own.holds, List.getElem?_map]
    cases hk : s.mine[k]? with
    | none => exact Or.inr ⟨rfl, rfl⟩
    | some t =>
      have hv := h.own.valid t (List.mem_of_getElem? hk)
      rw [Option.map_some, Option.bind_some, Option.bind_some]
      by_cases hlh : lo ≤ hi ∧ hi ≤ t.len
      · rw [if_pos hlh]
        exact Or.inl ⟨_, rfl, key t lo hi hv hlh⟩
      · rw [if_neg hlh]
        exact Or.inr ⟨rfl, key2 t lo hi hv hlh⟩
  | disk lo hi =>
    unfold Dos3State.piece Dos3Values.piece
    dsimp only
    rw [← h.hd]
    by_cases hlh : lo ≤ hi ∧ hi ≤ s.disk.len
    · rw [if_pos hlh]
      exact Or.inl ⟨_, rfl, key _ lo hi h.vd hlh⟩
    · rw [if_neg hlh]
      exact Or.inr ⟨rfl, key2 _ lo hi h.vd hlh⟩

end Verif.Spec
