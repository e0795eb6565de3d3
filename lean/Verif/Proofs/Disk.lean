import Verif.Model.Disk
import Verif.Spec.Disk
import Mathlib.Data.List.Perm.Subperm

/-! # Lemmas about sectors and Swizzle -/

set_option autoImplicit false

namespace Verif

/-- Apply a list of aligned chunk writes. -/
def putAll {α : Type} (k : Nat) : List (Nat × List α) → List α → List α
  | [], l => l
  | (i, d) :: rest, l => putAll k rest (put l (i * k) d)

theorem putAll_append {α : Type} (k : Nat) (a b : List (Nat × List α)) (l : List α) :
    putAll k (a ++ b) l = putAll k b (putAll k a l) := by
  induction a generalizing l with
  | nil => rfl
  | cons x xs ih => exact ih _

theorem putAll_length {α : Type} {k n : Nat} (ws : List (Nat × List α)) (l : List α)
    (hl : l.length = n * k) (hw : ∀ w ∈ ws, w.1 < n ∧ w.2.length = k) :
    (putAll k ws l).length = n * k := by
  induction ws generalizing l with
  | nil => exact hl
  | cons w ws ih =>
    have hw1 := hw w (by simp)
    apply ih
    · rw [put_length, hl]
      rw [hl, hw1.2]
      have : (w.1 + 1) * k ≤ n * k := Nat.mul_le_mul_right _ hw1.1
      rw [Nat.add_mul] at this; omega
    · intro v hv; exact hw v (by simp [hv])

theorem chunk_disjoint {i j k : Nat} (h : i ≠ j) : i * k + k ≤ j * k ∨ j * k + k ≤ i * k := by
  rcases Nat.lt_or_gt_of_ne h with h | h
  · left
    have : (i + 1) * k ≤ j * k := Nat.mul_le_mul_right _ h
    rw [Nat.add_mul] at this; omega
  · right
    have : (j + 1) * k ≤ i * k := Nat.mul_le_mul_right _ h
    rw [Nat.add_mul] at this; omega

theorem chunk_in {i n k : Nat} (h : i < n) : i * k + k ≤ n * k := by
  have : (i + 1) * k ≤ n * k := Nat.mul_le_mul_right _ h
  rw [Nat.add_mul] at this; omega

/-- A chunk not written keeps its contents. -/
theorem slice_putAll_not_mem {α : Type} {k n : Nat} (ws : List (Nat × List α)) (l : List α)
    (hl : l.length = n * k) (hw : ∀ w ∈ ws, w.1 < n ∧ w.2.length = k) {j : Nat}
    (hj : ∀ w ∈ ws, w.1 ≠ j) : slice (putAll k ws l) (j * k) k = slice l (j * k) k := by
  induction ws generalizing l with
  | nil => rfl
  | cons w ws ih =>
    have hw1 := hw w (by simp)
    have hin := chunk_in (k := k) hw1.1
    have hlen : (put l (w.1 * k) w.2).length = n * k := by
      rw [put_length, hl]; rw [hl, hw1.2]; omega
    show slice (putAll k ws (put l (w.1 * k) w.2)) (j * k) k = _
    rw [ih _ hlen (fun v hv => hw v (by simp [hv])) (fun v hv => hj v (by simp [hv]))]
    apply slice_put_of_disjoint
    · rw [hl, hw1.2]; omega
    · rw [hw1.2]
      rcases chunk_disjoint (k := k) (hj w (by simp)) with h | h
      · right; omega
      · left; omega

/-- A chunk written once holds what was written. -/
theorem slice_putAll_mem {α : Type} {k n : Nat} (ws : List (Nat × List α)) (l : List α)
    (hl : l.length = n * k) (hw : ∀ w ∈ ws, w.1 < n ∧ w.2.length = k)
    (hnd : (ws.map Prod.fst).Nodup) {w : Nat × List α} (hm : w ∈ ws) :
    slice (putAll k ws l) (w.1 * k) k = w.2 := by
  induction ws generalizing l with
  | nil => simp at hm
  | cons v ws ih =>
    have hw1 := hw v (by simp)
    have hin := chunk_in (k := k) hw1.1
    have hlen : (put l (v.1 * k) v.2).length = n * k := by
      rw [put_length, hl]; rw [hl, hw1.2]; omega
    simp only [List.map_cons, List.nodup_cons] at hnd
    show slice (putAll k ws (put l (v.1 * k) v.2)) _ k = _
    rcases List.mem_cons.1 hm with rfl | hm
    · rw [slice_putAll_not_mem ws _ hlen (fun v hv => hw v (by simp [hv]))]
      · have := slice_put_same (l := l) (off := w.1 * k) (d := w.2) (by rw [hl, hw1.2]; omega)
        rwa [hw1.2] at this
      · intro u hu he
        exact hnd.1 (he ▸ List.mem_map_of_mem hu)
    · exact ih _ hlen (fun v hv => hw v (by simp [hv])) hnd.2 hm

namespace Disk
open Spec

theorem readSector_eq (img : Bytes) (t s : UInt8) :
    readSector img t s =
      if img.length < 4096 * t.toNat + 256 * s.toNat + 256 then .err .other
      else .ok (sectorAt img t.toNat s.toNat) := by
  have e : t.toNat * (256 * 16) + s.toNat * 256 = 4096 * t.toNat + 256 * s.toNat := by omega
  simp only [readSector, floppyTrackBytes, floppySectors, e, sectorAt, slice]

theorem writeSector_eq (img : Bytes) (t s : UInt8) (d : Bytes) :
    writeSector img t s d =
      if d.length = 256 ∧ 4096 * t.toNat + 256 * s.toNat + 256 ≤ img.length then
        (.ok (), put img (4096 * t.toNat + 256 * s.toNat) d)
      else (.err .other, img) := by
  have e : t.toNat * (256 * 16) + s.toNat * 256 = 4096 * t.toNat + 256 * s.toNat := by omega
  simp only [writeSector, floppyTrackBytes, floppySectors, e]
  by_cases h : d.length = 256
  · by_cases h2 : img.length < 4096 * t.toNat + 256 * s.toNat + 256
    · simp [h, h2]
    · have h3 : 4096 * t.toNat + 256 * s.toNat + 256 ≤ img.length := by omega
      simp [h, h2, h3]
  · simp [h]

theorem sectorAt_eq_slice (img : Bytes) (t s : Nat) :
    sectorAt img t s = slice img ((16 * t + s) * 256) 256 := by
  unfold sectorAt slice
  congr 2; omega

theorem sectorAt_length {img : Bytes} {t s : Nat} (h : 4096 * t + 256 * s + 256 ≤ img.length) :
    (sectorAt img t s).length = 256 := by
  rw [sectorAt_eq_slice, slice_length_of_le]; omega

/-- Floppy images are determined by their 560 sectors. -/
theorem ext_of_sectors {a b : Bytes} (ha : a.length = 143360) (hb : b.length = 143360)
    (h : ∀ t, t < 35 → ∀ s, s < 16 → sectorAt a t s = sectorAt b t s) : a = b := by
  apply ext_of_slices (n := 560) (k := 256) (by omega) (by omega) (by omega)
  intro i hi
  have := h (i / 16) (by omega) (i % 16) (by omega)
  rw [sectorAt_eq_slice, sectorAt_eq_slice] at this
  have e : 16 * (i / 16) + i % 16 = i := by omega
  rwa [e] at this

theorem flatMap_range_mul {α : Type} (f : Nat → List α) (a b : Nat) :
    (List.range (b * a)).flatMap f =
      (List.range a).flatMap fun t => (List.range b).flatMap fun s => f (b * t + s) := by
  induction a with
  | zero => rfl
  | succ a ih =>
    rw [List.range_succ, List.flatMap_append, ← ih, List.flatMap_singleton, Nat.mul_add,
      Nat.mul_one, List.range_add, List.flatMap_append, List.flatMap_map]

theorem flatMap_chunks {α : Type} (l : List α) (k n : Nat) :
    slice l 0 (n * k) = (List.range n).flatMap fun i => slice l (i * k) k := by
  induction n with
  | zero => simp [slice]
  | succ n ih =>
    rw [List.range_succ, List.flatMap_append, ← ih, List.flatMap_singleton,
      Nat.add_mul, Nat.one_mul]
    have := slice_append_slice l 0 (n * k) k
    simp only [Nat.zero_add] at this
    exact this.symm

theorem flatMap_sectors {img : Bytes} (h : img.length = 143360) :
    img = (List.range 35).flatMap fun t => (List.range 16).flatMap fun s => sectorAt img t s := by
  have h1 := flatMap_chunks img 256 (16 * 35)
  rw [show 16 * 35 * 256 = img.length by omega, slice_full, flatMap_range_mul] at h1
  simp only [sectorAt_eq_slice]
  exact h1

/-! ### validateOrder -/

theorem validateOrderLoop_ok (o seen : List Int) :
    validateOrderLoop o seen = .ok () ↔
      (∀ m ∈ o, 0 ≤ m ∧ m ≤ 15) ∧ o.Nodup ∧ ∀ m ∈ o, m ∉ seen := by
  induction o generalizing seen with
  | nil => simp [validateOrderLoop]
  | cons m rest ih =>
    simp only [validateOrderLoop]
    split
    · rename_i h
      simp only [reduceCtorEq, List.mem_cons, forall_eq_or_imp, false_iff]
      intro hh; omega
    · split
      · rename_i h1 h2
        simp [h2]
      · rename_i h1 h2
        rw [ih]
        simp only [List.mem_cons, forall_eq_or_imp, List.nodup_cons, not_or]
        constructor
        · rintro ⟨a, b, c⟩
          refine ⟨⟨by omega, a⟩, ⟨fun hm => (c m hm).1 rfl, b⟩, h2, fun x hx => (c x hx).2⟩
        · rintro ⟨⟨_, a⟩, ⟨b, b'⟩, _, c⟩
          exact ⟨a, b', fun x hx => ⟨fun e => b (e ▸ hx), c x hx⟩⟩

theorem validateOrderLoop_returns (o seen : List Int) :
    validateOrderLoop o seen = .ok () ∨ validateOrderLoop o seen = .err .other := by
  induction o generalizing seen with
  | nil => simp [validateOrderLoop]
  | cons m rest ih =>
    simp only [validateOrderLoop]
    split
    · simp
    · split
      · simp
      · exact ih _

theorem perm16_iff (o : List Int) :
    IsSectorOrder o ↔ o.length = 16 ∧ (∀ m ∈ o, 0 ≤ m ∧ m ≤ 15) ∧ o.Nodup := by
  unfold IsSectorOrder
  constructor
  · intro h
    refine ⟨by simpa using h.length_eq, ?_, h.nodup_iff.2 (by decide)⟩
    intro m hm
    have := h.mem_iff.1 hm
    simp at this; omega
  · rintro ⟨hl, hr, hn⟩
    have hsub : o ⊆ [0, 1, 2, 3, 4, 5, 6, 7, 8, 9, 10, 11, 12, 13, 14, 15] := by
      intro m hm
      have := hr m hm
      simp; omega
    exact (hn.subperm hsub).perm_of_length_le (by simp [hl])

theorem validateOrder_ok_iff (o : List Int) : validateOrder o = .ok () ↔ IsSectorOrder o := by
  rw [perm16_iff]
  unfold validateOrder floppySectors
  split
  · rename_i h; simp [h]
  · rename_i h
    rw [validateOrderLoop_ok]
    simp at h
    simp [h]

theorem validateOrder_cases (o : List Int) :
    validateOrder o = .ok () ∨ validateOrder o = .err .other := by
  unfold validateOrder
  split
  · simp
  · exact validateOrderLoop_returns _ _

/-! ### Swizzle -/

/-- The position that sector `s` moves to. -/
def dest (o : List Int) (s : Nat) : Nat := ((o[s]?).getD 0).toNat

theorem dest_lt {o : List Int} (h : IsSectorOrder o) {s : Nat} (hs : s < 16) : dest o s < 16 := by
  have h' := (perm16_iff o).1 h
  have hl : s < o.length := by omega
  have := h'.2.1 o[s] (List.getElem_mem hl)
  simp [dest, List.getElem?_eq_getElem hl]
  omega

theorem getElem?_order {o : List Int} (h : IsSectorOrder o) {s : Nat} (hs : s < 16) :
    o[s]? = some (dest o s : Int) := by
  have h' := (perm16_iff o).1 h
  have hl : s < o.length := by omega
  have := h'.2.1 o[s] (List.getElem_mem hl)
  simp [dest, List.getElem?_eq_getElem hl]
  omega

theorem dest_inj {o : List Int} (h : IsSectorOrder o) {s s' : Nat} (hs : s < 16) (hs' : s' < 16)
    (e : dest o s = dest o s') : s = s' := by
  have h' := (perm16_iff o).1 h
  have h1 := getElem?_order h hs
  have h2 := getElem?_order h hs'
  rw [e] at h1
  exact (List.getElem?_inj (show s < o.length by omega) h'.2.2).1 (h1.trans h2.symm)

/-- Swizzle as a list of chunk writes. -/
def swizzleWrites (img : Bytes) (o : List Int) (ps : List (Nat × Nat)) : List (Nat × Bytes) :=
  ps.map fun p => (16 * p.1 + dest o p.2, sectorAt img p.1 p.2)

theorem swizzleStep_eq {img r : Bytes} {o : List Int} (hi : img.length = 143360)
    (hr : r.length = 143360) (ho : IsSectorOrder o) {t s : Nat} (ht : t < 35) (hs : s < 16) :
    swizzleStep img o r (t, s) =
      .ok (put r ((16 * t + dest o s) * 256) (sectorAt img t s)) := by
  have e1 : (UInt8.ofNat t).toNat = t := by simp; omega
  have e2 : (UInt8.ofNat s).toNat = s := by simp; omega
  have hd := dest_lt ho hs
  have e3 : (intToByte (dest o s : Int)).toNat = dest o s := by
    simp only [intToByte]; simp; omega
  unfold swizzleStep
  rw [readSector_eq]
  simp only [e1, e2, getElem?_order ho hs]
  rw [if_neg (by omega)]
  simp only [Out.bind_ok]
  rw [writeSector_eq, e1, e3, if_pos]
  · show Out.ok _ = Out.ok _
    congr 2; omega
  · constructor
    · apply sectorAt_length; omega
    · omega

theorem foldlM_swizzle {img r : Bytes} {o : List Int} (hi : img.length = 143360)
    (hr : r.length = 143360) (ho : IsSectorOrder o) (ps : List (Nat × Nat))
    (hp : ∀ p ∈ ps, p.1 < 35 ∧ p.2 < 16) :
    ps.foldlM (swizzleStep img o) r = .ok (putAll 256 (swizzleWrites img o ps) r) := by
  induction ps generalizing r with
  | nil => rfl
  | cons p ps ih =>
    have hp1 := hp p (by simp)
    have hd := dest_lt ho hp1.2
    rw [List.foldlM_cons, swizzleStep_eq hi hr ho hp1.1 hp1.2, Out.bind_ok, ih]
    · rfl
    · rw [put_length, hr]
      rw [sectorAt_length (by omega), hr]; omega
    · intro q hq; exact hp q (by simp [hq])

theorem mem_trackSectorPairs {p : Nat × Nat} : p ∈ trackSectorPairs ↔ p.1 < 35 ∧ p.2 < 16 := by
  simp only [trackSectorPairs, List.mem_flatMap, List.mem_range, List.mem_map, floppyTracks,
    floppySectors]
  constructor
  · rintro ⟨t, ht, s, hs, rfl⟩; exact ⟨ht, hs⟩
  · rintro ⟨ht, hs⟩; exact ⟨p.1, ht, p.2, hs, rfl⟩

theorem trackSectorPairs_nodup : trackSectorPairs.Nodup := by
  have e : trackSectorPairs = (List.range 560).map fun n => (n / 16, n % 16) := by decide +kernel
  rw [e]
  refine List.pairwise_map.2 (List.nodup_range.imp ?_)
  intro a b hab h
  have := Prod.mk.inj h
  omega

/-- The image Swizzle computes. -/
def swizzled (img : Bytes) (o : List Int) : Bytes :=
  putAll 256 (swizzleWrites img o trackSectorPairs) (zeros 143360)

theorem swizzle_eq (img : Bytes) (o : List Int) :
    swizzle img o =
      if img.length = 143360 ∧ validateOrder o = .ok () then .ok (swizzled img o)
      else .err .other := by
  unfold swizzle
  rw [show floppyDiskBytes = 143360 from rfl]
  by_cases hi : img.length = 143360
  · simp only [hi, ne_eq, not_true_eq_false, if_false, true_and]
    rcases validateOrder_cases o with h | h
    · rw [h, if_pos rfl]
      have ho := (validateOrder_ok_iff o).1 h
      rw [Out.bind_ok]
      exact foldlM_swizzle hi (zeros_length _) ho _ (fun p hp => mem_trackSectorPairs.1 hp)
    · rw [h]; simp
  · simp [hi]

theorem swizzle_ok_iff {img r : Bytes} {o : List Int} :
    swizzle img o = .ok r ↔ img.length = 143360 ∧ IsSectorOrder o ∧ r = swizzled img o := by
  rw [swizzle_eq]
  split
  · rename_i h
    rw [validateOrder_ok_iff] at h
    simp [h, eq_comm]
  · rename_i h
    rw [validateOrder_ok_iff] at h
    simp; grind

theorem swizzleWrites_wf {img : Bytes} {o : List Int} (hi : img.length = 143360)
    (ho : IsSectorOrder o) :
    ∀ w ∈ swizzleWrites img o trackSectorPairs, w.1 < 560 ∧ w.2.length = 256 := by
  intro w hw
  obtain ⟨p, hp, rfl⟩ := List.mem_map.1 hw
  have hp' := mem_trackSectorPairs.1 hp
  have := dest_lt ho hp'.2
  exact ⟨by simp only; omega, sectorAt_length (by omega)⟩

theorem swizzleWrites_nodup {img : Bytes} {o : List Int} (ho : IsSectorOrder o) :
    ((swizzleWrites img o trackSectorPairs).map Prod.fst).Nodup := by
  unfold swizzleWrites
  rw [List.map_map]
  refine List.pairwise_map.2 (trackSectorPairs_nodup.imp_of_mem ?_)
  intro a b ha hb hab e
  have ha' := mem_trackSectorPairs.1 ha
  have hb' := mem_trackSectorPairs.1 hb
  have h1 := dest_lt ho ha'.2
  have h2 := dest_lt ho hb'.2
  simp only [Function.comp] at e
  have e1 : a.1 = b.1 := by omega
  have e2 : dest o a.2 = dest o b.2 := by omega
  exact hab (Prod.ext e1 (dest_inj ho ha'.2 hb'.2 e2))

theorem swizzled_length {img : Bytes} {o : List Int} (hi : img.length = 143360)
    (ho : IsSectorOrder o) : (swizzled img o).length = 143360 :=
  putAll_length (n := 560) _ _ (zeros_length _) (swizzleWrites_wf hi ho)

theorem sectorAt_swizzled {img : Bytes} {o : List Int} (hi : img.length = 143360)
    (ho : IsSectorOrder o) {t s : Nat} (ht : t < 35) (hs : s < 16) :
    sectorAt (swizzled img o) t (dest o s) = sectorAt img t s := by
  rw [sectorAt_eq_slice]
  have := slice_putAll_mem (n := 560) (swizzleWrites img o trackSectorPairs)
    (zeros 143360) (zeros_length _) (swizzleWrites_wf hi ho) (swizzleWrites_nodup ho)
    (w := (16 * t + dest o s, sectorAt img t s))
    (List.mem_map.2 ⟨(t, s), mem_trackSectorPairs.2 ⟨ht, hs⟩, rfl⟩)
  exact this

attribute [irreducible] swizzled

/-- Swizzling by mutually inverse orders is the identity. -/
theorem swizzled_swizzled {img : Bytes} {o p : List Int} (hi : img.length = 143360)
    (ho : IsSectorOrder o) (hp : IsSectorOrder p)
    (hinv : ∀ s, s < 16 → dest p (dest o s) = s) : swizzled (swizzled img o) p = img := by
  have h1 := swizzled_length hi ho
  apply ext_of_sectors (swizzled_length h1 hp) hi
  intro t ht s hs
  have hd := dest_lt ho hs
  have := sectorAt_swizzled h1 hp ht hd
  rw [hinv s hs, sectorAt_swizzled hi ho ht hs] at this
  exact this

end Disk
end Verif
