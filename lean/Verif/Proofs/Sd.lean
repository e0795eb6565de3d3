import Verif.Proofs.Cmd
import Mathlib.Data.List.Nodup

/-!
# Lemmas about Standard Delivery disks
-/

set_option autoImplicit false

namespace Verif.Cmd
open Disk Spec

/-- Number of the `k`-th sector visited, counted through the disk. -/
def visitIdx (k : Nat) : Nat := 16 * (visit k).1 + (visit k).2

theorem visit_lt {k : Nat} (h : k < 560) : (visit k).1 < 35 ∧ (visit k).2 < 16 := by
  unfold visit
  refine ⟨?_, ?_⟩
  · simp only; omega
  · simp only; split <;> omega

theorem visitIdx_lt {k : Nat} (h : k < 560) : visitIdx k < 560 := by
  have := visit_lt h
  unfold visitIdx; omega

theorem visitIdx_inj {i j : Nat} (h : visitIdx i = visitIdx j) : i = j := by
  unfold visitIdx visit at h
  simp only at h
  split at h <;> split at h <;> omega

/-- The track of the `k`-th visited sector, as the program holds it. -/
def vt (k : Nat) : UInt8 := UInt8.ofNat (visit k).1
/-- The sector of the `k`-th visited sector, as the program holds it. -/
def vs (k : Nat) : UInt8 := UInt8.ofNat (visit k).2

theorem vt_toNat {k : Nat} (h : k < 560) : (vt k).toNat = (visit k).1 := by
  have := visit_lt h
  simp [vt]; omega

theorem vs_toNat {k : Nat} (h : k < 560) : (vs k).toNat = (visit k).2 := by
  have := visit_lt h
  simp [vs]; omega

theorem nextSector_visit : ∀ k, k < 559 → nextSector (vt k) (vs k) = some (vt (k + 1), vs (k + 1)) := by
  decide +kernel

/-- The writes of the loop. -/
def sdWrites (contents : Bytes) (k n : Nat) : List (Nat × Bytes) :=
  (List.range n).map fun j => (visitIdx (k + j + 1), slice contents (256 * (k + j)) 256)

/-- The page numbers the loop adds. -/
def sdPages (address k n : Nat) : Bytes := (List.range n).map fun j => UInt8.ofNat ((address + 256 * (k + j)) / 256)

theorem sdWrites_succ (contents : Bytes) (k n : Nat) :
    sdWrites contents k (n + 1) = (visitIdx (k + 1), slice contents (256 * k) 256) :: sdWrites contents (k + 1) n := by
  unfold sdWrites
  rw [List.range_succ_eq_map, List.map_cons, List.map_map]
  refine congrArg₂ _ rfl (List.map_congr_left fun j _ => ?_)
  simp only [Function.comp_apply, Nat.succ_eq_add_one]
  rw [show k + (j + 1) = k + 1 + j by omega]

theorem sdPages_succ (address k n : Nat) :
    sdPages address k (n + 1) = UInt8.ofNat ((address + 256 * k) / 256) :: sdPages address (k + 1) n := by
  unfold sdPages
  rw [List.range_succ_eq_map, List.map_cons, List.map_map]
  refine congrArg₂ _ rfl (List.map_congr_left fun j _ => ?_)
  simp only [Function.comp_apply, Nat.succ_eq_add_one]
  rw [show k + (j + 1) = k + 1 + j by omega]

theorem sdLoop_eq (contents : Bytes) (address : Nat) (n : Nat) : ∀ (k : Nat) (loader disk : Bytes),
    k + n < 560 → 256 * (k + n) ≤ contents.length → disk.length = 143360 →
    sdLoop contents address n (256 * k) (vt k) (vs k) loader disk =
      .ok (loader ++ sdPages address k n, putAll 256 (sdWrites contents k n) disk) := by
  induction n with
  | zero => intro k loader disk _ _ _; simp [sdLoop, sdPages, sdWrites, putAll]
  | succ n ih =>
    intro k loader disk hk hc hd
    have hv := visit_lt (show k + 1 < 560 by omega)
    have hs : (slice contents (256 * k) 256).length = 256 := slice_length_of_le (by omega)
    rw [sdLoop, nextSector_visit k (by omega)]
    dsimp only
    rw [writeSector_eq, vt_toNat (by omega), vs_toNat (by omega), if_pos ⟨hs, by omega⟩]
    dsimp only
    have e : 256 * k + 256 = 256 * (k + 1) := by omega
    have hl : (put disk (4096 * (visit (k + 1)).1 + 256 * (visit (k + 1)).2) (slice contents (256 * k) 256)).length = 143360 := by
      rw [put_length, hd]; rw [hs, hd]; omega
    rw [e, ih (k + 1) _ _ (by omega) (by omega) hl, sdWrites_succ, sdPages_succ]
    refine congrArg Out.ok (Prod.ext (by simp) ?_)
    simp only [putAll]
    rw [show visitIdx (k + 1) * 256 = 4096 * (visit (k + 1)).1 + 256 * (visit (k + 1)).2 by unfold visitIdx; omega]

theorem sdLoader_length (start : UInt16) : (sdLoader start).length = 79 := rfl

/-- The condition for `mksd` to make a disk. -/
def SdOk (contents : Bytes) (address start : UInt16) : Prop :=
  address % 256 = 0 ∧ address ≤ start ∧ start.toNat < address.toNat + contents.length ∧
  start.toNat + contents.length ≤ 0xC000 ∧ pages contents ≤ 176

/-- The boot sector. -/
def sdBoot (contents : Bytes) (address start : UInt16) : Bytes :=
  padTo 256 (sdLoader start ++ sdPages address.toNat 0 (pages contents) ++ [0xC0])

theorem padTo_length {n : Nat} {b : Bytes} (h : b.length ≤ n) : (padTo n b).length = n := by
  simp [padTo]; omega

theorem sdPages_length (a k n : Nat) : (sdPages a k n).length = n := by simp [sdPages]

theorem sdBoot_length {contents : Bytes} {address start : UInt16} (h : pages contents ≤ 176) :
    (sdBoot contents address start).length = 256 := by
  unfold sdBoot
  rw [padTo_length]
  simp [sdLoader_length, sdPages_length]; omega

theorem sdImage_ok {contents : Bytes} {address start : UInt16} (h : SdOk contents address start) :
    sdImage contents address start =
      .ok (putAll 256 (sdWrites (padTo (256 * pages contents) contents) 0 (pages contents) ++
        [(0, sdBoot contents address start)]) (zeros 143360)) := by
  obtain ⟨h1, h2, h3, h4, h5⟩ := h
  have hp : contents.length ≤ 256 * pages contents := by unfold pages; omega
  unfold sdImage
  rw [if_neg (by simp [h1]), if_neg (by rw [UInt16.lt_iff_toNat_lt]; rw [UInt16.le_iff_toNat_le] at h2; omega),
    if_neg (by omega), if_neg (by omega)]
  dsimp only
  rw [sdLoader_length, if_neg (by unfold pages at h5; omega)]
  have e := sdLoop_eq (padTo (256 * pages contents) contents) address.toNat (pages contents) 0 (sdLoader start)
    (zeros 143360) (by omega) (by rw [padTo_length hp]; omega) (zeros_length _)
  have hl : (putAll 256 (sdWrites (padTo (256 * pages contents) contents) 0 (pages contents)) (zeros 143360)).length = 143360 := by
    refine putAll_length (n := 560) _ _ (by rw [zeros_length]) fun w hw => ?_
    obtain ⟨j, hj, rfl⟩ := List.mem_map.1 hw
    rw [List.mem_range] at hj
    exact ⟨visitIdx_lt (by omega), slice_length_of_le (by rw [padTo_length hp]; omega)⟩
  have e' : sdLoop (padTo (256 * ((contents.length + 255) / 256)) contents) address.toNat ((contents.length + 255) / 256) 0 0 0
      (sdLoader start) (zeros floppyDiskBytes) = _ := e
  rw [e', Out.bind_ok]
  dsimp only
  have hb : (sdBoot contents address start).length = 256 := sdBoot_length h5
  have hw : writeSector (putAll 256 (sdWrites (padTo (256 * pages contents) contents) 0 (pages contents)) (zeros 143360)) 0 0
      (sdBoot contents address start) = (.ok (), put (putAll 256 (sdWrites (padTo (256 * pages contents) contents) 0 (pages contents)) (zeros 143360)) (4096 * (0 : UInt8).toNat + 256 * (0 : UInt8).toNat)
      (sdBoot contents address start)) := by
    rw [writeSector_eq, if_pos ⟨hb, by rw [hl]; decide⟩]
  unfold sdBoot at hw
  rw [hw, putAll_append]
  rfl

theorem sdImage_iff {contents : Bytes} {address start : UInt16} :
    (∃ img, sdImage contents address start = .ok img) ↔ SdOk contents address start := by
  constructor
  · rintro ⟨img, h⟩
    unfold sdImage at h
    split at h
    · simp at h
    · split at h
      · simp at h
      · split at h
        · simp at h
        · split at h
          · simp at h
          · dsimp only at h
            split at h
            · simp at h
            · rename_i h1 h2 h3 h4 h5
              rw [sdLoader_length] at h5
              refine ⟨by simpa using h1, ?_, by omega, by omega, by unfold pages; omega⟩
              rw [UInt16.le_iff_toNat_le]; rw [UInt16.lt_iff_toNat_lt] at h2; omega
  · intro h; exact ⟨_, sdImage_ok h⟩

/-- `mksd` never panics, whatever the binary and the addresses. -/
theorem sdImage_err {contents : Bytes} {address start : UInt16} (h : ¬ SdOk contents address start) :
    sdImage contents address start = .err .other := by
  unfold sdImage
  split
  · rfl
  · split
    · rfl
    · split
      · rfl
      · split
        · rfl
        · dsimp only
          split
          · rfl
          · rename_i h1 h2 h3 h4 h5
            exfalso
            apply h
            rw [sdLoader_length] at h5
            refine ⟨by simpa using h1, ?_, by omega, by omega, by unfold pages; omega⟩
            rw [UInt16.le_iff_toNat_le]; rw [UInt16.lt_iff_toNat_lt] at h2; omega

theorem getElem?_padTo {n : Nat} {b : Bytes} (i : Nat) (h : i < n) : (padTo n b)[i]? = some ((b[i]?).getD 0) := by
  unfold padTo
  by_cases hi : i < b.length
  · rw [List.getElem?_append_left hi, List.getElem?_eq_getElem hi]; rfl
  · rw [List.getElem?_append_right (by omega), getElem?_zeros, if_pos (by omega), List.getElem?_eq_none (by omega)]
    rfl

theorem slice_padTo_page {contents : Bytes} {i : Nat} (h : i < pages contents) :
    slice (padTo (256 * pages contents) contents) (256 * i) 256 = page contents i := by
  apply List.ext_getElem?
  intro j
  rw [getElem?_slice]
  unfold page
  rw [List.getElem?_map]
  by_cases hj : j < 256
  · rw [if_pos hj, getElem?_padTo _ (by omega), List.getElem?_range hj]; rfl
  · rw [if_neg hj, List.getElem?_eq_none (by simp; omega)]; rfl

/-- The sectors of the disk. -/
theorem sd_sectors {contents : Bytes} {address start : UInt16} (h : SdOk contents address start) {img : Bytes}
    (hi : sdImage contents address start = .ok img) :
    img.length = 143360 ∧ sectorAt img 0 0 = sdBoot contents address start ∧
    (∀ i, i < pages contents → sectorAt img (visit (i + 1)).1 (visit (i + 1)).2 = page contents i) ∧
    (∀ t s, t < 35 → s < 16 → (∀ i, i ≤ pages contents → visit i ≠ (t, s)) → sectorAt img t s = zeros 256) := by
  rw [sdImage_ok h] at hi
  have hi := (Out.ok.injEq _ _).mp hi
  obtain ⟨h1, h2, h3, h4, h5⟩ := h
  have hp : contents.length ≤ 256 * pages contents := by unfold pages; omega
  generalize hws : sdWrites (padTo (256 * pages contents) contents) 0 (pages contents) ++ [(0, sdBoot contents address start)] = ws at hi
  have hmem : ∀ w ∈ ws, (∃ i, i < pages contents ∧ w = (visitIdx (i + 1), page contents i)) ∨ w = (0, sdBoot contents address start) := by
    intro w hw
    rw [← hws, List.mem_append, List.mem_singleton] at hw
    rcases hw with hw | hw
    · left
      unfold sdWrites at hw
      obtain ⟨j, hj, rfl⟩ := List.mem_map.1 hw
      rw [List.mem_range] at hj
      refine ⟨j, hj, ?_⟩
      rw [Nat.zero_add, slice_padTo_page hj]
    · exact Or.inr hw
  have hwf : ∀ w ∈ ws, w.1 < 560 ∧ w.2.length = 256 := by
    intro w hw
    rcases hmem w hw with ⟨i, hi, rfl⟩ | rfl
    · exact ⟨visitIdx_lt (by omega), by simp [page]⟩
    · exact ⟨by simp, sdBoot_length h5⟩
  have hnd : (ws.map Prod.fst).Nodup := by
    rw [← hws, List.map_append]
    unfold sdWrites
    rw [List.map_map]
    refine List.nodup_append.2 ⟨?_, by simp, ?_⟩
    · refine List.Nodup.map_on ?_ List.nodup_range
      intro a _ b _ e
      have := visitIdx_inj e
      omega
    · intro a ha b hb e
      obtain ⟨j, _, rfl⟩ := List.mem_map.1 ha
      simp only [List.map_cons, List.map_nil, List.mem_singleton] at hb
      subst hb
      have h0 : visitIdx (0 + j + 1) = visitIdx 0 := e
      have := visitIdx_inj h0
      omega
  have hz : (zeros 143360).length = 560 * 256 := by rw [zeros_length]
  subst hi
  refine ⟨putAll_length (n := 560) ws _ hz hwf, ?_, ?_, ?_⟩
  · have := slice_putAll_mem ws _ hz hwf hnd (w := (0, sdBoot contents address start)) (by rw [← hws]; simp)
    rw [sectorAt_eq_slice]
    exact this
  · intro i hi
    have := slice_putAll_mem ws _ hz hwf hnd (w := (visitIdx (i + 1), page contents i)) (by
      rw [← hws, List.mem_append]
      left
      unfold sdWrites
      refine List.mem_map.2 ⟨i, List.mem_range.2 hi, ?_⟩
      rw [Nat.zero_add, slice_padTo_page hi])
    rw [sectorAt_eq_slice]
    exact this
  · intro t s ht hs hne
    rw [sectorAt_eq_slice]
    refine (slice_putAll_not_mem ws _ hz hwf ?_).trans ?_
    · intro w hw e
      have key : ∀ k, k ≤ pages contents → visitIdx k ≠ 16 * t + s := by
        intro k hk he
        apply hne k hk
        have := visit_lt (show k < 560 by omega)
        unfold visitIdx at he
        exact Prod.ext (by simp only; omega) (by simp only; omega)
      rcases hmem w hw with ⟨i, hi, rfl⟩ | rfl
      · exact key (i + 1) (by omega) e
      · exact key 0 (by omega) e
    · unfold slice zeros
      rw [List.drop_replicate, List.take_replicate]
      refine congrArg (fun n => List.replicate n 0) ?_
      omega

theorem swizzled_raw {img : Bytes} (h : img.length = 143360) :
    swizzled img (logicalToPhysicalByName orderRaw) = img ∧ swizzled img (physicalToLogicalByName orderRaw) = img := by
  obtain ⟨h1, h2, _⟩ := named_orders raw_named
  have e1 : ∀ s, s < 16 → dest (logicalToPhysicalByName orderRaw) s = s := by decide +kernel
  have e2 : ∀ s, s < 16 → dest (physicalToLogicalByName orderRaw) s = s := by decide +kernel
  refine ⟨ext_of_sectors (swizzled_length h h1) h fun t ht s hs => ?_, ext_of_sectors (swizzled_length h h2) h fun t ht s hs => ?_⟩
  · have := sectorAt_swizzled h h1 ht hs
    rwa [e1 s hs] at this
  · have := sectorAt_swizzled h h2 ht hs
    rwa [e2 s hs] at this

end Verif.Cmd
