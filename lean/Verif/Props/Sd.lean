import Verif.Proofs.Sd
import Verif.Props.Cmd

/-!
# C56, C57: Standard Delivery disks

`Spec.visit k` is the `k`-th sector in the loader's visiting order and `Spec.page contents i` the
`i`-th page of the zero-padded binary.
-/

set_option autoImplicit false

namespace Verif.Cmd
open Disk Spec

/-- The visiting order is the one described: on every track the even sectors, then the odd ones. -/
example : (List.range 18).map visit =
    [(0,0), (0,2), (0,4), (0,6), (0,8), (0,10), (0,12), (0,14),
     (0,1), (0,3), (0,5), (0,7), (0,9), (0,11), (0,13), (0,15), (1,0), (1,2)] := by decide +kernel

/-- C56: the visited sectors are on the disk and no two are the same. -/
theorem C56_visits_distinct : (∀ k, k < 560 → (visit k).1 < 35 ∧ (visit k).2 < 16) ∧
    (∀ i j, visit i = visit j → i = j) :=
  ⟨fun _ h => visit_lt h, fun i j h => visitIdx_inj (by unfold visitIdx; rw [h])⟩

/-- C56: the pages put together are the binary followed by fewer than 256 zeros. -/
theorem C56_pages_are_the_binary (contents : Bytes) :
    ∃ n, n < 256 ∧ (List.range (pages contents)).flatMap (page contents) = contents ++ zeros n := by
  refine ⟨256 * pages contents - contents.length, by unfold pages; omega, ?_⟩
  have h : (List.range (pages contents)).flatMap (page contents) =
      (List.range (pages contents)).flatMap fun i => slice (padTo (256 * pages contents) contents) (i * 256) 256 := by
    rw [List.flatMap_def, List.flatMap_def]
    refine congrArg _ (List.map_congr_left fun i hi => ?_)
    rw [Nat.mul_comm i, slice_padTo_page (List.mem_range.1 hi)]
  have hl : (padTo (256 * pages contents) contents).length = 256 * pages contents :=
    padTo_length (by unfold pages; omega)
  rw [h, ← flatMap_chunks]
  unfold slice
  rw [List.drop_zero, List.take_of_length_le (by rw [hl]; omega)]
  rfl

/-- C56: a disk made by `mksd`, in physical order.  The loader is in the first sector, the pages of
the binary follow in visiting order, and every other sector is zero. -/
theorem C56_layout (contents : Bytes) (address start : UInt16) (img : Bytes)
    (h : sdImage contents address start = .ok img) :
    img.length = 143360 ∧
    (∃ rest, sectorAt img 0 0 = sdLoader start ++ rest) ∧
    (∀ i, i < pages contents → sectorAt img (visit (i + 1)).1 (visit (i + 1)).2 = page contents i) ∧
    (∀ t s, t < 35 → s < 16 → (∀ i, i ≤ pages contents → visit i ≠ (t, s)) → sectorAt img t s = zeros 256) ∧
    pages contents < 560 := by
  have hok := sdImage_iff.1 ⟨img, h⟩
  obtain ⟨h1, h2, h3, h4⟩ := sd_sectors hok h
  refine ⟨h1, ?_, h3, h4, ?_⟩
  · rw [h2]
    unfold sdBoot padTo
    rw [List.append_assoc, List.append_assoc]
    exact ⟨_, rfl⟩
  · have := hok.2.2.2.2; omega

/-- C56, from the command line: when `mksd` succeeds the image file it leaves, seen in physical
order, is the disk for the binary that was read, whatever the order of the image file. -/
theorem C56_command (env : Env) (w : World) (order : DiskOrder) (diskImage binary : Str) (address start : UInt16)
    (hd : diskImage ≠ str "-") (hb : binary ≠ str "-")
    (h : (run env (.mksd order diskImage binary address start) w).1 = .ok ()) :
    ∃ contents img raw, w.files binary = some contents ∧
      sdImage contents address (effectiveStart address start) = .ok img ∧
      (run env (.mksd order diskImage binary address start) w).2.files diskImage = some raw ∧
      raw.length = 143360 ∧
      View (sdOrder order diskImage) (str "raw") raw img := by
  rcases hr : run env (.mksd order diskImage binary address start) w with ⟨out, w2⟩
  rw [hr] at h
  simp only at h
  subst h
  change (contentsOf binary >>= _) w = _ at hr
  obtain ⟨contents, w1, hc, hr⟩ := bind_ok_iff.1 hr
  obtain ⟨img, w3, hi, hr⟩ := bind_ok_iff.1 hr
  obtain ⟨raw, w4, hs, hr⟩ := bind_ok_iff.1 hr
  simp only [lift, Prod.mk.injEq] at hi hs
  have hl := (C56_layout _ _ _ _ hi.1).1
  obtain ⟨l1, s1, e1⟩ := swizzle_ok_iff.1 hs.1
  refine ⟨contents, img, raw, ?_, hi.1, ?_, ?_, ?_⟩
  · unfold contentsOf World.fileContentsOrStdIn at hc
    rw [if_neg hb] at hc
    cases hf : w.files binary with
    | none => rw [hf] at hc; simp at hc
    | some x => rw [hf] at hc; simp at hc; rw [hc.1]
  · have := (C58_writes_exactly w4 diskImage raw true hd (Or.inl rfl)).2.1
    rw [hr] at this
    exact this
  · rw [e1]; exact swizzled_length l1 s1
  · have hm' : sdOrder order diskImage ∈ [orderDO, orderPO, orderRaw] := by
      apply Classical.byContradiction
      intro hn
      simp only [List.mem_cons, List.not_mem_nil, or_false, not_or] at hn
      have : physicalToLogicalByName (sdOrder order diskImage) = [] := by
        unfold physicalToLogicalByName physicalToLogicalByName?
        rw [if_neg hn.1, if_neg hn.2.1, if_neg hn.2.2]
        rfl
      rw [this] at s1
      exact absurd ((perm16_iff _).1 s1).1 (by simp)
    have hrl : raw.length = 143360 := by rw [e1]; exact swizzled_length l1 s1
    refine (view_iff hm' raw_named hrl).2 ?_
    have e2 : raw = viewOf orderRaw (sdOrder order diskImage) img := by
      unfold viewOf
      rw [(swizzled_raw hl).1, e1]
    rw [e2]
    exact (viewOf_viewOf raw_named hm' hl).symm

/-! ## C57 -/

/-- C57, what holds: which binaries `mksd` accepts.  Missing from the full property: the fourth
condition is about `start + length`, not `address + length`, so for a start after the load address
some loadable binaries are refused. -/
theorem C57_accepts_partial (contents : Bytes) (address start : UInt16) :
    (∃ img, sdImage contents address start = .ok img) ↔
      address.toNat % 256 = 0 ∧ address.toNat ≤ start.toNat ∧ start.toNat < address.toNat + contents.length ∧
      start.toNat + contents.length ≤ 0xC000 ∧ pages contents ≤ 176 := by
  rw [sdImage_iff]
  unfold SdOk
  have e : address % 256 = 0 ↔ address.toNat % 256 = 0 := by
    rw [← UInt16.toNat_inj]
    simp
  rw [e, UInt16.le_iff_toNat_le]

/-- C57: with the default start the condition is exact: page aligned, not empty, nothing at or past
0xC000, and the page table fits. -/
theorem C57_default_start (contents : Bytes) (address : UInt16) :
    (∃ img, sdImage contents address (effectiveStart address 0xFFFF) = .ok img) ↔
      address.toNat % 256 = 0 ∧ contents ≠ [] ∧ address.toNat + contents.length ≤ 0xC000 ∧ pages contents ≤ 176 := by
  rw [C57_accepts_partial]
  unfold effectiveStart
  rw [if_pos rfl, ← List.length_pos_iff]
  constructor
  · rintro ⟨h1, _, h3, h4, h5⟩; exact ⟨h1, by omega, h4, h5⟩
  · rintro ⟨h1, h2, h3, h4⟩; exact ⟨h1, Nat.le_refl _, by omega, h3, h4⟩

/-- C57: whatever is accepted is loadable, and anything else is an error: `mksd` never crashes. -/
theorem C57_sound (contents : Bytes) (address start : UInt16) :
    sdImage contents address start = .err .other ∨
    ((∃ img, sdImage contents address start = .ok img) ∧ address.toNat % 256 = 0 ∧
      address.toNat ≤ start.toNat ∧ start.toNat < address.toNat + contents.length ∧
      address.toNat + 256 * pages contents ≤ 0xC000 ∧ pages contents ≤ 176) := by
  by_cases h : SdOk contents address start
  · right
    have h' := sdImage_iff.2 h
    refine ⟨h', ?_⟩
    obtain ⟨h1, h2, h3, h4, h5⟩ := (C57_accepts_partial _ _ _).1 h'
    refine ⟨h1, h2, h3, ?_, h5⟩
    unfold pages
    omega
  · exact Or.inl (sdImage_err h)

theorem loader_jump (start : UInt16) : (sdLoader start)[76]? = some 0x4C ∧ (sdLoader start)[77]? = some (lo8 start) ∧
    (sdLoader start)[78]? = some (hi8 start) := ⟨rfl, rfl, rfl⟩

/-- C57: the page table in the boot sector.  The loader ends with a jump to the start address; after
it come the pages to load, one per page of the binary from the load page on, all below 0xC0, and
then 0xC0. -/
theorem C57_page_table (contents : Bytes) (address start : UInt16) (img : Bytes)
    (h : sdImage contents address start = .ok img) :
    (sectorAt img 0 0)[76]? = some 0x4C ∧
    (sectorAt img 0 0)[77]? = some (UInt8.ofNat (start.toNat % 256)) ∧
    (sectorAt img 0 0)[78]? = some (UInt8.ofNat (start.toNat / 256)) ∧
    (∀ i, i < pages contents → ∃ b : UInt8, (sectorAt img 0 0)[79 + i]? = some b ∧
      b.toNat = address.toNat / 256 + i ∧ b.toNat < 0xC0) ∧
    (sectorAt img 0 0)[79 + pages contents]? = some 0xC0 := by
  have hok := sdImage_iff.1 ⟨img, h⟩
  obtain ⟨_, h2, _, _⟩ := sd_sectors hok h
  have hs := (C57_sound contents address start).resolve_left (by rw [h]; simp)
  obtain ⟨_, ha, _, _, hc, hp⟩ := hs
  rw [h2]
  have hget : ∀ i, i < 79 + pages contents + 1 → (sdBoot contents address start)[i]? =
      (sdLoader start ++ sdPages address.toNat 0 (pages contents) ++ [0xC0])[i]? := by
    intro i hi
    unfold sdBoot padTo
    rw [List.getElem?_append_left (by simp [sdLoader_length, sdPages_length]; omega)]
  have hgl : ∀ i, i < 79 → (sdBoot contents address start)[i]? = (sdLoader start)[i]? := by
    intro i hi
    rw [hget i (by omega), List.append_assoc, List.getElem?_append_left (by rw [sdLoader_length]; exact hi)]
  refine ⟨?_, ?_, ?_, ?_, ?_⟩
  · rw [hgl 76 (by omega)]; exact (loader_jump start).1
  · rw [hgl 77 (by omega), (loader_jump start).2.1]
    refine congrArg some (UInt8.toNat_inj.1 ?_)
    rw [lo8_toNat]; simp
  · rw [hgl 78 (by omega), (loader_jump start).2.2]
    refine congrArg some (UInt8.toNat_inj.1 ?_)
    rw [hi8_toNat]
    have := start.toNat_lt
    simp; omega
  · intro i hi
    refine ⟨UInt8.ofNat ((address.toNat + 256 * i) / 256), ?_, ?_, ?_⟩
    · rw [hget _ (by omega), List.append_assoc, List.getElem?_append_right (by rw [sdLoader_length]; omega),
        sdLoader_length, Nat.add_sub_cancel_left, List.getElem?_append_left (by rw [sdPages_length]; exact hi)]
      unfold sdPages
      rw [List.getElem?_map, List.getElem?_range hi]
      simp
    · simp; omega
    · simp; omega
  · rw [hget _ (by omega), List.getElem?_append_right (by simp [sdLoader_length, sdPages_length])]
    simp [sdLoader_length, sdPages_length]

/-- C57 fails as stated: with a start after the load address, a binary that would be loaded
entirely below 0xC000, into few enough pages, is refused. -/
theorem C57_violated : ∃ (contents : Bytes) (address start : UInt16),
    address.toNat % 256 = 0 ∧ address.toNat ≤ start.toNat ∧ start.toNat < address.toNat + contents.length ∧
    address.toNat + 256 * pages contents ≤ 0xC000 ∧ pages contents ≤ 176 ∧
    sdImage contents address start = .err .other := by
  refine ⟨zeros 0x6000, 0x6000, 0x6001, ?_⟩
  have hl : (zeros 0x6000).length = 0x6000 := zeros_length _
  have hp : pages (zeros 0x6000) = 96 := by unfold pages; rw [hl]
  have ha : (0x6000 : UInt16).toNat = 0x6000 := rfl
  have hs : (0x6001 : UInt16).toNat = 0x6001 := rfl
  refine ⟨by rw [ha], by rw [ha, hs]; omega, by rw [ha, hs, hl]; omega, by rw [ha, hp]; omega, by rw [hp]; omega, ?_⟩
  refine sdImage_err fun h => ?_
  have := h.2.2.2.1
  rw [hl, hs] at this
  omega

/-- A binary that is accepted: 300 bytes at 0x0C00. -/
example : ∃ img, sdImage (zeros 300) 0x0C00 0x0C01 = .ok img := by
  refine (C57_accepts_partial _ _ _).2 ?_
  have hl : (zeros 300).length = 300 := zeros_length _
  have ha : (0x0C00 : UInt16).toNat = 0x0C00 := rfl
  have hs : (0x0C01 : UInt16).toNat = 0x0C01 := rfl
  unfold pages
  rw [hl, ha, hs]
  omega

end Verif.Cmd
