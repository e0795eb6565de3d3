import Verif.Proofs.Disk

/-!
# C01-C05: sectors and sector orders
-/

set_option autoImplicit false

namespace Verif.Disk
open Spec

/-! ## C01 -/

/-- C01: a successful sector write is read back, keeps the length, changes no byte outside
the sector's 256 bytes, and leaves every other sector (of 16 per track) as it was. -/
theorem C01_write_sector_read_back {img img' : Bytes} {t s : UInt8} {data : Bytes}
    (h : writeSector img t s data = (.ok (), img')) :
    readSector img' t s = .ok data ∧
    img'.length = img.length ∧
    (∀ i, i < sectorStart t.toNat s.toNat ∨ sectorStart t.toNat s.toNat + 256 ≤ i →
      img'[i]? = img[i]?) ∧
    (∀ t' s' : UInt8, s.toNat < 16 → s'.toNat < 16 → (t', s') ≠ (t, s) →
      readSector img' t' s' = readSector img t' s') := by
  rw [writeSector_eq] at h
  split at h
  case isFalse => simp at h
  case isTrue hc =>
    obtain ⟨hd, hl⟩ := hc
    simp only [Prod.mk.injEq, true_and] at h
    subst h
    have hlen : (put img (4096 * t.toNat + 256 * s.toNat) data).length = img.length :=
      put_length (by omega)
    refine ⟨?_, hlen, ?_, ?_⟩
    · rw [readSector_eq, hlen, if_neg (by omega)]
      have := slice_put_same (l := img) (off := 4096 * t.toNat + 256 * s.toNat) (d := data) (by omega)
      rw [hd] at this
      exact congrArg Out.ok this
    · intro i hi
      rw [getElem?_put (by omega)]
      unfold sectorStart at hi
      split
      · rfl
      · rw [if_neg (by omega)]
    · intro t' s' hs hs' hne
      rw [readSector_eq, readSector_eq, hlen]
      split
      · rfl
      · congr 1
        refine slice_put_of_disjoint (by omega) ?_
        have : t'.toNat ≠ t.toNat ∨ s'.toNat ≠ s.toNat := by
          by_cases h1 : t'.toNat = t.toNat
          · right
            intro h2
            exact hne (Prod.ext (UInt8.toNat_inj.1 h1) (UInt8.toNat_inj.1 h2))
          · exact Or.inl h1
        omega

/-- C01: a sector write succeeds exactly for 256 bytes of data and a sector inside the image;
otherwise it is an error and the image is unchanged.  It never panics. -/
theorem C01_write_sector_error {img : Bytes} {t s : UInt8} {data : Bytes} :
    (data.length = 256 ∧ sectorStart t.toNat s.toNat + 256 ≤ img.length →
      (writeSector img t s data).1 = .ok ()) ∧
    (¬ (data.length = 256 ∧ sectorStart t.toNat s.toNat + 256 ≤ img.length) →
      (writeSector img t s data).1.isErr ∧ (writeSector img t s data).2 = img) := by
  rw [writeSector_eq]
  unfold sectorStart
  constructor
  · intro h; rw [if_pos h]
  · intro h; rw [if_neg h]; simp

/-- Non-vacuity: writing track 34 sector 15 of a blank floppy succeeds. -/
example : (writeSector (zeros 143360) 34 15 (List.replicate 256 0xA5)).1 = .ok () := by
  apply C01_write_sector_error.1
  rw [zeros_length]
  decide +kernel

/-! ## C02 -/

/-- C02: `ReadSector` fails exactly when the sector's end lies beyond the image; otherwise it
returns exactly the 256 bytes at the sector's start.  There is no other outcome. -/
theorem C02_read_sector_exact (img : Bytes) (t s : UInt8) :
    (img.length < sectorStart t.toNat s.toNat + 256 → (readSector img t s).isErr) ∧
    (sectorStart t.toNat s.toNat + 256 ≤ img.length →
      ∃ d, readSector img t s = .ok d ∧ d.length = 256 ∧
        ∀ i, i < 256 → d[i]? = img[sectorStart t.toNat s.toNat + i]?) := by
  rw [readSector_eq]
  unfold sectorStart
  constructor
  · intro h; rw [if_pos h]; rfl
  · intro h
    rw [if_neg (by omega)]
    refine ⟨_, rfl, sectorAt_length h, ?_⟩
    intro i hi
    have := getElem?_slice img (4096 * t.toNat + 256 * s.toNat) 256 i
    rw [if_pos hi] at this
    exact this

/-- Non-vacuity, and the aliasing of sector numbers above 15 with the next track. -/
example : readSector (List.replicate 4096 1 ++ List.replicate 256 2) 0 16 =
    readSector (List.replicate 4096 1 ++ List.replicate 256 2) 1 0 := by decide +kernel

/-! ## C03 -/

/-- C03: when Swizzle succeeds, the result has the image's length, sector `order[s]` of each
track of the result is sector `s` of the input, and the result is a rearrangement of the input's
bytes. -/
theorem C03_swizzle_moves_sectors {img r : Bytes} {order : List Int}
    (h : swizzle img order = .ok r) :
    r.length = img.length ∧ SectorsMoved order img r ∧ r.Perm img := by
  obtain ⟨hi, ho, hr⟩ := swizzle_ok_iff.1 h
  subst hr
  have hl := swizzled_length hi ho
  refine ⟨by rw [hl, hi], ?_, ?_⟩
  · intro t ht s hs o hos
    rw [getElem?_order ho hs] at hos
    have : o = dest order s := by
      simp at hos; omega
    rw [this]
    exact sectorAt_swizzled hi ho ht hs
  · conv => lhs; rw [flatMap_sectors hl]
    conv => rhs; rw [flatMap_sectors hi]
    apply List.Perm.flatMap_left
    intro t ht
    have ht : t < 35 := List.mem_range.1 ht
    have hperm : ((List.range 16).map (dest order)).Perm (List.range 16) := by
      have : (List.range 16).map (dest order) = order.map Int.toNat := by
        apply List.ext_getElem?
        intro i
        have hlo := ((perm16_iff order).1 ho).1
        by_cases hi : i < 16
        · rw [List.getElem?_map, List.getElem?_map, List.getElem?_range hi, getElem?_order ho hi]
          simp
        · rw [List.getElem?_eq_none (by simp; omega), List.getElem?_eq_none (by simp; omega)]
      rw [this]
      exact (ho.map Int.toNat).trans (List.Perm.of_eq (by decide))
    refine (List.Perm.flatMap_right _ hperm.symm).trans ?_
    rw [List.flatMap_map]
    apply List.Perm.of_eq
    apply List.flatMap_congr
    intro s hs
    exact sectorAt_swizzled hi ho ht (List.mem_range.1 hs)

/-- Non-vacuity: every floppy image can be swizzled with the DOS 3.3 order. -/
example (img : Bytes) (h : img.length = 143360) :
    ∃ r, swizzle img dos33LogicalToPhysical = .ok r :=
  ⟨_, swizzle_ok_iff.2 ⟨h, by unfold IsSectorOrder; decide, rfl⟩⟩

/-! ## C04 -/

private theorem named_orders {o : DiskOrder} (h : o ∈ [orderDO, orderPO, orderRaw]) :
    IsSectorOrder (logicalToPhysicalByName o) ∧ IsSectorOrder (physicalToLogicalByName o) ∧
    (∀ s, s < 16 → dest (physicalToLogicalByName o) (dest (logicalToPhysicalByName o) s) = s) ∧
    (∀ s, s < 16 → dest (logicalToPhysicalByName o) (dest (physicalToLogicalByName o) s) = s) := by
  unfold IsSectorOrder
  simp only [List.mem_cons, List.not_mem_nil, or_false] at h
  rcases h with rfl | rfl | rfl <;> decide +kernel

/-- C04: for each named order and every floppy image, both named reorderings succeed and each
undoes the other. -/
theorem C04_named_orders_inverse {o : DiskOrder} (ho : o ∈ [orderDO, orderPO, orderRaw])
    {img : Bytes} (hi : img.length = 143360) :
    (∃ r, swizzle img (logicalToPhysicalByName o) = .ok r ∧
      swizzle r (physicalToLogicalByName o) = .ok img) ∧
    (∃ r, swizzle img (physicalToLogicalByName o) = .ok r ∧
      swizzle r (logicalToPhysicalByName o) = .ok img) := by
  obtain ⟨h1, h2, h3, h4⟩ := named_orders ho
  exact ⟨⟨_, swizzle_ok_iff.2 ⟨hi, h1, rfl⟩,
      swizzle_ok_iff.2 ⟨swizzled_length hi h1, h2, (swizzled_swizzled hi h1 h2 h3).symm⟩⟩,
    ⟨_, swizzle_ok_iff.2 ⟨hi, h2, rfl⟩,
      swizzle_ok_iff.2 ⟨swizzled_length hi h2, h1, (swizzled_swizzled hi h2 h1 h4).symm⟩⟩⟩

/-- C04: and they are the orders of DOS 3.3 and ProDOS: going to physical order moves sector `s` to
where the system puts it on the disk, going back moves it from there. -/
theorem C04_interleave {o : DiskOrder} (ho : o ∈ [str "do", str "po", str "raw"]) {img r : Bytes} :
    (swizzle img (logicalToPhysicalByName o) = .ok r →
      ∀ t, t < 35 → ∀ s, s < 16 → sectorAt r t (interleave o s) = sectorAt img t s) ∧
    (swizzle img (physicalToLogicalByName o) = .ok r →
      ∀ t, t < 35 → ∀ s, s < 16 → sectorAt r t s = sectorAt img t (interleave o s)) := by
  have key : ∀ s, s < 16 → (logicalToPhysicalByName o)[s]? = some (interleave o s : Int) ∧
      (physicalToLogicalByName o)[interleave o s]? = some (s : Int) ∧ interleave o s < 16 := by
    simp only [List.mem_cons, List.not_mem_nil, or_false] at ho
    rcases ho with rfl | rfl | rfl <;> decide +kernel
  constructor
  · intro h t ht s hs
    exact (C03_swizzle_moves_sectors h).2.1 t ht s hs _ (key s hs).1
  · intro h t ht s hs
    exact (C03_swizzle_moves_sectors h).2.1 t ht _ (key s hs).2.2 _ (key s hs).2.1

/-- Non-vacuity: a floppy-sized image exists. -/
example : (zeros 143360).length = 143360 := zeros_length _

/-! ## C05 -/

/-- C05: Swizzle succeeds exactly on 143360-byte images with a permutation of 0..15, and
otherwise returns an error. -/
theorem C05_swizzle_accepts_iff (img : Bytes) (order : List Int) :
    ((swizzle img order).isOk ↔ img.length = 143360 ∧ IsSectorOrder order) ∧
    (swizzle img order).returns := by
  rw [swizzle_eq]
  split
  · rename_i h
    rw [validateOrder_ok_iff] at h
    exact ⟨⟨fun _ => h, fun _ => rfl⟩, rfl⟩
  · rename_i h
    rw [validateOrder_ok_iff] at h
    exact ⟨⟨fun h' => by simp at h', fun h' => absurd h' h⟩, rfl⟩

/-- C05, disagreement with the doc comment of disk/open.go:151-152 ("If order is nil, it leaves
the order unchanged"): a nil (empty) order is always an error. -/
theorem C05_nil_order_is_an_error (img : Bytes) : (swizzle img []).isErr := by
  rw [swizzle_eq]
  rw [if_neg]
  · rfl
  · rintro ⟨_, h⟩
    simp [validateOrder, floppySectors] at h

/-- Non-vacuity: both sides of C05 occur. -/
example : IsSectorOrder prodosLogicalToPhysical ∧ ¬ IsSectorOrder (List.replicate 16 0) := by
  unfold IsSectorOrder; decide

end Verif.Disk
