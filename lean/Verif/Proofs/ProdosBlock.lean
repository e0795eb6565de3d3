import Verif.Model.Prodos
import Verif.Proofs.Dos3Sector

/-!
# Round trips of the ProDOS directory structures
-/

set_option autoImplicit false
set_option maxRecDepth 20000

namespace Verif.Prodos

open Verif Verif.Disk

theorem DateTime.to_from (v : Vector UInt8 4) : (DateTime.fromBytes v).toBytes = v := by
  apply Vector.ext
  intro i hi
  rcases i with _ | _ | _ | _ | i <;> first | rfl | omega

theorem DateTime.from_to (d : DateTime) : DateTime.fromBytes d.toBytes = d := by
  obtain ⟨ymd, hm⟩ := d
  unfold DateTime.fromBytes DateTime.toBytes
  rw [DateTime.mk.injEq]
  constructor
  all_goals
    apply Vector.ext
    intro i hi
    rcases i with _ | _ | i <;> first | rfl | omega

theorem FileDescriptor.toBytes_length (fd : FileDescriptor) : fd.toBytes.length = 0x27 := by
  unfold FileDescriptor.toBytes; len_tac

theorem VolumeDirectoryHeader.toBytes_length (h : VolumeDirectoryHeader) : h.toBytes.length = 0x27 := by
  unfold VolumeDirectoryHeader.toBytes; len_tac

theorem SubdirectoryHeader.toBytes_length (h : SubdirectoryHeader) : h.toBytes.length = 0x27 := by
  unfold SubdirectoryHeader.toBytes; len_tac

theorem len39 {n : Nat} (v : Vector FileDescriptor n) :
    ∀ d ∈ v.toList.map (fun m => m.toBytes), d.length = 0x27 := by
  intro d hd
  obtain ⟨m, _, rfl⟩ := List.mem_map.1 hd
  exact m.toBytes_length

theorem len39h (h : VolumeDirectoryHeader) : ∀ d ∈ [h.toBytes], d.length = 0x27 := by
  intro d hd
  rw [List.mem_singleton.1 hd]; exact h.toBytes_length

theorem len39s (h : SubdirectoryHeader) : ∀ d ∈ [h.toBytes], d.length = 0x27 := by
  intro d hd
  rw [List.mem_singleton.1 hd]; exact h.toBytes_length

/-- `copyAt` is a loop of one round. -/
theorem copyAt_each (k : Nat) (l : Bytes) (off : Nat) (d : Bytes) : copyAt l off d = copyEach k l off [d] := rfl

/-! ## Bytes to structure to bytes -/

syntax "rd_side" : tactic
macro_rules
  | `(tactic| rd_side) =>
    `(tactic| first
      | (rw [at8_rdVec _ _ _ _ (by omega)])
      | (refine rdVec_congr fun i hi => ?_; rw [at8_rdVec _ _ _ _ (by omega), Nat.add_assoc])
      | (refine rd16_congr fun i hi => ?_; rw [at8_rdVec _ _ _ _ (by omega), Nat.add_assoc])
      | (rw [DateTime.to_from]; refine rdVec_congr fun i hi => ?_
         rw [at8_rdVec _ _ _ _ (by omega), Nat.add_assoc]))

theorem FileDescriptor.covers (data : Bytes) (off : Nat) (i : Nat) (hi : i < 0x27) :
    at8 (FileDescriptor.fromBytes data off).toBytes i = at8 data (off + i) := by
  have h : Covers (FileDescriptor.fromBytes data off).toBytes (rdVec 0x27 data off).toList 0x27 := by
    unfold FileDescriptor.toBytes FileDescriptor.fromBytes
    simp only
    refine Covers.set16 (off := 0x25) ?_ (by rd_side) (by len_tac)
    refine Covers.vec ?_ (by rd_side) (by len_tac) rfl
    refine Covers.set16 (off := 0x1f) ?_ (by rd_side) (by len_tac)
    refine Covers.set ?_ (by rd_side) (by len_tac)
    refine Covers.set ?_ (by rd_side) (by len_tac)
    refine Covers.set ?_ (by rd_side) (by len_tac)
    refine Covers.vec ?_ (by rd_side) (by len_tac) rfl
    refine Covers.vec ?_ (by rd_side) (by len_tac) rfl
    refine Covers.set16 (off := 0x13) ?_ (by rd_side) (by len_tac)
    refine Covers.set16 (off := 0x11) ?_ (by rd_side) (by len_tac)
    refine Covers.set ?_ (by rd_side) (by len_tac)
    refine Covers.vec ?_ (by rd_side) (by len_tac) rfl
    exact Covers.set (Covers.zero _ _) (by rd_side) (by len_tac)
  rw [h i hi, at8_rdVec _ _ _ _ hi]

theorem VolumeDirectoryHeader.covers (data : Bytes) (off : Nat) (i : Nat) (hi : i < 0x27) :
    at8 (VolumeDirectoryHeader.fromBytes data off).toBytes i = at8 data (off + i) := by
  have h : Covers (VolumeDirectoryHeader.fromBytes data off).toBytes (rdVec 0x27 data off).toList 0x27 := by
    unfold VolumeDirectoryHeader.toBytes VolumeDirectoryHeader.fromBytes
    simp only
    refine Covers.set16 (off := 0x25) ?_ (by rd_side) (by len_tac)
    refine Covers.set16 (off := 0x23) ?_ (by rd_side) (by len_tac)
    refine Covers.set16 (off := 0x21) ?_ (by rd_side) (by len_tac)
    refine Covers.set ?_ (by rd_side) (by len_tac)
    refine Covers.set ?_ (by rd_side) (by len_tac)
    refine Covers.set ?_ (by rd_side) (by len_tac)
    refine Covers.set ?_ (by rd_side) (by len_tac)
    refine Covers.set ?_ (by rd_side) (by len_tac)
    refine Covers.vec ?_ (by rd_side) (by len_tac) rfl
    refine Covers.vec ?_ (by rd_side) (by len_tac) rfl
    refine Covers.vec ?_ (by rd_side) (by len_tac) rfl
    exact Covers.set (Covers.zero _ _) (by rd_side) (by len_tac)
  rw [h i hi, at8_rdVec _ _ _ _ hi]

theorem SubdirectoryHeader.covers (data : Bytes) (off : Nat) (i : Nat) (hi : i < 0x27) :
    at8 (SubdirectoryHeader.fromBytes data off).toBytes i = at8 data (off + i) := by
  have h : Covers (SubdirectoryHeader.fromBytes data off).toBytes (rdVec 0x27 data off).toList 0x27 := by
    unfold SubdirectoryHeader.toBytes SubdirectoryHeader.fromBytes
    simp only
    refine Covers.set ?_ (by rd_side) (by len_tac)
    refine Covers.set ?_ (by rd_side) (by len_tac)
    refine Covers.set16 (off := 0x23) ?_ (by rd_side) (by len_tac)
    refine Covers.set16 (off := 0x21) ?_ (by rd_side) (by len_tac)
    refine Covers.set ?_ (by rd_side) (by len_tac)
    refine Covers.set ?_ (by rd_side) (by len_tac)
    refine Covers.set ?_ (by rd_side) (by len_tac)
    refine Covers.set ?_ (by rd_side) (by len_tac)
    refine Covers.set ?_ (by rd_side) (by len_tac)
    refine Covers.vec ?_ (by rd_side) (by len_tac) rfl
    refine Covers.vec ?_ (by rd_side) (by len_tac) rfl
    refine Covers.set ?_ (by rd_side) (by len_tac)
    refine Covers.vec ?_ (by rd_side) (by len_tac) rfl
    exact Covers.set (Covers.zero _ _) (by rd_side) (by len_tac)
  rw [h i hi, at8_rdVec _ _ _ _ hi]

theorem descs_cover {n : Nat} (block : Bytes) (start j : Nat) (d : Bytes)
    (hj : ((Vector.ofFn fun i : Fin n => FileDescriptor.fromBytes block (start + 0x27 * i.val)).toList.map
      fun d => d.toBytes)[j]? = some d) (i : Nat) (hi : i < 0x27) :
    at8 d i = at8 block (start + 0x27 * j + i) := by
  rw [List.getElem?_map, Option.map_eq_some_iff] at hj
  obtain ⟨m, hm, rfl⟩ := hj
  obtain ⟨hjl, hm⟩ := List.getElem?_eq_some_iff.1 hm
  subst hm
  simp only [Vector.getElem_toList, Vector.getElem_ofFn]
  rw [FileDescriptor.covers _ _ _ hi]

theorem VolumeDirectoryKeyBlock.to_from (v : VolumeDirectoryKeyBlock) (block : Bytes) (h : block.length = 512) :
    (v.fromBlock block).toBlock = block := by
  unfold VolumeDirectoryKeyBlock.toBlock VolumeDirectoryKeyBlock.fromBlock
  simp only
  refine Covers.eq (n := 512) ?_ (by len_tac) h
  refine Covers.set ?_ rfl (by len_tac)
  refine Covers.each ?_ (by omega) (len39 _) (fun j d hj i hi => descs_cover _ _ _ _ hj i hi) (by len_tac) (by simp)
  rw [copyAt_each 0x27]
  refine Covers.each ?_ (by omega) (len39h _) ?_ (by len_tac; simp) (by simp)
  · refine Covers.set16 (off := 2) ?_ rfl (by len_tac)
    exact Covers.set16 (off := 0) (Covers.zero _ _) rfl (by len_tac)
  · intro j d hj i hi
    cases j with
    | zero =>
      simp only [List.getElem?_cons_zero, Option.some.injEq] at hj
      subst hj
      rw [VolumeDirectoryHeader.covers _ _ _ hi]
    | succ j => simp at hj

theorem VolumeDirectoryBlock.to_from (v : VolumeDirectoryBlock) (block : Bytes) (h : block.length = 512) :
    (v.fromBlock block).toBlock = block := by
  unfold VolumeDirectoryBlock.toBlock VolumeDirectoryBlock.fromBlock
  simp only
  refine Covers.eq (n := 512) ?_ (by len_tac) h
  refine Covers.set ?_ rfl (by len_tac)
  refine Covers.each ?_ (by omega) (len39 _) (fun j d hj i hi => descs_cover _ _ _ _ hj i hi) (by len_tac) (by simp)
  refine Covers.set16 (off := 2) ?_ rfl (by len_tac)
  exact Covers.set16 (off := 0) (Covers.zero _ _) rfl (by len_tac)

theorem SubdirectoryKeyBlock.to_from (v : SubdirectoryKeyBlock) (block : Bytes) (h : block.length = 512) :
    (v.fromBlock block).toBlock = block := by
  unfold SubdirectoryKeyBlock.toBlock SubdirectoryKeyBlock.fromBlock
  simp only
  refine Covers.eq (n := 512) ?_ (by len_tac) h
  refine Covers.set ?_ rfl (by len_tac)
  refine Covers.each ?_ (by omega) (len39 _) (fun j d hj i hi => descs_cover _ _ _ _ hj i hi) (by len_tac) (by simp)
  rw [copyAt_each 0x27]
  refine Covers.each ?_ (by omega) (len39s _) ?_ (by len_tac; simp) (by simp)
  · refine Covers.set16 (off := 2) ?_ rfl (by len_tac)
    exact Covers.set16 (off := 0) (Covers.zero _ _) rfl (by len_tac)
  · intro j d hj i hi
    cases j with
    | zero =>
      simp only [List.getElem?_cons_zero, Option.some.injEq] at hj
      subst hj
      rw [SubdirectoryHeader.covers _ _ _ hi]
    | succ j => simp at hj

theorem SubdirectoryBlock.to_from (v : SubdirectoryBlock) (block : Bytes) (h : block.length = 512) :
    (v.fromBlock block).toBlock = block := by
  unfold SubdirectoryBlock.toBlock SubdirectoryBlock.fromBlock
  simp only
  refine Covers.eq (n := 512) ?_ (by len_tac) h
  refine Covers.set ?_ rfl (by len_tac)
  refine Covers.each ?_ (by omega) (len39 _) (fun j d hj i hi => descs_cover _ _ _ _ hj i hi) (by len_tac) (by simp)
  refine Covers.set16 (off := 2) ?_ rfl (by len_tac)
  exact Covers.set16 (off := 0) (Covers.zero _ _) rfl (by len_tac)

/-! ## Structure to bytes to structure -/

syntax "rt_side2" : tactic
macro_rules
  | `(tactic| rt_side2) =>
    `(tactic| first
      | omega
      | exact len39 _
      | exact len39h _
      | exact len39s _
      | len_tac
      | (simp only [set16_length, copyVec_length, copyEach_length, copyAt_length, List.length_set,
            List.length_map, Vector.length_toList, List.length_singleton]; omega))

syntax "rt_simp" : tactic
macro_rules
  | `(tactic| rt_simp) =>
    `(tactic| simp (disch := rt_side2) only [DateTime.from_to, at8_copyEach_off, rdVec_copyEach_off,
        rd16_copyEach_off, at8_set16_off, rdVec_set16_off, rd16_set16_same, rd16_set16_off, at8_copyVec_off,
        rdVec_copyVec_same, rdVec_copyVec_off, rd16_copyVec_off, at8_set_same, at8_set_ne, rdVec_set_off,
        rd16_set_off])

theorem FileDescriptor.from_to {data : Bytes} {off : Nat} (fd : FileDescriptor)
    (h : ∀ i, i < 0x27 → at8 data (off + i) = at8 fd.toBytes i) : FileDescriptor.fromBytes data off = fd := by
  have e : FileDescriptor.fromBytes data off = FileDescriptor.fromBytes fd.toBytes 0 := by
    unfold FileDescriptor.fromBytes
    rw [FileDescriptor.mk.injEq]
    refine ⟨?_, ?_, ?_, ?_, ?_, ?_, ?_, ?_, ?_, ?_, ?_, ?_, ?_⟩ <;>
    first
      | (rw [h _ (by omega), Nat.zero_add])
      | (refine rdVec_congr fun i hi => ?_; rw [Nat.add_assoc, h _ (by omega), Nat.zero_add])
      | (refine rd16_congr fun i hi => ?_; rw [Nat.add_assoc, h _ (by omega), Nat.zero_add])
      | (refine congrArg _ (rdVec_congr fun i hi => ?_); rw [Nat.add_assoc, h _ (by omega), Nat.zero_add])
  rw [e]
  obtain ⟨a, b, c, d, e, f, g, i, j, k, l, m, n⟩ := fd
  unfold FileDescriptor.fromBytes FileDescriptor.toBytes
  rw [FileDescriptor.mk.injEq]
  refine ⟨?_, ?_, ?_, ?_, ?_, ?_, ?_, ?_, ?_, ?_, ?_, ?_, ?_⟩ <;> rt_simp

theorem VolumeDirectoryHeader.from_to {data : Bytes} {off : Nat} (fd : VolumeDirectoryHeader)
    (h : ∀ i, i < 0x27 → at8 data (off + i) = at8 fd.toBytes i) : VolumeDirectoryHeader.fromBytes data off = fd := by
  have e : VolumeDirectoryHeader.fromBytes data off = VolumeDirectoryHeader.fromBytes fd.toBytes 0 := by
    unfold VolumeDirectoryHeader.fromBytes
    rw [VolumeDirectoryHeader.mk.injEq]
    refine ⟨?_, ?_, ?_, ?_, ?_, ?_, ?_, ?_, ?_, ?_, ?_, ?_⟩ <;>
    first
      | (rw [h _ (by omega), Nat.zero_add])
      | (refine rdVec_congr fun i hi => ?_; rw [Nat.add_assoc, h _ (by omega), Nat.zero_add])
      | (refine rd16_congr fun i hi => ?_; rw [Nat.add_assoc, h _ (by omega), Nat.zero_add])
      | (refine congrArg _ (rdVec_congr fun i hi => ?_); rw [Nat.add_assoc, h _ (by omega), Nat.zero_add])
  rw [e]
  obtain ⟨a, b, c, d, e, f, g, i, j, k, l, m⟩ := fd
  unfold VolumeDirectoryHeader.fromBytes VolumeDirectoryHeader.toBytes
  rw [VolumeDirectoryHeader.mk.injEq]
  refine ⟨?_, ?_, ?_, ?_, ?_, ?_, ?_, ?_, ?_, ?_, ?_, ?_⟩ <;> rt_simp

theorem SubdirectoryHeader.from_to {data : Bytes} {off : Nat} (fd : SubdirectoryHeader)
    (h : ∀ i, i < 0x27 → at8 data (off + i) = at8 fd.toBytes i) : SubdirectoryHeader.fromBytes data off = fd := by
  have e : SubdirectoryHeader.fromBytes data off = SubdirectoryHeader.fromBytes fd.toBytes 0 := by
    unfold SubdirectoryHeader.fromBytes
    rw [SubdirectoryHeader.mk.injEq]
    refine ⟨?_, ?_, ?_, ?_, ?_, ?_, ?_, ?_, ?_, ?_, ?_, ?_, ?_, ?_⟩ <;>
    first
      | (rw [h _ (by omega), Nat.zero_add])
      | (refine rdVec_congr fun i hi => ?_; rw [Nat.add_assoc, h _ (by omega), Nat.zero_add])
      | (refine rd16_congr fun i hi => ?_; rw [Nat.add_assoc, h _ (by omega), Nat.zero_add])
      | (refine congrArg _ (rdVec_congr fun i hi => ?_); rw [Nat.add_assoc, h _ (by omega), Nat.zero_add])
  rw [e]
  obtain ⟨a, b, c, d, e, f, g, i, j, k, l, m, n, o⟩ := fd
  unfold SubdirectoryHeader.fromBytes SubdirectoryHeader.toBytes
  rw [SubdirectoryHeader.mk.injEq]
  refine ⟨?_, ?_, ?_, ?_, ?_, ?_, ?_, ?_, ?_, ?_, ?_, ?_, ?_, ?_⟩ <;> rt_simp

theorem descs_from_to {n : Nat} (fds : Vector FileDescriptor n) (l : Bytes) (start : Nat) (x : UInt8)
    (hl : l.length = 512) (hs : start + 0x27 * n ≤ 511) :
    (Vector.ofFn fun i : Fin n => FileDescriptor.fromBytes
      ((copyEach 0x27 l start (fds.toList.map fun d => d.toBytes)).set 511 x) (start + 0x27 * i.val)) = fds := by
  apply Vector.ext
  intro i hi
  rw [Vector.getElem_ofFn]
  apply FileDescriptor.from_to
  intro j hj
  have : 0x27 * i + 0x27 ≤ 0x27 * n := by
    rw [← Nat.mul_succ]; exact Nat.mul_le_mul_left _ hi
  rw [at8_set_ne (by simp only; omega)]
  rw [at8_copyEach_in (d := fds[i].toBytes) (by omega) (len39 _) (by simp [hi]) hj (by simp [hl]; omega)]

theorem VolumeDirectoryKeyBlock.toBlock_length (v : VolumeDirectoryKeyBlock) : v.toBlock.length = 512 := by
  unfold VolumeDirectoryKeyBlock.toBlock; len_tac
theorem VolumeDirectoryBlock.toBlock_length (v : VolumeDirectoryBlock) : v.toBlock.length = 512 := by
  unfold VolumeDirectoryBlock.toBlock; len_tac
theorem SubdirectoryKeyBlock.toBlock_length (v : SubdirectoryKeyBlock) : v.toBlock.length = 512 := by
  unfold SubdirectoryKeyBlock.toBlock; len_tac
theorem SubdirectoryBlock.toBlock_length (v : SubdirectoryBlock) : v.toBlock.length = 512 := by
  unfold SubdirectoryBlock.toBlock; len_tac

theorem VolumeDirectoryKeyBlock.from_to (v w : VolumeDirectoryKeyBlock) :
    w.fromBlock v.toBlock = { v with block := w.block } := by
  obtain ⟨b, p, n, h, ds, x⟩ := v
  unfold VolumeDirectoryKeyBlock.fromBlock VolumeDirectoryKeyBlock.toBlock
  simp only
  rw [VolumeDirectoryKeyBlock.mk.injEq]
  refine ⟨rfl, ?_, ?_, ?_, descs_from_to ds _ _ _ (by len_tac) (by omega), ?_⟩
  · rw [copyAt_each 0x27]; rt_simp
  · rw [copyAt_each 0x27]; rt_simp
  · apply VolumeDirectoryHeader.from_to
    intro i hi
    rw [at8_set_ne (by omega), at8_copyEach_off (by omega) (len39 _) (by omega), copyAt_each 0x27]
    rw [show 4 + i = 4 + 0x27 * 0 + i by omega]
    exact at8_copyEach_in (by omega) (len39h _) (by rfl) hi (by len_tac; simp)
  · rt_simp

theorem VolumeDirectoryBlock.from_to (v w : VolumeDirectoryBlock) :
    w.fromBlock v.toBlock = { v with block := w.block } := by
  obtain ⟨b, p, n, ds, x⟩ := v
  unfold VolumeDirectoryBlock.fromBlock VolumeDirectoryBlock.toBlock
  simp only
  rw [VolumeDirectoryBlock.mk.injEq]
  refine ⟨rfl, ?_, ?_, descs_from_to ds _ _ _ (by len_tac) (by omega), ?_⟩ <;> rt_simp

theorem SubdirectoryKeyBlock.from_to (v w : SubdirectoryKeyBlock) :
    w.fromBlock v.toBlock = { v with block := w.block } := by
  obtain ⟨b, p, n, h, ds, x⟩ := v
  unfold SubdirectoryKeyBlock.fromBlock SubdirectoryKeyBlock.toBlock
  simp only
  rw [SubdirectoryKeyBlock.mk.injEq]
  refine ⟨rfl, ?_, ?_, ?_, descs_from_to ds _ _ _ (by len_tac) (by omega), ?_⟩
  · rw [copyAt_each 0x27]; rt_simp
  · rw [copyAt_each 0x27]; rt_simp
  · apply SubdirectoryHeader.from_to
    intro i hi
    rw [at8_set_ne (by omega), at8_copyEach_off (by omega) (len39 _) (by omega), copyAt_each 0x27]
    rw [show 4 + i = 4 + 0x27 * 0 + i by omega]
    exact at8_copyEach_in (by omega) (len39s _) (by rfl) hi (by len_tac; simp)
  · rt_simp

theorem SubdirectoryBlock.from_to (v w : SubdirectoryBlock) :
    w.fromBlock v.toBlock = { v with block := w.block } := by
  obtain ⟨b, p, n, ds, x⟩ := v
  unfold SubdirectoryBlock.fromBlock SubdirectoryBlock.toBlock
  simp only
  rw [SubdirectoryBlock.mk.injEq]
  refine ⟨rfl, ?_, ?_, descs_from_to ds _ _ _ (by len_tac) (by omega), ?_⟩ <;> rt_simp

end Verif.Prodos
