import Verif.Proofs.ProdosBlock
import Verif.Proofs.ProdosBitmap
import Mathlib.Data.List.Nodup

/-!
# Properties of ProDOS blocks and bitmaps: C40-C45, C49
-/

set_option autoImplicit false
set_option maxRecDepth 20000

namespace Verif.Prodos

open Verif Verif.Disk Verif.Spec Verif.Spec.Prodos

/-! ## C40: directory blocks survive load and store -/

/-- C40: decoding and encoding any 512 bytes as any of the four directory blocks gives them back. -/
theorem C40_bytes (block : Bytes) (h : block.length = 512) :
    (∀ v : VolumeDirectoryKeyBlock, (v.fromBlock block).toBlock = block) ∧
    (∀ v : VolumeDirectoryBlock, (v.fromBlock block).toBlock = block) ∧
    (∀ v : SubdirectoryKeyBlock, (v.fromBlock block).toBlock = block) ∧
    (∀ v : SubdirectoryBlock, (v.fromBlock block).toBlock = block) :=
  ⟨fun v => v.to_from block h, fun v => v.to_from block h, fun v => v.to_from block h, fun v => v.to_from block h⟩

/-- C40: encoding gives 512 bytes and decoding them gives every field back; only the number of
the block the structure was loaded from is not part of the bytes. -/
theorem C40_volume_key (v w : VolumeDirectoryKeyBlock) :
    v.toBlock.length = 512 ∧ w.fromBlock v.toBlock = { v with block := w.block } :=
  ⟨v.toBlock_length, v.from_to w⟩

theorem C40_volume_block (v w : VolumeDirectoryBlock) :
    v.toBlock.length = 512 ∧ w.fromBlock v.toBlock = { v with block := w.block } :=
  ⟨v.toBlock_length, v.from_to w⟩

theorem C40_subdirectory_key (v w : SubdirectoryKeyBlock) :
    v.toBlock.length = 512 ∧ w.fromBlock v.toBlock = { v with block := w.block } :=
  ⟨v.toBlock_length, v.from_to w⟩

theorem C40_subdirectory_block (v w : SubdirectoryBlock) :
    v.toBlock.length = 512 ∧ w.fromBlock v.toBlock = { v with block := w.block } :=
  ⟨v.toBlock_length, v.from_to w⟩

/-- C40 for the parts: headers, file descriptors and timestamps. -/
theorem C40_parts :
    (∀ b : Vector UInt8 4, (DateTime.fromBytes b).toBytes = b) ∧
    (∀ d : DateTime, DateTime.fromBytes d.toBytes = d) ∧
    (∀ d : FileDescriptor, d.toBytes.length = 39 ∧ FileDescriptor.fromBytes d.toBytes 0 = d) ∧
    (∀ d : VolumeDirectoryHeader, d.toBytes.length = 39 ∧ VolumeDirectoryHeader.fromBytes d.toBytes 0 = d) ∧
    (∀ d : SubdirectoryHeader, d.toBytes.length = 39 ∧ SubdirectoryHeader.fromBytes d.toBytes 0 = d) ∧
    (∀ b : Bytes, b.length = 39 → (FileDescriptor.fromBytes b 0).toBytes = b ∧
      (VolumeDirectoryHeader.fromBytes b 0).toBytes = b ∧ (SubdirectoryHeader.fromBytes b 0).toBytes = b) := by
  refine ⟨DateTime.to_from, DateTime.from_to,
    fun d => ⟨d.toBytes_length, d.from_to fun i _ => by rw [Nat.zero_add]⟩,
    fun d => ⟨d.toBytes_length, d.from_to fun i _ => by rw [Nat.zero_add]⟩,
    fun d => ⟨d.toBytes_length, d.from_to fun i _ => by rw [Nat.zero_add]⟩, ?_⟩
  intro b hb
  refine ⟨?_, ?_, ?_⟩
  · exact Covers.eq (n := 39) (fun i hi => by rw [FileDescriptor.covers _ _ _ hi, Nat.zero_add])
      (FileDescriptor.toBytes_length _) hb
  · exact Covers.eq (n := 39) (fun i hi => by rw [VolumeDirectoryHeader.covers _ _ _ hi, Nat.zero_add])
      (VolumeDirectoryHeader.toBytes_length _) hb
  · exact Covers.eq (n := 39) (fun i hi => by rw [SubdirectoryHeader.covers _ _ _ hi, Nat.zero_add])
      (SubdirectoryHeader.toBytes_length _) hb

/-- C40, layout: where the fields of an encoded volume key block are (Beneath Apple ProDOS, page 4-4). -/
theorem C40_volume_key_layout (v : VolumeDirectoryKeyBlock) :
    at8 v.toBlock 0 = lo8 v.prev ∧ at8 v.toBlock 1 = hi8 v.prev ∧
    at8 v.toBlock 2 = lo8 v.next ∧ at8 v.toBlock 3 = hi8 v.next ∧
    at8 v.toBlock 4 = v.header.typeAndNameLength ∧
    (∀ i (h : i < 15), at8 v.toBlock (5 + i) = v.header.volumeName[i]) ∧
    at8 v.toBlock 0x27 = lo8 v.header.bitMapPointer ∧ at8 v.toBlock 0x28 = hi8 v.header.bitMapPointer ∧
    at8 v.toBlock 0x29 = lo8 v.header.totalBlocks ∧ at8 v.toBlock 0x2a = hi8 v.header.totalBlocks ∧
    (∀ k (h : k < 12), ∀ i, i < 39 → at8 v.toBlock (0x2b + 39 * k + i) = at8 v.descriptors[k].toBytes i) ∧
    at8 v.toBlock 511 = v.extra := by
  have e : (({} : VolumeDirectoryKeyBlock).fromBlock v.toBlock) = { v with block := 0 } := v.from_to _
  have h1 := congrArg (fun w => w.prev) e
  have h2 := congrArg (fun w => w.next) e
  have h3 := congrArg (fun w => w.header) e
  have h4 := congrArg (fun w => w.descriptors) e
  have h5 := congrArg (fun w => w.extra) e
  unfold VolumeDirectoryKeyBlock.fromBlock at h1 h2 h3 h4 h5
  simp only at h1 h2 h3 h4 h5
  have g1 := congrArg (fun w => w.typeAndNameLength) h3
  have g2 := congrArg (fun w => w.volumeName) h3
  have g3 := congrArg (fun w => w.bitMapPointer) h3
  have g4 := congrArg (fun w => w.totalBlocks) h3
  unfold VolumeDirectoryHeader.fromBytes at g1 g2 g3 g4
  simp only at g1 g2 g3 g4
  refine ⟨?_, ?_, ?_, ?_, g1, ?_, ?_, ?_, ?_, ?_, ?_, h5⟩
  · rw [← h1]; unfold rd16; rw [lo8_le16]
  · rw [← h1]; unfold rd16; rw [hi8_le16]
  · rw [← h2]; unfold rd16; rw [lo8_le16]
  · rw [← h2]; unfold rd16; rw [hi8_le16]
  · intro i hi
    rw [← g2, rdVec_getElem _ _ _ _ hi]
  · rw [← g3]; unfold rd16; rw [lo8_le16]
  · rw [← g3]; unfold rd16; rw [hi8_le16]
  · rw [← g4]; unfold rd16; rw [lo8_le16]
  · rw [← g4]; unfold rd16; rw [hi8_le16]
  · intro k hk i hi
    have hd : v.descriptors[k] = FileDescriptor.fromBytes v.toBlock (0x2b + 0x27 * k) := by
      have := congrArg (fun w => w[k]) h4
      simp only [Vector.getElem_ofFn] at this
      exact this.symm
    rw [hd, FileDescriptor.covers _ _ _ hi]

/-- C40, layout of a file descriptor (Beneath Apple ProDOS, page 4-8). -/
theorem C40_descriptor_layout (d : FileDescriptor) :
    at8 d.toBytes 0 = d.typeAndNameLength ∧ (∀ i (h : i < 15), at8 d.toBytes (1 + i) = d.fileName[i]) ∧
    at8 d.toBytes 0x10 = d.fileType ∧ at8 d.toBytes 0x11 = lo8 d.keyPointer ∧
    at8 d.toBytes 0x12 = hi8 d.keyPointer ∧ at8 d.toBytes 0x13 = lo8 d.blocksUsed ∧
    at8 d.toBytes 0x14 = hi8 d.blocksUsed ∧ (∀ i (h : i < 3), at8 d.toBytes (0x15 + i) = d.eof[i]) ∧
    at8 d.toBytes 0x1f = lo8 d.auxType ∧ at8 d.toBytes 0x20 = hi8 d.auxType ∧
    at8 d.toBytes 0x25 = lo8 d.headerPointer ∧ at8 d.toBytes 0x26 = hi8 d.headerPointer := by
  have e : FileDescriptor.fromBytes d.toBytes 0 = d := d.from_to fun i _ => by rw [Nat.zero_add]
  have h1 := congrArg (fun w => w.typeAndNameLength) e
  have h2 := congrArg (fun w => w.fileName) e
  have h3 := congrArg (fun w => w.fileType) e
  have h4 := congrArg (fun w => w.keyPointer) e
  have h5 := congrArg (fun w => w.blocksUsed) e
  have h6 := congrArg (fun w => w.eof) e
  have h7 := congrArg (fun w => w.auxType) e
  have h8 := congrArg (fun w => w.headerPointer) e
  unfold FileDescriptor.fromBytes at h1 h2 h3 h4 h5 h6 h7 h8
  simp only [Nat.zero_add] at h1 h2 h3 h4 h5 h6 h7 h8
  refine ⟨h1, ?_, h3, ?_, ?_, ?_, ?_, ?_, ?_, ?_, ?_, ?_⟩
  · intro i hi; conv => rhs; rw [← h2]
    rw [rdVec_getElem _ _ _ _ hi]
  · conv => rhs; rw [← h4]
    unfold rd16; rw [lo8_le16]
  · conv => rhs; rw [← h4]
    unfold rd16; rw [hi8_le16]
  · conv => rhs; rw [← h5]
    unfold rd16; rw [lo8_le16]
  · conv => rhs; rw [← h5]
    unfold rd16; rw [hi8_le16]
  · intro i hi; conv => rhs; rw [← h6]
    rw [rdVec_getElem _ _ _ _ hi]
  · conv => rhs; rw [← h7]
    unfold rd16; rw [lo8_le16]
  · conv => rhs; rw [← h7]
    unfold rd16; rw [hi8_le16]
  · conv => rhs; rw [← h8]
    unfold rd16; rw [lo8_le16]
  · conv => rhs; rw [← h8]
    unfold rd16; rw [hi8_le16]

/-! ## C41: marking blocks -/

/-- C41: marking a covered block succeeds, sets the freeness of that block, and leaves that of
every other covered block, the extent of the bitmap and the place of its parts alone. -/
theorem C41_mark (vbm : VolumeBitMap) (b : UInt16) (h : b.toNat < 4096 * vbm.length) :
    (∃ v, markUnused vbm b = .ok v ∧ v.length = vbm.length ∧ v.map (·.block) = vbm.map (·.block) ∧
      isFree v b = .ok true ∧
      ∀ c : UInt16, c.toNat < 4096 * vbm.length → c ≠ b → isFree v c = isFree vbm c) ∧
    (∃ v, markUsed vbm b = .ok v ∧ v.length = vbm.length ∧ v.map (·.block) = vbm.map (·.block) ∧
      isFree v b = .ok false ∧
      ∀ c : UInt16, c.toNat < 4096 * vbm.length → c ≠ b → isFree v c = isFree vbm c) := by
  constructor
  · obtain ⟨v, h1, h2, h3, h4⟩ := mark_ok true h
    exact ⟨v, h1, h2, h3, by rw [h4 b h, if_pos rfl], fun c hc hne => by rw [h4 c hc, if_neg hne]⟩
  · obtain ⟨v, h1, h2, h3, h4⟩ := mark_ok false h
    exact ⟨v, h1, h2, h3, by rw [h4 b h, if_pos rfl], fun c hc hne => by rw [h4 c hc, if_neg hne]⟩

/-- C41 for histories: after any sequence of marks of covered blocks, a block is free exactly as
its last mark says, and as before if it was not marked. -/
theorem C41_history (vbm : VolumeBitMap) (ops : List (UInt16 × Bool))
    (h : ∀ op ∈ ops, op.1.toNat < 4096 * vbm.length) :
    ∃ v, ops.foldlM (fun v op => if op.2 then markUnused v op.1 else markUsed v op.1) vbm = .ok v ∧
      v.length = vbm.length ∧
      ∀ c : UInt16, c.toNat < 4096 * vbm.length →
        ((∀ op ∈ ops, op.1 ≠ c) → isFree v c = isFree vbm c) ∧
        ∀ pre post f, ops = pre ++ (c, f) :: post → (∀ op ∈ post, op.1 ≠ c) → isFree v c = .ok f := by
  obtain ⟨v, h1, h2, _, h4⟩ := marks_ok ops h
  have hf : (fun (v : VolumeBitMap) (op : UInt16 × Bool) => if op.2 then markUnused v op.1 else markUsed v op.1)
      = fun v op => mark v op.1 op.2 := by
    funext v op
    rcases op with ⟨b, _ | _⟩ <;> rfl
  refine ⟨v, by rw [hf]; exact h1, h2, fun c hc => ⟨?_, ?_⟩⟩
  · intro hn
    rw [h4 c hc]
    have : ops.reverse.find? (fun op => op.1 = c) = none := by
      rw [List.find?_eq_none]
      intro op hop
      simpa using hn op (List.mem_reverse.1 hop)
    rw [this]
  · intro pre post f he hn
    rw [h4 c hc]
    have : ops.reverse.find? (fun op => op.1 = c) = some (c, f) := by
      rw [he, List.reverse_append, List.reverse_cons, List.append_assoc, List.find?_append]
      have : post.reverse.find? (fun op => op.1 = c) = none := by
        rw [List.find?_eq_none]
        intro op hop
        simpa using hn op (List.mem_reverse.1 hop)
      rw [this]
      simp
    rw [this]

/-- Outside the bitmap there is no answer: all three calls crash. -/
theorem C41_not_covered (vbm : VolumeBitMap) (b : UInt16) (h : 4096 * vbm.length ≤ b.toNat) :
    markUnused vbm b = .panic ∧ markUsed vbm b = .panic ∧ isFree vbm b = .panic :=
  ⟨mark_panic _ h, mark_panic _ h, isFree_panic h⟩

/-- Non-vacuity: a bitmap of one part covers block 280. -/
example : (280 : UInt16).toNat < 4096 * ([{ block := 6 }] : VolumeBitMap).length := by decide

/-! ## C42: new bitmaps -/

/-- C42, for devices of up to 61440 blocks. -/
theorem C42_new_partial (start n : UInt16) (h : n.toNat ≤ 61440) :
    ∃ vbm, newVolumeBitMap start n = .ok vbm ∧
      n.toNat ≤ 4096 * vbm.length ∧ 4096 * vbm.length < n.toNat + 4096 ∧
      (∀ c : UInt16, c.toNat < 4096 * vbm.length → isFree vbm c = .ok (decide (c.toNat < n.toNat))) ∧
      ∀ i (hi : i < vbm.length), vbm[i].block = start + UInt16.ofNat i := by
  obtain ⟨vbm, h1, h2, h3, h4⟩ := newVolumeBitMap_ok start n h
  refine ⟨vbm, h1, by omega, by omega, h4, fun i hi => ?_⟩
  have : (vbm.map (·.block))[i]'(by simpa using hi) = start + UInt16.ofNat i := by
    simp only [h3, List.getElem_map, List.getElem_range]
  simpa using this

/-- C42 fails for larger devices: the program crashes for every one of them. -/
theorem C42_violated (start n : UInt16) (h : 61440 < n.toNat) : newVolumeBitMap start n = .panic :=
  newVolumeBitMap_panic start n h

/-- Non-vacuity of both. -/
example : (280 : UInt16).toNat ≤ 61440 ∧ 61440 < (65535 : UInt16).toNat := by decide

/-! ## C43: reading the bitmap of a device -/

/-- C43, what the code does: it loads one part for every 16777216 blocks or fraction thereof (and
none below 4096 blocks); the answers for the blocks so covered come from the device. -/
theorem C43_read_partial (img : Bytes) (start : UInt16) (hs : img.length < 2 ^ 36) (vbm : VolumeBitMap)
    (h : readVolumeBitMap img start = .ok vbm) :
    vbm.length = (img.length / 512 / 4096 + 4095) / 4096 ∧
    ∀ b : UInt16, b.toNat < 4096 * vbm.length →
      isFree vbm b = .ok (decide
        (bbyte img (start + UInt16.ofNat (b.toNat / 4096)).toNat (b.toNat / 8 % 512) &&&
          (1 <<< UInt8.ofNat (7 - b.toNat % 8)) > 0)) := by
  unfold readVolumeBitMap at h
  have hn : (UInt16.ofNat (img.length / 512 / 4096)).toNat = img.length / 512 / 4096 :=
    UInt16.toNat_ofNat_of_lt' (by show _ < 65536; omega)
  obtain ⟨v0, h1, h2, h3, _⟩ := newVolumeBitMap_ok start (UInt16.ofNat (img.length / 512 / 4096))
    (by rw [hn]; omega)
  simp only [h1, Out.bind_ok] at h
  obtain ⟨hon, hr⟩ := ((readParts_ok img v0).1 vbm).1 h
  have hlen : vbm.length = v0.length := by rw [hr]; simp
  refine ⟨by rw [hlen, h2, hn], fun b hb => ?_⟩
  have hi : b.toNat / 4096 < v0.length := by omega
  have hblock : (v0[b.toNat / 4096]'hi).block = start + UInt16.ofNat (b.toNat / 4096) := by
    have : (v0.map (·.block))[b.toNat / 4096]'(by simpa using hi) = start + UInt16.ofNat (b.toNat / 4096) := by
      simp only [h3, List.getElem_map, List.getElem_range]
    simpa using this
  have hget : vbm[b.toNat / 4096]? = some ⟨(v0[b.toNat / 4096]'hi).block,
      rdVec 512 (blockAt img (v0[b.toNat / 4096]'hi).block.toNat) 0⟩ := by
    rw [hr, List.getElem?_map, List.getElem?_eq_getElem hi]; rfl
  rw [isFree_part hget]
  simp only
  rw [rdVec_blockAt (hon _ (List.getElem_mem hi)), hblock]
  rfl

/-- C43 fails for every device of fewer than 4096 blocks, in particular every floppy: the bitmap is
empty and asking about any block crashes. -/
theorem C43_violated (img : Bytes) (start : UInt16) (h : img.length < 512 * 4096) :
    ∃ vbm, readVolumeBitMap img start = .ok vbm ∧ ∀ b : UInt16, isFree vbm b = .panic := by
  have hz : img.length / 512 / 4096 = 0 := by omega
  refine ⟨[], ?_, fun b => isFree_panic (by simp)⟩
  unfold readVolumeBitMap
  rw [hz]
  rfl

/-- C43 fails for larger devices too: block 4096 of a 32 megabyte device has no answer. -/
theorem C43_violated_large (img : Bytes) (start : UInt16) (h : img.length ≤ 512 * 65536) (vbm : VolumeBitMap)
    (hr : readVolumeBitMap img start = .ok vbm) (b : UInt16) (hb : 4096 ≤ b.toNat) : isFree vbm b = .panic := by
  have := (C43_read_partial img start (by omega) vbm hr).1
  exact isFree_panic (by omega)

/-- Non-vacuity: a device of 4096 blocks has its bitmap loaded. -/
example : ∃ vbm, readVolumeBitMap (zeros 2097152) 6 = .ok vbm ∧ vbm.length = 1 := by
  have h1 : (zeros 2097152).length / 512 / 4096 = 1 := by rw [zeros_length]
  obtain ⟨v0, e1, e2, e3, _⟩ := newVolumeBitMap_ok 6 1 (by decide)
  have hok := (readParts_ok (zeros 2097152) v0).1
    (v0.map fun p => { block := p.block, data := rdVec 512 (blockAt (zeros 2097152) p.block.toNat) 0 })
  have hon : ∀ p ∈ v0, OnDevice (zeros 2097152) p.block.toNat := by
    intro p hp
    have : p.block ∈ v0.map (·.block) := List.mem_map.2 ⟨p, hp, rfl⟩
    rw [e3] at this
    obtain ⟨i, hi, he⟩ := List.mem_map.1 this
    have hi0 : i = 0 := by
      have := List.mem_range.1 hi
      have h1' : (1 : UInt16).toNat = 1 := rfl
      omega
    subst hi0
    rw [← he]
    unfold OnDevice
    rw [zeros_length]
    decide
  refine ⟨v0.map fun p => { block := p.block, data := rdVec 512 (blockAt (zeros 2097152) p.block.toNat) 0 }, ?_, ?_⟩
  · unfold readVolumeBitMap
    rw [h1]
    have : UInt16.ofNat 1 = 1 := rfl
    rw [this]
    simp only [e1, Out.bind_ok]
    exact hok.2 ⟨hon, rfl⟩
  · rw [List.length_map, e2]; rfl

/-! ## C44: writing the bitmap -/

/-- C44: `Write` never crashes, keeps the size of the device, changes no block that is not a part's,
and succeeds exactly if all parts lie on the device. -/
theorem C44_write (vbm : VolumeBitMap) (img : Bytes) :
    ((writeBitMap vbm img).1 = .ok () ∨ (writeBitMap vbm img).1 = .err .other) ∧
    ((writeBitMap vbm img).1 = .ok () ↔ ∀ p ∈ vbm, OnDevice img p.block.toNat) ∧
    (writeBitMap vbm img).2.length = img.length ∧
    (∀ b, (∀ p ∈ vbm, p.block.toNat ≠ b) → blockAt (writeBitMap vbm img).2 b = blockAt img b) := by
  obtain ⟨h1, h2, h3, h4, _⟩ := writeBitMap_spec vbm img
  exact ⟨h3, h2, h1, h4⟩

/-- C44: after a successful `Write`, each part's block holds its bits, and reading those blocks
gives the bitmap back (parts being in different blocks, as `NewVolumeBitMap` makes them). -/
theorem C44_read_back (vbm : VolumeBitMap) (img : Bytes) (hn : (vbm.map (·.block)).Nodup)
    (h : (writeBitMap vbm img).1 = .ok ()) :
    (∀ p ∈ vbm, blockAt (writeBitMap vbm img).2 p.block.toNat = p.data.toList) ∧
    readParts (writeBitMap vbm img).2 vbm = .ok vbm := by
  obtain ⟨h1, h2, _, _, h5⟩ := writeBitMap_spec vbm img
  refine ⟨h5 hn h, ((readParts_ok _ vbm).1 _).2 ⟨?_, ?_⟩⟩
  · intro p hp
    unfold OnDevice; rw [h1]; exact h2.1 h p hp
  · have : vbm.map (fun p => (⟨p.block,
        rdVec 512 (blockAt (writeBitMap vbm img).2 p.block.toNat) 0⟩ : BitmapPart)) = vbm.map id := by
      apply List.map_congr_left
      intro p hp
      rw [h5 hn h p hp]
      have : rdVec 512 p.data.toList 0 = p.data := rdVec_eq fun i hi => by
        rw [Nat.zero_add, at8_toList _ hi]
      rw [this]; rfl
    rw [this, List.map_id]

/-- Non-vacuity of C44: bitmaps made by `NewVolumeBitMap` have their parts in different blocks. -/
theorem C44_new_bitmaps (start n : UInt16) (vbm : VolumeBitMap) (h : newVolumeBitMap start n = .ok vbm) :
    (vbm.map (·.block)).Nodup := by
  by_cases hn : n.toNat ≤ 61440
  · obtain ⟨v, h1, h2, h3, _⟩ := newVolumeBitMap_ok start n hn
    rw [h1, Out.ok.injEq] at h
    subst h
    rw [h3]
    refine List.Nodup.map_on ?_ List.nodup_range
    intro i hi j hj he
    rw [List.mem_range] at hi hj
    have := congrArg UInt16.toNat ((UInt16.add_right_inj start).1 he)
    rwa [UInt16.toNat_ofNat_of_lt' (by show i < 65536; omega),
      UInt16.toNat_ofNat_of_lt' (by show j < 65536; omega)] at this
  · rw [newVolumeBitMap_panic start n (by omega)] at h
    simp at h

/-! ## C45: index blocks -/

/-- `Get` returns the number whose low byte is in the first half and whose high byte is in the
second half of the block. -/
theorem C45_get (i : IndexBlock) (n : UInt8) :
    (i.get n).toNat = (i.toList.getD n.toNat 0).toNat + 256 * (i.toList.getD (256 + n.toNat) 0).toNat := by
  unfold IndexBlock.get
  have h1 := (i.toList.getD n.toNat 0).toNat_lt
  have h2 := (i.toList.getD (256 + n.toNat) 0).toNat_lt
  rw [UInt16.toNat_add, UInt16.toNat_shiftLeft, UInt8.toNat_toUInt16, UInt8.toNat_toUInt16]
  simp only [UInt16.reduceToNat, Nat.reduceMod, Nat.shiftLeft_eq]
  omega

/-- C45 is violated: `Set` never changes the index block, so `Get` returns the number set only if
it was already there. -/
theorem C45_violated (i : IndexBlock) (n : UInt8) (b : UInt16) :
    i.setEntry n b = i ∧ ((i.setEntry n b).get n = b ↔ i.get n = b) := ⟨rfl, Iff.rfl⟩

/-- C45 is violated, concretely. -/
theorem C45_violated_example :
    IndexBlock.get (IndexBlock.setEntry (Vector.replicate 512 0) 1 300) 1 = 0 := by
  apply UInt16.toNat_inj.1
  rw [C45_get]
  decide +kernel

/-- The part of C45 that holds: other entries are unchanged. -/
theorem C45_others_partial (i : IndexBlock) (n m : UInt8) (b : UInt16) : (i.setEntry n b).get m = i.get m := rfl

/-! ## C49: blocks of a device -/

/-- C49: writing a structure that encodes to `bytes` puts exactly these 512 bytes at its block and
changes nothing else; it fails, changing nothing, exactly if the block lies beyond the device. -/
theorem C49_marshal (img : Bytes) (b : UInt16) (bytes : Bytes) (hl : bytes.length = 512) :
    (OnDevice img b.toNat → ∃ img', marshal img b bytes = (.ok (), img') ∧ img'.length = img.length ∧
      blockAt img' b.toNat = bytes ∧ (∀ c, c ≠ b.toNat → blockAt img' c = blockAt img c) ∧
      ∀ i, i < 512 * b.toNat ∨ 512 * b.toNat + 512 ≤ i → img'[i]? = img[i]?) ∧
    (¬ OnDevice img b.toNat → marshal img b bytes = (.err .other, img)) := by
  have hv : (rdVec 512 bytes 0).toList = bytes := by
    apply List.ext_getElem (by rw [Vector.length_toList, hl])
    intro i h1 h2
    rw [Vector.length_toList] at h1
    rw [Vector.getElem_toList, rdVec_getElem _ _ _ _ h1]
    unfold at8
    rw [Nat.zero_add, List.getD_eq_getElem?_getD, List.getElem?_eq_getElem h2]; rfl
  unfold OnDevice marshal
  rw [writeBlock_eq]
  constructor
  · intro h
    rw [if_pos h, hv]
    refine ⟨_, rfl, put_length (by omega), blockAt_put_same hl h, fun c hc => blockAt_put_ne hl h hc, ?_⟩
    intro i hi
    rw [getElem?_put (by omega), hl]
    by_cases h1 : i < 512 * b.toNat
    · rw [if_pos h1]
    · rw [if_neg h1, if_neg (by omega)]
  · intro h; rw [if_neg h]

/-- C49: reading block `b` decodes exactly its 512 bytes and records `b`; it fails exactly if the
block lies beyond the device. -/
theorem C49_unmarshal (img : Bytes) (b : UInt16) :
    (OnDevice img b.toNat → (blockAt img b.toNat).length = 512 ∧
      unmarshalVolumeKey img b = .ok { ({} : VolumeDirectoryKeyBlock).fromBlock (blockAt img b.toNat) with block := b } ∧
      unmarshalVolumeBlock img b = .ok { ({} : VolumeDirectoryBlock).fromBlock (blockAt img b.toNat) with block := b } ∧
      unmarshalSubdirKey img b = .ok { ({} : SubdirectoryKeyBlock).fromBlock (blockAt img b.toNat) with block := b } ∧
      unmarshalSubdirBlock img b = .ok { ({} : SubdirectoryBlock).fromBlock (blockAt img b.toNat) with block := b } ∧
      ∃ p, readPart img b = .ok p ∧ p.block = b ∧ p.data.toList = blockAt img b.toNat) ∧
    (¬ OnDevice img b.toNat →
      unmarshalVolumeKey img b = .err .other ∧ unmarshalVolumeBlock img b = .err .other ∧
      unmarshalSubdirKey img b = .err .other ∧ unmarshalSubdirBlock img b = .err .other ∧
      readPart img b = .err .other) := by
  unfold OnDevice unmarshalVolumeKey unmarshalVolumeBlock unmarshalSubdirKey unmarshalSubdirBlock readPart
  rw [readBlock_eq]
  constructor
  · intro h
    rw [if_pos h]
    exact ⟨blockAt_length h, rfl, rfl, rfl, rfl, _, rfl, rfl, rdVec_blockAt h⟩
  · intro h
    rw [if_neg h]
    exact ⟨rfl, rfl, rfl, rfl, rfl⟩

/-- C49: what was written is read back, for each kind of block. -/
theorem C49_round_trip (img : Bytes) (b : UInt16) (h : OnDevice img b.toNat) :
    (∀ v : VolumeDirectoryKeyBlock, v.block = b →
      unmarshalVolumeKey (marshal img b v.toBlock).2 b = .ok v) ∧
    (∀ v : VolumeDirectoryBlock, v.block = b →
      unmarshalVolumeBlock (marshal img b v.toBlock).2 b = .ok v) ∧
    (∀ v : SubdirectoryKeyBlock, v.block = b →
      unmarshalSubdirKey (marshal img b v.toBlock).2 b = .ok v) ∧
    (∀ v : SubdirectoryBlock, v.block = b →
      unmarshalSubdirBlock (marshal img b v.toBlock).2 b = .ok v) := by
  refine ⟨?_, ?_, ?_, ?_⟩
  · intro v hv
    obtain ⟨img', h1, h2, h3, _⟩ := (C49_marshal img b v.toBlock v.toBlock_length).1 h
    rw [h1]
    rw [((C49_unmarshal img' b).1 (by unfold OnDevice at *; omega)).2.1, h3, v.from_to, ← hv]
  · intro v hv
    obtain ⟨img', h1, h2, h3, _⟩ := (C49_marshal img b v.toBlock v.toBlock_length).1 h
    rw [h1]
    rw [((C49_unmarshal img' b).1 (by unfold OnDevice at *; omega)).2.2.1, h3, v.from_to, ← hv]
  · intro v hv
    obtain ⟨img', h1, h2, h3, _⟩ := (C49_marshal img b v.toBlock v.toBlock_length).1 h
    rw [h1]
    rw [((C49_unmarshal img' b).1 (by unfold OnDevice at *; omega)).2.2.2.1, h3, v.from_to, ← hv]
  · intro v hv
    obtain ⟨img', h1, h2, h3, _⟩ := (C49_marshal img b v.toBlock v.toBlock_length).1 h
    rw [h1]
    rw [((C49_unmarshal img' b).1 (by unfold OnDevice at *; omega)).2.2.2.2.1, h3, v.from_to, ← hv]

/-- Non-vacuity: block 2 of a floppy image. -/
example : OnDevice (zeros 143360) (2 : UInt16).toNat := by
  unfold OnDevice; rw [zeros_length]; decide

end Verif.Prodos
