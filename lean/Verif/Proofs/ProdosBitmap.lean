import Verif.Model.Prodos
import Verif.Spec.Prodos
import Verif.Proofs.Disk

/-!
# The ProDOS volume bitmap
-/

set_option autoImplicit false
set_option maxRecDepth 20000

namespace Verif.Prodos

open Verif Verif.Disk Verif.Spec Verif.Spec.Prodos

/-- The bit for block `b` within its byte. -/
def bitOf (b : UInt16) : UInt8 := 1 <<< (7 - (b &&& 7)).toUInt8

theorem part_toNat (b : UInt16) : ((b >>> 3) / 512).toNat = b.toNat / 4096 := by
  simp [UInt16.toNat_div, UInt16.toNat_shiftRight, Nat.shiftRight_eq_div_pow, Nat.div_div_eq_div_mul]

theorem byte_toNat (b : UInt16) : ((b >>> 3) % 512).toNat = b.toNat / 8 % 512 := by
  simp [UInt16.toNat_mod, UInt16.toNat_shiftRight, Nat.shiftRight_eq_div_pow]

theorem bitOf_eq (b : UInt16) : bitOf b = 1 <<< UInt8.ofNat (7 - b.toNat % 8) := by
  unfold bitOf
  congr 1
  apply UInt8.toNat_inj.1
  have h : (b &&& 7).toNat = b.toNat % 8 := by
    rw [UInt16.toNat_and]; exact Nat.and_two_pow_sub_one_eq_mod b.toNat 3
  have h8 : b.toNat % 8 < 8 := Nat.mod_lt _ (by omega)
  have hle : b &&& 7 ≤ 7 := by
    rw [UInt16.le_iff_toNat_le, h]; show _ ≤ 7; omega
  rw [UInt16.toNat_toUInt8, UInt16.toNat_sub_of_le _ _ hle, h]
  show (7 - b.toNat % 8) % 256 = _
  simp

theorem bit_set : ∀ x : UInt8, ∀ i j : Fin 8,
    ((x ||| (1 <<< UInt8.ofNat (7 - i.val))) &&& (1 <<< UInt8.ofNat (7 - j.val)) > 0 ↔
      i = j ∨ x &&& (1 <<< UInt8.ofNat (7 - j.val)) > 0) := by decide +kernel

theorem bit_clear : ∀ x : UInt8, ∀ i j : Fin 8,
    ((x &&& ~~~(1 <<< UInt8.ofNat (7 - i.val))) &&& (1 <<< UInt8.ofNat (7 - j.val)) > 0 ↔
      i ≠ j ∧ x &&& (1 <<< UInt8.ofNat (7 - j.val)) > 0) := by decide +kernel

theorem isFree_eq (vbm : VolumeBitMap) (b : UInt16) :
    isFree vbm b = match vbm[b.toNat / 4096]? with
      | none => .panic
      | some p => .ok (decide (p.data.toList.getD (b.toNat / 8 % 512) 0 &&&
          (1 <<< UInt8.ofNat (7 - b.toNat % 8)) > 0)) := by
  unfold isFree
  simp only [part_toNat, byte_toNat]
  rw [show (1 : UInt8) <<< (7 - (b &&& 7)).toUInt8 = bitOf b from rfl, bitOf_eq]
  cases vbm[b.toNat / 4096]? <;> rfl

theorem mark_eq (vbm : VolumeBitMap) (b : UInt16) (set : Bool) :
    mark vbm b set = match vbm[b.toNat / 4096]? with
      | none => .panic
      | some p => .ok (vbm.set (b.toNat / 4096) { p with
          data := p.data.setIfInBounds (b.toNat / 8 % 512)
            (if set then p.data.toList.getD (b.toNat / 8 % 512) 0 ||| (1 <<< UInt8.ofNat (7 - b.toNat % 8))
             else p.data.toList.getD (b.toNat / 8 % 512) 0 &&& ~~~(1 <<< UInt8.ofNat (7 - b.toNat % 8))) }) := by
  unfold mark
  simp only [part_toNat, byte_toNat]
  rw [show (1 : UInt8) <<< (7 - (b &&& 7)).toUInt8 = bitOf b from rfl, bitOf_eq]
  cases vbm[b.toNat / 4096]? <;> rfl

theorem getD_setIfInBounds {n : Nat} (v : Vector UInt8 n) (i j : Nat) (x : UInt8) (hi : i < n) :
    (v.setIfInBounds i x).toList.getD j 0 = if j = i then x else v.toList.getD j 0 := by
  rw [Vector.toList_setIfInBounds, List.getD_eq_getElem?_getD, List.getElem?_set]
  by_cases h : j = i
  · subst h; simp [hi]
  · rw [if_neg (fun e => h e.symm), if_neg h, List.getD_eq_getElem?_getD]

theorem mark_ok {vbm : VolumeBitMap} {b : UInt16} (set : Bool) (h : b.toNat < 4096 * vbm.length) :
    ∃ vbm', mark vbm b set = .ok vbm' ∧ vbm'.length = vbm.length ∧
      vbm'.map (·.block) = vbm.map (·.block) ∧
      ∀ c : UInt16, c.toNat < 4096 * vbm.length →
        isFree vbm' c = if c = b then .ok set else isFree vbm c := by
  have hb : b.toNat / 4096 < vbm.length := by omega
  rw [mark_eq, List.getElem?_eq_getElem hb]
  refine ⟨_, rfl, by simp, ?_, ?_⟩
  · apply List.ext_getElem?
    intro i
    rw [List.getElem?_map, List.getElem?_map, List.getElem?_set]
    by_cases hi : b.toNat / 4096 = i
    · subst hi; simp [hb]
    · rw [if_neg hi]
  · intro c hc
    rw [isFree_eq, isFree_eq, List.getElem?_set]
    have hcp : c.toNat / 4096 < vbm.length := by omega
    by_cases hp : b.toNat / 4096 = c.toNat / 4096
    · rw [if_pos hp, if_pos hb]
      simp only
      rw [getD_setIfInBounds _ _ _ _ (by omega)]
      have hgc : vbm[c.toNat / 4096]? = some (vbm[b.toNat / 4096]'hb) := by
        rw [← hp, List.getElem?_eq_getElem hb]
      rw [hgc]
      simp only
      by_cases hbyte : c.toNat / 8 % 512 = b.toNat / 8 % 512
      · rw [if_pos hbyte, hbyte]
        have h1 := bit_set ((vbm[b.toNat / 4096]'hb).data.toList.getD (b.toNat / 8 % 512) 0)
          ⟨b.toNat % 8, by omega⟩ ⟨c.toNat % 8, by omega⟩
        have h2 := bit_clear ((vbm[b.toNat / 4096]'hb).data.toList.getD (b.toNat / 8 % 512) 0)
          ⟨b.toNat % 8, by omega⟩ ⟨c.toNat % 8, by omega⟩
        simp only [Fin.mk.injEq, ne_eq] at h1 h2
        have hbit : b.toNat % 8 = c.toNat % 8 ↔ c = b := by
          rw [← UInt16.toNat_inj]; omega
        by_cases hcb : c = b
        · rw [if_pos hcb]
          have hm := hbit.2 hcb
          cases set
          · simp only [Bool.false_eq_true, if_false, Out.ok.injEq, decide_eq_false_iff_not]
            rw [h2]; exact fun hh => hh.1 hm
          · simp only [if_true, Out.ok.injEq, decide_eq_true_eq]
            rw [h1]; exact Or.inl hm
        · rw [if_neg hcb]
          have hm := mt hbit.1 hcb
          cases set
          · simp only [Bool.false_eq_true, if_false]
            refine congrArg Out.ok (decide_eq_decide.2 ?_)
            rw [h2]; exact ⟨fun hh => hh.2, fun hh => ⟨hm, hh⟩⟩
          · simp only [if_true]
            refine congrArg Out.ok (decide_eq_decide.2 ?_)
            rw [h1]; exact ⟨fun hh => hh.resolve_left hm, Or.inr⟩
      · rw [if_neg hbyte, if_neg (fun e => hbyte (by rw [e]))]
    · rw [if_neg hp, if_neg (fun e => hp (by rw [e]))]

theorem mark_panic {vbm : VolumeBitMap} {b : UInt16} (set : Bool) (h : 4096 * vbm.length ≤ b.toNat) :
    mark vbm b set = .panic := by
  rw [mark_eq, List.getElem?_eq_none (by omega)]

theorem isFree_panic {vbm : VolumeBitMap} {b : UInt16} (h : 4096 * vbm.length ≤ b.toNat) :
    isFree vbm b = .panic := by
  rw [isFree_eq, List.getElem?_eq_none (by omega)]

theorem isFree_ok {vbm : VolumeBitMap} {b : UInt16} (h : b.toNat < 4096 * vbm.length) :
    ∃ f, isFree vbm b = .ok f := by
  rw [isFree_eq, List.getElem?_eq_getElem (by omega)]
  exact ⟨_, rfl⟩

/-- What a history of marks leaves. -/
theorem marks_ok (ops : List (UInt16 × Bool)) {vbm : VolumeBitMap}
    (h : ∀ op ∈ ops, op.1.toNat < 4096 * vbm.length) :
    ∃ vbm', ops.foldlM (fun v op => mark v op.1 op.2) vbm = .ok vbm' ∧ vbm'.length = vbm.length ∧
      vbm'.map (·.block) = vbm.map (·.block) ∧
      ∀ c : UInt16, c.toNat < 4096 * vbm.length →
        isFree vbm' c = match (ops.reverse.find? fun op => op.1 = c) with
          | some op => .ok op.2
          | none => isFree vbm c := by
  induction ops generalizing vbm with
  | nil => exact ⟨vbm, rfl, rfl, rfl, fun _ _ => rfl⟩
  | cons op ops ih =>
    obtain ⟨v1, h1, hl1, hb1, hf1⟩ := mark_ok op.2 (h op (by simp))
    obtain ⟨v2, h2, hl2, hb2, hf2⟩ := ih (vbm := v1) (by
      intro o ho; rw [hl1]; exact h o (by simp [ho]))
    refine ⟨v2, ?_, by omega, by rw [hb2, hb1], ?_⟩
    · rw [List.foldlM_cons, h1]; exact h2
    · intro c hc
      rw [hf2 c (by omega), hf1 c hc, List.reverse_cons, List.find?_append]
      cases hfind : ops.reverse.find? (fun op => op.1 = c) with
      | some o => rfl
      | none =>
        simp only [Option.none_or, List.find?_cons, List.find?_nil]
        by_cases hcb : c = op.1
        · rw [if_pos hcb]; simp [hcb]
        · have : ¬ op.1 = c := fun e => hcb e.symm
          rw [if_neg hcb]; simp [this]

theorem parts_toNat (blocks : UInt16) (h : blocks.toNat ≤ 61440) :
    ((blocks + 512 * 8 - 1) / (512 * 8)).toNat = (blocks.toNat + 4095) / 4096 := by
  have h1 : (blocks + 512 * 8).toNat = (blocks.toNat + 4096) % 65536 := UInt16.toNat_add _ _
  rw [UInt16.toNat_div, UInt16.toNat_sub, h1]
  show (65536 - 1 + (blocks.toNat + 4096) % 65536) % 65536 / 4096 = _
  omega

theorem parts_toNat_big (blocks : UInt16) (h : 61440 < blocks.toNat) :
    ((blocks + 512 * 8 - 1) / (512 * 8)).toNat = 0 := by
  have := blocks.toNat_lt
  have h1 : (blocks + 512 * 8).toNat = blocks.toNat + 4096 - 65536 := by
    rw [UInt16.toNat_add]
    show (blocks.toNat + 4096) % 65536 = _
    omega
  rw [UInt16.toNat_div, UInt16.toNat_sub_of_le _ _ (by rw [UInt16.le_iff_toNat_le, h1]; show 1 ≤ _; omega), h1]
  show (blocks.toNat + 4096 - 65536 - 1) / 4096 = _
  omega

/-- The empty bitmap before marking. -/
def blankMap (start : UInt16) (n : Nat) : VolumeBitMap :=
  (List.range n).map fun i => { block := start + UInt16.ofNat i }

theorem blank_isFree (start : UInt16) (n : Nat) (c : UInt16) (h : c.toNat < 4096 * n) :
    isFree (blankMap start n) c = .ok false := by
  rw [isFree_eq, List.getElem?_eq_getElem (by simp [blankMap]; omega)]
  simp only [blankMap, List.getElem_map]
  refine congrArg Out.ok ?_
  rw [decide_eq_false_iff_not]
  have : (Vector.replicate 512 (0 : UInt8)).toList.getD (c.toNat / 8 % 512) 0 = 0 := by
    rw [Vector.toList_replicate, List.getD_eq_getElem?_getD, List.getElem?_replicate]
    split <;> rfl
  rw [this, UInt8.zero_and]
  decide

theorem newVolumeBitMap_ok (start blocks : UInt16) (h : blocks.toNat ≤ 61440) :
    ∃ vbm, newVolumeBitMap start blocks = .ok vbm ∧ vbm.length = (blocks.toNat + 4095) / 4096 ∧
      vbm.map (·.block) = (List.range ((blocks.toNat + 4095) / 4096)).map (fun i => start + UInt16.ofNat i) ∧
      ∀ c : UInt16, c.toNat < 4096 * vbm.length → isFree vbm c = .ok (decide (c.toNat < blocks.toNat)) := by
  have key := marks_ok ((List.range blocks.toNat).map fun b => (UInt16.ofNat b, true))
    (vbm := blankMap start ((blocks.toNat + 4095) / 4096)) (by
      intro op hop
      obtain ⟨b, hb, rfl⟩ := List.mem_map.1 hop
      rw [List.mem_range] at hb
      simp only [blankMap, List.length_map, List.length_range]
      rw [UInt16.toNat_ofNat_of_lt' (by show b < 65536; omega)]; omega)
  obtain ⟨vbm, h1, h2, h3, h4⟩ := key
  have hlen : (blankMap start ((blocks.toNat + 4095) / 4096)).length = (blocks.toNat + 4095) / 4096 := by
    simp [blankMap]
  rw [hlen] at h2 h4
  refine ⟨vbm, ?_, h2, ?_, ?_⟩
  · unfold newVolumeBitMap
    simp only
    rw [parts_toNat blocks h]
    rw [List.foldlM_map] at h1
    exact h1
  · rw [h3]; simp [blankMap, Function.comp_def]
  · intro c hc
    rw [h2] at hc
    rw [h4 c hc, ← List.map_reverse, List.find?_map]
    by_cases hcb : c.toNat < blocks.toNat
    · have : ((List.range blocks.toNat).reverse.find? ((fun op : UInt16 × Bool => decide (op.1 = c)) ∘
          fun b => (UInt16.ofNat b, true))).isSome := by
        rw [List.find?_isSome]
        exact ⟨c.toNat, by simpa using hcb, by simp⟩
      obtain ⟨x, hx⟩ := Option.isSome_iff_exists.1 this
      rw [hx]
      simp [hcb]
    · have : (List.range blocks.toNat).reverse.find? ((fun op : UInt16 × Bool => decide (op.1 = c)) ∘
          fun b => (UInt16.ofNat b, true)) = none := by
        rw [List.find?_eq_none]
        intro b hb
        rw [List.mem_reverse, List.mem_range] at hb
        simp only [Function.comp, decide_eq_true_eq]
        intro e
        rw [← e, UInt16.toNat_ofNat_of_lt' (by show b < 65536; omega)] at hcb
        exact hcb hb
      rw [this]
      simp only [Option.map_none]
      rw [blank_isFree _ _ _ hc]
      simp [hcb]

theorem newVolumeBitMap_panic (start blocks : UInt16) (h : 61440 < blocks.toNat) :
    newVolumeBitMap start blocks = .panic := by
  unfold newVolumeBitMap
  simp only
  rw [parts_toNat_big blocks h]
  obtain ⟨n, hn⟩ : ∃ n, blocks.toNat = n + 1 := ⟨blocks.toNat - 1, by omega⟩
  rw [hn, List.range_succ_eq_map, List.foldlM_cons]
  unfold markUnused
  rw [mark_panic true (by simp)]
  rfl

/-! ## Blocks -/

theorem readBlock_eq (img : Bytes) (b : UInt16) :
    readBlock img b = if 512 * b.toNat + 512 ≤ img.length then .ok (blockAt img b.toNat) else .err .other := by
  unfold readBlock blockAt slice
  simp only
  rw [Nat.mul_comm b.toNat 512]
  by_cases h : 512 * b.toNat + 512 ≤ img.length
  · rw [if_neg (by omega), if_pos h]
  · rw [if_pos (by omega), if_neg h]

theorem blockAt_length {img : Bytes} {b : Nat} (h : 512 * b + 512 ≤ img.length) : (blockAt img b).length = 512 := by
  unfold blockAt; simp; omega

theorem writeBlock_eq (img : Bytes) (b : UInt16) (d : Vector UInt8 512) :
    writeBlock img b d = if 512 * b.toNat + 512 ≤ img.length then (.ok (), put img (512 * b.toNat) d.toList)
      else (.err .other, img) := by
  unfold writeBlock
  simp only
  rw [Nat.mul_comm b.toNat 512]
  by_cases h : 512 * b.toNat + 512 ≤ img.length
  · rw [if_neg (by omega), if_pos h]
  · rw [if_pos (by omega), if_neg h]

theorem blockAt_put_same {img d : Bytes} {b : Nat} (hd : d.length = 512) (h : 512 * b + 512 ≤ img.length) :
    blockAt (put img (512 * b) d) b = d := by
  have := slice_put_same (l := img) (off := 512 * b) (d := d) (by omega)
  rw [hd] at this; exact this

theorem blockAt_put_ne {img d : Bytes} {b c : Nat} (hd : d.length = 512) (h : 512 * b + 512 ≤ img.length)
    (hc : c ≠ b) : blockAt (put img (512 * b) d) c = blockAt img c := by
  exact slice_put_of_disjoint (l := img) (off := 512 * b) (d := d) (by omega) (by omega)

theorem rdVec_blockAt {img : Bytes} {b : Nat} (h : 512 * b + 512 ≤ img.length) :
    (rdVec 512 (blockAt img b) 0).toList = blockAt img b := by
  apply List.ext_getElem (by rw [Vector.length_toList, blockAt_length h])
  intro i h1 h2
  rw [Vector.length_toList] at h1
  rw [Vector.getElem_toList, rdVec_getElem _ _ _ _ h1]
  unfold at8
  rw [Nat.zero_add, List.getD_eq_getElem?_getD, List.getElem?_eq_getElem h2]; rfl

theorem readParts_ok (img : Bytes) (ps : VolumeBitMap) :
    (∀ r, readParts img ps = .ok r ↔ (∀ p ∈ ps, OnDevice img p.block.toNat) ∧
      r = ps.map fun p => { block := p.block, data := rdVec 512 (blockAt img p.block.toNat) 0 }) ∧
    ((∃ p ∈ ps, ¬ OnDevice img p.block.toNat) → readParts img ps = .err .other) := by
  unfold OnDevice
  induction ps with
  | nil =>
    refine ⟨fun r => ?_, fun ⟨p, hp, _⟩ => by simp at hp⟩
    simp [readParts, eq_comm]
  | cons p ps ih =>
    have hr : readPart img p.block = if 512 * p.block.toNat + 512 ≤ img.length
        then .ok { block := p.block, data := rdVec 512 (blockAt img p.block.toNat) 0 } else .err .other := by
      unfold readPart
      rw [readBlock_eq]
      split <;> rfl
    rw [readParts, hr]
    by_cases h : 512 * p.block.toNat + 512 ≤ img.length
    · rw [if_pos h, Out.bind_ok]
      refine ⟨fun r => ?_, fun ⟨q, hq, hn⟩ => ?_⟩
      · rw [Out.bind_eq_ok]
        constructor
        · rintro ⟨a, ha, hra⟩
          obtain ⟨h1, h2⟩ := (ih.1 a).1 ha
          simp only [Out.ok.injEq] at hra
          refine ⟨?_, by rw [← hra, h2]; rfl⟩
          intro q hq
          rcases List.mem_cons.1 hq with e | hq
          · rw [e]; exact h
          · exact h1 q hq
        · rintro ⟨h1, h2⟩
          exact ⟨_, (ih.1 _).2 ⟨fun q hq => h1 q (by simp [hq]), rfl⟩, by rw [h2]; rfl⟩
      · rcases List.mem_cons.1 hq with e | hq
        · rw [e] at hn; exact absurd h hn
        · rw [ih.2 ⟨q, hq, hn⟩]; rfl
    · rw [if_neg h]
      refine ⟨fun r => ?_, fun _ => rfl⟩
      simp only [Out.bind_err, reduceCtorEq, false_iff, not_and]
      intro h1
      exact absurd (h1 p (by simp)) h

/-- Freeness depends on the bits only. -/
theorem isFree_part {vbm : VolumeBitMap} {b : UInt16} {p : BitmapPart} (h : vbm[b.toNat / 4096]? = some p) :
    isFree vbm b = .ok (decide (p.data.toList.getD (b.toNat / 8 % 512) 0 &&&
      (1 <<< UInt8.ofNat (7 - b.toNat % 8)) > 0)) := by
  rw [isFree_eq, h]

theorem writeBitMap_spec (vbm : VolumeBitMap) (img : Bytes) :
    (writeBitMap vbm img).2.length = img.length ∧
    ((writeBitMap vbm img).1 = .ok () ↔ ∀ p ∈ vbm, OnDevice img p.block.toNat) ∧
    ((writeBitMap vbm img).1 = .ok () ∨ (writeBitMap vbm img).1 = .err .other) ∧
    (∀ b, (∀ p ∈ vbm, p.block.toNat ≠ b) → blockAt (writeBitMap vbm img).2 b = blockAt img b) ∧
    ((vbm.map (·.block)).Nodup → (writeBitMap vbm img).1 = .ok () →
      ∀ p ∈ vbm, blockAt (writeBitMap vbm img).2 p.block.toNat = p.data.toList) := by
  unfold OnDevice
  induction vbm generalizing img with
  | nil => refine ⟨rfl, by simp [writeBitMap], Or.inl rfl, fun _ _ => rfl, by simp⟩
  | cons q vbm ih =>
    rw [writeBitMap, writeBlock_eq]
    by_cases h : 512 * q.block.toNat + 512 ≤ img.length
    · rw [if_pos h]
      simp only
      have hlen : (put img (512 * q.block.toNat) q.data.toList).length = img.length := by
        rw [put_length (by simp; omega)]
      obtain ⟨i1, i2, i3, i4, i5⟩ := ih (put img (512 * q.block.toNat) q.data.toList)
      rw [hlen] at i1 i2
      refine ⟨i1, ?_, i3, ?_, ?_⟩
      · rw [i2]
        constructor
        · intro hh p hp
          rcases List.mem_cons.1 hp with e | hp
          · rw [e]; exact h
          · exact hh p hp
        · exact fun hh p hp => hh p (by simp [hp])
      · intro b hb
        rw [i4 b (fun p hp => hb p (by simp [hp])),
          blockAt_put_ne (by simp) h (fun e => hb q (by simp) e.symm)]
      · intro hn hok p hp
        rw [List.map_cons, List.nodup_cons] at hn
        rcases List.mem_cons.1 hp with e | hp
        · subst e
          rw [i4 _ (fun r hr e => hn.1 (List.mem_map.2 ⟨r, hr, UInt16.toNat_inj.1 e⟩)),
            blockAt_put_same (by simp) h]
        · exact i5 hn.2 hok p hp
    · rw [if_neg h]
      simp only
      refine ⟨trivial, ?_, Or.inr trivial, fun _ _ => trivial, ?_⟩
      · simp only [reduceCtorEq, false_iff]
        exact fun hh => h (hh q (by simp))
      · simp

end Verif.Prodos
