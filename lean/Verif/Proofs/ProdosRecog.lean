import Verif.Proofs.ProdosTerm

/-!
# When a ProDOS volume can be read
-/

set_option autoImplicit false
set_option maxRecDepth 20000

namespace Verif.Prodos

open Verif Verif.Disk Verif.Spec Verif.Spec.Prodos

theorem foldl_has {β : Type} (f : β → UInt16) (K : UInt16) (bs : List β) (m : GoMap UInt16 UInt16) (x : UInt16)
    (h : (∃ b ∈ bs, f b = x) ∨ ∃ k, m.get? x = some k) :
    ∃ k, (bs.foldl (fun m b => m.set (f b) K) m).get? x = some k := by
  induction bs generalizing m with
  | nil =>
    rcases h with ⟨b, hb, _⟩ | h
    · simp at hb
    · exact h
  | cons b bs ih =>
    refine ih _ ?_
    rw [GoMap.get?_set]
    by_cases hx : x = f b
    · rw [if_pos hx]; exact Or.inr ⟨_, rfl⟩
    · rw [if_neg hx]
      rcases h with ⟨c, hc, hcx⟩ | h
      · rcases List.mem_cons.1 hc with rfl | hc
        · exact absurd hcx.symm hx
        · exact Or.inl ⟨c, hc, hcx⟩
      · exact Or.inr h

/-- Every further block of the directories `ks` is registered. -/
def Registered (img : Bytes) (ks : List UInt16) (f : GoMap UInt16 UInt16) : Prop :=
  ∀ k ∈ ks, ∀ l, DirBlocks img k.toNat l → ∀ b ∈ l, ∃ x, f.get? (UInt16.ofNat b) = some x

theorem subdirLoop_registered {c n : Nat} {img : Bytes} {q : List FileDescriptor} {bb bb' : GoMap UInt16 Subdirectory}
    {f f' : GoMap UInt16 UInt16} (hr : Registered img (2 :: bb.keys) f)
    (h : subdirLoop c n img q bb f = .ok (bb', f')) : Registered img (2 :: bb'.keys) f' := by
  induction n generalizing q bb f with
  | zero =>
    cases q with
    | nil =>
      rw [subdirLoop] at h
      simp only [Out.ok.injEq, Prod.mk.injEq] at h
      obtain ⟨rfl, rfl⟩ := h
      exact hr
    | cons d q => rw [subdirLoop] at h; simp at h
  | succ n ih =>
    cases q with
    | nil =>
      rw [subdirLoop] at h
      simp only [Out.ok.injEq, Prod.mk.injEq] at h
      obtain ⟨rfl, rfl⟩ := h
      exact hr
    | cons d q =>
      rw [subdirLoop, Out.bind_eq_ok] at h
      obtain ⟨s, hs, h⟩ := h
      obtain ⟨l, hl, rfl⟩ := readSubdirectory_ok hs
      refine ih ?_ h
      intro k hk l' hl' b hb
      refine foldl_has SubdirectoryBlock.block _ _ _ _ ?_
      by_cases hkd : k = d.keyPointer
      · subst hkd
        have := hl'.unique hl
        subst this
        exact Or.inl ⟨subBlock img (UInt16.ofNat b), List.mem_map.2 ⟨b, hb, rfl⟩, rfl⟩
      · refine Or.inr (hr k ?_ l' hl' b hb)
        rcases List.mem_cons.1 hk with rfl | hk
        · exact List.mem_cons_self
        · rw [GoMap.keys_set] at hk
          rcases hk with hk | hk
          · exact absurd hk hkd
          · exact List.mem_cons_of_mem _ hk

theorem registered_root (img : Bytes) (l : List Nat) (h : DirBlocks img 2 l) :
    Registered img [2] ((l.map fun c => volBlock img (UInt16.ofNat c)).foldl (fun m b => m.set b.block 2) []) := by
  intro k hk l' hl' b hb
  rw [List.mem_singleton] at hk
  subst hk
  have := hl'.unique h
  subst this
  exact foldl_has VolumeDirectoryBlock.block _ _ _ _
    (Or.inl ⟨volBlock img (UInt16.ofNat b), List.mem_map.2 ⟨b, hb, rfl⟩, rfl⟩)

/-- No error arises while subdirectories are read if each of them is on the device. -/
theorem subdirLoop_no_err {c : Nat} {img : Bytes} (hall : ∀ j, Subdir img j → ∃ l, DirBlocks img j l)
    (n : Nat) (q : List FileDescriptor) (hq : ∀ d ∈ q, Subdir img d.keyPointer.toNat)
    (bb : GoMap UInt16 Subdirectory) (f : GoMap UInt16 UInt16) : (subdirLoop c n img q bb f).isErr = false := by
  induction n generalizing q bb f with
  | zero => cases q <;> rfl
  | succ n ih =>
    cases q with
    | nil => rw [subdirLoop]; rfl
    | cons d q =>
      have hd := hq d List.mem_cons_self
      obtain ⟨l, hl⟩ := hall _ hd
      rw [subdirLoop, readSubdirectory_chain c hl]
      by_cases hc : l.length ≤ c
      · rw [if_pos hc, Out.bind_ok, subOf_descriptors hl]
        refine ih _ (fun e he => ?_) _ _
        rcases List.mem_append.1 he with he | he
        · exact hq e (List.mem_cons_of_mem _ he)
        · exact Subdir.child hd (subdirDescriptors_mem hl e he)
      · rw [if_neg hc]; rfl

theorem parent_found {img : Bytes} {bb : GoMap UInt16 Subdirectory} {f : GoMap UInt16 UInt16}
    (hk : Complete img bb f) (hr : Registered img (2 :: bb.keys) f) {j : Nat} (hj : j = 2 ∨ Subdir img j) {p : UInt16}
    (hin : InDir img j p.toNat) (h2 : ¬ (p = 2 ∨ (f.get? p).getD 0 = 2)) : findParent bb f p ≠ none := by
  have key : ∀ k : UInt16, Subdir img k.toNat → ∃ s, bb.get? k = some s := by
    intro k hs
    obtain ⟨k', h1, h2⟩ := hk.all _ hs
    have := UInt16.toNat_inj.1 h2
    subst this
    exact GoMap.get?_isSome_iff.2 h1
  have viaFirst : (∃ x, f.get? p = some x) → findParent bb f p ≠ none := by
    rintro ⟨x, hx⟩
    unfold findParent
    cases bb.get? p with
    | some s => simp
    | none =>
      rw [hx]
      simp only
      rcases (hk.first p x hx).1 with h | h
      · refine absurd (Or.inr ?_) h2
        rw [hx]
        exact UInt16.toNat_inj.1 h
      · obtain ⟨s, hs⟩ := key x h
        rw [hs]; simp
  obtain ⟨l, hl, hb⟩ := hin
  rcases hb with hb | hb
  · rcases hj with rfl | hj
    · exact absurd (Or.inl (UInt16.toNat_inj.1 hb)) h2
    · subst hb
      obtain ⟨s, hs⟩ := key p hj
      unfold findParent
      rw [hs]; simp
  · refine viaFirst ?_
    have hmem : ∃ k ∈ 2 :: bb.keys, k.toNat = j := by
      rcases hj with rfl | hj
      · exact ⟨2, List.mem_cons_self, rfl⟩
      · obtain ⟨k', h1, h2⟩ := hk.all _ hj
        exact ⟨k', List.mem_cons_of_mem _ h1, h2⟩
    obtain ⟨k, hk1, rfl⟩ := hmem
    have := hr k hk1 l hl _ hb
    rwa [UInt16.ofNat_toNat] at this

theorem parentDirName_no_err {img : Bytes} {bb : GoMap UInt16 Subdirectory} {f : GoMap UInt16 UInt16}
    (hk : Complete img bb f) (hr : Registered img (2 :: bb.keys) f) (hp : ParentsFound img) (n : Nat) :
    ∀ (k : Nat) (p : UInt16), Subdir img k → p.toNat = parentPointer img k →
      (parentDirName n p 2 bb f).isErr = false := by
  have found : ∀ (k : Nat) (p : UInt16), Subdir img k → p.toNat = parentPointer img k →
      ¬ (p = 2 ∨ (f.get? p).getD 0 = 2) → findParent bb f p ≠ none := by
    intro k p hs hpk h2
    rcases hp k hs with h | ⟨j, h1, h3⟩
    · exact parent_found hk hr (Or.inl rfl) (by rw [hpk]; exact h) h2
    · exact parent_found hk hr (Or.inr h1) (by rw [hpk]; exact h3) h2
  induction n with
  | zero =>
    intro k p hs hpk
    rw [parentDirName]
    by_cases h2 : p = 2 ∨ (f.get? p).getD 0 = 2
    · rw [if_pos h2]; rfl
    · rw [if_neg h2]
      cases hf : findParent bb f p with
      | none => exact absurd hf (found k p hs hpk h2)
      | some sd => rfl
  | succ n ih =>
    intro k p hs hpk
    rw [parentDirName]
    by_cases h2 : p = 2 ∨ (f.get? p).getD 0 = 2
    · rw [if_pos h2]; rfl
    · rw [if_neg h2]
      cases hf : findParent bb f p with
      | none => exact absurd hf (found k p hs hpk h2)
      | some sd =>
        obtain ⟨j, l, h1, hd, rfl, hin⟩ := findParent_sound hk.toKnown hf
        simp only
        have := ih j.toNat (subOf img j l).keyBlock.header.parentPointer h1 (subKey_parent img j)
        cases hr : parentDirName n (subOf img j l).keyBlock.header.parentPointer 2 bb f with
        | ok r => rw [Out.bind_ok, joinPath_eq]; rfl
        | err e => rw [hr] at this; simp at this
        | panic => rfl
        | timeout => rfl

theorem nameLoop_no_err {n : Nat} {bb : GoMap UInt16 Subdirectory} {f : GoMap UInt16 UInt16}
    {l : List (UInt16 × Subdirectory)}
    (h : ∀ e ∈ l, (parentDirName n e.2.keyBlock.header.parentPointer 2 bb f).isErr = false)
    (m : GoMap Str Subdirectory) : (nameLoop n 2 bb f l m).isErr = false := by
  induction l generalizing m with
  | nil => rfl
  | cons e l ih =>
    rw [nameLoop_cons]
    have he := h e List.mem_cons_self
    unfold pathName
    cases hr : parentDirName n e.2.keyBlock.header.parentPointer 2 bb f with
    | ok r => exact ih (fun x hx => h x (List.mem_cons_of_mem _ hx)) _
    | err e => rw [hr] at he; simp at he
    | panic => rfl
    | timeout => rfl

theorem readVolumeBitMap_err {img : Bytes} (hlen : img.length < 2 ^ 36) (k : UInt16) :
    (readVolumeBitMap img k).isErr ↔
      ¬ ∀ i, i < (img.length / 512 / 4096 + 4095) / 4096 → OnDevice img ((k.toNat + i) % 65536) := by
  unfold readVolumeBitMap
  have hlt : img.length / 512 / 4096 < 32768 := by
    rw [Nat.div_div_eq_div_mul]; omega
  have hb : (UInt16.ofNat (img.length / 512 / 4096)).toNat ≤ 61440 := by
    rw [toNat_ofNat (by omega)]; omega
  obtain ⟨v0, h0, _, hm, _⟩ := newVolumeBitMap_ok k (UInt16.ofNat (img.length / 512 / 4096)) hb
  dsimp only
  rw [h0, Out.bind_ok]
  obtain ⟨h1, h2⟩ := readParts_ok img v0
  rw [toNat_ofNat (show img.length / 512 / 4096 < 65536 by omega)] at hm
  have hiff : (∀ p ∈ v0, OnDevice img p.block.toNat) ↔
      ∀ i, i < (img.length / 512 / 4096 + 4095) / 4096 → OnDevice img ((k.toNat + i) % 65536) := by
    have e1 : (∀ p ∈ v0, OnDevice img p.block.toNat) ↔ ∀ b ∈ v0.map (·.block), OnDevice img b.toNat := by simp
    rw [e1, hm]
    have hn : ∀ i, i < (img.length / 512 / 4096 + 4095) / 4096 →
        (k + UInt16.ofNat i).toNat = (k.toNat + i) % 65536 := by
      intro i hi
      rw [UInt16.toNat_add, toNat_ofNat (by omega)]
    constructor
    · intro h i hi
      rw [← hn i hi]
      exact h _ (List.mem_map.2 ⟨i, List.mem_range.2 hi, rfl⟩)
    · intro h b hb
      obtain ⟨i, hi, rfl⟩ := List.mem_map.1 hb
      rw [hn i (List.mem_range.1 hi)]
      exact h i (List.mem_range.1 hi)
  rw [← hiff]
  by_cases hon : ∀ p ∈ v0, OnDevice img p.block.toNat
  · rw [(h1 _).2 ⟨hon, rfl⟩]; simpa using hon
  · rw [h2 (by simpa using hon)]; simp only [hon]; simp

theorem volKey_bitmap (img : Bytes) : (volKey img 2).header.bitMapPointer.toNat = word img 2 39 := rd16_word _ _ _

/-- A volume that is read has all its directories on the device and all parents known. -/
theorem readVolume_good {n : Nat} {ord : RangeOrder UInt16 Subdirectory} {img : Bytes} {v : Volume}
    (hlen : img.length < 2 ^ 36) (h : readVolume n ord img 2 = .ok v) :
    ReadableVolume img := by
  obtain ⟨l, hl, _, _, hc, hn, _⟩ := readVolume_ok h
  refine ⟨?_, ⟨l, hl⟩, fun j hj => ?_, fun k hk => ?_⟩
  · by_contra hb
    have he := (readVolumeBitMap_err hlen (volKey img 2).header.bitMapPointer).2 (by rw [volKey_bitmap]; exact hb)
    unfold readVolume at h
    rw [unmarshalVolumeKey_eq img 2 hl.1, Out.bind_ok] at h
    cases hv : readVolumeBitMap img (volKey img 2).header.bitMapPointer with
    | err e => rw [hv] at h; simp at h
    | ok r => rw [hv] at he; simp at he
    | panic => rw [hv] at he; simp at he
    | timeout => rw [hv] at he; simp at he
  · obtain ⟨k', hk', rfl⟩ := hc.all j hj
    obtain ⟨s, hs⟩ := GoMap.get?_isSome_iff.2 hk'
    obtain ⟨_, l, h3, _⟩ := hc.sound k' s hs
    exact ⟨l, h3⟩
  · obtain ⟨k', hk', rfl⟩ := hc.all k hk
    obtain ⟨s, hs⟩ := GoMap.get?_isSome_iff.2 hk'
    obtain ⟨_, l', h3, h4⟩ := hc.sound k' s hs
    obtain ⟨ha, _, _⟩ := nameLoop_ok hn
    obtain ⟨q, hq⟩ := ha (k', s) (mem_visit.2 (GoMap.mem_of_get? hs))
    simp only [h4] at hq
    have hf := pathName_sound hc.toKnown ⟨l, hl⟩ h3 hq
    generalize k'.toNat = kk at hf ⊢
    cases hf with
    | top h => exact Or.inl h
    | nested h1 h2 _ => exact Or.inr ⟨_, h1, h2⟩

/-- An error says that the volume is not in order. -/
theorem readVolume_err {n : Nat} {ord : RangeOrder UInt16 Subdirectory} {img : Bytes} (hlen : img.length < 2 ^ 36)
    (h : (readVolume n ord img 2).isErr) :
    ¬ ReadableVolume img := by
  rintro ⟨hb, ⟨l, hl⟩, hall, hpar⟩
  unfold readVolume at h
  rw [unmarshalVolumeKey_eq img 2 hl.1, Out.bind_ok] at h
  have hbm := (readVolumeBitMap_err hlen (volKey img 2).header.bitMapPointer).not.2
    (by rw [volKey_bitmap, not_not]; exact hb)
  cases hv : readVolumeBitMap img (volKey img 2).header.bitMapPointer with
  | err e => rw [hv] at hbm; simp at hbm
  | panic => rw [hv] at h; simp at h
  | timeout => rw [hv] at h; simp at h
  | ok vbm =>
    rw [hv, Out.bind_ok, chainLoop_chain (reads_volume img) hl.2 n _ (volKey_next img 2)] at h
    by_cases hn : l.length ≤ n
    · rw [if_pos hn, Out.bind_ok] at h
      dsimp only at h
      rw [vol_descriptors (k := 2) hl] at h
      obtain ⟨q1, q2⟩ := volume_root img l hl
      have hk0 := known_root img l hl
      have hr0 := registered_root img l hl
      have hse := subdirLoop_no_err (c := n) hall n _ q1 []
        ((l.map fun c => volBlock img (UInt16.ofNat c)).foldl (fun m b => m.set b.block 2) [])
      cases hs : subdirLoop n n img (subdirDescriptors ((dirEntries img 2 l).map fdOf)) []
        ((l.map fun c => volBlock img (UInt16.ofNat c)).foldl (fun m b => m.set b.block 2) []) with
      | err e => rw [hs] at hse; simp at hse
      | panic => exact absurd ((congrArg (fun x => Out.isErr (x >>= _)) hs).symm.trans h) (by simp)
      | timeout => exact absurd ((congrArg (fun x => Out.isErr (x >>= _)) hs).symm.trans h) (by simp)
      | ok r =>
        obtain ⟨bb, f⟩ := r
        obtain ⟨k1, kc, _, k4⟩ := subdirLoop_ok q1 hk0 (fun k hk => by simp [GoMap.keys] at hk) hs
        have kr := subdirLoop_registered (f := _) hr0 hs
        have hcomp : Complete img bb f := ⟨k1, fun k hk => by
          induction hk with
          | single hc =>
            obtain ⟨d, hd, hdk⟩ := q2 _ hc
            exact ⟨_, k4 d hd, hdk⟩
          | tail _ hc ih =>
            obtain ⟨k', hk', rfl⟩ := ih
            rcases kc k' hk' _ hc with h | ⟨d, hd, _⟩
            · exact h
            · simp at hd⟩
        have h' := (congrArg (fun x => Out.isErr (x >>= _)) hs).symm.trans h
        rw [Out.bind_ok] at h'
        dsimp only at h'
        have hne := nameLoop_no_err (n := n) (bb := bb) (f := f) (l := ord.visit bb) (fun e he => by
          obtain ⟨h1, l, h2, h3⟩ := k1.mem (mem_visit.1 he)
          rw [h3]
          exact parentDirName_no_err hcomp kr hpar n e.1.toNat _ h1 (subKey_parent img e.1)) []
        cases hm : nameLoop n 2 bb f (ord.visit bb) [] with
        | ok m => rw [hm] at h'; simp at h'
        | err e => rw [hm] at hne; simp at hne
        | panic => rw [hm] at h'; simp at h'
        | timeout => rw [hm] at h'; simp at h'
    · rw [if_neg hn] at h; simp at h

end Verif.Prodos
