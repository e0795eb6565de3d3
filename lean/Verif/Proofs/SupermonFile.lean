import Verif.Proofs.SupermonMap

/-! # Closed forms of NakedOS `WriteFile` and their consequences -/

set_option autoImplicit false
set_option maxRecDepth 20000

namespace Verif.Supermon
open Disk Spec

theorem ownedBy_fold (m : Nat → UInt8) (f : UInt8) :
    ((List.range 560).filter fun n => m n = f) = ownedBy m f := rfl

theorem filter_or_length {α : Type} (l : List α) (p q : α → Bool)
    (h : ∀ x ∈ l, p x = true → q x = false) :
    (l.filter fun x => p x || q x).length = (l.filter p).length + (l.filter q).length := by
  induction l with
  | nil => rfl
  | cons x xs ih =>
    have ih' := ih (fun y hy => h y (by simp [hy]))
    have hx := h x (by simp)
    simp only [List.filter_cons]
    cases hp : p x <;> cases hq : q x <;> simp_all <;> omega

theorem ownedBy_deleteFile_free (sm : SectorMap) {f : UInt8} (hf : f ≠ 0xFF) :
    (ownedBy (own (deleteFile sm f)) 0xFF).length =
      (ownedBy (own sm) 0xFF).length + (ownedBy (own sm) f).length := by
  unfold ownedBy
  rw [← filter_or_length]
  · congr 1
    apply List.filter_congr
    intro n hn
    rw [own_deleteFile sm f (List.mem_range.1 hn)]
    by_cases h : own sm n = f <;> simp [h]
  · intro n _ h
    simp only [decide_eq_true_eq, decide_eq_false_iff_not] at h ⊢
    rw [h]; exact Ne.symm hf

theorem ownedBy_deleteFile_other (sm : SectorMap) {f g : UInt8} (h1 : g ≠ f) (h2 : g ≠ 0xFF) :
    ownedBy (own (deleteFile sm f)) g = ownedBy (own sm) g := by
  unfold ownedBy
  apply List.filter_congr
  intro n hn
  rw [own_deleteFile sm f (List.mem_range.1 hn)]
  by_cases h : own sm n = f
  · simp [h, Ne.symm h2, Ne.symm h1]
  · simp [h]

theorem ownedBy_deleteFile_self (sm : SectorMap) {f : UInt8} (h : f ≠ 0xFF) :
    ownedBy (own (deleteFile sm f)) f = [] := by
  unfold ownedBy
  rw [List.filter_eq_nil_iff]
  intro n hn
  rw [own_deleteFile sm f (List.mem_range.1 hn)]
  by_cases h' : own sm n = f
  · simp [h', Ne.symm h]
  · simp [h']

theorem deleteFile_of_none {sm : SectorMap} {f : UInt8} (h : ownedBy (own sm) f = []) :
    deleteFile sm f = sm := by
  apply own_ext
  intro n hn
  rw [own_deleteFile sm f hn, if_neg]
  intro e
  have : n ∈ ownedBy (own sm) f := mem_ownedBy.2 ⟨hn, e⟩
  rw [h] at this; simp at this

/-! ## Padding -/

theorem padded_length (c : Bytes) : (padded c).length = 256 * ((c.length + 255) / 256) := by
  simp [padded]; omega

theorem put_zeros_eq_padded (c : Bytes) :
    put (zeros (256 * ((c.length + 255) / 256))) 0 c = padded c := by
  unfold put padded zeros
  simp only [List.take_zero, List.nil_append, List.drop_replicate, Nat.zero_add]
  congr 2; omega

theorem sectorsNeeded_eq (n : Nat) : sectorsNeeded n = (n + 255) / 256 := by
  unfold sectorsNeeded; split <;> omega

theorem padded_nil : padded [] = [] := rfl

/-! ## WriteFile -/

/-- The sectors a write of `c` to file `f` allocates. -/
def targets (sm : SectorMap) (f : UInt8) (c : Bytes) : List Nat :=
  (ownedBy (own (deleteFile sm f)) 0xFF).take ((c.length + 255) / 256)

/-- The map after the write. -/
def newMap (sm : SectorMap) (f : UInt8) (c : Bytes) : SectorMap :=
  claim (deleteFile sm f) (targets sm f c) f

/-- The image after the write. -/
def newImg (sm : SectorMap) (f : UInt8) (c : Bytes) (img : Bytes) : Bytes :=
  put (putAll 256 (chunks (padded c) 0 (targets sm f c)) img) 2512 (newMap sm f c).toList

/-- Enough room for the contents. -/
def Fits (sm : SectorMap) (f : UInt8) (c : Bytes) : Prop :=
  (c.length + 255) / 256 ≤ (ownedBy (own sm) 0xFF).length + (ownedBy (own sm) f).length

theorem targets_sublist (sm : SectorMap) (f : UInt8) (c : Bytes) :
    (targets sm f c).Sublist (List.range 560) :=
  (List.take_sublist _ _).trans List.filter_sublist

theorem targets_nodup (sm : SectorMap) (f : UInt8) (c : Bytes) : (targets sm f c).Nodup :=
  (targets_sublist sm f c).nodup List.nodup_range

theorem targets_length {sm : SectorMap} {f : UInt8} {c : Bytes} (hf : f ≠ 0xFF)
    (h : Fits sm f c) : (targets sm f c).length = (c.length + 255) / 256 := by
  unfold targets
  rw [List.length_take, ownedBy_deleteFile_free sm hf]
  unfold Fits at h; omega

theorem mem_targets {sm : SectorMap} {f : UInt8} {c : Bytes} {n : Nat} (h : n ∈ targets sm f c) :
    n < 560 ∧ (own sm n = 0xFF ∨ own sm n = f) := by
  have h1 := mem_ownedBy.1 (List.mem_of_mem_take h)
  refine ⟨h1.1, ?_⟩
  have h2 := h1.2
  rw [own_deleteFile sm f h1.1] at h2
  by_cases e : own sm n = f
  · exact Or.inr e
  · rw [if_neg e] at h2; exact Or.inl h2

theorem chunks_ok {cts : Bytes} {t : List Nat} (hl : cts.length = 256 * t.length)
    (ht : ∀ n ∈ t, n < 560) : ∀ w ∈ chunks cts 0 t, w.1 < 560 ∧ w.2.length = 256 := by
  intro w hw
  obtain ⟨p, hp, rfl⟩ := List.mem_map.1 hw
  have h := List.mem_zipIdx hp
  refine ⟨?_, ?_⟩
  · rw [h.2.2]; exact ht _ (List.getElem_mem _)
  · apply slice_length_of_le
    have : (p.2 + 1) * 256 ≤ t.length * 256 := Nat.mul_le_mul_right _ (by omega)
    omega

theorem chunks_fst (cts : Bytes) (i : Nat) (t : List Nat) :
    (chunks cts i t).map Prod.fst = t := by
  unfold chunks
  rw [List.map_map, show (Prod.fst ∘ fun p : Nat × Nat => (p.1, slice cts (p.2 * 256) 256)) =
    Prod.fst from rfl]
  simp

theorem writeFile_outOfSpace {sm : SectorMap} {img : Bytes} {f : UInt8} {c : Bytes} {ow : Bool}
    (h : ¬ Fits sm f c) :
    writeFile sm img f c ow =
      ⟨decide ((ownedBy (own sm) f).length > 0), .err .outOfSpace, sm, img⟩ := by
  unfold writeFile
  simp only [freeSectors_eq, sectorsForFile_eq, List.length_map]
  rw [if_pos]
  unfold Fits at h; omega

theorem writeFile_exists {sm : SectorMap} {img : Bytes} {f : UInt8} {c : Bytes}
    (h : Fits sm f c) (he : ownedBy (own sm) f ≠ []) :
    writeFile sm img f c false = ⟨true, .err .fileExists, sm, img⟩ := by
  unfold writeFile
  simp only [freeSectors_eq, sectorsForFile_eq, List.length_map]
  have : 0 < (ownedBy (own sm) f).length := List.length_pos_iff.2 he
  rw [if_neg (by unfold Fits at h; omega), if_pos (by simpa using this)]
  simp [this]

theorem writeFile_pre {sm : SectorMap} {img : Bytes} {f : UInt8} {c : Bytes} {ow : Bool}
    (h : Fits sm f c) (hx : ow = true ∨ ownedBy (own sm) f = []) :
    writeFile sm img f c ow =
      match writeLoop (padded c) ((c.length + 255) / 256) f allSectors 0 (deleteFile sm f) img with
      | (.ok _, sm', img') =>
        match persist sm' img' with
        | (out, img'') => ⟨decide ((ownedBy (own sm) f).length > 0), out, sm', img''⟩
      | (e, sm', img') => ⟨decide ((ownedBy (own sm) f).length > 0), e, sm', img'⟩ := by
  unfold writeFile
  simp only [freeSectors_eq, sectorsForFile_eq, List.length_map, put_zeros_eq_padded]
  rw [if_neg (by unfold Fits at h; omega)]
  have e : (if (decide ((ownedBy (own sm) f).length > 0)) = true then deleteFile sm f else sm) =
      deleteFile sm f := by
    split
    · rfl
    · rename_i h0
      have : ownedBy (own sm) f = [] := by
        apply List.eq_nil_of_length_eq_zero
        simp only [gt_iff_lt, decide_eq_true_eq] at h0; omega
      rw [deleteFile_of_none this]
  rw [if_neg]
  · rw [e]
    rfl
  · rcases hx with rfl | h0
    · simp
    · simp [h0]

theorem writeFile_ok {sm : SectorMap} {img : Bytes} {f : UInt8} {c : Bytes} {ow : Bool}
    (hi : img.length = 143360) (hf : IsFileNumber f) (hc : c ≠ [])
    (h : Fits sm f c) (hx : ow = true ∨ ownedBy (own sm) f = []) :
    writeFile sm img f c ow =
      ⟨decide ((ownedBy (own sm) f).length > 0), .ok (), newMap sm f c, newImg sm f c img⟩ := by
  have hpos : 0 < c.length := List.length_pos_iff.2 hc
  have hneed : 0 < (c.length + 255) / 256 := by omega
  have hfree : (c.length + 255) / 256 - 0 ≤
      ((List.range 560).filter fun n => own (deleteFile sm f) n = 0xFF).length := by
    have := ownedBy_deleteFile_free sm hf.2.2
    have h' := h
    unfold Fits at h'
    rw [← this] at h'
    rw [Nat.sub_zero, ownedBy_fold]; exact h'
  rw [writeFile_pre h hx, allSectors_eq,
    writeLoop_eq (padded_length c) hf (List.range 560) (fun n hn => List.mem_range.1 hn)
      List.nodup_range 0 hneed _ _ hi hfree, Nat.sub_zero, ownedBy_fold,
    show (ownedBy (own (deleteFile sm f)) 0xFF).take ((c.length + 255) / 256) = targets sm f c from rfl,
    show claim (deleteFile sm f) (targets sm f c) f = newMap sm f c from rfl]
  have hlen : (putAll 256 (chunks (padded c) 0 (targets sm f c)) img).length = 560 * 256 := by
    apply putAll_length
    · omega
    · exact chunks_ok (by rw [padded_length, targets_length hf.2.2 h])
        (fun n hn => (mem_targets hn).1)
  simp only [persist_eq (sm := newMap sm f c) (show 3072 ≤ (putAll 256 (chunks (padded c) 0 (targets sm f c)) img).length by omega)]
  rfl

theorem writeFile_empty {sm : SectorMap} {img : Bytes} {f : UInt8} {ow : Bool}
    (hi : img.length = 143360) (hx : ow = true ∨ ownedBy (own sm) f = []) :
    writeFile sm img f [] ow =
      if ownedBy (own (deleteFile sm f)) 0xFF = [] then
        ⟨decide ((ownedBy (own sm) f).length > 0), .ok (), deleteFile sm f,
          put img 2512 (deleteFile sm f).toList⟩
      else ⟨decide ((ownedBy (own sm) f).length > 0), .panic, deleteFile sm f, img⟩ := by
  rw [writeFile_pre (by simp [Fits]) hx, padded_nil, allSectors_eq]
  rw [show (([] : Bytes).length + 255) / 256 = 0 from rfl,
    writeLoop_empty f (List.range 560) (fun n hn => List.mem_range.1 hn)]
  simp only [ownedBy_fold]
  change (match ((if ownedBy (own (deleteFile sm f)) 0xFF = [] then Out.ok () else .panic),
    deleteFile sm f, img) with
      | (.ok _, sm', img') =>
        match persist sm' img' with
        | (out, img'') => (⟨decide ((ownedBy (own sm) f).length > 0), out, sm', img''⟩ : WriteRes)
      | (e, sm', img') => ⟨decide ((ownedBy (own sm) f).length > 0), e, sm', img'⟩) = _
  by_cases h0 : ownedBy (own (deleteFile sm f)) 0xFF = []
  · rw [if_pos h0, if_pos h0]
    simp only [persist_eq (show 3072 ≤ img.length by omega)]
  · rw [if_neg h0, if_neg h0]

/-! ## What the new map and image look like -/

theorem filter_mem_of_sublist {t l : List Nat} (h : t.Sublist l) (hl : l.Nodup) :
    l.filter (fun n => decide (n ∈ t)) = t := by
  induction h with
  | slnil => rfl
  | @cons t l a h ih =>
    have hnd := List.nodup_cons.1 hl
    rw [List.filter_cons, if_neg, ih hnd.2]
    intro hc
    exact hnd.1 (h.subset (by simpa using hc))
  | @cons_cons t l a h ih =>
    have hnd := List.nodup_cons.1 hl
    rw [List.filter_cons, if_pos (by simp)]
    congr 1
    rw [← ih hnd.2]
    apply List.filter_congr
    intro n hn
    have : n ≠ a := by rintro rfl; exact hnd.1 hn
    simp [this, List.mem_filter, hn]

theorem own_newMap (sm : SectorMap) (f : UInt8) (c : Bytes) {n : Nat} (h : n < 560) :
    own (newMap sm f c) n =
      if n ∈ targets sm f c then f else if own sm n = f then 0xFF else own sm n := by
  unfold newMap
  rw [own_claim _ _ _ h, own_deleteFile _ _ h]

theorem ownedBy_newMap_self (sm : SectorMap) {f : UInt8} (c : Bytes) (hf : f ≠ 0xFF) :
    ownedBy (own (newMap sm f c)) f = targets sm f c := by
  rw [← filter_mem_of_sublist (targets_sublist sm f c) List.nodup_range]
  unfold ownedBy
  apply List.filter_congr
  intro n hn
  rw [own_newMap _ _ _ (List.mem_range.1 hn)]
  by_cases h1 : n ∈ targets sm f c
  · simp [h1]
  · by_cases h2 : own sm n = f
    · simp [h1, h2, Ne.symm hf]
    · simp [h1, h2]

theorem ownedBy_newMap_other (sm : SectorMap) {f g : UInt8} (c : Bytes) (h1 : g ≠ f)
    (h2 : g ≠ 0xFF) : ownedBy (own (newMap sm f c)) g = ownedBy (own sm) g := by
  unfold ownedBy
  apply List.filter_congr
  intro n hn
  rw [own_newMap _ _ _ (List.mem_range.1 hn)]
  by_cases ht : n ∈ targets sm f c
  · rcases (mem_targets ht).2 with e | e
    · simp [ht, e, Ne.symm h1, Ne.symm h2]
    · simp [ht, e, Ne.symm h1]
  · by_cases e : own sm n = f
    · simp [ht, e, Ne.symm h1, Ne.symm h2]
    · simp [ht, e]

theorem take_drop_length (l : List Nat) (k : Nat) : (l.take k).length + (l.drop k).length = l.length := by
  rw [← List.length_append, List.take_append_drop]

theorem ownedBy_newMap_free {sm : SectorMap} {f : UInt8} {c : Bytes} (hf : f ≠ 0xFF) :
    (ownedBy (own (newMap sm f c)) 0xFF).length + (targets sm f c).length =
      (ownedBy (own sm) 0xFF).length + (ownedBy (own sm) f).length := by
  rw [← ownedBy_deleteFile_free sm hf]
  have hnd : (ownedBy (own (deleteFile sm f)) 0xFF).Nodup := List.nodup_range.filter _
  have key : ownedBy (own (newMap sm f c)) 0xFF =
      (ownedBy (own (deleteFile sm f)) 0xFF).filter fun n => n ∉ targets sm f c := by
    unfold ownedBy
    rw [List.filter_filter]
    apply List.filter_congr
    intro n hn
    unfold newMap
    rw [own_claim _ _ _ (List.mem_range.1 hn)]
    by_cases h : n ∈ targets sm f c
    · simp [h, hf]
    · simp [h]
  have h2 : (ownedBy (own (deleteFile sm f)) 0xFF).filter (fun n => n ∈ targets sm f c) =
      targets sm f c := filter_mem_of_sublist (List.take_sublist _ _) hnd
  rw [key]
  have := filter_or_length (ownedBy (own (deleteFile sm f)) 0xFF)
    (fun n => decide (n ∉ targets sm f c)) (fun n => decide (n ∈ targets sm f c)) (by simp)
  rw [h2] at this
  rw [← this]
  refine congrArg List.length (List.filter_eq_self.2 ?_)
  intro n _
  by_cases h : n ∈ targets sm f c <;> simp [h]

theorem legal_newMap {sm : SectorMap} {f : UInt8} {c : Bytes} (hf : IsFileNumber f)
    (h : LegalMap (own sm)) : LegalMap (own (newMap sm f c)) := by
  constructor
  · intro n hn
    have h1 := h.1 n hn
    have ht : n ∉ targets sm f c := by
      intro hc
      rcases (mem_targets hc).2 with e | e
      · rw [h1] at e; exact absurd e (by decide)
      · rw [h1] at e; exact hf.2.1 e.symm
    rw [own_newMap _ _ _ (by omega), if_neg ht, if_neg, h1]
    rw [h1]; exact Ne.symm hf.2.1
  · intro n hn
    rw [own_newMap _ _ _ hn]
    split
    · exact hf.1
    · split
      · decide
      · exact h.2 n hn

theorem legal_deleteFile {sm : SectorMap} {f : UInt8} (hf : IsFileNumber f)
    (h : LegalMap (own sm)) : LegalMap (own (deleteFile sm f)) := by
  constructor
  · intro n hn
    rw [own_deleteFile _ _ (by omega), h.1 n hn, if_neg (Ne.symm hf.2.1)]
  · intro n hn
    rw [own_deleteFile _ _ hn]
    split
    · decide
    · exact h.2 n hn

/-- Targets are never system sectors. -/
theorem targets_ge {sm : SectorMap} {f : UInt8} {c : Bytes} (hf : IsFileNumber f)
    (h : LegalMap (own sm)) {n : Nat} (hn : n ∈ targets sm f c) : 12 ≤ n := by
  apply Classical.byContradiction
  intro hc
  have h1 := h.1 n (by omega)
  rcases (mem_targets hn).2 with e | e
  · rw [h1] at e; exact absurd e (by decide)
  · rw [h1] at e; exact hf.2.1 e.symm

theorem data_length {sm : SectorMap} {img : Bytes} {f : UInt8} {c : Bytes}
    (hi : img.length = 143360) (hf : f ≠ 0xFF) (h : Fits sm f c) :
    (putAll 256 (chunks (padded c) 0 (targets sm f c)) img).length = 143360 := by
  have := putAll_length (k := 256) (n := 560) (chunks (padded c) 0 (targets sm f c)) img
    (by omega) (chunks_ok (by rw [padded_length, targets_length hf h])
      (fun n hn => (mem_targets hn).1))
  omega

theorem newImg_length {sm : SectorMap} {img : Bytes} {f : UInt8} {c : Bytes}
    (hi : img.length = 143360) (hf : f ≠ 0xFF) (h : Fits sm f c) :
    (newImg sm f c img).length = 143360 := by
  unfold newImg
  have := data_length hi hf h
  rw [put_length (by rw [this]; simp), this]

theorem owner_put {img : Bytes} (h : 3072 ≤ img.length) (sm : SectorMap) {n : Nat} (hn : n < 560) :
    owner (put img 2512 sm.toList) n = own sm n := by
  unfold owner own
  rw [List.getD_eq_getElem?_getD, getElem?_put (by omega), List.getD_eq_getElem?_getD]
  rw [if_neg (by omega), if_pos (by simp; omega)]
  congr 2; omega

theorem loaded_put {img : Bytes} (h : 3072 ≤ img.length) (sm : SectorMap) :
    loadSectorMap (put img 2512 sm.toList) = .ok sm := by
  have hl : (put img 2512 sm.toList).length = img.length := put_length (by simp; omega)
  rw [loaded_iff (by omega)]
  intro n hn
  rw [owner_put h sm hn]

theorem sectorNo_put {img : Bytes} (h : 3072 ≤ img.length) (sm : SectorMap) {n : Nat}
    (hn : n < 9 ∨ 12 ≤ n) : sectorNo (put img 2512 sm.toList) n = sectorNo img n := by
  rw [sectorNo_eq, sectorNo_eq]
  apply slice_put_of_disjoint
  · simp; omega
  · simp; omega

theorem sectorNo_newImg_other {sm : SectorMap} {img : Bytes} {f : UInt8} {c : Bytes}
    (hi : img.length = 143360) (hf : f ≠ 0xFF) (h : Fits sm f c) {n : Nat}
    (h1 : n < 9 ∨ 12 ≤ n) (h2 : n ∉ targets sm f c) :
    sectorNo (newImg sm f c img) n = sectorNo img n := by
  unfold newImg
  have hl := data_length (c := c) (sm := sm) hi hf h
  rw [sectorNo_put (by omega) _ h1, sectorNo_eq, sectorNo_eq]
  apply slice_putAll_not_mem (n := 560)
  · omega
  · exact chunks_ok (by rw [padded_length, targets_length hf h]) (fun n hn => (mem_targets hn).1)
  · intro w hw e
    apply h2
    rw [← chunks_fst (padded c) 0 (targets sm f c), ← e]
    exact List.mem_map_of_mem hw

theorem mem_chunks {cts : Bytes} {t : List Nat} {k n : Nat} (h : t[k]? = some n) :
    (n, slice cts (k * 256) 256) ∈ chunks cts 0 t := by
  unfold chunks
  refine List.mem_map.2 ⟨(n, k), ?_, rfl⟩
  rw [List.mem_zipIdx_iff_getElem?]
  exact h

theorem sectorNo_newImg_target {sm : SectorMap} {img : Bytes} {f : UInt8} {c : Bytes}
    (hi : img.length = 143360) (hf : IsFileNumber f) (h : Fits sm f c) (hm : LegalMap (own sm))
    {k n : Nat} (hk : (targets sm f c)[k]? = some n) :
    sectorNo (newImg sm f c img) n = slice (padded c) (k * 256) 256 := by
  unfold newImg
  have hl := data_length (c := c) (sm := sm) hi hf.2.2 h
  have hge := targets_ge hf hm (List.mem_of_getElem? hk)
  have hb : 3072 ≤ (putAll 256 (chunks (padded c) 0 (targets sm f c)) img).length := by
    rw [hl]; decide
  rw [sectorNo_put hb _ (Or.inr hge), sectorNo_eq]
  have h1 : img.length = 560 * 256 := by rw [hi]
  have h2 := chunks_ok (cts := padded c) (t := targets sm f c)
    (by rw [padded_length, targets_length hf.2.2 h]) (fun n hn => (mem_targets hn).1)
  have h3 : ((chunks (padded c) 0 (targets sm f c)).map Prod.fst).Nodup := by
    rw [chunks_fst]; exact targets_nodup _ _ _
  have h4 := mem_chunks (cts := padded c) hk
  have h5 := slice_putAll_mem (k := 256) (n := 560) _ img h1 h2 h3 h4
  dsimp only at h5
  exact h5

theorem flatMap_of_getElem {α : Type} (t : List Nat) (g : Nat → List α) (q : Nat → List α)
    (h : ∀ k, (hk : k < t.length) → g t[k] = q k) :
    t.flatMap g = (List.range t.length).flatMap q := by
  have : t = (List.range t.length).map fun k => t.getD k 0 := by
    apply List.ext_getElem
    · simp
    · intro i h1 h2
      simp [List.getD_eq_getElem?_getD, h1]
  conv_lhs => rw [this]
  rw [List.flatMap_map]
  apply List.flatMap_congr
  intro k hk
  have hk' := List.mem_range.1 hk
  rw [← h k hk', List.getD_eq_getElem?_getD, List.getElem?_eq_getElem hk']
  rfl

theorem fileBytes_new_self {sm : SectorMap} {img : Bytes} {f : UInt8} {c : Bytes}
    (hi : img.length = 143360) (hf : IsFileNumber f) (h : Fits sm f c) (hm : LegalMap (own sm)) :
    fileBytes (own (newMap sm f c)) (newImg sm f c img) f = padded c := by
  unfold fileBytes
  rw [ownedBy_newMap_self sm c hf.2.2,
    flatMap_of_getElem _ _ (fun k => slice (padded c) (k * 256) 256)
      (fun k hk => sectorNo_newImg_target hi hf h hm (List.getElem?_eq_getElem hk)), ← flatMap_chunks,
    targets_length hf.2.2 h, Nat.mul_comm, ← padded_length, slice_full]

theorem fileBytes_new_other {sm : SectorMap} {img : Bytes} {f g : UInt8} {c : Bytes}
    (hi : img.length = 143360) (hf : IsFileNumber f) (h : Fits sm f c) (hm : LegalMap (own sm))
    (hg : IsFileNumber g) (hne : g ≠ f) :
    fileBytes (own (newMap sm f c)) (newImg sm f c img) g = fileBytes (own sm) img g := by
  unfold fileBytes
  rw [ownedBy_newMap_other sm c hne hg.2.2]
  apply List.flatMap_congr
  intro n hn
  have hn' := mem_ownedBy.1 hn
  apply sectorNo_newImg_other hi hf.2.2 h
  · right
    apply Classical.byContradiction
    intro hc
    have := hm.1 n (by omega)
    rw [hn'.2] at this
    exact hg.2.1 this
  · intro hc
    rcases (mem_targets hc).2 with e | e
    · rw [hn'.2] at e; exact hg.2.2 e
    · rw [hn'.2] at e; exact hne e

theorem getElem?_putAll_other (ws : List (Nat × Bytes)) (l : Bytes) (hl : l.length = 143360)
    (hw : ∀ w ∈ ws, w.1 < 560 ∧ w.2.length = 256) (i : Nat) (hi : i / 256 ∉ ws.map Prod.fst) :
    (putAll 256 ws l)[i]? = l[i]? := by
  induction ws generalizing l with
  | nil => rfl
  | cons w ws ih =>
    have hw1 := hw w (by simp)
    unfold putAll
    rw [ih _ (by rw [put_length (by omega)]; exact hl) (fun v hv => hw v (by simp [hv]))
      (fun hc => hi (by simp [hc])), getElem?_put (by omega)]
    have : i / 256 ≠ w.1 := by
      rintro e; exact hi (by simp [e])
    split
    · rfl
    · rw [if_neg (by omega)]

/-- Bytes outside the allocated sectors and the map are untouched. -/
theorem getElem?_newImg_other {sm : SectorMap} {img : Bytes} {f : UInt8} {c : Bytes}
    (hi : img.length = 143360) (hf : f ≠ 0xFF) (h : Fits sm f c) {i : Nat}
    (h1 : i / 256 ∉ targets sm f c) (h2 : i < 2512 ∨ 3072 ≤ i) :
    (newImg sm f c img)[i]? = img[i]? := by
  unfold newImg
  have hl := data_length (c := c) (sm := sm) hi hf h
  rw [getElem?_put (by omega)]
  have : (newMap sm f c).toList.length = 560 := by simp
  have key := getElem?_putAll_other (chunks (padded c) 0 (targets sm f c)) img hi
    (chunks_ok (by rw [padded_length, targets_length hf h]) (fun n hn => (mem_targets hn).1)) i
    (by rw [chunks_fst]; exact h1)
  split
  · exact key
  · rw [if_neg (by omega)]; exact key

theorem load_newImg {sm : SectorMap} {img : Bytes} {f : UInt8} {c : Bytes}
    (hi : img.length = 143360) (hf : f ≠ 0xFF) (h : Fits sm f c) :
    loadSectorMap (newImg sm f c img) = .ok (newMap sm f c) := by
  unfold newImg
  exact loaded_put (by rw [data_length hi hf h]; omega) _

end Verif.Supermon
