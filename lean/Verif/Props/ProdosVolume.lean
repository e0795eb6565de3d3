import Verif.Proofs.ProdosTerm

/-!
# C46-C48: reading ProDOS directories

`n` bounds every loop of the reading code; `ord` is the order in which Go visits a map.
-/

set_option autoImplicit false
set_option maxRecDepth 20000

namespace Verif.Prodos

open Verif Verif.Disk Verif.Spec Verif.Spec.Prodos

/-! ## C46 -/

/-- A listing of the volume directory shows exactly the entries with non-zero storage type of its
blocks, in order. -/
theorem C46_root (n : Nat) (ord : RangeOrder UInt16 Subdirectory) (img : Bytes) (ds : List Descriptor)
    (h : Operator.catalog n ord ⟨img⟩ [] = .ok ds) :
    ∃ l, DirBlocks img 2 l ∧ ds = ((dirEntries img 2 l).filter fun e => storageType e ≠ 0).map shown := by
  unfold Operator.catalog at h
  rw [Out.bind_eq_ok] at h
  obtain ⟨v, hv, h⟩ := h
  rw [if_pos rfl] at h
  simp only [Out.ok.injEq] at h
  obtain ⟨l, hl, h1, h2, _⟩ := readVolume_ok hv
  refine ⟨l, hl, ?_⟩
  rw [← h, h1, h2, vol_descriptors (k := 2) hl]
  exact listed_entries hl

/-- A listing of a path shows the entries of a subdirectory of the volume that has that full path;
hence a path that no subdirectory has is never listed. -/
theorem C46_subdirectory (n : Nat) (ord : RangeOrder UInt16 Subdirectory) (img : Bytes) (path : Str) (hp : path ≠ [])
    (ds : List Descriptor) (h : Operator.catalog n ord ⟨img⟩ path = .ok ds) :
    ∃ k l, Subdir img k ∧ FullPath img k path ∧ DirBlocks img k l ∧
      ds = ((dirEntries img k l).filter fun e => storageType e ≠ 0).map shown := by
  unfold Operator.catalog at h
  rw [Out.bind_eq_ok] at h
  obtain ⟨v, hv, h⟩ := h
  rw [if_neg hp] at h
  obtain ⟨l2, hl2, _, _, hc, hn, _⟩ := readVolume_ok hv
  cases hg : v.subdirsByName.get? path with
  | none => rw [hg] at h; simp at h
  | some sd =>
    rw [hg] at h
    simp only [Out.ok.injEq] at h
    obtain ⟨_, hb, _⟩ := nameLoop_ok hn
    rcases hb path sd hg with h' | ⟨e, he, rfl, hpn⟩
    · simp at h'
    · obtain ⟨h1, l, h3, h4⟩ := hc.toKnown.mem (mem_visit.1 he)
      rw [h4] at hpn h
      refine ⟨e.1.toNat, l, h1, pathName_sound hc.toKnown ⟨l2, hl2⟩ h3 hpn, h3, ?_⟩
      rw [← h, subOf_descriptors h3]
      exact listed_entries h3

/-- On a volume that can be read, a path that no subdirectory has is an error. -/
theorem C46_unknown_path (n : Nat) (ord : RangeOrder UInt16 Subdirectory) (img : Bytes) (path : Str) (hp : path ≠ [])
    (hok : (readVolume n ord img 2).isOk) (h : ¬ ∃ k, Subdir img k ∧ FullPath img k path) :
    (Operator.catalog n ord ⟨img⟩ path).isErr := by
  cases hc : Operator.catalog n ord ⟨img⟩ path with
  | err e => rfl
  | ok ds =>
    obtain ⟨k, _, h1, h2, _⟩ := C46_subdirectory n ord img path hp ds hc
    exact absurd ⟨k, h1, h2⟩ h
  | panic =>
    obtain ⟨v, hv⟩ := Out.isOk_iff.1 hok
    unfold Operator.catalog at hc
    rw [hv, Out.bind_ok, if_neg hp] at hc
    cases hg : v.subdirsByName.get? path <;> rw [hg] at hc <;> simp at hc
  | timeout =>
    obtain ⟨v, hv⟩ := Out.isOk_iff.1 hok
    unfold Operator.catalog at hc
    rw [hv, Out.bind_ok, if_neg hp] at hc
    cases hg : v.subdirsByName.get? path <;> rw [hg] at hc <;> simp at hc

/-- Full paths identify subdirectories. -/
def DistinctPaths (img : Bytes) : Prop :=
  ∀ k k' p, Subdir img k → Subdir img k' → FullPath img k p → FullPath img k' p → k = k'

/-- Every subdirectory of the volume has one full path only. -/
def OnePath (img : Bytes) : Prop := ∀ k p p', Subdir img k → FullPath img k p → FullPath img k p' → p = p'

/-- On a volume that can be read and whose full paths are unambiguous, every subdirectory is listed
under its full path. -/
theorem C46_complete (n : Nat) (ord : RangeOrder UInt16 Subdirectory) (img : Bytes)
    (hok : (readVolume n ord img 2).isOk) (hd : DistinctPaths img) (ho : OnePath img)
    (k : Nat) (path : Str) (hk : Subdir img k) (hf : FullPath img k path) (hp : path ≠ []) :
    ∃ l, DirBlocks img k l ∧ Operator.catalog n ord ⟨img⟩ path =
      .ok (((dirEntries img k l).filter fun e => storageType e ≠ 0).map shown) := by
  obtain ⟨v, hv⟩ := Out.isOk_iff.1 hok
  obtain ⟨l2, hl2, _, _, hc, hn, _⟩ := readVolume_ok hv
  obtain ⟨k', hk', rfl⟩ := hc.all k hk
  obtain ⟨s, hs⟩ := GoMap.get?_isSome_iff.2 hk'
  obtain ⟨_, l, h3, h4⟩ := hc.sound k' s hs
  obtain ⟨ha, hb, hcc⟩ := nameLoop_ok hn
  have hmem : (k', s) ∈ ord.visit v.subdirsByBlock := mem_visit.2 (GoMap.mem_of_get? hs)
  obtain ⟨q, hq⟩ := ha _ hmem
  simp only [h4] at hq
  have hqp : q = path := ho _ _ _ hk (pathName_sound hc.toKnown ⟨l2, hl2⟩ h3 hq) hf
  subst hqp
  obtain ⟨s', hs'⟩ := hcc q (Or.inr ⟨_, hmem, by simp only [h4]; exact hq⟩)
  have hcat : Operator.catalog n ord ⟨img⟩ q = .ok (listed s'.descriptors) := by
    unfold Operator.catalog
    rw [hv, Out.bind_ok, if_neg hp, hs']
  obtain ⟨j, l', h5, h6, h7, h8⟩ := C46_subdirectory n ord img q hp _ hcat
  have hjk := hd _ _ _ h5 hk h6 hf
  subst hjk
  exact ⟨l', h7, by rw [hcat, h8]⟩

/-! ## C48 -/

/-- Whether a volume can be read does not depend on the order of map iteration. -/
theorem C48_success (n : Nat) (ord ord' : RangeOrder UInt16 Subdirectory) (img : Bytes) :
    (readVolume n ord img 2).isOk = (readVolume n ord' img 2).isOk := by
  have key : ∀ o o' : RangeOrder UInt16 Subdirectory, (readVolume n o img 2).isOk → (readVolume n o' img 2).isOk := by
    intro o o' h
    obtain ⟨v, hv⟩ := Out.isOk_iff.1 h
    obtain ⟨_, _, _, _, _, hn, hr⟩ := readVolume_ok hv
    obtain ⟨ha, _, _⟩ := nameLoop_ok hn
    obtain ⟨m, hm⟩ := nameLoop_isOk (l := o'.visit v.subdirsByBlock) (fun e he => ha e (mem_visit.2 (mem_visit.1 he))) []
    rw [hr o', hm]; rfl
  rw [Bool.eq_iff_iff]
  exact ⟨key _ _, key _ _⟩

/-- The listing of the volume directory does not depend on the order of map iteration. -/
theorem C48_root (n : Nat) (ord ord' : RangeOrder UInt16 Subdirectory) (img : Bytes) (ds : List Descriptor)
    (h : Operator.catalog n ord ⟨img⟩ [] = .ok ds) : Operator.catalog n ord' ⟨img⟩ [] = .ok ds := by
  unfold Operator.catalog at h
  rw [Out.bind_eq_ok] at h
  obtain ⟨v, hv, h⟩ := h
  rw [if_pos rfl] at h
  have h' : (readVolume n ord' img 2).isOk := by rw [← C48_success n ord ord' img, hv]; rfl
  obtain ⟨v', hv'⟩ := Out.isOk_iff.1 h'
  obtain ⟨_, _, _, _, _, _, hr⟩ := readVolume_ok hv
  rw [hr ord', Out.bind_eq_ok] at hv'
  obtain ⟨m, hm, hv'⟩ := hv'
  unfold Operator.catalog
  rw [hr ord', hm, Out.bind_ok, Out.bind_ok, if_pos rfl]
  exact h

/-- If full paths are distinct, every listing is the same for every order of map iteration. -/
theorem C48_lookup (n : Nat) (ord ord' : RangeOrder UInt16 Subdirectory) (img : Bytes)
    (hd : DistinctPaths img) (path : Str) (ds : List Descriptor)
    (h : Operator.catalog n ord ⟨img⟩ path = .ok ds) : Operator.catalog n ord' ⟨img⟩ path = .ok ds := by
  by_cases hp : path = []
  · subst hp; exact C48_root n ord ord' img ds h
  · obtain ⟨k, l, h1, h2, h3, h4⟩ := C46_subdirectory n ord img path hp ds h
    unfold Operator.catalog at h
    rw [Out.bind_eq_ok] at h
    obtain ⟨v, hv, h⟩ := h
    rw [if_neg hp] at h
    cases hg : v.subdirsByName.get? path with
    | none => rw [hg] at h; simp at h
    | some sd =>
      obtain ⟨l2, hl2, _, _, hc, hn, hr⟩ := readVolume_ok hv
      obtain ⟨ha, hb, hcc⟩ := nameLoop_ok hn
      obtain ⟨m, hm⟩ := nameLoop_isOk (l := ord'.visit v.subdirsByBlock) (fun e he => ha e (mem_visit.2 (mem_visit.1 he))) []
      rcases hb path sd hg with h' | ⟨e, he, rfl, hpn⟩
      · simp at h'
      · obtain ⟨_, _, hcc'⟩ := nameLoop_ok hm
        obtain ⟨s', hs'⟩ := hcc' path (Or.inr ⟨e, mem_visit.2 (mem_visit.1 he), hpn⟩)
        have hcat : Operator.catalog n ord' ⟨img⟩ path = .ok (listed s'.descriptors) := by
          unfold Operator.catalog
          rw [hr ord', hm, Out.bind_ok, Out.bind_ok, if_neg hp, hs']
        obtain ⟨k', l', h5, h6, h7, h8⟩ := C46_subdirectory n ord' img path hp _ hcat
        have hkk := hd _ _ _ h5 h1 h6 h2
        subst hkk
        rw [hcat, h8, h4, h7.unique h3]

/-! ## C47 -/

/-- Reading a volume ends, with a volume or an error, if no directory chain loops, no subdirectory
contains itself and no parent pointers loop.  (A device of 64 gigabytes is far beyond what a 16-bit
block number can address.) -/
theorem C47_terminates_partial (img : Bytes) (hlen : img.length < 2 ^ 36)
    (hch : ∀ k, k = 2 ∨ Subdir img k → ¬ Endless img (nextOf img k))
    (hac : ∀ k, Subdir img k → ¬ Relation.TransGen (Child img) k k)
    (hpa : ∀ k, Subdir img k → ¬ Relation.TransGen (Parent img) k k) :
    ∃ n₀, ∀ n, n₀ ≤ n → ∀ ord, (readVolume n ord img 2).returns ∧
      (∀ path, (Operator.catalog n ord ⟨img⟩ path).returns) ∧ (seemsToMatch n ord img).isOk := by
  obtain ⟨n₀, h⟩ := readVolume_returns hlen hch hac hpa
  refine ⟨n₀, fun n hn ord => ⟨h n hn ord, fun path => ?_, ?_⟩⟩
  · have hr := h n hn ord
    unfold Operator.catalog
    cases hv : readVolume n ord img 2 with
    | ok v =>
      rw [Out.bind_ok]
      by_cases hp : path = []
      · rw [if_pos hp]; rfl
      · rw [if_neg hp]
        cases v.subdirsByName.get? path <;> rfl
    | err e => rfl
    | panic => rw [hv] at hr; simp at hr
    | timeout => rw [hv] at hr; simp at hr
  · have hr := h n hn ord
    unfold seemsToMatch
    cases hv : readVolume n ord img 2 with
    | ok v => rfl
    | err e => rfl
    | panic => rw [hv] at hr; simp at hr
    | timeout => rw [hv] at hr; simp at hr

end Verif.Prodos
