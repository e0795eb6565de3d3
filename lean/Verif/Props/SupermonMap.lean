import Verif.Proofs.SupermonFile

/-!
# C21-C26: the NakedOS sector map, writing and reading files
-/

set_option autoImplicit false

namespace Verif.Supermon
open Disk Spec

/-! ## A concrete disk -/

/-- A freshly formatted disk: 12 reserved sectors, the rest free. -/
def freshMap : SectorMap := Vector.ofFn fun n : Fin 560 => if n.val < 12 then 0xFE else 0xFF

/-- Its image, otherwise all zero. -/
def freshImg : Bytes := put (zeros 143360) 2512 freshMap.toList

theorem own_freshMap {n : Nat} (h : n < 560) : own freshMap n = if n < 12 then 0xFE else 0xFF := by
  rw [own_eq h]; simp [freshMap]

theorem freshMap_legal : LegalMap (own freshMap) := by
  constructor
  · intro n hn; rw [own_freshMap (by omega), if_pos hn]
  · intro n hn; rw [own_freshMap hn]; split <;> decide

theorem freshImg_length : freshImg.length = 143360 := by
  unfold freshImg
  rw [put_length] <;> simp

theorem freshImg_load : loadSectorMap freshImg = .ok freshMap :=
  loaded_put (by simp) _

theorem freshMap_free : (ownedBy (own freshMap) 0xFF).length = 548 := by
  have : ownedBy (own freshMap) 0xFF = (List.range 560).filter fun n => (if n < 12 then (0xFE : UInt8) else 0xFF) = 0xFF :=
    List.filter_congr fun n hn => by rw [own_freshMap (List.mem_range.1 hn)]
  rw [this]
  decide +kernel

theorem freshMap_file {f : UInt8} (hf : IsFileNumber f) : ownedBy (own freshMap) f = [] := by
  rw [ownedBy, List.filter_eq_nil_iff]
  intro n hn
  rw [own_freshMap (List.mem_range.1 hn)]
  split
  · simpa using Ne.symm hf.2.1
  · simpa using Ne.symm hf.2.2

/-! ## C21 -/

/-- C21: on every image reaching past track 0 sector B, persisting any map succeeds, loading
gives that map back, and only the 560 map bytes 0x9D0..0xBFF may differ. -/
theorem C21_persist_load {img : Bytes} (h : 0xC00 ≤ img.length) (sm : SectorMap) :
    ∃ img', persist sm img = (.ok (), img') ∧ loadSectorMap img' = .ok sm ∧
      img'.length = img.length ∧
      (∀ i, i < 0x9D0 ∨ 0xC00 ≤ i → img'[i]? = img[i]?) ∧
      (∀ n, n < 560 → owner img' n = own sm n) := by
  refine ⟨_, persist_eq h sm, loaded_put h sm, put_length (by simp; omega), ?_, ?_⟩
  · intro i hi
    rw [getElem?_put (by omega)]
    have : sm.toList.length = 560 := by simp
    split
    · rfl
    · rw [if_neg (by omega)]
  · intro n hn
    exact owner_put h sm hn

/-- C21: loading a map and persisting it leaves every image unchanged. -/
theorem C21_load_persist {img : Bytes} {sm : SectorMap} (h : loadSectorMap img = .ok sm) :
    persist sm img = (.ok (), img) := by
  obtain ⟨h1, h2⟩ := (loadSectorMap_eq img sm).1 h
  rw [persist_eq h1, h2, put_slice_self (by omega)]

/-- C21: loading succeeds on every floppy image, gives exactly the owners recorded there, and
fails with an error (never a panic) exactly on images too short to hold the map. -/
theorem C21_load {img : Bytes} :
    (0xC00 ≤ img.length → ∃ sm, loadSectorMap img = .ok sm ∧ ∀ n, n < 560 → own sm n = owner img n) ∧
    (img.length < 0xC00 → loadSectorMap img = .err .other) := by
  constructor
  · intro h
    rcases loadSectorMap_cases img with ⟨sm, hs⟩ | he
    · exact ⟨sm, hs, (loaded_iff h sm).1 hs⟩
    · have hl : (slice img 2512 560).length = 560 := slice_length_of_le (by omega)
      have := (loadSectorMap_eq img ⟨(slice img 2512 560).toArray, by simpa using hl⟩).2 ⟨h, by simp⟩
      rw [he] at this; simp at this
  · intro h
    rcases loadSectorMap_cases img with ⟨sm, hs⟩ | he
    · have := ((loadSectorMap_eq img sm).1 hs).1; omega
    · exact he

example : loadSectorMap freshImg = .ok freshMap ∧ persist freshMap freshImg = (.ok (), freshImg) :=
  ⟨freshImg_load, C21_load_persist freshImg_load⟩

/-! ## C22 -/

theorem ts_inj {a b : Nat} (ha : a < 560) (hb : b < 560) (h : ts a = ts b) : a = b := by
  have h1 := ts_fst ha
  have h2 := ts_snd ha
  rw [h, ts_fst hb] at h1
  rw [h, ts_snd hb] at h2
  omega

theorem mem_sectorsForFile {sm : SectorMap} {f t s : UInt8} :
    (t, s) ∈ sectorsForFile sm f ↔
      t.toNat < 35 ∧ s.toNat < 16 ∧ own sm (16 * t.toNat + s.toNat) = f := by
  rw [sectorsForFile_eq, List.mem_map]
  constructor
  · rintro ⟨n, hn, e⟩
    obtain ⟨hn, ho⟩ := mem_ownedBy.1 hn
    have e1 := ts_fst hn
    have e2 := ts_snd hn
    rw [e] at e1 e2
    simp only at e1 e2
    refine ⟨by omega, by omega, ?_⟩
    rw [e1, e2, Nat.div_add_mod]; exact ho
  · rintro ⟨ht, hs, ho⟩
    refine ⟨16 * t.toNat + s.toNat, mem_ownedBy.2 ⟨by omega, ho⟩, ?_⟩
    unfold ts
    rw [show (16 * t.toNat + s.toNat) / 16 = t.toNat by omega,
      show (16 * t.toNat + s.toNat) % 16 = s.toNat by omega]
    simp

/-- C22: the sector list of a file holds exactly the sectors of the disk the map gives to it,
once each, in disk order. -/
theorem C22_sectors_exact (sm : SectorMap) (f : UInt8) :
    (∀ t s : UInt8, (t, s) ∈ sectorsForFile sm f ↔
      t.toNat < 35 ∧ s.toNat < 16 ∧ own sm (16 * t.toNat + s.toNat) = f) ∧
    (sectorsForFile sm f).Pairwise
      (fun a b => 16 * a.1.toNat + a.2.toNat < 16 * b.1.toNat + b.2.toNat) := by
  refine ⟨fun t s => mem_sectorsForFile, ?_⟩
  rw [sectorsForFile_eq, List.pairwise_map]
  have h : (ownedBy (own sm) f).Pairwise (fun a b => a < 560 ∧ b < 560 ∧ a < b) := by
    unfold ownedBy
    apply List.Pairwise.filter
    exact List.pairwise_lt_range.imp_of_mem (fun ha hb hab =>
      ⟨List.mem_range.1 ha, List.mem_range.1 hb, hab⟩)
  refine h.imp ?_
  intro a b ⟨ha, hb, hab⟩
  rw [ts_fst ha, ts_snd ha, ts_fst hb, ts_snd hb]
  omega

/-- C22: every sector of the disk is in the list of exactly one owner, and on a legal map this
owner is a file 1..0xFD, "reserved" or "free". -/
theorem C22_partition (sm : SectorMap) {t s : UInt8} (ht : t.toNat < 35) (hs : s.toNat < 16) :
    (∃ f, (t, s) ∈ sectorsForFile sm f ∧ ∀ g, (t, s) ∈ sectorsForFile sm g → g = f) ∧
    (LegalMap (own sm) → ∃ f, (t, s) ∈ sectorsForFile sm f ∧
      (IsFileNumber f ∨ f = 0xFE ∨ f = 0xFF)) := by
  refine ⟨⟨own sm (16 * t.toNat + s.toNat), mem_sectorsForFile.2 ⟨ht, hs, rfl⟩, ?_⟩, ?_⟩
  · intro g hg; exact (mem_sectorsForFile.1 hg).2.2.symm
  · intro hl
    refine ⟨own sm (16 * t.toNat + s.toNat), mem_sectorsForFile.2 ⟨ht, hs, rfl⟩, ?_⟩
    have := hl.2 (16 * t.toNat + s.toNat) (by omega)
    by_cases h1 : own sm (16 * t.toNat + s.toNat) = 0xFE
    · exact Or.inr (Or.inl h1)
    · by_cases h2 : own sm (16 * t.toNat + s.toNat) = 0xFF
      · exact Or.inr (Or.inr h2)
      · exact Or.inl ⟨this, h1, h2⟩

/-- C22: lists of different owners are disjoint. -/
theorem C22_disjoint (sm : SectorMap) {f g : UInt8} (h : f ≠ g) (ts : UInt8 × UInt8) :
    ¬ (ts ∈ sectorsForFile sm f ∧ ts ∈ sectorsForFile sm g) := by
  rintro ⟨h1, h2⟩
  have e1 := (mem_sectorsForFile (t := ts.1) (s := ts.2)).1 h1
  have e2 := (mem_sectorsForFile (t := ts.1) (s := ts.2)).1 h2
  exact h (e1.2.2.symm.trans e2.2.2)

/-- The sum of the sizes of all owners' lists over a list of owners. -/
theorem total_sectors (sm : SectorMap) :
    ((List.range 256).map fun f => (sectorsForFile sm (UInt8.ofNat f)).length).sum = 560 := by
  have gen : ∀ (l : List Nat), ((List.range 256).map fun f =>
      (l.filter fun n => own sm n = UInt8.ofNat f).length).sum = l.length := by
    intro l
    induction l with
    | nil =>
      simp only [List.filter_nil, List.length_nil]
      generalize List.range 256 = r
      induction r with
      | nil => rfl
      | cons a r ih => rw [List.map_cons, List.sum_cons, ih]
    | cons x xs ih =>
      have e : ((List.range 256).map fun f =>
          ((x :: xs).filter fun n => own sm n = UInt8.ofNat f).length) =
          (List.range 256).map fun f => (if f = (own sm x).toNat then 1 else 0) +
            (xs.filter fun n => own sm n = UInt8.ofNat f).length := by
        apply List.map_congr_left
        intro f hf
        have hf' := List.mem_range.1 hf
        rw [List.filter_cons]
        have hiff : own sm x = UInt8.ofNat f ↔ f = (own sm x).toNat := by
          constructor
          · intro h; rw [h]; simp; omega
          · intro h; rw [h]; simp
        by_cases h : own sm x = UInt8.ofNat f
        · rw [if_pos (by simpa using h), if_pos (hiff.1 h)]; simp; omega
        · rw [if_neg (by simpa using h), if_neg (fun hc => h (hiff.2 hc))]; simp
      rw [e]
      have sum_add : ∀ (l : List Nat) (p q : Nat → Nat),
          (l.map fun f => p f + q f).sum = (l.map p).sum + (l.map q).sum := by
        intro l p q
        induction l with
        | nil => rfl
        | cons a l ih => simp [ih]; omega
      rw [sum_add, ih]
      have one : ∀ k, k < 256 → ((List.range 256).map fun f => if f = k then 1 else 0).sum = 1 := by
        have gen : ∀ n k, ((List.range n).map fun f => if f = k then 1 else 0).sum = if k < n then 1 else 0 := by
          intro n k
          induction n with
          | zero => simp
          | succ n ih =>
            rw [List.range_succ, List.map_append, List.sum_append, ih]
            simp only [List.map_cons, List.map_nil, List.sum_cons, List.sum_nil]
            split <;> split <;> split <;> omega
        intro k hk
        rw [gen, if_pos hk]
      rw [one _ (own sm x).toNat_lt]; simp; omega
  have h := gen (List.range 560)
  rw [List.length_range] at h
  rw [← h]
  refine congrArg List.sum (List.map_congr_left ?_)
  intro f _
  rw [sectorsForFile_eq, List.length_map]; rfl

/-- C22: the sizes of all 256 owners' lists add up to the 560 sectors of the disk. -/
theorem C22_total (sm : SectorMap) :
    ((List.range 256).map fun f => (sectorsForFile sm (UInt8.ofNat f)).length).sum = 560 :=
  total_sectors sm

theorem mem_allFiles {f : UInt8} : f ∈ allFiles ↔ IsFileNumber f := by
  unfold allFiles IsFileNumber
  simp only [List.mem_map, List.mem_range, ne_eq, ← UInt8.toNat_inj]
  have := f.toNat_lt
  constructor
  · rintro ⟨n, hn, e⟩
    rw [UInt8.toNat_ofNat'] at e
    refine ⟨?_, ?_, ?_⟩ <;> simp only [UInt8.reduceToNat] <;> omega
  · rintro ⟨h0, h1, h2⟩
    simp only [UInt8.reduceToNat] at h0 h1 h2
    refine ⟨f.toNat - 1, by omega, ?_⟩
    rw [UInt8.toNat_ofNat']
    omega

/-- C22: the by-file table agrees with the per-file lists for every file number, and has no
entry for free, reserved or illegal. -/
theorem C22_by_file (sm : SectorMap) (f : UInt8) :
    (IsFileNumber f → sectorsByFile sm f = sectorsForFile sm f) ∧
    (¬ IsFileNumber f → sectorsByFile sm f = []) := by
  unfold sectorsByFile
  constructor
  · intro h
    split
    · rfl
    · rename_i hc
      have : (sectorsForFile sm f).length = 0 := by
        apply Classical.byContradiction
        intro h0
        exact hc ⟨mem_allFiles.2 h, by omega⟩
      exact (List.eq_nil_of_length_eq_zero this).symm
  · intro h
    rw [if_neg]
    exact fun hc => h (mem_allFiles.1 hc.1)

/-- C22: the free count is the number of sectors marked free. -/
theorem C22_free_count (sm : SectorMap) :
    freeSectors sm = (ownedBy (own sm) 0xFF).length ∧
    freeSectors sm = (sectorsForFile sm 0xFF).length := by
  refine ⟨freeSectors_eq sm, ?_⟩
  rw [freeSectors_eq, sectorsForFile_eq, List.length_map]

/-- C22: a successful write changes the free count by exactly the old size minus the new size. -/
theorem C22_free_conserved {sm : SectorMap} {img : Bytes} {f : UInt8} {c : Bytes} {ow : Bool}
    (hi : img.length = 143360) (hf : IsFileNumber f) (hc : c ≠ [])
    (h : (writeFile sm img f c ow).out = .ok ()) :
    freeSectors (writeFile sm img f c ow).sm + sectorsNeeded c.length =
      freeSectors sm + (sectorsForFile sm f).length := by
  by_cases hfit : Fits sm f c
  · by_cases hx : ow = true ∨ ownedBy (own sm) f = []
    · rw [writeFile_ok hi hf hc hfit hx]
      rw [freeSectors_eq, freeSectors_eq, sectorsForFile_eq, List.length_map, sectorsNeeded_eq,
        ← ownedBy_newMap_free hf.2.2, targets_length hf.2.2 hfit]
    · simp only [not_or, Bool.not_eq_true] at hx
      obtain ⟨rfl, he⟩ := hx
      rw [writeFile_exists hfit he] at h; simp at h
  · rw [writeFile_outOfSpace hfit] at h; simp at h

theorem fresh_fits (f : UInt8) {c : Bytes} (h : c.length ≤ 1000) : Fits freshMap f c := by
  unfold Fits
  rw [freshMap_free]; omega

example : (writeFile freshMap freshImg 5 [1, 2, 3] false).out = .ok () := by
  rw [writeFile_ok freshImg_length (by unfold IsFileNumber; decide) (by simp)
    (fresh_fits _ (by simp)) (Or.inr (freshMap_file (by unfold IsFileNumber; decide)))]

/-! ## C23 -/

theorem writeFile_ok_inv {sm : SectorMap} {img : Bytes} {f : UInt8} {c : Bytes} {ow : Bool}
    (hi : img.length = 143360) (hf : IsFileNumber f) (hc : c ≠ [])
    (h : (writeFile sm img f c ow).out = .ok ()) :
    Fits sm f c ∧ (writeFile sm img f c ow).sm = newMap sm f c ∧
      (writeFile sm img f c ow).img = newImg sm f c img := by
  by_cases hfit : Fits sm f c
  · by_cases hx : ow = true ∨ ownedBy (own sm) f = []
    · rw [writeFile_ok hi hf hc hfit hx]
      exact ⟨hfit, rfl, rfl⟩
    · simp only [not_or, Bool.not_eq_true] at hx
      obtain ⟨rfl, he⟩ := hx
      rw [writeFile_exists hfit he] at h; simp at h
  · rw [writeFile_outOfSpace hfit] at h; simp at h

theorem fileBytes_congr {m m' : Nat → UInt8} (img : Bytes) (f : UInt8)
    (h : ∀ n, n < 560 → m n = m' n) : fileBytes m img f = fileBytes m' img f := by
  unfold fileBytes ownedBy
  rw [List.filter_congr (q := fun n => decide (m' n = f))]
  intro n hn
  rw [h n (List.mem_range.1 hn)]

/-- C23: a file written successfully reads back as the contents padded with zeros to whole
sectors - through the map in memory, and by the owners recorded on the image. -/
theorem C23_write_read {sm : SectorMap} {img : Bytes} {f : UInt8} {c : Bytes} {ow : Bool}
    (hi : img.length = 143360) (hm : LegalMap (own sm)) (hf : IsFileNumber f) (hc : c ≠ [])
    (h : (writeFile sm img f c ow).out = .ok ()) :
    readFile (writeFile sm img f c ow).sm (writeFile sm img f c ow).img f = .ok (padded c) ∧
    fileOnDisk (writeFile sm img f c ow).img f = padded c := by
  obtain ⟨hfit, e1, e2⟩ := writeFile_ok_inv hi hf hc h
  rw [e1, e2]
  have hl := newImg_length (sm := sm) (c := c) hi hf.2.2 hfit
  have hb := fileBytes_new_self hi hf hfit hm
  refine ⟨by rw [readFile_eq hl, hb], ?_⟩
  unfold fileOnDisk
  rw [← hb]
  apply fileBytes_congr
  intro n hn
  exact ((loaded_iff (by omega) _).1 (load_newImg hi hf.2.2 hfit) n hn).symm

example : readFile (writeFile freshMap freshImg 5 [1, 2, 3] false).sm
    (writeFile freshMap freshImg 5 [1, 2, 3] false).img 5 = .ok ([1, 2, 3] ++ List.replicate 253 0) :=
  (C23_write_read freshImg_length freshMap_legal (by unfold IsFileNumber; decide) (by simp)
    (by rw [writeFile_ok freshImg_length (by unfold IsFileNumber; decide) (by simp)
      (fresh_fits _ (by simp)) (Or.inr (freshMap_file (by unfold IsFileNumber; decide)))])).1

/-! ## C24 -/

/-- C24: whatever its outcome, a write to file `f` leaves the sector list and the contents of
every other file as they were, and every byte of the image outside the sectors `f` ends up with
and outside the map. -/
theorem C24_write_frame {sm : SectorMap} {img : Bytes} {f : UInt8} (c : Bytes) (ow : Bool)
    (hi : img.length = 143360) (hm : LegalMap (own sm)) (hf : IsFileNumber f) :
    (writeFile sm img f c ow).img.length = img.length ∧
    (∀ g, IsFileNumber g → g ≠ f →
      sectorsForFile (writeFile sm img f c ow).sm g = sectorsForFile sm g ∧
      readFile (writeFile sm img f c ow).sm (writeFile sm img f c ow).img g = readFile sm img g) ∧
    (∀ i, i / 256 ∉ ownedBy (own (writeFile sm img f c ow).sm) f → (i < 0x9D0 ∨ 0xC00 ≤ i) →
      (writeFile sm img f c ow).img[i]? = img[i]?) := by
  by_cases hfit : Fits sm f c
  · by_cases hx : ow = true ∨ ownedBy (own sm) f = []
    · by_cases hc : c = []
      · subst hc
        have hrest : ∀ img', img'.length = 143360 →
            (∀ n, n < 9 ∨ 12 ≤ n → sectorNo img' n = sectorNo img n) → ∀ g, IsFileNumber g → g ≠ f →
            sectorsForFile (deleteFile sm f) g = sectorsForFile sm g ∧
            readFile (deleteFile sm f) img' g = readFile sm img g := by
          intro img' hi' hs g hg hne
          rw [sectorsForFile_eq, sectorsForFile_eq, readFile_eq hi', readFile_eq hi,
            ownedBy_deleteFile_other sm hne hg.2.2]
          refine ⟨rfl, congrArg Out.ok ?_⟩
          unfold fileBytes
          rw [ownedBy_deleteFile_other sm hne hg.2.2]
          apply List.flatMap_congr
          intro n hn
          apply hs
          right
          apply Classical.byContradiction
          intro h12
          have := hm.1 n (by omega)
          rw [(mem_ownedBy.1 hn).2] at this
          exact hg.2.1 this
        have hpl : (put img 2512 (deleteFile sm f).toList).length = 143360 := by
          rw [put_length (by simp; omega), hi]
        rw [writeFile_empty hi hx]
        split
        · refine ⟨by rw [hpl, hi], hrest _ hpl (fun n hn => sectorNo_put (by omega) _ hn), ?_⟩
          intro i _ h2
          rw [getElem?_put (by omega)]
          have : (deleteFile sm f).toList.length = 560 := by simp
          split
          · rfl
          · rw [if_neg (by omega)]
        · exact ⟨rfl, hrest _ hi (fun n hn => rfl), fun i _ _ => rfl⟩
      · rw [writeFile_ok hi hf hc hfit hx]
        have hl := newImg_length (sm := sm) (c := c) hi hf.2.2 hfit
        refine ⟨by rw [hl, hi], ?_, ?_⟩
        · intro g hg hne
          rw [sectorsForFile_eq, sectorsForFile_eq, readFile_eq hl, readFile_eq hi,
            fileBytes_new_other hi hf hfit hm hg hne, ownedBy_newMap_other sm c hne hg.2.2]
          exact ⟨rfl, rfl⟩
        · intro i h1 h2
          rw [ownedBy_newMap_self sm c hf.2.2] at h1
          exact getElem?_newImg_other hi hf.2.2 hfit h1 h2
    · simp only [not_or, Bool.not_eq_true] at hx
      obtain ⟨rfl, he⟩ := hx
      rw [writeFile_exists hfit he]
      exact ⟨rfl, fun g _ _ => ⟨rfl, rfl⟩, fun i _ _ => rfl⟩
  · rw [writeFile_outOfSpace hfit]
    exact ⟨rfl, fun g _ _ => ⟨rfl, rfl⟩, fun i _ _ => rfl⟩

example : sectorsForFile (writeFile freshMap freshImg 5 [1, 2, 3] false).sm 7 = [] := by
  rw [((C24_write_frame [1, 2, 3] false freshImg_length freshMap_legal
    (by unfold IsFileNumber; decide)).2.1 7 (by unfold IsFileNumber; decide) (by decide)).1,
    sectorsForFile_eq, freshMap_file (by unfold IsFileNumber; decide)]
  rfl

/-! ## C25 -/

/-- C25: exact outcomes of a write of non-empty contents to a legal file number on any disk:
out of space exactly when the sectors needed exceed the free ones plus the file's own; file
exists exactly when there is room, the file exists and overwriting is not allowed; success
otherwise.  A refused write changes nothing.  The flag says whether the file existed. -/
theorem C25_write_outcome {sm : SectorMap} {img : Bytes} {f : UInt8} {c : Bytes} (ow : Bool)
    (hi : img.length = 143360) (hf : IsFileNumber f) (hc : c ≠ []) :
    let room := (ownedBy (own sm) 0xFF).length + (ownedBy (own sm) f).length
    let r := writeFile sm img f c ow
    (r.out = .err .outOfSpace ↔ room < sectorsNeeded c.length) ∧
    (r.out = .err .fileExists ↔
      sectorsNeeded c.length ≤ room ∧ ownedBy (own sm) f ≠ [] ∧ ow = false) ∧
    (r.out = .ok () ↔
      sectorsNeeded c.length ≤ room ∧ (ownedBy (own sm) f = [] ∨ ow = true)) ∧
    (r.out ≠ .ok () → r.sm = sm ∧ r.img = img) ∧
    (r.out = .ok () ∨ r.out = .err .outOfSpace ∨ r.out = .err .fileExists) ∧
    (r.existed = true ↔ ownedBy (own sm) f ≠ []) := by
  intro room r
  have hex : ∀ l : List Nat, decide (l.length > 0) = true ↔ l ≠ [] := by
    intro l; simp [List.length_pos_iff]
  by_cases hfit : Fits sm f c
  · have hfit' : sectorsNeeded c.length ≤ room := by rw [sectorsNeeded_eq]; exact hfit
    by_cases hx : ow = true ∨ ownedBy (own sm) f = []
    · have e : r = _ := writeFile_ok hi hf hc hfit hx
      rw [e]
      refine ⟨by simp; omega, ?_, ?_, by simp, by simp, by dsimp only; exact hex (ownedBy (own sm) f)⟩
      · simp only [reduceCtorEq, false_iff]
        rintro ⟨_, h1, h2⟩
        rcases hx with h | h
        · rw [h] at h2; simp at h2
        · exact h1 h
      · simp only [true_iff]
        exact ⟨hfit', hx.symm⟩
    · have hx' := hx
      simp only [not_or, Bool.not_eq_true] at hx
      obtain ⟨h0, he⟩ := hx
      subst h0
      have e : r = _ := writeFile_exists hfit he
      rw [e]
      refine ⟨by simp; omega, by simp [hfit', he], ?_, by simp, by simp, by simp [he]⟩
      simp [he]
  · have hfit' : room < sectorsNeeded c.length := by
      rw [sectorsNeeded_eq]; exact Nat.lt_of_not_le hfit
    have e : r = _ := writeFile_outOfSpace hfit
    rw [e]
    refine ⟨by simp [hfit'], by simp; omega, by simp; omega, by simp, by simp, by dsimp only; exact hex (ownedBy (own sm) f)⟩

example : (writeFile freshMap freshImg 5 (zeros 150000) false).out = .err .outOfSpace :=
  (C25_write_outcome false freshImg_length (by unfold IsFileNumber; decide)
    (by intro h; have := congrArg List.length h; rw [zeros_length] at this; simp at this)).1.2 (by
    rw [freshMap_free, freshMap_file (by unfold IsFileNumber; decide), zeros_length]; decide)

/-! ## C26 -/

/-- C26: after a successful WriteFile (also of empty contents) the map loaded from the image is
the map in memory. -/
theorem C26_write_file_persisted {sm : SectorMap} {img : Bytes} {f : UInt8} {c : Bytes} {ow : Bool}
    (hi : img.length = 143360) (hf : IsFileNumber f)
    (h : (writeFile sm img f c ow).out = .ok ()) :
    loadSectorMap (writeFile sm img f c ow).img = .ok (writeFile sm img f c ow).sm := by
  by_cases hc : c = []
  · subst hc
    by_cases hx : ow = true ∨ ownedBy (own sm) f = []
    · rw [writeFile_empty hi hx] at h ⊢
      split at h
      · rename_i h0
        rw [if_pos h0]
        exact loaded_put (by omega) _
      · simp at h
    · simp only [not_or, Bool.not_eq_true] at hx
      obtain ⟨rfl, he⟩ := hx
      rw [writeFile_exists (by simp [Fits]) he] at h; simp at h
  · obtain ⟨hfit, e1, e2⟩ := writeFile_ok_inv hi hf hc h
    rw [e1, e2]
    exact load_newImg hi hf.2.2 hfit

end Verif.Supermon
