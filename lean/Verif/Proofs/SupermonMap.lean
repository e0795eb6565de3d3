import Verif.Proofs.Disk
import Verif.Model.Supermon
import Verif.Spec.Supermon

/-! # Lemmas about the NakedOS sector map and file writes -/

set_option autoImplicit false

namespace Verif.Supermon
open Disk Spec

/-- Track and sector of sector number `n`. -/
def ts (n : Nat) : UInt8 × UInt8 := (UInt8.ofNat (n / 16), UInt8.ofNat (n % 16))

theorem allSectors_eq : allSectors = (List.range 560).map ts := by
  have e : trackSectorPairs = (List.range 560).map fun n => (n / 16, n % 16) := by decide +kernel
  unfold allSectors
  rw [e, List.map_map]; rfl

theorem ts_fst {n : Nat} (h : n < 560) : (ts n).1.toNat = n / 16 := by simp [ts]; omega
theorem ts_snd {n : Nat} (h : n < 560) : (ts n).2.toNat = n % 16 := by simp [ts]; omega

theorem own_eq {sm : SectorMap} {n : Nat} (h : n < 560) : own sm n = sm[n] := by
  simp [own, List.getD_eq_getElem?_getD, h]

theorem own_ext {a b : SectorMap} (h : ∀ n, n < 560 → own a n = own b n) : a = b := by
  apply Vector.ext
  intro i hi
  rw [← own_eq hi, ← own_eq hi]; exact h i hi

theorem fileForSector_ts (sm : SectorMap) {n : Nat} (h : n < 560) :
    fileForSector sm (ts n).1 (ts n).2 = own sm n := by
  unfold fileForSector
  rw [dif_neg (by rw [ts_fst h]; omega), dif_neg (by rw [ts_snd h]; omega), own_eq h]
  congr 1
  rw [ts_fst h, ts_snd h]; omega

theorem setFileForSector_ts (sm : SectorMap) {n : Nat} (h : n < 560) {f : UInt8}
    (hf : IsFileNumber f) :
    setFileForSector sm (ts n).1 (ts n).2 f = (.ok (), sm.set n f) := by
  unfold setFileForSector
  rw [dif_neg (by rw [ts_fst h]; omega), dif_neg (by rw [ts_snd h]; omega), if_neg]
  · congr 2
    rw [ts_fst h, ts_snd h]; omega
  · simp only [fileIllegal, fileFree, fileReserved]
    rintro (h | h | h)
    · exact hf.1 h
    · exact hf.2.2 h
    · exact hf.2.1 h

theorem readSector_ts {img : Bytes} (hi : img.length = 143360) {n : Nat} (h : n < 560) :
    readSector img (ts n).1 (ts n).2 = .ok (sectorNo img n) := by
  rw [readSector_eq, ts_fst h, ts_snd h, if_neg (by omega)]; rfl

theorem sectorNo_eq (img : Bytes) (n : Nat) : sectorNo img n = slice img (n * 256) 256 := by
  rw [sectorNo, sectorAt_eq_slice, Nat.div_add_mod]

theorem writeSector_ts {img : Bytes} (hi : img.length = 143360) {n : Nat} (h : n < 560) {d : Bytes}
    (hd : d.length = 256) :
    writeSector img (ts n).1 (ts n).2 d = (.ok (), put img (n * 256) d) := by
  rw [writeSector_eq, ts_fst h, ts_snd h, if_pos ⟨hd, by omega⟩,
    show 4096 * (n / 16) + 256 * (n % 16) = n * 256 by omega]

theorem sectorsForFile_eq (sm : SectorMap) (f : UInt8) :
    sectorsForFile sm f = (ownedBy (own sm) f).map ts := by
  unfold sectorsForFile ownedBy
  rw [allSectors_eq, List.filter_map]
  refine congrArg (List.map ts) ?_
  apply List.filter_congr
  intro n hn
  rw [Function.comp, fileForSector_ts sm (List.mem_range.1 hn)]
  simp [eq_comm]

theorem mem_ownedBy {m : Nat → UInt8} {f : UInt8} {n : Nat} :
    n ∈ ownedBy m f ↔ n < 560 ∧ m n = f := by simp [ownedBy]

theorem readFileLoop_eq {img : Bytes} (hi : img.length = 143360) (ns : List Nat)
    (hn : ∀ n ∈ ns, n < 560) (acc : Bytes) :
    readFileLoop img (ns.map ts) acc = .ok (acc ++ ns.flatMap fun n => sectorNo img n) := by
  induction ns generalizing acc with
  | nil => simp [readFileLoop]
  | cons n ns ih =>
    rw [List.map_cons]
    unfold readFileLoop
    rw [readSector_ts hi (hn n (by simp)), Out.bind_ok, ih (fun m hm => hn m (by simp [hm]))]
    simp

theorem readFile_eq {sm : SectorMap} {img : Bytes} (hi : img.length = 143360) (f : UInt8) :
    readFile sm img f = .ok (fileBytes (own sm) img f) := by
  unfold readFile
  rw [sectorsForFile_eq, readFileLoop_eq hi _ (fun n hn => (mem_ownedBy.1 hn).1)]
  simp [fileBytes]

theorem foldl_count (l : List UInt8) (c : Nat) :
    l.foldl (fun count file => if file = fileFree then count + 1 else count) c =
      c + (l.filter (· = fileFree)).length := by
  induction l generalizing c with
  | nil => simp
  | cons x xs ih =>
    rw [List.foldl_cons, ih, List.filter_cons]
    split <;> simp_all; omega

theorem toList_eq_map (sm : SectorMap) : sm.toList = (List.range 560).map (own sm) := by
  apply List.ext_getElem
  · simp
  · intro i h1 h2
    have : i < 560 := by simpa using h1
    rw [List.getElem_map, List.getElem_range, own_eq this]; simp

theorem freeSectors_eq (sm : SectorMap) : freeSectors sm = (ownedBy (own sm) 0xFF).length := by
  unfold freeSectors
  rw [foldl_count, toList_eq_map, List.filter_map, List.length_map, Nat.zero_add]
  rfl

theorem own_deleteFile (sm : SectorMap) (f : UInt8) {n : Nat} (h : n < 560) :
    own (deleteFile sm f) n = if own sm n = f then 0xFF else own sm n := by
  rw [own_eq h, own_eq h]
  simp [deleteFile, fileFree]

/-- Give the sectors in `t` to file `f`. -/
def claim (sm : SectorMap) (t : List Nat) (f : UInt8) : SectorMap :=
  Vector.ofFn fun n : Fin 560 => if n.val ∈ t then f else sm[n.val]

theorem own_claim (sm : SectorMap) (t : List Nat) (f : UInt8) {n : Nat} (h : n < 560) :
    own (claim sm t f) n = if n ∈ t then f else own sm n := by
  rw [own_eq h, own_eq h]; simp [claim]

theorem own_set (sm : SectorMap) (f : UInt8) {k n : Nat} (hk : k < 560) (h : n < 560) :
    own (sm.set k f) n = if n = k then f else own sm n := by
  rw [own_eq h, own_eq h, Vector.getElem_set]
  by_cases e : n = k
  · simp [e]
  · simp [e, Ne.symm e]

theorem claim_set (sm : SectorMap) (t : List Nat) (f : UInt8) {k : Nat} (hk : k < 560) :
    claim (sm.set k f) t f = claim sm (k :: t) f := by
  apply own_ext
  intro n hn
  rw [own_claim _ _ _ hn, own_claim _ _ _ hn, own_set _ _ hk hn]
  simp only [List.mem_cons]
  split <;> (try split) <;> simp_all

theorem claim_nil (sm : SectorMap) (f : UInt8) : claim sm [] f = sm := by
  apply own_ext
  intro n hn
  rw [own_claim _ _ _ hn]; simp

/-- The chunk writes of the allocation loop. -/
def chunks (cts : Bytes) (i : Nat) (t : List Nat) : List (Nat × Bytes) :=
  (t.zipIdx i).map fun p => (p.1, slice cts (p.2 * 256) 256)

/-- The allocation loop fills the first free sectors of the remaining ones. -/
theorem writeLoop_eq {cts : Bytes} {need : Nat} (hc : cts.length = 256 * need) {f : UInt8}
    (hf : IsFileNumber f) (ns : List Nat) (hn : ∀ n ∈ ns, n < 560) (hnd : ns.Nodup)
    (i : Nat) (hi : i < need) (sm : SectorMap) (img : Bytes) (himg : img.length = 143360)
    (hfree : need - i ≤ (ns.filter fun n => own sm n = 0xFF).length) :
    writeLoop cts need f (ns.map ts) i sm img =
      (.ok (), claim sm ((ns.filter fun n => own sm n = 0xFF).take (need - i)) f,
        putAll 256 (chunks cts i ((ns.filter fun n => own sm n = 0xFF).take (need - i))) img) := by
  induction ns generalizing i sm img with
  | nil => simp at hfree; omega
  | cons n ns ih =>
    have hn0 : n < 560 := hn n (by simp)
    have hns : ∀ m ∈ ns, m < 560 := fun m hm => hn m (by simp [hm])
    have hnd' := List.nodup_cons.1 hnd
    rw [List.map_cons]
    unfold writeLoop
    rw [fileForSector_ts sm hn0]
    by_cases hfr : own sm n = 0xFF
    · have hsl : (slice cts (i * 256) 256).length = 256 := by
        apply slice_length_of_le
        have : (i + 1) * 256 ≤ need * 256 := Nat.mul_le_mul_right _ hi
        omega
      rw [if_pos (by rw [hfr]; rfl), if_neg (by
        have : (i + 1) * 256 ≤ need * 256 := Nat.mul_le_mul_right _ hi
        omega), writeSector_ts himg hn0 hsl]
      simp only [setFileForSector_ts sm hn0 hf]
      have hfil : (n :: ns).filter (fun n => own sm n = 0xFF) =
          n :: ns.filter (fun n => own sm n = 0xFF) := by
        rw [List.filter_cons, if_pos (by simpa using hfr)]
      have hfil2 : ns.filter (fun m => own (sm.set n f) m = 0xFF) =
          ns.filter (fun n => own sm n = 0xFF) := by
        apply List.filter_congr
        intro m hm
        rw [own_set _ _ hn0 (hns m hm), if_neg]
        rintro rfl
        exact hnd'.1 hm
      rw [hfil] at hfree ⊢
      rw [List.length_cons] at hfree
      by_cases hlast : i + 1 = need
      · rw [if_pos hlast]
        have e : need - i = 1 := by omega
        rw [e]
        simp only [List.take_succ_cons, List.take_zero, chunks, List.zipIdx_cons, List.zipIdx_nil,
          List.map_cons, List.map_nil, putAll]
        rw [← claim_set _ _ _ hn0, claim_nil]
      · rw [if_neg hlast, ih hns hnd'.2 (i + 1) (by omega) (sm.set n f) _
          (by rw [put_length (by omega)]; exact himg) (by rw [hfil2]; omega), hfil2]
        have e : need - i = (need - (i + 1)) + 1 := by omega
        rw [e, List.take_succ_cons, claim_set _ _ _ hn0]
        simp [chunks, List.zipIdx_cons, putAll]
    · rw [if_neg (by simpa [fileFree] using hfr)]
      have hfil : (n :: ns).filter (fun n => own sm n = 0xFF) =
          ns.filter (fun n => own sm n = 0xFF) := by
        rw [List.filter_cons, if_neg (by simpa using hfr)]
      rw [hfil] at hfree ⊢
      exact ih hns hnd'.2 i hi sm img himg hfree

/-- With nothing to write the loop panics at the first free sector. -/
theorem writeLoop_empty (f : UInt8) (ns : List Nat) (hn : ∀ n ∈ ns, n < 560) (sm : SectorMap)
    (img : Bytes) :
    writeLoop [] 0 f (ns.map ts) 0 sm img =
      (if (ns.filter fun n => own sm n = 0xFF) = [] then .ok () else .panic, sm, img) := by
  induction ns with
  | nil => rfl
  | cons n ns ih =>
    have hn0 : n < 560 := hn n (by simp)
    have hns : ∀ m ∈ ns, m < 560 := fun m hm => hn m (by simp [hm])
    rw [List.map_cons]
    unfold writeLoop
    rw [fileForSector_ts sm hn0]
    by_cases hfr : own sm n = 0xFF
    · rw [if_pos (by rw [hfr]; rfl)]
      have e : (n :: ns).filter (fun n => own sm n = 0xFF) ≠ [] := by
        rw [List.filter_cons, if_pos (by simpa using hfr)]; simp
      simp only [e]
      simp
    · rw [if_neg (by simpa [fileFree] using hfr), ih hns]
      have e : (n :: ns).filter (fun n => own sm n = 0xFF) = ns.filter (fun n => own sm n = 0xFF) := by
        rw [List.filter_cons, if_neg (by simpa using hfr)]
      simp only [e]

/-! ## Load, persist, verify -/

theorem put_two {α : Type} {l : List α} {o : Nat} {a b : List α}
    (h : o + a.length + b.length ≤ l.length) :
    put (put l o a) (o + a.length) b = put l o (a ++ b) := by
  apply List.ext_getElem?
  intro i
  have h1 : (put l o a).length = l.length := put_length (by omega)
  rw [getElem?_put (by omega), getElem?_put (by omega), getElem?_put (by omega),
    List.length_append]
  by_cases c1 : i < o
  · rw [if_pos (by omega), if_pos c1, if_pos c1]
  · by_cases c2 : i < o + a.length
    · rw [if_pos c2, if_neg c1, if_pos c2, if_neg c1, if_pos (by omega),
        List.getElem?_append_left (by omega)]
    · by_cases c3 : i < o + a.length + b.length
      · rw [if_neg c2, if_pos c3, if_neg c1, if_pos (by omega),
          List.getElem?_append_right (by omega)]
        congr 1; omega
      · rw [if_neg c2, if_neg c3, if_neg c1, if_neg c2, if_neg c1, if_neg (by omega)]

theorem put_full {α : Type} {l d : List α} (h : d.length = l.length) : put l 0 d = d := by
  simp [put, h]

theorem loadSectorMap_eq (img : Bytes) (sm : SectorMap) :
    loadSectorMap img = .ok sm ↔ 3072 ≤ img.length ∧ sm.toList = slice img 2512 560 := by
  unfold loadSectorMap
  simp only [readSector_eq]
  simp only [show (0 : UInt8).toNat = 0 from rfl, show (9 : UInt8).toNat = 9 from rfl,
    show (0xA : UInt8).toNat = 10 from rfl, show (0xB : UInt8).toNat = 11 from rfl]
  by_cases h : 3072 ≤ img.length
  · rw [if_neg (by omega), if_neg (by omega), if_neg (by omega)]
    simp only [Out.bind_ok]
    have e9 : (sectorAt img 0 9).drop 0xd0 = slice img 2512 48 := by
      simp [sectorAt, slice, List.drop_take]
    have eA : sectorAt img 0 10 = slice img (2512 + 48) 256 := by simp [sectorAt, slice]
    have eB : sectorAt img 0 11 = slice img (2512 + 304) 256 := by simp [sectorAt, slice]
    have l9 : (slice img 2512 48).length = 48 := slice_length_of_le (by omega)
    have lA : (slice img (2512 + 48) 256).length = 256 := slice_length_of_le (by omega)
    have lB : (slice img (2512 + 304) 256).length = 256 := slice_length_of_le (by omega)
    have key : put (put (put (zeros 560) 0 ((sectorAt img 0 9).drop 0xd0)) 0x30 (sectorAt img 0 10))
        0x130 (sectorAt img 0 11) = slice img 2512 560 := by
      rw [e9, eA, eB]
      have p1 := put_two (l := zeros 560) (o := 0) (a := slice img 2512 48)
        (b := slice img (2512 + 48) 256) (by rw [l9, lA, zeros_length]; omega)
      rw [l9, slice_append_slice] at p1
      have p2 := put_two (l := zeros 560) (o := 0) (a := slice img 2512 (48 + 256))
        (b := slice img (2512 + 304) 256)
        (by rw [slice_length_of_le (by omega), lB, zeros_length]; omega)
      rw [slice_length_of_le (by omega), slice_append_slice] at p2
      rw [show (0x30 : Nat) = 0 + 48 from rfl, p1, show (0x130 : Nat) = 0 + (48 + 256) from rfl, p2,
        put_full]
      rw [zeros_length, slice_length_of_le (by omega)]
    rw [dif_pos (by rw [key, slice_length_of_le (by omega)])]
    simp only [Out.ok.injEq, h, true_and]
    constructor
    · rintro rfl; simpa using key
    · intro e
      apply Vector.toList_inj.1
      rw [e]
      exact (show _ = _ by simpa using key)
  · by_cases h1 : img.length < 4096 * 0 + 256 * 9 + 256
    · rw [if_pos h1]; simp; omega
    · rw [if_neg h1, Out.bind_ok]
      by_cases h2 : img.length < 4096 * 0 + 256 * 10 + 256
      · rw [if_pos h2]; simp; omega
      · rw [if_neg h2, if_pos (by omega)]; simp; omega

theorem loadSectorMap_cases (img : Bytes) :
    (∃ sm, loadSectorMap img = .ok sm) ∨ loadSectorMap img = .err .other := by
  by_cases h : 3072 ≤ img.length
  · left
    have hl : (slice img 2512 560).length = 560 := slice_length_of_le (by omega)
    exact ⟨⟨(slice img 2512 560).toArray, by simpa using hl⟩,
      (loadSectorMap_eq _ _).2 ⟨h, by simp⟩⟩
  · right
    unfold loadSectorMap
    simp only [readSector_eq]
    simp only [show (0 : UInt8).toNat = 0 from rfl, show (9 : UInt8).toNat = 9 from rfl,
      show (0xA : UInt8).toNat = 10 from rfl, show (0xB : UInt8).toNat = 11 from rfl]
    by_cases h1 : img.length < 4096 * 0 + 256 * 9 + 256
    · rw [if_pos h1]; simp
    · rw [if_neg h1, Out.bind_ok]
      by_cases h2 : img.length < 4096 * 0 + 256 * 10 + 256
      · rw [if_pos h2]; simp
      · rw [if_neg h2, if_pos (by omega)]; simp

theorem loaded_iff {img : Bytes} (h : 3072 ≤ img.length) (sm : SectorMap) :
    loadSectorMap img = .ok sm ↔ ∀ n, n < 560 → own sm n = owner img n := by
  rw [loadSectorMap_eq]
  constructor
  · rintro ⟨_, e⟩ n hn
    unfold own owner
    rw [e, List.getD_eq_getElem?_getD, getElem?_slice, if_pos hn, List.getD_eq_getElem?_getD]
  · intro e
    refine ⟨h, ?_⟩
    apply List.ext_getElem?
    intro i
    rw [getElem?_slice]
    by_cases hi : i < 560
    · rw [if_pos hi]
      have := e i hi
      unfold own owner at this
      rw [List.getD_eq_getElem?_getD, List.getD_eq_getElem?_getD] at this
      rw [List.getElem?_eq_getElem (by simpa using hi), List.getElem?_eq_getElem (by omega)] at this ⊢
      simpa using this
    · rw [if_neg hi, List.getElem?_eq_none (by simp; omega)]

theorem persist_eq {img : Bytes} (h : 3072 ≤ img.length) (sm : SectorMap) :
    persist sm img = (.ok (), put img 2512 sm.toList) := by
  have hl : sm.toList.length = 560 := by simp
  unfold persist
  rw [readSector_eq]
  simp only [show (0 : UInt8).toNat = 0 from rfl, show (9 : UInt8).toNat = 9 from rfl]
  rw [if_neg (by omega)]
  simp only []
  have s1 : (slice sm.toList 0 0x30).length = 48 := slice_length_of_le (by omega)
  have s2 : (slice sm.toList 0x30 0x100).length = 256 := slice_length_of_le (by omega)
  have s3 : (slice sm.toList 0x130 0x100).length = 256 := slice_length_of_le (by omega)
  have l9 : (sectorAt img 0 9).length = 256 := sectorAt_length (by omega)
  have lp : (put (sectorAt img 0 9) 0xd0 (slice sm.toList 0 0x30)).length = 256 := by
    rw [put_length (by omega), l9]
  have e1 : put img 2304 (put (sectorAt img 0 9) 0xd0 (slice sm.toList 0 0x30)) =
      put img 2512 (slice sm.toList 0 0x30) := by
    apply List.ext_getElem?
    intro i
    rw [getElem?_put (by omega), getElem?_put (by omega), lp, s1, getElem?_put (by omega), s1]
    rw [sectorAt_eq_slice, getElem?_slice]
    by_cases c1 : i < 2304
    · rw [if_pos c1, if_pos (by omega)]
    · by_cases c2 : i < 2512
      · rw [if_neg c1, if_pos (by omega), if_pos (by omega), if_pos (by omega), if_pos c2,
          show (16 * 0 + 9) * 256 + (i - 2304) = i by omega]
      · by_cases c3 : i < 2560
        · rw [if_neg c1, if_pos (by omega), if_neg (by omega), if_pos (by omega), if_neg c2,
            if_pos (by omega), show i - 2304 - 208 = i - 2512 by omega]
        · rw [if_neg c1, if_neg (by omega), if_neg c2, if_neg (by omega)]
  rw [writeSector_eq]
  simp only [show (0 : UInt8).toNat = 0 from rfl, show (9 : UInt8).toNat = 9 from rfl]
  rw [if_pos ⟨lp, by omega⟩]
  simp only []
  rw [show 4096 * 0 + 256 * 9 = 2304 from rfl, e1, writeSector_eq]
  simp only [show (0 : UInt8).toNat = 0 from rfl, show (0xA : UInt8).toNat = 10 from rfl]
  have pl1 : (put img 2512 (slice sm.toList 0 0x30)).length = img.length := put_length (by omega)
  rw [if_pos ⟨s2, by rw [pl1]; omega⟩]
  simp only []
  have p1 := put_two (l := img) (o := 2512) (a := slice sm.toList 0 0x30)
        (b := slice sm.toList 0x30 0x100) (by omega)
  rw [s1, show slice sm.toList 0x30 0x100 = slice sm.toList (0 + 0x30) 0x100 from rfl,
    slice_append_slice] at p1
  rw [show 4096 * 0 + 256 * 10 = 2512 + 48 from rfl,
    show slice sm.toList 0x30 0x100 = slice sm.toList (0 + 0x30) 0x100 from rfl, p1, writeSector_eq]
  simp only [show (0 : UInt8).toNat = 0 from rfl, show (0xB : UInt8).toNat = 11 from rfl]
  have s12 : (slice sm.toList 0 (0x30 + 0x100)).length = 304 := slice_length_of_le (by omega)
  have pl2 : (put img 2512 (slice sm.toList 0 (0x30 + 0x100))).length = img.length :=
    put_length (by omega)
  rw [if_pos ⟨s3, by rw [pl2]; omega⟩]
  have p2 := put_two (l := img) (o := 2512) (a := slice sm.toList 0 (0x30 + 0x100))
        (b := slice sm.toList 0x130 0x100) (by omega)
  rw [s12, show slice sm.toList 0x130 0x100 = slice sm.toList (0 + (0x30 + 0x100)) 0x100 from rfl,
    slice_append_slice] at p2
  rw [show 4096 * 0 + 256 * 11 = 2512 + 304 from rfl,
    show slice sm.toList 0x130 0x100 = slice sm.toList (0 + (0x30 + 0x100)) 0x100 from rfl, p2]
  congr 2
  rw [show 0x30 + 0x100 + 0x100 = sm.toList.length from hl.symm, slice_full]

theorem verify_ok_iff (sm : SectorMap) : verify sm = .ok () ↔ LegalMap (own sm) := by
  unfold verify LegalMap
  have h12 : ∀ s, s < 12 → fileForSector sm 0 (UInt8.ofNat s) = own sm s := by
    intro s hs
    have := fileForSector_ts sm (n := s) (by omega)
    have e : ts s = (0, UInt8.ofNat s) := by
      unfold ts
      rw [Nat.div_eq_of_lt (by omega), Nat.mod_eq_of_lt (by omega)]; rfl
    rw [e] at this; exact this
  split
  · rename_i h
    obtain ⟨s, hs, hne⟩ := h
    rw [h12 s (List.mem_range.1 hs)] at hne
    simp only [reduceCtorEq, false_iff, not_and]
    intro hall
    exact absurd (hall s (List.mem_range.1 hs)) hne
  · rename_i h1
    have h1' : ∀ n, n < 12 → own sm n = 0xFE := by
      intro n hn
      apply Classical.byContradiction
      intro hc
      exact h1 ⟨n, List.mem_range.2 hn, by rw [h12 n hn]; exact hc⟩
    split
    · rename_i h2
      obtain ⟨p, hp, he⟩ := h2
      rw [allSectors_eq] at hp
      obtain ⟨n, hn, rfl⟩ := List.mem_map.1 hp
      rw [fileForSector_ts sm (List.mem_range.1 hn)] at he
      simp only [reduceCtorEq, false_iff, not_and]
      intro _ hall
      exact hall n (List.mem_range.1 hn) he
    · rename_i h2
      simp only [true_iff]
      refine ⟨h1', ?_⟩
      intro n hn he
      apply h2
      refine ⟨ts n, ?_, ?_⟩
      · rw [allSectors_eq]; exact List.mem_map.2 ⟨n, List.mem_range.2 hn, rfl⟩
      · rw [fileForSector_ts sm hn]; exact he

theorem verify_cases (sm : SectorMap) : verify sm = .ok () ∨ verify sm = .err .other := by
  unfold verify
  split
  · simp
  · split <;> simp

end Verif.Supermon
