import Verif.Props.ProdosVolume
import Verif.Props.ProdosRecog

/-!
# C46-C48: example volumes, and volumes on which C47 fails

The volumes are floppy images (143360 bytes) on which blocks 2, 3 and 4 are in use.
-/

set_option autoImplicit false
set_option maxRecDepth 20000
set_option linter.unusedSectionVars false

namespace Verif.Prodos

open Verif Verif.Disk Verif.Spec Verif.Spec.Prodos

/-- A floppy image with the given blocks 2, 3 and 4. -/
def dev (b2 b3 b4 : Bytes) : Bytes := zeros 1024 ++ (b2 ++ (b3 ++ (b4 ++ zeros 140800)))

/-- A directory block: link, header, two entries, nothing else. -/
def dirBlock (next : UInt8) (header e1 e2 : Bytes) : Bytes :=
  [0, 0, next, 0] ++ (header ++ (e1 ++ (e2 ++ zeros 391)))

/-- Header of a subdirectory called "A" with the given parent pointer. -/
def hdrA (parent : UInt8) : Bytes := [0xE1, 0x41] ++ (zeros 33 ++ [parent, 0, 0, 0])

/-- Entry of storage type `t`, named with one letter, with the given key block. -/
def entry (t : UInt8) (c : UInt8) (key : UInt8) : Bytes := [t, c] ++ (zeros 14 ++ ([4, key, 0] ++ zeros 20))

theorem dirBlock_length {next : UInt8} {h e1 e2 : Bytes} (l0 : h.length = 39) (l1 : e1.length = 39) (l2 : e2.length = 39) :
    (dirBlock next h e1 e2).length = 512 := by
  unfold dirBlock
  simp only [List.length_append, zeros_length, l0, l1, l2]; rfl

section dev
variable {b2 b3 b4 : Bytes} (h2 : b2.length = 512) (h3 : b3.length = 512) (h4 : b4.length = 512)
include h2 h3 h4

theorem dev_length : (dev b2 b3 b4).length = 143360 := by
  unfold dev
  simp only [List.length_append, zeros_length, h2, h3, h4]

theorem dev_block2 : blockAt (dev b2 b3 b4) 2 = b2 := by
  unfold blockAt dev
  rw [List.drop_append_of_le_length (by rw [zeros_length]), List.drop_of_length_le (by rw [zeros_length]), List.nil_append,
    List.take_append_of_le_length (by omega), List.take_of_length_le (by omega)]

theorem dev_block3 : blockAt (dev b2 b3 b4) 3 = b3 := by
  unfold blockAt dev
  rw [List.drop_append, List.drop_of_length_le (by rw [zeros_length]; omega), List.nil_append, zeros_length,
    List.drop_append, List.drop_of_length_le (by omega), List.nil_append, h2, List.drop_zero,
    List.take_append_of_le_length (by omega), List.take_of_length_le (by omega)]

theorem dev_block4 : blockAt (dev b2 b3 b4) 4 = b4 := by
  unfold blockAt dev
  rw [List.drop_append, List.drop_of_length_le (by rw [zeros_length]; omega), List.nil_append, zeros_length,
    List.drop_append, List.drop_of_length_le (by omega), List.nil_append, h2,
    List.drop_append, List.drop_of_length_le (by omega), List.nil_append, h3, List.drop_zero,
    List.take_append_of_le_length (by omega), List.take_of_length_le (by omega)]

theorem dev_on {b : Nat} (hb : b < 280) : OnDevice (dev b2 b3 b4) b := by
  unfold OnDevice
  rw [dev_length h2 h3 h4]; omega

end dev

/-- The link in a block. -/
def linkOf (b : Bytes) : Nat := (b.getD 2 0).toNat + 256 * (b.getD 3 0).toNat

/-- The entries in a key block. -/
def entriesOf (b : Bytes) : List Bytes := (List.range 12).map fun k => (b.drop (43 + 39 * k)).take 39

theorem nextOf_of {img b : Bytes} {k : Nat} (h : blockAt img k = b) : nextOf img k = linkOf b := by
  unfold nextOf word bbyte linkOf
  rw [h]

theorem dirBlocks_of {img b : Bytes} {k : Nat} (h : blockAt img k = b) (ho : OnDevice img k) (hl : linkOf b = 0) :
    DirBlocks img k [] := by
  refine ⟨ho, ?_⟩
  rw [nextOf_of h, hl]; exact .done

theorem dirEntries_of {img b : Bytes} {k : Nat} (h : blockAt img k = b) : dirEntries img k [] = entriesOf b := by
  unfold dirEntries keyEntries recordAt entriesOf
  rw [h]; simp

theorem child_of {img b : Bytes} {k : Nat} (h : blockAt img k = b) (ho : OnDevice img k) (hl : linkOf b = 0) (j : Nat) :
    Child img k j ↔ ∃ e ∈ entriesOf b, storageType e = 13 ∧ j = keyPointerOf e := by
  have hd := dirBlocks_of h ho hl
  constructor
  · rintro ⟨l, e, hdl, he, h1, h2⟩
    have := hdl.unique hd
    subst this
    rw [dirEntries_of h] at he
    exact ⟨e, he, h1, h2⟩
  · rintro ⟨e, he, h1, h2⟩
    exact ⟨[], e, hd, by rw [dirEntries_of h]; exact he, h1, h2⟩

/-! ## A well-formed volume -/

/-- The volume directory holds subdirectory "A" in block 3, which holds the file "F" of one block. -/
def goodDev : Bytes :=
  dev (dirBlock 0 (zeros 39) (entry 0xD1 0x41 3) (zeros 39)) (dirBlock 0 (hdrA 2) (entry 0x11 0x46 7) (zeros 39)) (zeros 512)

theorem good2 : blockAt goodDev 2 = dirBlock 0 (zeros 39) (entry 0xD1 0x41 3) (zeros 39) :=
  dev_block2 (by decide +kernel) (by decide +kernel) (by decide +kernel)
theorem good3 : blockAt goodDev 3 = dirBlock 0 (hdrA 2) (entry 0x11 0x46 7) (zeros 39) :=
  dev_block3 (by decide +kernel) (by decide +kernel) (by decide +kernel)
theorem good_on {b : Nat} (hb : b < 280) : OnDevice goodDev b :=
  dev_on (by decide +kernel) (by decide +kernel) (by decide +kernel) hb

theorem good_child2 (j : Nat) : Child goodDev 2 j ↔ j = 3 := by
  rw [child_of good2 (good_on (by omega)) (by decide +kernel)]
  have : ∀ e ∈ entriesOf (dirBlock 0 (zeros 39) (entry 0xD1 0x41 3) (zeros 39)), storageType e = 13 → keyPointerOf e = 3 := by
    decide +kernel
  have h' : ∃ e ∈ entriesOf (dirBlock 0 (zeros 39) (entry 0xD1 0x41 3) (zeros 39)), storageType e = 13 := by decide +kernel
  constructor
  · rintro ⟨e, he, h1, rfl⟩; exact this e he h1
  · rintro rfl
    obtain ⟨e, he, h1⟩ := h'
    exact ⟨e, he, h1, (this e he h1).symm⟩

theorem good_child3 (j : Nat) : ¬ Child goodDev 3 j := by
  rw [child_of good3 (good_on (by omega)) (by decide +kernel)]
  have : ∀ e ∈ entriesOf (dirBlock 0 (hdrA 2) (entry 0x11 0x46 7) (zeros 39)), storageType e ≠ 13 := by decide +kernel
  rintro ⟨e, he, h1, _⟩
  exact this e he h1

theorem good_subdir (k : Nat) : Subdir goodDev k ↔ k = 3 := by
  constructor
  · intro h
    induction h with
    | single h => exact (good_child2 _).1 h
    | tail _ h ih => subst ih; exact absurd h (good_child3 _)
  · rintro rfl; exact .single ((good_child2 3).2 rfl)

theorem good_parent : parentPointer goodDev 3 = 2 := by
  unfold parentPointer word bbyte
  rw [good3]; decide +kernel

theorem good_name : headerName goodDev 3 = str "A" := by
  unfold headerName recordAt
  rw [good3]; decide +kernel

theorem good_inDir (b : Nat) : InDir goodDev 3 b → b = 3 := by
  rintro ⟨l, hl, h⟩
  have := hl.unique (dirBlocks_of good3 (good_on (by omega)) (by decide +kernel))
  subst this
  simpa using h

theorem good_fullPath : FullPath goodDev 3 (str "A") := by
  rw [← good_name]
  refine .top ⟨[], dirBlocks_of good2 (good_on (by omega)) (by decide +kernel), Or.inl good_parent⟩

theorem good_distinct : DistinctPaths goodDev := by
  intro k k' p h1 h2 _ _
  rw [good_subdir] at h1 h2
  rw [h1, h2]

theorem good_onePath : OnePath goodDev := by
  have key : ∀ p, FullPath goodDev 3 p → p = str "A" := by
    intro p h
    generalize hk : 3 = k at h
    cases h with
    | top _ => rw [← hk]; exact good_name
    | nested h1 h2 _ =>
      rw [good_subdir] at h1
      subst h1 hk
      exact absurd (good_inDir _ h2) (by rw [good_parent]; omega)
  intro k p p' hk h1 h2
  rw [good_subdir] at hk
  subst hk
  rw [key p h1, key p' h2]

theorem good_length : goodDev.length = 143360 :=
  dev_length (by decide +kernel) (by decide +kernel) (by decide +kernel)

theorem good_ends (k : Nat) (hk : k = 2 ∨ Subdir goodDev k) : ¬ Endless goodDev (nextOf goodDev k) := by
  intro he
  have h2 : nextOf goodDev 2 = 0 := by rw [nextOf_of good2]; decide +kernel
  have h3 : nextOf goodDev 3 = 0 := by rw [nextOf_of good3]; decide +kernel
  have := (he 0).1
  rw [good_subdir] at hk
  rcases hk with rfl | rfl
  · exact this h2
  · exact this h3

theorem good_nesting (k : Nat) (hk : Subdir goodDev k) : ¬ Relation.TransGen (Child goodDev) k k := by
  rw [good_subdir] at hk
  subst hk
  have : ∀ j, ¬ Relation.TransGen (Child goodDev) 3 j := by
    intro j hj
    induction hj with
    | single h => exact good_child3 _ h
    | tail _ _ ih => exact ih
  exact this 3

theorem good_parents (k : Nat) (hk : Subdir goodDev k) : ¬ Relation.TransGen (Parent goodDev) k k := by
  rw [good_subdir] at hk
  subst hk
  have : ∀ j, ¬ Relation.TransGen (Parent goodDev) 3 j := by
    intro j hj
    induction hj with
    | single h =>
      obtain ⟨h1, h2⟩ := h
      rw [good_subdir] at h1
      subst h1
      exact absurd (good_inDir _ h2) (by rw [good_parent]; omega)
    | tail _ _ ih => exact ih
  exact this 3

/-- Non-vacuity of C47: the example volume meets its hypotheses. -/
theorem good_terminates : ∃ n₀, ∀ n, n₀ ≤ n → ∀ ord, (readVolume n ord goodDev 2).returns := by
  obtain ⟨n₀, h⟩ := C47_terminates_partial goodDev (by rw [good_length]; omega) good_ends good_nesting good_parents
  exact ⟨n₀, fun n hn ord => (h n hn ord).1⟩

/-- Non-vacuity of C70: the example volume, which has a subdirectory, is recognised. -/
theorem good_recognised : ∃ n₀, ∀ n, n₀ ≤ n → ∀ ord, seemsToMatch n ord goodDev = .ok true := by
  obtain ⟨n₀, h⟩ := C70_recognised_partial goodDev (by rw [good_length]; omega) good_ends good_nesting good_parents
  refine ⟨n₀, fun n hn ord => (h n hn ord).1 ⟨fun i hi => ?_, ?_, fun j hj => ?_, fun k hk => ?_⟩⟩
  · rw [good_length] at hi; omega
  · exact ⟨[], dirBlocks_of good2 (good_on (by omega)) (by decide +kernel)⟩
  · rw [good_subdir] at hj
    subst hj
    exact ⟨[], dirBlocks_of good3 (good_on (by omega)) (by decide +kernel)⟩
  · rw [good_subdir] at hk
    subst hk
    exact Or.inl ⟨[], dirBlocks_of good2 (good_on (by omega)) (by decide +kernel), Or.inl good_parent⟩

/-! ## Reading small volumes -/

theorem readVolume_of {img b : Bytes} (h : blockAt img 2 = b) (ho : OnDevice img 2) (hl : linkOf b = 0)
    (hlen : img.length < 512 * 4096) (n : Nat) (ord : RangeOrder UInt16 Subdirectory) :
    ∃ vbm, readVolume n ord img 2 =
      (subdirLoop n n img (subdirDescriptors ((entriesOf b).map fdOf)) [] [] >>= fun r =>
        nameLoop n 2 r.1 r.2 (ord.visit r.1) [] >>= fun m => .ok ⟨volKey img 2, [], vbm, r.1, m, r.2⟩) := by
  obtain ⟨vbm, hv, _⟩ := C43_violated img (volKey img 2).header.bitMapPointer hlen
  refine ⟨vbm, ?_⟩
  have hd := dirBlocks_of h ho hl
  have hc := chainLoop_chain (reads_volume img) hd.2 n (volKey img 2).next (volKey_next img 2)
  rw [if_pos (by simp)] at hc
  have hdesc := vol_descriptors (k := 2) hd
  unfold readVolume
  rw [unmarshalVolumeKey_eq img 2 ho, Out.bind_ok, hv, Out.bind_ok, hc, Out.bind_ok]
  dsimp only
  have e2 : (2 : UInt16).toNat = 2 := rfl
  rw [hdesc, e2, dirEntries_of h]
  rfl

theorem readSubdirectory_of {img b : Bytes} {fd : FileDescriptor} (h : blockAt img fd.keyPointer.toNat = b)
    (ho : OnDevice img fd.keyPointer.toNat) (hl : linkOf b = 0) (n : Nat) :
    readSubdirectory n img fd = .ok (subOf img fd.keyPointer []) := by
  rw [readSubdirectory_chain n (dirBlocks_of h ho hl), if_pos (by simp)]

/-- The example volume can be read, and lists the file under the path "A". -/
theorem good_reads (ord : RangeOrder UInt16 Subdirectory) : (readVolume 1 ord goodDev 2).isOk := by
  obtain ⟨vbm, h⟩ := readVolume_of good2 (good_on (by omega)) (by decide +kernel)
    (by have : goodDev.length = 143360 := dev_length (by decide +kernel) (by decide +kernel) (by decide +kernel)
        omega) 1 ord
  rw [h]
  have hq : subdirDescriptors ((entriesOf (dirBlock 0 (zeros 39) (entry 0xD1 0x41 3) (zeros 39))).map fdOf) =
      [fdOf (entry 0xD1 0x41 3)] := by decide +kernel
  have hkp : (fdOf (entry 0xD1 0x41 3)).keyPointer = 3 := by decide +kernel
  have hd3 : DirBlocks goodDev (3 : UInt16).toNat [] := dirBlocks_of good3 (good_on (by decide)) (by decide +kernel)
  have hs : readSubdirectory 1 goodDev (fdOf (entry 0xD1 0x41 3)) = .ok (subOf goodDev 3 []) := by
    have := readSubdirectory_of (img := goodDev) (fd := fdOf (entry 0xD1 0x41 3))
      ((congrArg (fun x => blockAt _ (UInt16.toNat x)) hkp).trans good3) (by rw [hkp]; exact good_on (by decide)) (by decide +kernel) 1
    rw [this, hkp]
  have hsub : subdirDescriptors (subOf goodDev 3 []).descriptors = [] := by
    have e3 : (3 : UInt16).toNat = 3 := rfl
    rw [subOf_descriptors hd3, e3, dirEntries_of good3]
    decide +kernel
  have hloop : subdirLoop 1 1 goodDev [fdOf (entry 0xD1 0x41 3)] [] [] = .ok ([(3, subOf goodDev 3 [])], []) := by
    rw [subdirLoop, hs, Out.bind_ok, hsub, hkp, List.nil_append, subdirLoop]
    rfl
  rw [hq, hloop, Out.bind_ok]
  obtain ⟨m, hm⟩ := nameLoop_isOk (n := 1) (bb := [(3, subOf goodDev 3 [])]) (f := [])
    (l := ord.visit [(3, subOf goodDev 3 [])]) (fun e he => by
      have := mem_visit.1 he
      rw [List.mem_singleton] at this
      subst this
      have hpp : (subOf goodDev 3 []).keyBlock.header.parentPointer = 2 := by
        rw [← UInt16.toNat_inj]
        show (subKey goodDev 3).header.parentPointer.toNat = _
        rw [subKey_parent]; exact good_parent
      unfold pathName
      dsimp only
      rw [hpp, parentDirName, if_pos (Or.inl rfl)]
      exact ⟨_, rfl⟩) []
  rw [hm]; rfl

/-- Non-vacuity of C46 and C48: the example volume meets their hypotheses; the path "A" shows the
file "F". -/
theorem good_lists (ord : RangeOrder UInt16 Subdirectory) :
    Operator.catalog 1 ord ⟨goodDev⟩ (str "A") = .ok [⟨str "F", [], 0, 0, 0, false, 4⟩] := by
  obtain ⟨l, hl, h⟩ := C46_complete 1 ord goodDev (good_reads ord) good_distinct good_onePath 3 (str "A")
    ((good_subdir 3).2 rfl) good_fullPath (by decide)
  have := hl.unique (dirBlocks_of good3 (good_on (by omega)) (by decide +kernel))
  subst this
  rw [h, dirEntries_of good3]
  decide +kernel

/-! ## C47 fails: three volumes on which reading never ends -/

/-- The volume directory's key block links to itself. -/
def loopDev : Bytes := dev (dirBlock 2 (zeros 39) (zeros 39) (zeros 39)) (zeros 512) (zeros 512)

/-- C47 fails: a directory chain that loops. -/
theorem C47_violated_chain (n : Nat) (ord : RangeOrder UInt16 Subdirectory) : readVolume n ord loopDev 2 = .timeout := by
  have h2 : blockAt loopDev 2 = dirBlock 2 (zeros 39) (zeros 39) (zeros 39) :=
    dev_block2 (by decide +kernel) (by decide +kernel) (by decide +kernel)
  have ho : OnDevice loopDev 2 := dev_on (by decide +kernel) (by decide +kernel) (by decide +kernel) (by omega)
  have hnext : nextOf loopDev 2 = 2 := by rw [nextOf_of h2]; decide +kernel
  have hw : ∀ k, blockWalk loopDev 2 k = 2 := by
    intro k
    induction k with
    | zero => rfl
    | succ k ih => show nextOf loopDev (blockWalk loopDev 2 k) = 2; rw [ih, hnext]
  have hlen : loopDev.length < 512 * 4096 := by
    have : loopDev.length = 143360 := dev_length (by decide +kernel) (by decide +kernel) (by decide +kernel)
    omega
  obtain ⟨vbm, hv, _⟩ := C43_violated loopDev (volKey loopDev 2).header.bitMapPointer hlen
  unfold readVolume
  rw [unmarshalVolumeKey_eq loopDev 2 ho, Out.bind_ok, hv, Out.bind_ok,
    chainLoop_endless (reads_volume loopDev) n _ (by
      have e2 : (2 : UInt16).toNat = 2 := rfl
      rw [volKey_next, e2, hnext]
      intro k
      rw [hw k]
      exact ⟨by omega, ho⟩)]
  rfl

/-- Subdirectory "A" contains an entry for itself. -/
def selfDev : Bytes :=
  dev (dirBlock 0 (zeros 39) (entry 0xD1 0x41 3) (zeros 39)) (dirBlock 0 (hdrA 2) (entry 0xD1 0x41 3) (zeros 39)) (zeros 512)

/-- C47 fails: a subdirectory that contains itself. -/
theorem C47_violated_self (n : Nat) (ord : RangeOrder UInt16 Subdirectory) : readVolume n ord selfDev 2 = .timeout := by
  have h2 : blockAt selfDev 2 = dirBlock 0 (zeros 39) (entry 0xD1 0x41 3) (zeros 39) :=
    dev_block2 (by decide +kernel) (by decide +kernel) (by decide +kernel)
  have h3 : blockAt selfDev 3 = dirBlock 0 (hdrA 2) (entry 0xD1 0x41 3) (zeros 39) :=
    dev_block3 (by decide +kernel) (by decide +kernel) (by decide +kernel)
  have ho : ∀ {b}, b < 280 → OnDevice selfDev b := fun hb =>
    dev_on (by decide +kernel) (by decide +kernel) (by decide +kernel) hb
  have hlen : selfDev.length < 512 * 4096 := by
    have : selfDev.length = 143360 := dev_length (by decide +kernel) (by decide +kernel) (by decide +kernel)
    omega
  have hkp : (fdOf (entry 0xD1 0x41 3)).keyPointer = 3 := by decide +kernel
  have hd3 : DirBlocks selfDev (3 : UInt16).toNat [] := dirBlocks_of h3 (ho (by decide)) (by decide +kernel)
  have e3 : (3 : UInt16).toNat = 3 := rfl
  have hs : ∀ c, readSubdirectory c selfDev (fdOf (entry 0xD1 0x41 3)) = .ok (subOf selfDev 3 []) := by
    intro c
    have := readSubdirectory_of (img := selfDev) (fd := fdOf (entry 0xD1 0x41 3))
      ((congrArg (fun x => blockAt _ (UInt16.toNat x)) hkp).trans h3) (by rw [hkp]; exact ho (by decide)) (by decide +kernel) c
    rw [this, hkp]
  have hsub : subdirDescriptors (subOf selfDev 3 []).descriptors = [fdOf (entry 0xD1 0x41 3)] := by
    rw [subOf_descriptors hd3, e3, dirEntries_of h3]
    decide +kernel
  have hloop : ∀ c m bb f, subdirLoop c m selfDev [fdOf (entry 0xD1 0x41 3)] bb f = .timeout := by
    intro c m
    induction m with
    | zero => intro bb f; rw [subdirLoop]
    | succ m ih =>
      intro bb f
      rw [subdirLoop, hs, Out.bind_ok, hsub, List.nil_append]
      exact ih _ _
  have hq : subdirDescriptors ((entriesOf (dirBlock 0 (zeros 39) (entry 0xD1 0x41 3) (zeros 39))).map fdOf) =
      [fdOf (entry 0xD1 0x41 3)] := by decide +kernel
  obtain ⟨vbm, h⟩ := readVolume_of h2 (ho (by omega)) (by decide +kernel) hlen n ord
  rw [h, hq, hloop]
  rfl

/-- The parent pointer of subdirectory "A" leads to "A". -/
def parentDev : Bytes :=
  dev (dirBlock 0 (zeros 39) (entry 0xD1 0x41 3) (zeros 39)) (dirBlock 0 (hdrA 3) (zeros 39) (zeros 39)) (zeros 512)

/-- C47 fails: a parent pointer that loops makes the recursion unbounded. -/
theorem C47_violated_parent (n : Nat) (ord : RangeOrder UInt16 Subdirectory) :
    readVolume (n + 1) ord parentDev 2 = .timeout := by
  have h2 : blockAt parentDev 2 = dirBlock 0 (zeros 39) (entry 0xD1 0x41 3) (zeros 39) :=
    dev_block2 (by decide +kernel) (by decide +kernel) (by decide +kernel)
  have h3 : blockAt parentDev 3 = dirBlock 0 (hdrA 3) (zeros 39) (zeros 39) :=
    dev_block3 (by decide +kernel) (by decide +kernel) (by decide +kernel)
  have ho : ∀ {b}, b < 280 → OnDevice parentDev b := fun hb =>
    dev_on (by decide +kernel) (by decide +kernel) (by decide +kernel) hb
  have hlen : parentDev.length < 512 * 4096 := by
    have : parentDev.length = 143360 := dev_length (by decide +kernel) (by decide +kernel) (by decide +kernel)
    omega
  have hkp : (fdOf (entry 0xD1 0x41 3)).keyPointer = 3 := by decide +kernel
  have hd3 : DirBlocks parentDev (3 : UInt16).toNat [] := dirBlocks_of h3 (ho (by decide)) (by decide +kernel)
  have e3 : (3 : UInt16).toNat = 3 := rfl
  have hs : readSubdirectory (n + 1) parentDev (fdOf (entry 0xD1 0x41 3)) = .ok (subOf parentDev 3 []) := by
    have := readSubdirectory_of (img := parentDev) (fd := fdOf (entry 0xD1 0x41 3))
      ((congrArg (fun x => blockAt _ (UInt16.toNat x)) hkp).trans h3) (by rw [hkp]; exact ho (by decide)) (by decide +kernel) (n + 1)
    rw [this, hkp]
  have hsub : subdirDescriptors (subOf parentDev 3 []).descriptors = [] := by
    rw [subOf_descriptors hd3, e3, dirEntries_of h3]
    decide +kernel
  have hloop : subdirLoop (n + 1) (n + 1) parentDev [fdOf (entry 0xD1 0x41 3)] [] [] =
      .ok ([(3, subOf parentDev 3 [])], []) := by
    rw [subdirLoop, hs, Out.bind_ok, hsub, hkp, List.nil_append, subdirLoop]
    rfl
  have hq : subdirDescriptors ((entriesOf (dirBlock 0 (zeros 39) (entry 0xD1 0x41 3) (zeros 39))).map fdOf) =
      [fdOf (entry 0xD1 0x41 3)] := by decide +kernel
  have hpp : (subOf parentDev 3 []).keyBlock.header.parentPointer = 3 := by
    rw [← UInt16.toNat_inj]
    show (subKey parentDev 3).header.parentPointer.toNat = _
    rw [subKey_parent]
    unfold parentPointer word bbyte
    rw [e3, h3]; decide +kernel
  have hrec : ∀ m, parentDirName m 3 2 [(3, subOf parentDev 3 [])] [] = .timeout := by
    intro m
    have hf : findParent [(3, subOf parentDev 3 [])] [] 3 = some (subOf parentDev 3 []) := rfl
    induction m with
    | zero => rw [parentDirName, if_neg (by decide), hf]
    | succ m ih =>
      rw [parentDirName, if_neg (by decide), hf]
      dsimp only
      rw [hpp, ih]; rfl
  have hname : nameLoop (n + 1) 2 [(3, subOf parentDev 3 [])] [] [(3, subOf parentDev 3 [])] [] = .timeout := by
    rw [nameLoop_cons]
    unfold pathName
    dsimp only
    rw [hpp, hrec]; rfl
  obtain ⟨vbm, h⟩ := readVolume_of h2 (ho (by omega)) (by decide +kernel) hlen (n + 1) ord
  have hvisit : ord.visit [(3, subOf parentDev 3 [])] = [(3, subOf parentDev 3 [])] :=
    List.perm_singleton.1 (ord.perm _)
  rw [h, hq, hloop, Out.bind_ok]
  dsimp only
  rw [hvisit, hname]
  rfl

/-! ## C48: two subdirectories with the same full path -/

/-- The volume directory holds two subdirectories called "A", in blocks 3 and 4; only the second has a file. -/
def twinDev : Bytes :=
  dev (dirBlock 0 (zeros 39) (entry 0xD1 0x41 3) (entry 0xD1 0x41 4)) (dirBlock 0 (hdrA 2) (zeros 39) (zeros 39))
    (dirBlock 0 (hdrA 2) (entry 0x11 0x46 7) (zeros 39))

/-- C48 needs distinct full paths: the order of map iteration decides which subdirectory is
listed. -/
theorem C48_needs_distinct_paths : Operator.catalog 2 .stored ⟨twinDev⟩ (str "A") = .ok [] ∧
    Operator.catalog 2 .reversed ⟨twinDev⟩ (str "A") = .ok [⟨str "F", [], 0, 0, 0, false, 4⟩] := by
  have h2 : blockAt twinDev 2 = dirBlock 0 (zeros 39) (entry 0xD1 0x41 3) (entry 0xD1 0x41 4) :=
    dev_block2 (by decide +kernel) (by decide +kernel) (by decide +kernel)
  have h3 : blockAt twinDev 3 = dirBlock 0 (hdrA 2) (zeros 39) (zeros 39) :=
    dev_block3 (by decide +kernel) (by decide +kernel) (by decide +kernel)
  have h4 : blockAt twinDev 4 = dirBlock 0 (hdrA 2) (entry 0x11 0x46 7) (zeros 39) :=
    dev_block4 (by decide +kernel) (by decide +kernel) (by decide +kernel)
  have ho : ∀ {b}, b < 280 → OnDevice twinDev b := fun hb =>
    dev_on (by decide +kernel) (by decide +kernel) (by decide +kernel) hb
  have hlen : twinDev.length < 512 * 4096 := by
    have : twinDev.length = 143360 := dev_length (by decide +kernel) (by decide +kernel) (by decide +kernel)
    omega
  have k3 : (fdOf (entry 0xD1 0x41 3)).keyPointer = 3 := by decide +kernel
  have k4 : (fdOf (entry 0xD1 0x41 4)).keyPointer = 4 := by decide +kernel
  have e3 : (3 : UInt16).toNat = 3 := rfl
  have e4 : (4 : UInt16).toNat = 4 := rfl
  have d3 : DirBlocks twinDev (3 : UInt16).toNat [] := dirBlocks_of h3 (ho (by decide)) (by decide +kernel)
  have d4 : DirBlocks twinDev (4 : UInt16).toNat [] := dirBlocks_of h4 (ho (by decide)) (by decide +kernel)
  have s3 : readSubdirectory 2 twinDev (fdOf (entry 0xD1 0x41 3)) = .ok (subOf twinDev 3 []) := by
    have := readSubdirectory_of (img := twinDev) (fd := fdOf (entry 0xD1 0x41 3))
      ((congrArg (fun x => blockAt _ (UInt16.toNat x)) k3).trans h3) (by rw [k3]; exact ho (by decide)) (by decide +kernel) 2
    rw [this, k3]
  have s4 : readSubdirectory 2 twinDev (fdOf (entry 0xD1 0x41 4)) = .ok (subOf twinDev 4 []) := by
    have := readSubdirectory_of (img := twinDev) (fd := fdOf (entry 0xD1 0x41 4))
      ((congrArg (fun x => blockAt _ (UInt16.toNat x)) k4).trans h4) (by rw [k4]; exact ho (by decide)) (by decide +kernel) 2
    rw [this, k4]
  have desc3 : (subOf twinDev 3 []).descriptors =
      (entriesOf (dirBlock 0 (hdrA 2) (zeros 39) (zeros 39))).map fdOf := by
    rw [subOf_descriptors d3, e3, dirEntries_of h3]
  have desc4 : (subOf twinDev 4 []).descriptors =
      (entriesOf (dirBlock 0 (hdrA 2) (entry 0x11 0x46 7) (zeros 39))).map fdOf := by
    rw [subOf_descriptors d4, e4, dirEntries_of h4]
  have hsub3 : subdirDescriptors (subOf twinDev 3 []).descriptors = [] := by rw [desc3]; decide +kernel
  have hsub4 : subdirDescriptors (subOf twinDev 4 []).descriptors = [] := by rw [desc4]; decide +kernel
  have hloop : subdirLoop 2 2 twinDev [fdOf (entry 0xD1 0x41 3), fdOf (entry 0xD1 0x41 4)] [] [] =
      .ok ([(4, subOf twinDev 4 []), (3, subOf twinDev 3 [])], []) := by
    rw [subdirLoop, s3, Out.bind_ok, hsub3, k3, List.append_nil, subdirLoop, s4, Out.bind_ok, hsub4, k4,
      List.append_nil, subdirLoop]
    rfl
  have hq : subdirDescriptors
      ((entriesOf (dirBlock 0 (zeros 39) (entry 0xD1 0x41 3) (entry 0xD1 0x41 4))).map fdOf) =
      [fdOf (entry 0xD1 0x41 3), fdOf (entry 0xD1 0x41 4)] := by decide +kernel
  have hp3 : (subOf twinDev 3 []).keyBlock.header.parentPointer = 2 := by
    rw [← UInt16.toNat_inj]
    show (subKey twinDev 3).header.parentPointer.toNat = _
    rw [subKey_parent]
    unfold parentPointer word bbyte
    rw [e3, h3]; decide +kernel
  have hp4 : (subOf twinDev 4 []).keyBlock.header.parentPointer = 2 := by
    rw [← UInt16.toNat_inj]
    show (subKey twinDev 4).header.parentPointer.toNat = _
    rw [subKey_parent]
    unfold parentPointer word bbyte
    rw [e4, h4]; decide +kernel
  have n3 : (subOf twinDev 3 []).keyBlock.header.name = str "A" := by
    show (subKey twinDev 3).header.name = _
    rw [subKey_name (ho (by omega)), e3]
    unfold headerName recordAt
    rw [h3]; decide +kernel
  have n4 : (subOf twinDev 4 []).keyBlock.header.name = str "A" := by
    show (subKey twinDev 4).header.name = _
    rw [subKey_name (ho (by omega)), e4]
    unfold headerName recordAt
    rw [h4]; decide +kernel
  have p3 : ∀ bb f, pathName 2 bb f (subOf twinDev 3 []) = .ok (str "A") := by
    intro bb f
    unfold pathName
    rw [hp3, n3, parentDirName, if_pos (Or.inl rfl)]; rfl
  have p4 : ∀ bb f, pathName 2 bb f (subOf twinDev 4 []) = .ok (str "A") := by
    intro bb f
    unfold pathName
    rw [hp4, n4, parentDirName, if_pos (Or.inl rfl)]; rfl
  constructor
  · obtain ⟨vbm, h⟩ := readVolume_of h2 (ho (by omega)) (by decide +kernel) hlen 2 .stored
    unfold Operator.catalog
    rw [h, hq, hloop, Out.bind_ok]
    show (nameLoop 2 2 _ _ [(4, subOf twinDev 4 []), (3, subOf twinDev 3 [])] [] >>= _) >>= _ = _
    rw [nameLoop_cons, p4, Out.bind_ok, nameLoop_cons, p3, Out.bind_ok, nameLoop, Out.bind_ok, Out.bind_ok,
      if_neg (by decide)]
    show Out.ok (listed (subOf twinDev 3 []).descriptors) = _
    rw [desc3]; decide +kernel
  · obtain ⟨vbm, h⟩ := readVolume_of h2 (ho (by omega)) (by decide +kernel) hlen 2 .reversed
    unfold Operator.catalog
    rw [h, hq, hloop, Out.bind_ok]
    show (nameLoop 2 2 _ _ [(3, subOf twinDev 3 []), (4, subOf twinDev 4 [])] [] >>= _) >>= _ = _
    rw [nameLoop_cons, p3, Out.bind_ok, nameLoop_cons, p4, Out.bind_ok, nameLoop, Out.bind_ok, Out.bind_ok,
      if_neg (by decide)]
    show Out.ok (listed (subOf twinDev 4 []).descriptors) = _
    rw [desc4]; decide +kernel

end Verif.Prodos
