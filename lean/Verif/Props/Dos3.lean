import Verif.Proofs.Dos3File

/-!
# C11-C18: DOS 3.3 structures, catalog and file contents
-/

set_option autoImplicit false
set_option maxRecDepth 20000

namespace Verif.Dos3

open Verif Verif.Disk Verif.Spec

/-! ## C11 -/

/-- C11, VTOC: every 256-byte sector is decoded and encoded back to the same bytes. -/
theorem C11_vtoc_bytes (data : Bytes) (h : data.length = 256) (v0 : VTOC) :
    ∃ v, VTOC.fromSector v0 data = .ok v ∧ v.toSector = .ok data := VTOC.to_from v0 data h

/-- C11, catalog sector. -/
theorem C11_catalog_bytes (data : Bytes) (h : data.length = 256) (v0 : CatalogSector) :
    ∃ v, CatalogSector.fromSector v0 data = .ok v ∧ v.toSector = .ok data := CatalogSector.to_from v0 data h

/-- C11, track/sector list. -/
theorem C11_tslist_bytes (data : Bytes) (h : data.length = 256) (v0 : TrackSectorList) :
    ∃ v, TrackSectorList.fromSector v0 data = .ok v ∧ v.toSector = .ok data := TrackSectorList.to_from v0 data h

/-- C11: any other length is an error. -/
theorem C11_other_lengths (data : Bytes) (h : data.length ≠ 256) (v : VTOC) (c : CatalogSector)
    (t : TrackSectorList) : (VTOC.fromSector v data).isErr ∧ (CatalogSector.fromSector c data).isErr ∧
      (TrackSectorList.fromSector t data).isErr := by
  unfold VTOC.fromSector CatalogSector.fromSector TrackSectorList.fromSector
  rw [if_pos h, if_pos h, if_pos h]
  exact ⟨rfl, rfl, rfl⟩

/-- Non-vacuity. -/
example : (zeros 256).length = 256 ∧ (zeros 255).length ≠ 256 := by simp

/-! ## C12 -/

/-- C12, VTOC: encoding gives 256 bytes, and decoding them into any VTOC gives the same value,
with the location fields of the receiver. -/
theorem C12_vtoc_value (v v0 : VTOC) : ∃ bytes, v.toSector = .ok bytes ∧ bytes.length = 256 ∧
    VTOC.fromSector v0 bytes = .ok { v with track := v0.track, sector := v0.sector } := VTOC.from_to v v0

/-- C12, catalog sector. -/
theorem C12_catalog_value (v v0 : CatalogSector) : ∃ bytes, v.toSector = .ok bytes ∧ bytes.length = 256 ∧
    CatalogSector.fromSector v0 bytes = .ok { v with track := v0.track, sector := v0.sector } :=
  CatalogSector.from_to v v0

/-- C12, track/sector list. -/
theorem C12_tslist_value (v v0 : TrackSectorList) : ∃ bytes, v.toSector = .ok bytes ∧ bytes.length = 256 ∧
    TrackSectorList.fromSector v0 bytes = .ok { v with track := v0.track, sector := v0.sector } :=
  TrackSectorList.from_to v v0

/-- C12, file entry: 35 bytes, decoded to the same value. -/
theorem C12_filedesc_value (fd : FileDesc) :
    fd.toBytes.length = 35 ∧ FileDesc.fromBytes fd.toBytes 0 = fd :=
  ⟨fd.toBytes_length, FileDesc.from_to fd fun i _ => by rw [Nat.zero_add]⟩

/-- C12, on the image: storing a VTOC in its sector and loading that sector gives the same VTOC,
location fields included. -/
theorem C12_vtoc_stored (img : Bytes) (v : VTOC)
    (h : 4096 * v.track.toNat + 256 * v.sector.toNat + 256 ≤ img.length) :
    ∃ img', marshalVTOC img v = (.ok (), img') ∧ unmarshalVTOC img' v.track v.sector = .ok v := by
  obtain ⟨bytes, hb, hl, hf⟩ := VTOC.from_to v {}
  refine ⟨put img (4096 * v.track.toNat + 256 * v.sector.toNat) bytes, ?_, ?_⟩
  · unfold marshalVTOC
    rw [hb]
    simp only
    rw [writeSector_eq, if_pos ⟨hl, h⟩]
  · unfold unmarshalVTOC
    rw [readSector_eq, if_neg (by rw [put_length (by omega)]; omega), Out.bind_ok]
    have : sectorAt (put img (4096 * v.track.toNat + 256 * v.sector.toNat) bytes) v.track.toNat v.sector.toNat
        = bytes := by
      have := slice_put_same (l := img) (off := 4096 * v.track.toNat + 256 * v.sector.toNat) (d := bytes)
        (by omega)
      rw [hl] at this
      exact this
    rw [this, hf, Out.bind_ok]

/-- C12: where each field of the VTOC is stored (Beneath Apple DOS, page 4-2). -/
theorem C12_vtoc_layout (v : VTOC) (b : Bytes) (h : v.toSector = .ok b) :
    b.getD 0x01 0 = v.catalogTrack ∧ b.getD 0x02 0 = v.catalogSector ∧ b.getD 0x03 0 = v.dosRelease ∧
    b.getD 0x06 0 = v.volume ∧ b.getD 0x27 0 = v.trackSectorListMaxSize ∧ b.getD 0x30 0 = v.lastTrack ∧
    (b.getD 0x31 0).toInt8 = v.trackDirection ∧ b.getD 0x34 0 = v.numTracks ∧ b.getD 0x35 0 = v.numSectors ∧
    (b.getD 0x36 0).toNat + 256 * (b.getD 0x37 0).toNat = v.bytesPerSector.toNat ∧
    ∀ (t : Nat) (ht : t < 50) (k : Nat) (hk : k < 4), b.getD (0x38 + 4 * t + k) 0 = (v.freeSectors[t])[k] := by
  obtain ⟨b', hb, hl, hf⟩ := VTOC.from_to v {}
  rw [h] at hb
  obtain rfl := Out.ok.inj hb
  rw [VTOC.fromSector, if_neg (by simp [hl])] at hf
  have hf := Out.ok.inj hf
  obtain ⟨trk, sec, u1, ct, cs, dr, u2, vol, u3, tm, u4, lt, td, u5, nt, ns, bp, fs⟩ := v
  rw [VTOC.mk.injEq] at hf
  obtain ⟨-, -, -, h1, h2, h3, -, h4, -, h5, -, h6, h7, -, h8, h9, h10, h11⟩ := hf
  refine ⟨h1, h2, h3, h4, h5, h6, h7, h8, h9, ?_, ?_⟩
  · rw [← show rd16 b 0x36 = bp from h10, rd16, le16_toNat]; rfl
  · intro t ht k hk
    have := congrArg (fun v : Vector TrackFreeSectors 50 => (v[t])[k]) h11
    simp only [Vector.getElem_ofFn] at this
    rw [rdVec_getElem _ _ _ _ hk] at this
    exact this

/-- Non-vacuity: the default VTOC. -/
example : ∃ b, defaultVTOC.toSector = .ok b ∧ b.getD 0x01 0 = 0x11 ∧ b.getD 0x38 0 = 0xff := by
  obtain ⟨b, hb, _⟩ := C12_vtoc_value defaultVTOC {}
  have := C12_vtoc_layout _ _ hb
  refine ⟨b, hb, this.1, ?_⟩
  have h2 := this.2.2.2.2.2.2.2.2.2.2 0 (by omega) 0 (by omega)
  rw [show 0x38 + 4 * 0 + 0 = 0x38 from rfl] at h2
  rw [h2]; rfl

/-! ## C13 -/

theorem byte_bit_fin : ∀ (b : UInt8) (k : Fin 8),
    (decide (b &&& (1 <<< UInt8.ofNat k.val) > 0) = b.toNat.testBit k.val) := by
  decide +kernel

theorem byte_bit (b : UInt8) (k : UInt8) (h : k < 8) :
    (decide (b &&& (1 <<< k) > 0) = b.toNat.testBit k.toNat) := by
  have := byte_bit_fin b ⟨k.toNat, UInt8.lt_iff_toNat_lt.1 h⟩
  simpa using this

/-- C13: sector `s` is free exactly when it is below 16 and bit `s` of the big-endian 16-bit
number in the first two bitmap bytes is set. -/
theorem C13_is_free (t : TrackFreeSectors) (s : UInt8) :
    isFree t s = true ↔ s.toNat < 16 ∧ (256 * t[0].toNat + t[1].toNat).testBit s.toNat = true := by
  unfold isFree
  by_cases h : s ≥ 16
  · rw [if_pos h]
    have : 16 ≤ s.toNat := UInt8.le_iff_toNat_le.1 h
    simp; omega
  · rw [if_neg h]
    have h16 : s.toNat < 16 := by
      rw [ge_iff_le, UInt8.le_iff_toNat_le] at h
      have : (16 : UInt8).toNat = 16 := rfl
      omega
    have hm : (s % 8).toNat = s.toNat % 8 := by simp
    have hlt : s % 8 < 8 := by rw [UInt8.lt_iff_toNat_lt, hm]; show _ < 8; omega
    have key : (256 * t[0].toNat + t[1].toNat) = 2 ^ 8 * t[0].toNat + t[1].toNat := by omega
    rw [key, Nat.testBit_two_pow_mul_add _ (by exact t[1].toNat_lt)]
    by_cases h8 : s < 8
    · simp only [if_pos h8]
      have h8' : s.toNat < 8 := UInt8.lt_iff_toNat_lt.1 h8
      rw [byte_bit _ _ hlt, hm, if_pos h8', Nat.mod_eq_of_lt h8']
      simp [h16]
    · simp only [if_neg h8]
      have h8' : ¬ s.toNat < 8 := fun h' => h8 (UInt8.lt_iff_toNat_lt.2 h')
      rw [byte_bit _ _ hlt, hm, if_neg h8', show s.toNat % 8 = s.toNat - 8 by omega]
      simp [h16]

/-- C13: sectors 16 and up are never reported free (the doc comment says they always are). -/
theorem C13_out_of_range (t : TrackFreeSectors) (s : UInt8) (h : 16 ≤ s.toNat) : isFree t s = false := by
  cases hf : isFree t s with
  | false => rfl
  | true => have := (C13_is_free t s).1 hf; omega

/-- Non-vacuity: a bitmap with only sector 9 free. -/
example : isFree (#v[2, 0, 0, 0]) 9 = true ∧ isFree (#v[2, 0, 0, 0]) 1 = false := by decide

/-! ## C14 -/

/-- C14: `Validate` accepts exactly the normal VTOCs. -/
theorem C14_validate (v : VTOC) :
    v.validate = .ok () ↔
      v.volume ≠ 255 ∧ v.dosRelease = 3 ∧ (v.trackDirection = 1 ∨ v.trackDirection = -1) ∧
      v.numTracks = 35 ∧ (v.numSectors = 13 ∨ v.numSectors = 16) ∧ v.bytesPerSector = 256 ∧
      v.trackSectorListMaxSize = 122 ∧
      ∀ (t : Nat) (ht : t < 50), v.freeSectors[t][2] = 0 ∧ v.freeSectors[t][3] = 0 := by
  rw [VTOC.validate_ok_iff]
  have : (∀ tf ∈ v.freeSectors.toList, unusedClear tf = true) ↔
      ∀ (t : Nat) (ht : t < 50), v.freeSectors[t][2] = 0 ∧ v.freeSectors[t][3] = 0 := by
    constructor
    · intro h t ht
      have := h v.freeSectors[t] (by simp)
      unfold unusedClear at this
      simpa using this
    · intro h tf htf
      rw [Vector.mem_toList_iff, Vector.mem_iff_getElem] at htf
      obtain ⟨t, ht, rfl⟩ := htf
      unfold unusedClear
      simpa using h t ht
  rw [this]

/-- C14: rejection is an error, never a crash. -/
theorem C14_rejects_with_error (v : VTOC) : (v.validate).returns = true := by
  rcases v.validate_cases with h | h <;> rw [h] <;> rfl

theorem default_free (t : Nat) (ht : t < 50) :
    defaultVTOC.freeSectors[t] = if t < 35 then #v[0xff, 0xff, 0x00, 0x00] else #v[0, 0, 0, 0] := by
  unfold defaultVTOC
  simp only [Vector.getElem_ofFn]

/-- C14: the default VTOC is valid and marks exactly sectors 0-15 of tracks 0-34 free. -/
theorem C14_default :
    defaultVTOC.validate = .ok () ∧
    ∀ (t : Nat) (ht : t < 50) (s : UInt8),
      isFree defaultVTOC.freeSectors[t] s = true ↔ t < 35 ∧ s.toNat < 16 := by
  constructor
  · rw [C14_validate]
    refine ⟨by decide, rfl, Or.inl rfl, rfl, Or.inr rfl, rfl, rfl, ?_⟩
    intro t ht
    rw [default_free t ht]
    split <;> exact ⟨rfl, rfl⟩
  · intro t ht s
    rw [default_free t ht, C13_is_free]
    by_cases h : t < 35
    · rw [if_pos h]
      simp only [h, true_and]
      constructor
      · exact fun x => x.1
      · intro hs
        refine ⟨hs, ?_⟩
        have : ∀ n, n < 16 → (256 * (255 : UInt8).toNat + (255 : UInt8).toNat).testBit n = true := by decide
        exact this _ hs
    · rw [if_neg h]
      simp [h]

/-! ## C15 -/

/-- C15: when the catalog is read, the VTOC is normal, the links from the VTOC form a chain of
catalog sectors that ends, and the two lists are exactly the live and the deleted entries of that
chain, in order. -/
theorem C15_catalog (img : Bytes) (files deleted : List FileDesc)
    (h : readCatalog img = .ok (files, deleted)) :
    NormalVTOC img ∧ ∃ chain, Chain img (CatalogPlace img) (linkOf img vtocAt) chain ∧
      files.map FileDesc.toBytes = (entries img chain).filter (fun e => LiveEntry e) ∧
      deleted.map FileDesc.toBytes = (entries img chain).filter (fun e => DeletedEntry e) := by
  obtain ⟨hv, l, _, hc, hx⟩ := readCatalogFuel_ok h
  refine ⟨hv, l, hc, ?_, ?_⟩
  · rw [(Prod.mk.inj hx).1, filter_live, chain_entries (fun p hp => hp.2.2) hc]
  · rw [(Prod.mk.inj hx).2, filter_deleted, chain_entries (fun p hp => hp.2.2) hc]

/-- C15: and conversely such a disk can be read. -/
theorem C15_catalog_complete (img : Bytes) (hv : NormalVTOC img) (chain : List (Nat × Nat))
    (hc : Chain img (CatalogPlace img) (linkOf img vtocAt) chain) :
    ∃ files deleted, readCatalog img = .ok (files, deleted) ∧
      files.map FileDesc.toBytes = (entries img chain).filter (fun e => LiveEntry e) ∧
      deleted.map FileDesc.toBytes = (entries img chain).filter (fun e => DeletedEntry e) := by
  have hlen := chain_length hv hc
  refine ⟨_, _, readCatalogFuel_chain (fuel := 561) hv hc (by omega), ?_, ?_⟩
  · rw [filter_live, chain_entries (fun p hp => hp.2.2) hc]
  · rw [filter_deleted, chain_entries (fun p hp => hp.2.2) hc]

/-- The type shown for each DOS type byte (without the lock bit). -/
def shownType : UInt8 → Filetype
  | 0x00 => 0x04
  | 0x01 => 0xFA
  | 0x02 => 0xFC
  | 0x04 => 0x06
  | 0x08 => 0x100
  | 0x10 => 0xFE
  | 0x20 => 0x101
  | 0x40 => 0x102
  | _ => 0

theorem at8_toBytes (fd : FileDesc) :
    at8 fd.toBytes 1 = fd.trackSectorListSector ∧ at8 fd.toBytes 2 = fd.filetype ∧
    rdVec 30 fd.toBytes 3 = fd.filename ∧ rd16 fd.toBytes 0x21 = fd.sectorCount := by
  have := (C12_filedesc_value fd).2
  have h := congrArg FileDesc.trackSectorListSector this
  have h2 := congrArg FileDesc.filetype this
  have h3 := congrArg FileDesc.filename this
  have h4 := congrArg FileDesc.sectorCount this
  simp only [FileDesc.fromBytes, Nat.zero_add] at h h2 h3 h4
  exact ⟨h, h2, h3, h4⟩

theorem rdVec_toList {n : Nat} {d : Bytes} {off : Nat} (h : off + n ≤ d.length) :
    (rdVec n d off).toList = (d.drop off).take n := by
  apply at8_ext
  · simp; omega
  · intro i hi
    have hi' : i < n := by simpa using hi
    rw [at8_rdVec _ _ _ _ hi', at8_slice _ _ _ _ hi']

theorem filename_toList (fd : FileDesc) : fd.filename.toList = (fd.toBytes.drop 3).take 30 := by
  rw [← (at8_toBytes fd).2.2.1, rdVec_toList (by rw [fd.toBytes_length]; omega)]

theorem filenameString_eq (fd : FileDesc) (h : fd.status ≠ .deleted) :
    fd.filenameString = entryName fd.toBytes := by
  unfold FileDesc.filenameString entryName
  simp only [if_neg h]
  rw [filename_toList]
  rfl

theorem lock_bit : ∀ b : UInt8, decide (b &&& 0x80 > 0) = decide (128 ≤ b.toNat) := by decide +kernel

theorem shown_eq : ∀ t : UInt8,
    (if t = 0x00 then filetypeASCIIText
      else if t = 0x01 then filetypeIntegerBASIC
      else if t = 0x02 then filetypeApplesoftBASIC
      else if t = 0x04 then filetypeBinary
      else if t = 0x08 then filetypeS
      else if t = 0x10 then filetypeRelocatable
      else if t = 0x20 then filetypeNewA
      else if t = 0x40 then filetypeNewB
      else 0) = shownType t := by decide +kernel

theorem low_bits : ∀ b : UInt8, b &&& 0x7f = UInt8.ofNat (b.toNat % 128) := by decide +kernel

/-- What `ls` shows for a live entry, from the 35 bytes of the entry. -/
def shownFor (e : Bytes) : Descriptor :=
  { name := entryName e
    sectors := (e.getD 0x21 0).toNat + 256 * (e.getD 0x22 0).toNat
    length := -1
    locked := decide (128 ≤ (e.getD 2 0).toNat)
    type := shownType (UInt8.ofNat ((e.getD 2 0).toNat % 128)) }

theorem descriptor_eq (fd : FileDesc) (h : fd.status ≠ .deleted) : fd.descriptor = shownFor fd.toBytes := by
  unfold FileDesc.descriptor shownFor
  have h2 := at8_toBytes fd
  have hsc : (fd.toBytes.getD 0x21 0).toNat + 256 * (fd.toBytes.getD 0x22 0).toNat = fd.sectorCount.toNat := by
    rw [← h2.2.2.2, rd16, le16_toNat]; rfl
  rw [filenameString_eq fd h, show fd.toBytes.getD 2 0 = fd.filetype from h2.2.1, hsc.symm]
  simp only [shown_eq, lock_bit, low_bits]
  rfl

/-- C15: `Catalog` shows one descriptor per live entry of the chain, in order. -/
theorem C15_shown (img : Bytes) (descs : List Descriptor) (subdir : Str)
    (h : Operator.catalog ⟨img⟩ subdir = .ok descs) :
    ∃ chain, Chain img (CatalogPlace img) (linkOf img vtocAt) chain ∧
      descs = ((entries img chain).filter (fun e => LiveEntry e)).map shownFor := by
  unfold Operator.catalog at h
  obtain ⟨⟨files, deleted⟩, h1, h2⟩ := Out.bind_eq_ok.1 h
  obtain ⟨_, chain, hc, hf, _⟩ := C15_catalog img files deleted h1
  refine ⟨chain, hc, ?_⟩
  rw [← hf, List.map_map, ← Out.ok.inj h2]
  apply List.map_congr_left
  intro fd hfd
  refine descriptor_eq fd ?_
  have : fd.toBytes ∈ (entries img chain).filter (fun e => LiveEntry e) := by
    rw [← hf]; exact List.mem_map.2 ⟨fd, hfd, rfl⟩
  have := (List.mem_filter.1 this).2
  rw [decide_eq_true_iff, ← status_normal] at this
  rw [this]; decide

/-! ## C16 -/

/-- The links from the VTOC never reach 0/0 and never leave the places allowed for catalog sectors. -/
def CatalogLoops (img : Bytes) : Prop :=
  NormalVTOC img ∧ ∀ n, walk img (linkOf img vtocAt) n ≠ (0, 0) ∧ CatalogPlace img (walk img (linkOf img vtocAt) n)

/-- C16 (what holds): reading the catalog finishes, with a result or an error, unless the chain of
catalog sectors loops; then no number of steps is enough. -/
theorem C16_terminates_partial (img : Bytes) :
    (¬ CatalogLoops img → (readCatalog img).returns = true ∧
      ∀ fuel, 561 ≤ fuel → readCatalogFuel fuel img = readCatalog img) ∧
    (CatalogLoops img → ∀ fuel, readCatalogFuel fuel img = .timeout) := by
  have loop_of_timeout : ∀ fuel, 561 ≤ fuel → readCatalogFuel fuel img = .timeout → CatalogLoops img := by
    intro fuel hf h
    obtain ⟨hv, hw⟩ := readCatalogFuel_timeout_iff.1 h
    refine ⟨hv, ?_⟩
    obtain ⟨i, j, hij, hj, e⟩ := walk_repeats (img := img) (p := linkOf img vtocAt) (a := 35) (b := 16)
      (fun n hn => catalogPlace_bound hv (hw n (by omega)).2)
    exact walk_periodic hij e (fun q => q ≠ (0, 0) ∧ CatalogPlace img q) (fun n hn => hw n (by omega))
  constructor
  · intro hnl
    have hnt : ∀ fuel, 561 ≤ fuel → readCatalogFuel fuel img ≠ .timeout := fun fuel hf h =>
      hnl (loop_of_timeout fuel hf h)
    have hr : (readCatalog img).returns = true := by
      cases h : readCatalog img with
      | ok a => rfl
      | err k => rfl
      | panic => exact absurd h readCatalogFuel_no_panic
      | timeout => exact absurd h (hnt 561 (by omega))
    refine ⟨hr, ?_⟩
    intro fuel hf
    cases h : readCatalogFuel fuel img with
    | ok x =>
      obtain ⟨hv, l, hl, hc, e⟩ := readCatalogFuel_ok h
      have := chain_length hv hc
      unfold readCatalog
      rw [readCatalogFuel_chain hv hc (by omega), e]
    | err k =>
      cases h' : readCatalog img with
      | ok x =>
        obtain ⟨hv, l, hl, hc, e⟩ := readCatalogFuel_ok h'
        rw [readCatalogFuel_chain hv hc (by omega)] at h
        simp at h
      | err k' => rw [readCatalogFuel_err h, readCatalogFuel_err h']
      | panic => exact absurd h' readCatalogFuel_no_panic
      | timeout => exact absurd h' (hnt 561 (by omega))
    | panic => exact absurd h readCatalogFuel_no_panic
    | timeout => exact absurd h (hnt fuel hf)
  · rintro ⟨hv, hw⟩ fuel
    exact readCatalogFuel_timeout_iff.2 ⟨hv, fun n _ => hw n⟩

/-- C16: the bound 561 used by the model loses nothing. -/
theorem C16_timeout_is_divergence (img : Bytes) :
    readCatalog img = .timeout ↔ ∀ fuel, readCatalogFuel fuel img = .timeout := by
  constructor
  · intro h
    by_cases hl : CatalogLoops img
    · exact (C16_terminates_partial img).2 hl
    · have := ((C16_terminates_partial img).1 hl).1
      rw [h] at this; simp at this
  · intro h; exact h 561

/-! ### A disk whose catalog loops -/

theorem sectorAt_wit (l : Bytes) (n s : Nat) (h : 256 * s + 256 ≤ l.length) :
    sectorAt (zeros 69632 ++ (l ++ zeros n)) 17 s = (l.drop (256 * s)).take 256 := by
  unfold sectorAt
  rw [List.drop_append, List.drop_of_length_le (by rw [zeros_length]; omega), List.nil_append, zeros_length,
    show 4096 * 17 + 256 * s - 69632 = 256 * s by omega, List.drop_append_of_le_length (by omega),
    List.take_append_of_le_length (by rw [List.length_drop]; omega)]

/-- A normal VTOC sector with the given catalog link and no free sectors. -/
def vtocBytes (t s : UInt8) : Bytes :=
  [0, t, s, 3, 0, 0, 1] ++ zeros 32 ++ [122] ++ zeros 8 ++ [0, 1, 0, 0, 35, 16, 0, 1] ++ zeros 200

theorem vtocBytes_length (t s : UInt8) : (vtocBytes t s).length = 256 := by
  simp [vtocBytes]

/-- A VTOC whose catalog link is its own sector. -/
def loopVTOC : Bytes := vtocBytes 17 0

/-- A blank floppy image with that VTOC. -/
def loopDisk : Bytes := zeros 69632 ++ (loopVTOC ++ zeros 73472)

theorem loopVTOC_length : loopVTOC.length = 256 := vtocBytes_length _ _

theorem loopDisk_length : loopDisk.length = 143360 := by
  unfold loopDisk
  rw [List.length_append, List.length_append, zeros_length, zeros_length, loopVTOC_length]

theorem loopDisk_byte (i : Nat) : sbyte loopDisk vtocAt i = loopVTOC.getD i 0 := by
  unfold sbyte loopDisk vtocAt
  rw [sectorAt_wit _ _ 0 (by rw [loopVTOC_length]), Nat.mul_zero, List.drop_zero,
    List.take_of_length_le (by rw [loopVTOC_length])]

theorem getD_append_left {a b : Bytes} {i : Nat} (h : i < a.length) : (a ++ b).getD i 0 = a.getD i 0 := by
  simp [List.getD_eq_getElem?_getD, List.getElem?_append_left h]

theorem vtocBytes_tail (t s : UInt8) (i : Nat) (h : 56 ≤ i) : (vtocBytes t s).getD i 0 = 0 := by
  unfold vtocBytes
  rw [List.getD_eq_getElem?_getD, List.getElem?_append_right (by simp; omega), getElem?_zeros]
  split <;> rfl

theorem vtocBytes_head (t s : UInt8) (i : Nat) (h : i < 56) :
    (vtocBytes t s).getD i 0 =
      ([0, t, s, 3, 0, 0, 1] ++ zeros 32 ++ [122] ++ zeros 8 ++ [0, 1, 0, 0, 35, 16, 0, 1]).getD i 0 := by
  unfold vtocBytes
  exact getD_append_left (by simp; omega)

theorem normal_of_vtocBytes {img : Bytes} {t s : UInt8} (h0 : 69888 ≤ img.length)
    (h : ∀ i, sbyte img vtocAt i = (vtocBytes t s).getD i 0) :
    NormalVTOC img ∧ linkOf img vtocAt = (t.toNat, s.toNat) ∧ (sbyte img vtocAt 0x35).toNat = 16 := by
  unfold NormalVTOC linkOf
  simp only [h]
  refine ⟨⟨h0, ?_, ?_, ?_, ?_, ?_, ?_, ?_, ?_, ?_⟩, ?_, ?_⟩
  all_goals try rw [vtocBytes_head _ _ _ (by omega)]
  · simp [zeros, List.replicate]
  · simp [zeros, List.replicate]
  · left; simp [zeros, List.replicate]
  · simp [zeros, List.replicate]
  · right; simp [zeros, List.replicate]
  · simp [zeros, List.replicate]
  · simp [zeros, List.replicate]
  · simp [zeros, List.replicate]
  · intro k _
    rw [vtocBytes_tail _ _ _ (by omega), vtocBytes_tail _ _ _ (by omega)]
    exact ⟨rfl, rfl⟩
  · rw [vtocBytes_head _ _ _ (by omega)]
    simp [zeros, List.replicate]
  · simp [zeros, List.replicate]

theorem loopDisk_facts : NormalVTOC loopDisk ∧ linkOf loopDisk vtocAt = (17, 0) ∧
    (sbyte loopDisk vtocAt 0x35).toNat = 16 :=
  normal_of_vtocBytes (t := 17) (s := 0) (by rw [loopDisk_length]; omega) loopDisk_byte

theorem loopDisk_link : linkOf loopDisk vtocAt = vtocAt := loopDisk_facts.2.1

theorem seemsToMatch_timeout {img : Bytes} (h : ∀ fuel, readCatalogFuel fuel img = .timeout) :
    factory.seemsToMatch img = .timeout := by
  have h561 : readCatalog img = .timeout := h 561
  show seemsToMatch img = _
  unfold seemsToMatch
  rw [h561]

/-- C16 is violated: on a 143360-byte image with a valid VTOC whose catalog link points at itself,
`ReadCatalog` never returns, and neither does `SeemsToMatch`. -/
theorem C16_violated : ∃ img : Bytes, img.length = 143360 ∧
    (∀ fuel, readCatalogFuel fuel img = .timeout) ∧ factory.seemsToMatch img = .timeout := by
  have hl : CatalogLoops loopDisk := by
    refine ⟨loopDisk_facts.1, ?_⟩
    have hw : ∀ n, walk loopDisk (linkOf loopDisk vtocAt) n = vtocAt := by
      intro n
      induction n with
      | zero => exact loopDisk_link
      | succ n ih => rw [walk, ih, loopDisk_link]
    intro n
    rw [hw]
    refine ⟨by decide, by decide, ?_, ?_⟩
    · rw [loopDisk_facts.2.2]; decide
    · unfold OnImage; rw [loopDisk_length]; decide
  have ht := (C16_terminates_partial loopDisk).2 hl
  exact ⟨loopDisk, loopDisk_length, ht, seemsToMatch_timeout ht⟩

/-! ## C17 -/

/-- C17: reading a file's sectors returns data or an error, for every image and every entry. -/
theorem C17_terminates (fd : FileDesc) (img : Bytes) : (contents fd img).returns = true := by
  rcases Classical.em (∃ l, Chain img (OnImage img) (nat2 fd.trackSectorListTrack fd.trackSectorListSector) l)
    with ⟨l, hl⟩ | h
  · rw [(contents_eq fd img).1 l hl]; split <;> rfl
  · rw [(contents_eq fd img).2 h]; rfl

/-- C17: a chain of track/sector lists that comes back to a sector is reported as an error. -/
theorem C17_revisit_is_error (fd : FileDesc) (img : Bytes) (i j : Nat) (hij : i < j)
    (h : walk img (fd.trackSectorListTrack.toNat, fd.trackSectorListSector.toNat) i =
      walk img (fd.trackSectorListTrack.toNat, fd.trackSectorListSector.toNat) j)
    (hn : ∀ n, n < j → walk img (fd.trackSectorListTrack.toNat, fd.trackSectorListSector.toNat) n ≠ (0, 0)) :
    (contents fd img).isErr = true := by
  have hall := walk_periodic hij h (fun q => q ≠ (0, 0)) hn
  rw [(contents_eq fd img).2]
  · rfl
  · rintro ⟨l, hl⟩
    exact hall l.length (hl.walk_get).1

/-- Non-vacuity: an entry pointing at the looping sector of `loopDisk`. -/
example : walk loopDisk (17, 0) 0 = walk loopDisk (17, 0) 1 ∧ walk loopDisk (17, 0) 0 ≠ (0, 0) :=
  ⟨loopDisk_link.symm, by rw [walk]; decide⟩

/-- C17: the exact condition for data: the links end at 0/0 and every sector met or named is on
the image. -/
theorem C17_succeeds_iff (fd : FileDesc) (img : Bytes) :
    (contents fd img).isOk = true ↔
      ∃ l, Chain img (OnImage img) (fd.trackSectorListTrack.toNat, fd.trackSectorListSector.toNat) l ∧
        ∀ p ∈ l, ∀ q ∈ pairs img p, q ≠ (0, 0) → OnImage img q := by
  have hmem : ∀ l : List (Nat × Nat), Readable img (codePairs img l) ↔
      ∀ p ∈ l, ∀ q ∈ pairs img p, q ≠ (0, 0) → OnImage img q := by
    intro l
    induction l with
    | nil => simp [codePairs, Readable]
    | cons p l ih =>
      have hused : ∀ ps : List (Nat × Nat), Readable img (usedPart ps) ↔ Readable img ps := by
        intro ps
        unfold usedPart
        split
        · exact Iff.rfl
        · unfold Readable
          constructor
          · intro h q hq hne
            refine h q ?_ hne
            unfold withoutTrailing
            rw [List.mem_reverse]
            have hm : q ∈ ps.reverse := by simpa using hq
            generalize ps.reverse = m at hm
            clear h hq
            induction m with
            | nil => exact hm
            | cons y m ihm =>
              rw [List.dropWhile_cons]
              split
              · rename_i hy
                rcases List.mem_cons.1 hm with e | hm
                · exact absurd (by rw [e]; simpa using hy) hne
                · exact ihm hm
              · exact hm
          · intro h q hq
            refine h q ?_
            rw [← withoutTrailing_prefix] at hq
            exact List.mem_of_mem_take hq
      cases l with
      | nil =>
        rw [codePairs, hused]
        simp [Readable]
      | cons r l =>
        rw [codePairs, readable_append, ih]
        simp only [List.mem_cons, forall_eq_or_imp, Readable]
  constructor
  · intro h
    rcases Classical.em (∃ l, Chain img (OnImage img) (nat2 fd.trackSectorListTrack fd.trackSectorListSector) l)
      with ⟨l, hl⟩ | hn
    · refine ⟨l, hl, ?_⟩
      rw [(contents_eq fd img).1 l hl] at h
      by_cases hr : Readable img (codePairs img l)
      · exact (hmem l).1 hr
      · rw [if_neg hr] at h; simp at h
    · rw [(contents_eq fd img).2 hn] at h; simp at h
  · rintro ⟨l, hl, hr⟩
    rw [(contents_eq fd img).1 l hl, if_pos ((hmem l).2 hr)]; rfl

/-! ## C18 -/

/-- C18: the data are the sectors named by the lists, holes read as zeros, if the last list names
at least one sector.  Missing: a last list of 122 holes, see `C18_all_holes` and `C18_violated`. -/
theorem C18_contents_partial (fd : FileDesc) (img : Bytes) (s : Slice) (h : contents fd img = .ok s) :
    ∃ l, Chain img (OnImage img) (fd.trackSectorListTrack.toNat, fd.trackSectorListSector.toNat) l ∧
      (LastListUsed img l → s.data = pairsData img (filePairs img l)) := by
  rcases Classical.em (∃ l, Chain img (OnImage img) (nat2 fd.trackSectorListTrack fd.trackSectorListSector) l)
    with ⟨l, hl⟩ | hn
  · refine ⟨l, hl, fun hu => ?_⟩
    rw [(contents_eq fd img).1 l hl] at h
    by_cases hr : Readable img (codePairs img l)
    · rw [if_pos hr] at h
      rw [← Out.ok.inj h, codePairs_eq hu]
    · rw [if_neg hr] at h; simp at h
  · rw [(contents_eq fd img).2 hn] at h; simp at h

/-- C18: a last list without any sector is read as 122 sectors of zeros. -/
theorem C18_all_holes (fd : FileDesc) (img : Bytes) (s : Slice) (h : contents fd img = .ok s)
    (pre : List (Nat × Nat)) (p : Nat × Nat)
    (hl : Chain img (OnImage img) (fd.trackSectorListTrack.toNat, fd.trackSectorListSector.toNat) (pre ++ [p]))
    (hp : ∀ q ∈ pairs img p, q = (0, 0)) :
    s.data = pairsData img (pre.flatMap (pairs img)) ++ List.replicate (256 * 122) 0 := by
  have hcode : ∀ pre : List (Nat × Nat), codePairs img (pre ++ [p]) = pre.flatMap (pairs img) ++ pairs img p := by
    intro pre
    induction pre with
    | nil =>
      show usedPart (pairs img p) = _
      unfold usedPart
      rw [if_pos hp]; rfl
    | cons a pre ih =>
      rw [List.flatMap_cons, List.append_assoc, ← ih]
      cases pre <;> rfl
  have hholes : pairsData img (pairs img p) = List.replicate (256 * 122) 0 := by
    have gen : ∀ ps : List (Nat × Nat), (∀ q ∈ ps, q = (0, 0)) →
        pairsData img ps = List.replicate (256 * ps.length) 0 := by
      intro ps
      induction ps with
      | nil => intro _; rfl
      | cons a ps ih =>
        intro h
        unfold pairsData at ih ⊢
        rw [List.flatMap_cons, if_pos (h a (by simp)), ih (fun q hq => h q (by simp [hq])),
          List.replicate_append_replicate, List.length_cons]
        exact congrArg (fun n => List.replicate n (0 : UInt8)) (by omega)
    rw [gen _ hp, pairs_length]
  rw [(contents_eq fd img).1 _ hl] at h
  by_cases hr : Readable img (codePairs img (pre ++ [p]))
  · rw [if_pos hr] at h
    rw [← Out.ok.inj h]
    show pairsData img (codePairs img (pre ++ [p])) = _
    rw [hcode, pairsData, List.flatMap_append]
    exact congrArg _ hholes
  · rw [if_neg hr] at h; simp at h

end Verif.Dos3
