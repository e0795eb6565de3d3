import Verif.Proofs.Dos3Sector
import Verif.Proofs.Dos3Chain
import Verif.Proofs.Disk

/-!
# The DOS 3.3 catalog loop
-/

set_option autoImplicit false
set_option maxRecDepth 20000

namespace Verif.Dos3

open Verif Verif.Disk Verif.Spec

/-- A sector by its bytes on the image. -/
abbrev nat2 (t s : UInt8) : Nat × Nat := (t.toNat, s.toNat)

theorem nat2_eq_zero {t s : UInt8} : nat2 t s = (0, 0) ↔ t = 0 ∧ s = 0 := by
  simp only [nat2, Prod.mk.injEq]
  constructor
  · rintro ⟨h1, h2⟩
    exact ⟨UInt8.toNat_inj.1 (by simpa using h1), UInt8.toNat_inj.1 (by simpa using h2)⟩
  · rintro ⟨rfl, rfl⟩; simp

theorem ne_zero_iff {t s : UInt8} : (t ≠ 0 ∨ s ≠ 0) ↔ nat2 t s ≠ (0, 0) := by
  rw [show (nat2 t s ≠ (0, 0)) ↔ ¬ (nat2 t s = (0, 0)) from Iff.rfl, nat2_eq_zero]
  by_cases h1 : t = 0 <;> by_cases h2 : s = 0 <;> simp [h1, h2]

theorem linkOf_eq (img : Bytes) (p : Nat × Nat) :
    linkOf img p = nat2 (at8 (sectorAt img p.1 p.2) 1) (at8 (sectorAt img p.1 p.2) 2) := rfl

/-- What is decoded from sector `p` as a catalog sector. -/
def csAt (img : Bytes) (t s : UInt8) : CatalogSector where
  track := t
  sector := s
  unused1 := at8 (sectorAt img t.toNat s.toNat) 0x00
  nextTrack := at8 (sectorAt img t.toNat s.toNat) 0x01
  nextSector := at8 (sectorAt img t.toNat s.toNat) 0x02
  unused2 := rdVec 8 (sectorAt img t.toNat s.toNat) 0x03
  fileDescs := Vector.ofFn fun i : Fin 7 => FileDesc.fromBytes (sectorAt img t.toNat s.toNat) (0x0b + 35 * i.val)

theorem unmarshalCatalogSector_eq (img : Bytes) (t s : UInt8) :
    unmarshalCatalogSector img t s =
      if img.length < 4096 * t.toNat + 256 * s.toNat + 256 then .err .other else .ok (csAt img t s) := by
  unfold unmarshalCatalogSector
  rw [readSector_eq]
  by_cases h : img.length < 4096 * t.toNat + 256 * s.toNat + 256
  · rw [if_pos h, if_pos h]; rfl
  · rw [if_neg h, if_neg h, Out.bind_ok, CatalogSector.fromSector, if_neg]
    · rfl
    · rw [sectorAt_length (by omega)]; simp

/-- The file entries decoded from sector `p`. -/
def fdsAt (img : Bytes) (p : Nat × Nat) : List FileDesc :=
  (List.range 7).map fun i => FileDesc.fromBytes (sectorAt img p.1 p.2) (0x0b + 35 * i)

theorem csAt_fds (img : Bytes) (t s : UInt8) : (csAt img t s).fileDescs.toList = fdsAt img (nat2 t s) := by
  apply List.ext_getElem
  · simp [fdsAt]
  · intro i h1 h2
    have hi : i < 7 := by simpa using h1
    simp [csAt, fdsAt]

/-- The range checks of the loop. -/
def inRange (img : Bytes) (nt ns : UInt8) (p : Nat × Nat) : Prop :=
  p.1 < nt.toNat ∧ p.2 < ns.toNat ∧ OnImage img p

theorem catalogLoop_succ (img : Bytes) (nt ns t s : UInt8) (fuel : Nat) (css : List CatalogSector) :
    catalogLoop img nt ns (fuel + 1) t s [] css =
      if nat2 t s = (0, 0) then .ok css
      else if t.toNat < nt.toNat ∧ s.toNat < ns.toNat ∧ 4096 * t.toNat + 256 * s.toNat + 256 ≤ img.length then
        catalogLoop img nt ns fuel (csAt img t s).nextTrack (csAt img t s).nextSector [] (css ++ [csAt img t s])
      else .err .other := by
  rw [catalogLoop]
  by_cases h0 : nat2 t s = (0, 0)
  · rw [if_pos h0, if_neg (by rw [ne_zero_iff]; simp [h0])]
  · rw [if_neg h0, if_pos (ne_zero_iff.2 h0), if_neg (by simp)]
    by_cases h1 : t ≥ nt
    · rw [if_pos h1, if_neg]
      have := UInt8.le_iff_toNat_le.1 h1
      omega
    · rw [if_neg h1]
      have h1' : t.toNat < nt.toNat := by
        rw [ge_iff_le, UInt8.le_iff_toNat_le] at h1; omega
      by_cases h2 : s ≥ ns
      · rw [if_pos h2, if_neg]
        have := UInt8.le_iff_toNat_le.1 h2
        omega
      · rw [if_neg h2, unmarshalCatalogSector_eq]
        have h2' : s.toNat < ns.toNat := by
          rw [ge_iff_le, UInt8.le_iff_toNat_le] at h2; omega
        by_cases h3 : img.length < 4096 * t.toNat + 256 * s.toNat + 256
        · rw [if_pos h3, if_neg (by omega)]
        · rw [if_neg h3, if_pos (by omega)]

variable {img : Bytes} {nt ns : UInt8}

theorem catalogLoop_chain {t s : UInt8} {l : List (Nat × Nat)} (h : Chain img (inRange img nt ns) (nat2 t s) l)
    {fuel : Nat} (hf : l.length < fuel) (css : List CatalogSector) :
    ∃ r, catalogLoop img nt ns fuel t s [] css = .ok (css ++ r) ∧
      r.flatMap (fun cs => cs.fileDescs.toList) = l.flatMap (fdsAt img) := by
  obtain ⟨fuel, rfl⟩ : ∃ k, fuel = k + 1 := ⟨fuel - 1, by omega⟩
  induction l generalizing t s fuel css with
  | nil =>
    have h0 : nat2 t s = (0, 0) := by
      generalize nat2 t s = p at h
      cases h; rfl
    exact ⟨[], by rw [catalogLoop_succ, if_pos h0, List.append_nil], rfl⟩
  | cons p rest ih =>
    have hp : p = nat2 t s := by
      generalize nat2 t s = q at h
      cases h; rfl
    subst hp
    have h' : nat2 t s ≠ (0, 0) ∧ inRange img nt ns (nat2 t s) ∧
        Chain img (inRange img nt ns) (linkOf img (nat2 t s)) rest := by
      generalize nat2 t s = q at h
      cases h; exact ⟨by assumption, by assumption, by assumption⟩
    obtain ⟨h0, h1, h2⟩ := h'
    rw [linkOf_eq] at h2
    obtain ⟨fuel, rfl⟩ : ∃ k, fuel = k + 1 := ⟨fuel - 1, by simp at hf; omega⟩
    obtain ⟨r, hr, hr2⟩ := ih h2 (css ++ [csAt img t s]) fuel (by simpa using hf)
    refine ⟨csAt img t s :: r, ?_, ?_⟩
    · have h1' : t.toNat < nt.toNat ∧ s.toNat < ns.toNat ∧
          4096 * t.toNat + 256 * s.toNat + 256 ≤ img.length := h1
      rw [catalogLoop_succ, if_neg h0, if_pos h1']
      rw [show css ++ csAt img t s :: r = css ++ [csAt img t s] ++ r by simp]
      exact hr
    · rw [List.flatMap_cons, List.flatMap_cons, hr2, csAt_fds]

theorem catalogLoop_ok {t s : UInt8} {fuel : Nat} {css r : List CatalogSector}
    (h : catalogLoop img nt ns fuel t s [] css = .ok r) :
    ∃ l, l.length < fuel ∧ Chain img (inRange img nt ns) (nat2 t s) l := by
  induction fuel generalizing t s css with
  | zero => simp [catalogLoop] at h
  | succ fuel ih =>
    rw [catalogLoop_succ] at h
    by_cases h0 : nat2 t s = (0, 0)
    · exact ⟨[], by simp, by rw [h0]; exact .done⟩
    · rw [if_neg h0] at h
      by_cases h1 : t.toNat < nt.toNat ∧ s.toNat < ns.toNat ∧ 4096 * t.toNat + 256 * s.toNat + 256 ≤ img.length
      · rw [if_pos h1] at h
        obtain ⟨l, hl, hc⟩ := ih h
        exact ⟨nat2 t s :: l, by simpa using hl, .step h0 h1 (by rw [linkOf_eq]; exact hc)⟩
      · rw [if_neg h1] at h; simp at h

theorem catalogLoop_timeout_iff {t s : UInt8} {fuel : Nat} {css : List CatalogSector} :
    catalogLoop img nt ns fuel t s [] css = .timeout ↔
      ∀ n, n < fuel → walk img (nat2 t s) n ≠ (0, 0) ∧ inRange img nt ns (walk img (nat2 t s) n) := by
  induction fuel generalizing t s css with
  | zero => simp [catalogLoop]
  | succ fuel ih =>
    rw [catalogLoop_succ]
    by_cases h0 : nat2 t s = (0, 0)
    · rw [if_pos h0]
      constructor
      · intro h; simp at h
      · intro h; exact absurd h0 (h 0 (by omega)).1
    · rw [if_neg h0]
      by_cases h1 : t.toNat < nt.toNat ∧ s.toNat < ns.toNat ∧ 4096 * t.toNat + 256 * s.toNat + 256 ≤ img.length
      · rw [if_pos h1, ih]
        constructor
        · intro h n hn
          cases n with
          | zero => exact ⟨h0, h1⟩
          | succ n => rw [walk_succ, linkOf_eq]; exact h n (by omega)
        · intro h n hn
          have := h (n + 1) (by omega)
          rw [walk_succ, linkOf_eq] at this
          exact this
      · rw [if_neg h1]
        constructor
        · intro h; simp at h
        · intro h; exact absurd (h 0 (by omega)).2 h1

theorem catalogLoop_no_panic {t s : UInt8} {fuel : Nat} {css : List CatalogSector} :
    catalogLoop img nt ns fuel t s [] css ≠ .panic := by
  induction fuel generalizing t s css with
  | zero => simp [catalogLoop]
  | succ fuel ih =>
    rw [catalogLoop_succ]
    by_cases h0 : nat2 t s = (0, 0)
    · rw [if_pos h0]; simp
    · rw [if_neg h0]
      by_cases h1 : t.toNat < nt.toNat ∧ s.toNat < ns.toNat ∧ 4096 * t.toNat + 256 * s.toNat + 256 ≤ img.length
      · rw [if_pos h1]; exact ih
      · rw [if_neg h1]; simp

/-! ## The VTOC -/

theorem VTOC.validate_ok_iff (v : VTOC) :
    v.validate = .ok () ↔ v.volume ≠ 255 ∧ v.dosRelease = 3 ∧
      (v.trackDirection = 1 ∨ v.trackDirection = -1) ∧ v.numTracks = 35 ∧
      (v.numSectors = 13 ∨ v.numSectors = 16) ∧ v.bytesPerSector = 256 ∧ v.trackSectorListMaxSize = 122 ∧
      ∀ tf ∈ v.freeSectors.toList, unusedClear tf = true := by
  unfold VTOC.validate
  constructor
  · intro h
    repeat' (split at h; · simp at h)
    rename_i h1 h2 h3 h4 h5 h6 h7 h8
    simp only [List.any_eq_true, not_exists, not_and, Bool.not_eq_true'] at h8
    refine ⟨h1, by simpa using h2, ?_, by simpa using h4, ?_, by simpa using h6, by simpa using h7, ?_⟩
    · by_cases e : v.trackDirection = 1
      · exact Or.inl e
      · right
        rcases Classical.em (v.trackDirection = -1) with e2 | e2
        · exact e2
        · exact absurd ⟨e, e2⟩ h3
    · by_cases e : v.numSectors = 13
      · exact Or.inl e
      · right
        rcases Classical.em (v.numSectors = 16) with e2 | e2
        · exact e2
        · exact absurd ⟨e, e2⟩ h5
    · intro tf htf
      have := h8 tf htf
      simpa using this
  · rintro ⟨h1, h2, h3, h4, h5, h6, h7, h8⟩
    rw [if_neg h1, if_neg (by simp [h2]), if_neg (by rintro ⟨a, b⟩; rcases h3 with h3 | h3 <;> contradiction),
      if_neg (by simp [h4]), if_neg (by rintro ⟨a, b⟩; rcases h5 with h5 | h5 <;> contradiction),
      if_neg (by simp [h6]), if_neg (by simp [h7]), if_neg]
    intro h
    rw [List.any_eq_true] at h
    obtain ⟨tf, htf, h⟩ := h
    rw [h8 tf htf] at h
    simp at h

theorem VTOC.validate_cases (v : VTOC) : v.validate = .ok () ∨ v.validate = .err .other := by
  unfold VTOC.validate
  repeat' split
  all_goals first | exact Or.inl rfl | exact Or.inr rfl

/-- What is decoded from the VTOC sector. -/
def vtocOf (img : Bytes) : VTOC :=
  let d := sectorAt img 17 0
  { track := 17
    sector := 0
    unused1 := at8 d 0x00
    catalogTrack := at8 d 0x01
    catalogSector := at8 d 0x02
    dosRelease := at8 d 0x03
    unused2 := rdVec 2 d 0x04
    volume := at8 d 0x06
    unused3 := rdVec 32 d 0x07
    trackSectorListMaxSize := at8 d 0x27
    unused4 := rdVec 8 d 0x28
    lastTrack := at8 d 0x30
    trackDirection := (at8 d 0x31).toInt8
    unused5 := rdVec 2 d 0x32
    numTracks := at8 d 0x34
    numSectors := at8 d 0x35
    bytesPerSector := rd16 d 0x36
    freeSectors := Vector.ofFn fun i : Fin 50 => rdVec 4 d (0x38 + 4 * i.val) }

theorem unmarshalVTOC_eq (img : Bytes) :
    unmarshalVTOC img vtocTrack vtocSector =
      if img.length < 69888 then .err .other else .ok (vtocOf img) := by
  unfold unmarshalVTOC
  rw [readSector_eq]
  have e1 : vtocTrack.toNat = 17 := rfl
  have e2 : vtocSector.toNat = 0 := rfl
  rw [e1, e2]
  by_cases h : img.length < 69888
  · rw [if_pos (by omega), if_pos h]; rfl
  · rw [if_neg (by omega), if_neg h, Out.bind_ok, VTOC.fromSector, if_neg]
    · rfl
    · rw [sectorAt_length (by omega)]; simp

theorem toInt8_one (b : UInt8) : b.toInt8 = 1 ↔ b = 1 := by
  constructor
  · intro h
    have := congrArg Int8.toUInt8 h
    rw [uint8_int8] at this
    exact this
  · rintro rfl; rfl

theorem toInt8_neg_one (b : UInt8) : b.toInt8 = -1 ↔ b = 255 := by
  constructor
  · intro h
    have := congrArg Int8.toUInt8 h
    rw [uint8_int8] at this
    exact this
  · rintro rfl; rfl

theorem rd16_eq_256 (d : Bytes) (o : Nat) : rd16 d o = 256 ↔ at8 d o = 0 ∧ at8 d (o + 1) = 1 := by
  unfold rd16
  constructor
  · intro h
    have h1 := congrArg lo8 h
    have h2 := congrArg hi8 h
    rw [lo8_le16] at h1
    rw [hi8_le16] at h2
    exact ⟨h1, h2⟩
  · rintro ⟨h1, h2⟩; rw [h1, h2]; rfl

theorem vtocOf_valid_iff (h : 69888 ≤ img.length) : (vtocOf img).validate = .ok () ↔ NormalVTOC img := by
  rw [VTOC.validate_ok_iff]
  unfold NormalVTOC OnImage vtocAt vtocOf sbyte
  simp only [toInt8_one, toInt8_neg_one, rd16_eq_256]
  constructor
  · rintro ⟨h1, h2, h3, h4, h5, ⟨h6, h6'⟩, h7, h8⟩
    refine ⟨by omega, h1, h2, h3, h4, h5, h6, h6', h7, ?_⟩
    intro k hk
    have := h8 (rdVec 4 (sectorAt img 17 0) (0x38 + 4 * k)) (by
      rw [Vector.mem_toList_iff, Vector.mem_ofFn]
      exact ⟨⟨k, hk⟩, rfl⟩)
    unfold unusedClear at this
    rw [decide_eq_true_iff, rdVec_getElem, rdVec_getElem] at this
    exact this
  · rintro ⟨-, h1, h2, h3, h4, h5, h6, h6', h7, h8⟩
    refine ⟨h1, h2, h3, h4, h5, ⟨h6, h6'⟩, h7, ?_⟩
    intro tf htf
    rw [Vector.mem_toList_iff, Vector.mem_ofFn] at htf
    obtain ⟨i, rfl⟩ := htf
    unfold unusedClear
    rw [decide_eq_true_iff, rdVec_getElem, rdVec_getElem]
    exact h8 i.1 i.2

/-! ## ReadCatalog -/

theorem inRange_iff (h : NormalVTOC img) (p : Nat × Nat) :
    inRange img (vtocOf img).numTracks (vtocOf img).numSectors p ↔ CatalogPlace img p := by
  have h4 : (vtocOf img).numTracks = 35 := h.2.2.2.2.1
  unfold inRange CatalogPlace
  rw [h4]
  exact Iff.rfl

theorem readCatalogSectors_eq (fuel : Nat) (img : Bytes) :
    (NormalVTOC img → readCatalogSectors fuel img =
      catalogLoop img (vtocOf img).numTracks (vtocOf img).numSectors fuel (vtocOf img).catalogTrack
        (vtocOf img).catalogSector [] []) ∧
    (¬ NormalVTOC img → readCatalogSectors fuel img = .err .other) := by
  unfold readCatalogSectors
  rw [unmarshalVTOC_eq]
  constructor
  · intro h
    have hl : 69888 ≤ img.length := h.1
    rw [if_neg (by omega), Out.bind_ok, (vtocOf_valid_iff hl).2 h]
  · intro h
    by_cases hl : img.length < 69888
    · rw [if_pos hl]; rfl
    · rw [if_neg hl, Out.bind_ok]
      rcases (vtocOf img).validate_cases with hv | hv
      · exact absurd ((vtocOf_valid_iff (by omega)).1 hv) h
      · rw [hv]

theorem chain_congr {good good' : Nat × Nat → Prop} (h : ∀ p, good p ↔ good' p) {p : Nat × Nat}
    {l : List (Nat × Nat)} : Chain img good p l ↔ Chain img good' p l := by
  have : good = good' := funext fun p => propext (h p)
  rw [this]

theorem catalogPlace_bound (h : NormalVTOC img) {p : Nat × Nat} (hp : CatalogPlace img p) :
    p.1 < 35 ∧ p.2 < 16 := by
  refine ⟨hp.1, ?_⟩
  have h2 := hp.2.1
  rcases h.2.2.2.2.2.1 with e | e
  · rw [e] at h2; exact Nat.lt_trans h2 (by decide)
  · rw [e] at h2; exact h2

theorem chain_length (h : NormalVTOC img) {p : Nat × Nat} {l : List (Nat × Nat)}
    (hc : Chain img (CatalogPlace img) p l) : l.length ≤ 560 :=
  nodup_length_le (a := 35) (b := 16) hc.nodup fun q hq => catalogPlace_bound h (hc.all_good q hq).1

theorem readCatalogFuel_chain (h : NormalVTOC img) {l : List (Nat × Nat)}
    (hc : Chain img (CatalogPlace img) (linkOf img vtocAt) l) {fuel : Nat} (hf : l.length < fuel) :
    readCatalogFuel fuel img =
      .ok ((l.flatMap (fdsAt img)).filter (fun fd => fd.status = .normal),
        (l.flatMap (fdsAt img)).filter (fun fd => fd.status = .deleted)) := by
  unfold readCatalogFuel
  rw [(readCatalogSectors_eq fuel img).1 h]
  have hc' : Chain img (inRange img (vtocOf img).numTracks (vtocOf img).numSectors)
      (nat2 (vtocOf img).catalogTrack (vtocOf img).catalogSector) l := by
    rw [chain_congr (inRange_iff h)]
    exact hc
  obtain ⟨r, hr, hr2⟩ := catalogLoop_chain hc' hf []
  rw [hr, List.nil_append, Out.bind_ok, hr2]

theorem readCatalogFuel_ok {fuel : Nat} {x : List FileDesc × List FileDesc}
    (h : readCatalogFuel fuel img = .ok x) :
    NormalVTOC img ∧ ∃ l, l.length < fuel ∧ Chain img (CatalogPlace img) (linkOf img vtocAt) l ∧
      x = ((l.flatMap (fdsAt img)).filter (fun fd => fd.status = .normal),
        (l.flatMap (fdsAt img)).filter (fun fd => fd.status = .deleted)) := by
  have h' := h
  unfold readCatalogFuel at h
  obtain ⟨css, h1, _⟩ := Out.bind_eq_ok.1 h
  by_cases hv : NormalVTOC img
  · rw [(readCatalogSectors_eq fuel img).1 hv] at h1
    obtain ⟨l, hl, hc⟩ := catalogLoop_ok h1
    rw [chain_congr (inRange_iff hv)] at hc
    refine ⟨hv, l, hl, hc, ?_⟩
    rw [readCatalogFuel_chain hv hc hl] at h'
    exact (Out.ok.inj h').symm
  · rw [(readCatalogSectors_eq fuel img).2 hv] at h1; simp at h1

theorem readCatalogFuel_timeout_iff {fuel : Nat} :
    readCatalogFuel fuel img = .timeout ↔ NormalVTOC img ∧
      ∀ n, n < fuel → walk img (linkOf img vtocAt) n ≠ (0, 0) ∧
        CatalogPlace img (walk img (linkOf img vtocAt) n) := by
  unfold readCatalogFuel
  by_cases hv : NormalVTOC img
  · rw [(readCatalogSectors_eq fuel img).1 hv]
    have key := catalogLoop_timeout_iff (img := img) (nt := (vtocOf img).numTracks)
      (ns := (vtocOf img).numSectors) (t := (vtocOf img).catalogTrack) (s := (vtocOf img).catalogSector)
      (fuel := fuel) (css := [])
    simp only [inRange_iff hv] at key
    rw [show nat2 (vtocOf img).catalogTrack (vtocOf img).catalogSector = linkOf img vtocAt from rfl] at key
    simp only [hv, true_and]
    rw [← key]
    cases catalogLoop img (vtocOf img).numTracks (vtocOf img).numSectors fuel (vtocOf img).catalogTrack
        (vtocOf img).catalogSector [] [] <;> simp
  · rw [(readCatalogSectors_eq fuel img).2 hv]
    simp [hv]

theorem readCatalogFuel_no_panic {fuel : Nat} : readCatalogFuel fuel img ≠ .panic := by
  unfold readCatalogFuel
  by_cases hv : NormalVTOC img
  · rw [(readCatalogSectors_eq fuel img).1 hv]
    have key := catalogLoop_no_panic (img := img) (nt := (vtocOf img).numTracks)
      (ns := (vtocOf img).numSectors) (t := (vtocOf img).catalogTrack) (s := (vtocOf img).catalogSector)
      (fuel := fuel) (css := [])
    revert key
    cases catalogLoop img (vtocOf img).numTracks (vtocOf img).numSectors fuel (vtocOf img).catalogTrack
        (vtocOf img).catalogSector [] [] <;> simp
  · rw [(readCatalogSectors_eq fuel img).2 hv]
    simp

theorem readCatalogFuel_err {fuel : Nat} {k : ErrKind} (h : readCatalogFuel fuel img = .err k) :
    k = .other := by
  have gen : ∀ (fuel : Nat) (t s : UInt8) (nt ns : UInt8) (css : List CatalogSector) (k : ErrKind),
      catalogLoop img nt ns fuel t s [] css = .err k → k = .other := by
    intro fuel
    induction fuel with
    | zero => intro t s nt ns css k h; simp [catalogLoop] at h
    | succ fuel ih =>
      intro t s nt ns css k h
      rw [catalogLoop_succ] at h
      split at h
      · simp at h
      · split at h
        · exact ih _ _ _ _ _ _ h
        · exact (Out.err.inj h).symm
  unfold readCatalogFuel at h
  by_cases hv : NormalVTOC img
  · rw [(readCatalogSectors_eq fuel img).1 hv] at h
    cases hl : catalogLoop img (vtocOf img).numTracks (vtocOf img).numSectors fuel (vtocOf img).catalogTrack
        (vtocOf img).catalogSector [] [] with
    | ok a => rw [hl] at h; simp at h
    | err k' =>
      rw [hl] at h
      have := gen _ _ _ _ _ _ _ hl
      simp at h
      rw [← h, this]
    | panic => rw [hl] at h; simp at h
    | timeout => rw [hl] at h; simp at h
  · rw [(readCatalogSectors_eq fuel img).2 hv] at h
    exact (Out.err.inj h).symm

/-! ## Entries as raw bytes -/

theorem at8_ext {a b : Bytes} (hl : a.length = b.length) (h : ∀ i, i < a.length → at8 a i = at8 b i) : a = b :=
  Covers.eq (n := a.length) (fun i hi => h i hi) rfl hl.symm

theorem at8_slice (l : Bytes) (off n i : Nat) (h : i < n) : at8 ((l.drop off).take n) i = at8 l (off + i) := by
  unfold at8
  rw [List.getD_eq_getElem?_getD, List.getD_eq_getElem?_getD, List.getElem?_take, if_pos h, List.getElem?_drop]

theorem fromBytes_toBytes {d : Bytes} {off : Nat} (h : off + 35 ≤ d.length) :
    (FileDesc.fromBytes d off).toBytes = (d.drop off).take 35 := by
  apply at8_ext
  · rw [FileDesc.toBytes_length, List.length_take, List.length_drop]; omega
  · intro i hi
    rw [FileDesc.toBytes_length] at hi
    rw [FileDesc.covers _ _ _ hi, at8_slice _ _ _ _ hi]

theorem fdsAt_bytes {p : Nat × Nat} (h : OnImage img p) :
    (fdsAt img p).map FileDesc.toBytes = (List.range 7).map fun k => entryBytes img p k := by
  unfold fdsAt entryBytes
  rw [List.map_map]
  apply List.map_congr_left
  intro k hk
  rw [List.mem_range] at hk
  apply fromBytes_toBytes
  rw [sectorAt_length (by unfold OnImage at h; omega)]
  omega

theorem chain_entries {good : Nat × Nat → Prop} (hg : ∀ p, good p → OnImage img p) {p : Nat × Nat}
    {l : List (Nat × Nat)} (hc : Chain img good p l) :
    (l.flatMap (fdsAt img)).map FileDesc.toBytes = entries img l := by
  unfold entries
  induction hc with
  | done => rfl
  | step h0 h1 h2 ih =>
    rw [List.flatMap_cons, List.flatMap_cons, List.map_append, ih, fdsAt_bytes (hg _ h1)]

theorem at8_toBytes_zero (fd : FileDesc) : at8 fd.toBytes 0 = fd.trackSectorListTrack := by
  obtain ⟨tt, ts, ft, fn, sc⟩ := fd
  unfold FileDesc.toBytes
  simp (disch := rt_side) only [at8_set16_off, at8_copyVec_off, at8_set_same, at8_set_ne]

theorem status_normal (fd : FileDesc) : fd.status = .normal ↔ LiveEntry fd.toBytes := by
  unfold LiveEntry
  rw [show fd.toBytes.getD 0 0 = fd.trackSectorListTrack from at8_toBytes_zero fd]
  unfold FileDesc.status
  split
  · rename_i h; simp [h]
  · split
    · rename_i h; simp [h]
    · rename_i h1 h2; simp [h1, h2]

theorem status_deleted (fd : FileDesc) : fd.status = .deleted ↔ DeletedEntry fd.toBytes := by
  unfold DeletedEntry
  rw [show fd.toBytes.getD 0 0 = fd.trackSectorListTrack from at8_toBytes_zero fd]
  unfold FileDesc.status
  split
  · rename_i h; simp [h]
  · split
    · rename_i h; simp [h]
    · rename_i h1 h2; simp [h2]

theorem filter_live (l : List FileDesc) :
    (l.filter (fun fd => fd.status = .normal)).map FileDesc.toBytes =
      (l.map FileDesc.toBytes).filter (fun e => LiveEntry e) := by
  rw [List.filter_map]
  refine congrArg (List.map FileDesc.toBytes) (List.filter_congr fun fd _ => ?_)
  rw [Function.comp_apply, decide_eq_decide]
  exact status_normal fd

theorem filter_deleted (l : List FileDesc) :
    (l.filter (fun fd => fd.status = .deleted)).map FileDesc.toBytes =
      (l.map FileDesc.toBytes).filter (fun e => DeletedEntry e) := by
  rw [List.filter_map]
  refine congrArg (List.map FileDesc.toBytes) (List.filter_congr fun fd _ => ?_)
  rw [Function.comp_apply, decide_eq_decide]
  exact status_deleted fd

end Verif.Dos3
