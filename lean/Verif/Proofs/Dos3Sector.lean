import Verif.Model.Dos3

/-!
# Round trips of the DOS 3.3 sector structures
-/

set_option autoImplicit false
set_option maxRecDepth 20000

namespace Verif.Dos3

open Verif Verif.Disk

/-- Side goals about the length of a record under construction. -/
syntax "len_tac" : tactic
macro_rules
  | `(tactic| len_tac) =>
    `(tactic| (simp only [set16_length, copyVec_length, copyEach_length, copyAt_length, List.length_set,
        List.length_map, Vector.length_toList, zeros_length]; try omega))

theorem len4 (v : Vector TrackFreeSectors 50) :
    ∀ d ∈ v.toList.map (fun m => m.toList), d.length = 4 := by
  intro d hd
  obtain ⟨m, _, rfl⟩ := List.mem_map.1 hd
  simp

theorem FileDesc.toBytes_length (fd : FileDesc) : fd.toBytes.length = 35 := by
  simp [FileDesc.toBytes, zeros]

theorem len35 (v : Vector FileDesc 7) :
    ∀ d ∈ v.toList.map (fun m => m.toBytes), d.length = 35 := by
  intro d hd
  obtain ⟨m, _, rfl⟩ := List.mem_map.1 hd
  exact m.toBytes_length

theorem len2 (v : Vector TrackSector 122) :
    ∀ d ∈ v.toList.map (fun ts => [ts.track, ts.sector]), d.length = 2 := by
  intro d hd
  obtain ⟨m, _, rfl⟩ := List.mem_map.1 hd
  rfl

theorem uint8_int8 (b : UInt8) : b.toInt8.toUInt8 = b := by simp
theorem int8_uint8 (b : Int8) : b.toUInt8.toInt8 = b := by simp

/-- Writing back the fields read from a VTOC sector. -/
theorem VTOC.to_from (v0 : VTOC) (data : Bytes) (h : data.length = 256) :
    ∃ v, VTOC.fromSector v0 data = .ok v ∧ v.toSector = .ok data := by
  refine ⟨_, by rw [VTOC.fromSector, if_neg (by simp [h])], ?_⟩
  unfold VTOC.toSector
  simp only
  refine congrArg Out.ok ?_
  refine Covers.eq (n := 256) ?_ (by len_tac) h
  refine Covers.each ?_ (by omega) (len4 _) ?_ (by len_tac) (by simp)
  · refine Covers.set16 ?_ rfl (by len_tac)
    refine Covers.set ?_ rfl (by len_tac)
    refine Covers.set ?_ rfl (by len_tac)
    refine Covers.vec ?_ rfl (by len_tac) rfl
    refine Covers.set ?_ (uint8_int8 _) (by len_tac)
    refine Covers.set ?_ rfl (by len_tac)
    refine Covers.vec ?_ rfl (by len_tac) rfl
    refine Covers.set ?_ rfl (by len_tac)
    refine Covers.vec ?_ rfl (by len_tac) rfl
    refine Covers.set ?_ rfl (by len_tac)
    refine Covers.vec ?_ rfl (by len_tac) rfl
    refine Covers.set ?_ rfl (by len_tac)
    refine Covers.set ?_ rfl (by len_tac)
    refine Covers.set ?_ rfl (by len_tac)
    exact Covers.set (Covers.zero _ _) rfl (by len_tac)
  · intro j d hj i hi
    rw [List.getElem?_map, Option.map_eq_some_iff] at hj
    obtain ⟨m, hm, rfl⟩ := hj
    obtain ⟨hjl, hm⟩ := List.getElem?_eq_some_iff.1 hm
    subst hm
    simp only [Vector.getElem_toList, Vector.getElem_ofFn]
    rw [at8_rdVec _ _ _ _ hi]

theorem FileDesc.covers (data : Bytes) (off : Nat) (i : Nat) (hi : i < 35) :
    at8 (FileDesc.fromBytes data off).toBytes i = at8 data (off + i) := by
  have h : Covers (FileDesc.fromBytes data off).toBytes (rdVec 35 data off).toList 35 := by
    unfold FileDesc.toBytes FileDesc.fromBytes
    simp only
    refine Covers.set16 ?_ ?_ (by len_tac)
    · refine Covers.vec ?_ ?_ (by len_tac) rfl
      · refine Covers.set ?_ ?_ (by len_tac)
        · refine Covers.set ?_ ?_ (by len_tac)
          · refine Covers.set (Covers.zero _ _) ?_ (by len_tac)
            rw [at8_rdVec _ _ _ _ (by omega)]
          · rw [at8_rdVec _ _ _ _ (by omega)]
        · rw [at8_rdVec _ _ _ _ (by omega)]
      · refine rdVec_congr fun i hi => ?_
        rw [at8_rdVec _ _ _ _ (by omega), Nat.add_assoc]
    · refine rd16_congr fun i hi => ?_
      rw [at8_rdVec _ _ _ _ (by omega), Nat.add_assoc]
  rw [h i hi, at8_rdVec _ _ _ _ hi]

/-- Writing back the fields read from a catalog sector. -/
theorem CatalogSector.to_from (v0 : CatalogSector) (data : Bytes) (h : data.length = 256) :
    ∃ v, CatalogSector.fromSector v0 data = .ok v ∧ v.toSector = .ok data := by
  refine ⟨_, by rw [CatalogSector.fromSector, if_neg (by simp [h])], ?_⟩
  unfold CatalogSector.toSector
  simp only
  refine congrArg Out.ok ?_
  refine Covers.eq (n := 256) ?_ (by len_tac) h
  refine Covers.each ?_ (by omega) (len35 _) ?_ (by len_tac) (by simp)
  · refine Covers.vec ?_ rfl (by len_tac) rfl
    refine Covers.set ?_ rfl (by len_tac)
    refine Covers.set ?_ rfl (by len_tac)
    exact Covers.set (Covers.zero _ _) rfl (by len_tac)
  · intro j d hj i hi
    rw [List.getElem?_map, Option.map_eq_some_iff] at hj
    obtain ⟨m, hm, rfl⟩ := hj
    obtain ⟨hjl, hm⟩ := List.getElem?_eq_some_iff.1 hm
    subst hm
    simp only [Vector.getElem_toList, Vector.getElem_ofFn]
    rw [FileDesc.covers _ _ _ hi]

/-- Writing back the fields read from a track/sector list. -/
theorem TrackSectorList.to_from (v0 : TrackSectorList) (data : Bytes) (h : data.length = 256) :
    ∃ v, TrackSectorList.fromSector v0 data = .ok v ∧ v.toSector = .ok data := by
  refine ⟨_, by rw [TrackSectorList.fromSector, if_neg (by simp [h])], ?_⟩
  unfold TrackSectorList.toSector
  simp only
  refine congrArg Out.ok ?_
  refine Covers.eq (n := 256) ?_ (by len_tac) h
  refine Covers.each ?_ (by omega) (len2 _) ?_ (by len_tac) (by simp)
  · refine Covers.vec ?_ rfl (by len_tac) rfl
    refine Covers.set16 ?_ rfl (by len_tac)
    refine Covers.vec ?_ rfl (by len_tac) rfl
    refine Covers.set ?_ rfl (by len_tac)
    refine Covers.set ?_ rfl (by len_tac)
    exact Covers.set (Covers.zero _ _) rfl (by len_tac)
  · intro j d hj i hi
    rw [List.getElem?_map, Option.map_eq_some_iff] at hj
    obtain ⟨m, hm, rfl⟩ := hj
    obtain ⟨hjl, hm⟩ := List.getElem?_eq_some_iff.1 hm
    subst hm
    simp only [Vector.getElem_toList, Vector.getElem_ofFn]
    rcases i with _ | _ | i
    · simp only [at8, List.getD_cons_zero]
      rw [show 12 + j * 2 = 12 + 2 * j + 0 by omega]
    · simp only [at8, List.getD_cons_succ, List.getD_cons_zero]
      rw [show 13 + j * 2 = 12 + 2 * j + (0 + 1) by omega]
    · omega

/-! ## Structures survive encoding -/

syntax "rt_side" : tactic
macro_rules
  | `(tactic| rt_side) =>
    `(tactic| first
      | omega
      | exact len4 _
      | exact len35 _
      | exact len2 _
      | len_tac
      | (simp only [set16_length, copyVec_length, copyEach_length, copyAt_length, List.length_set,
            List.length_map, Vector.length_toList]; omega))

theorem VTOC.from_to (v v0 : VTOC) :
    ∃ bytes, v.toSector = .ok bytes ∧ bytes.length = 256 ∧
      VTOC.fromSector v0 bytes = .ok { v with track := v0.track, sector := v0.sector } := by
  refine ⟨_, rfl, by len_tac, ?_⟩
  rw [VTOC.fromSector, if_neg (by len_tac)]
  obtain ⟨trk, sec, u1, ct, cs, dr, u2, vol, u3, tm, u4, lt, td, u5, nt, ns, bp, fs⟩ := v
  refine congrArg Out.ok ?_
  have hfree : ∀ (l : Bytes), l.length = 256 →
      (Vector.ofFn fun i : Fin 50 => rdVec 4 (copyEach 4 l 0x38 (fs.toList.map fun m => m.toList))
        (0x38 + 4 * i.val)) = fs := by
    intro l hl
    apply Vector.ext
    intro i hi
    rw [Vector.getElem_ofFn]
    apply rdVec_eq
    intro j hj
    rw [at8_copyEach_in (d := fs[i].toList) (by omega) (len4 _) (by simp [hi]) hj (by simp [hl]),
      at8_toList _ hj]
  rw [VTOC.mk.injEq]
  refine ⟨rfl, rfl, ?_, ?_, ?_, ?_, ?_, ?_, ?_, ?_, ?_, ?_, ?_, ?_, ?_, ?_, ?_, hfree _ (by len_tac)⟩ <;>
    simp (disch := rt_side) only [int8_uint8, at8_copyEach_off, rdVec_copyEach_off, rd16_copyEach_off, at8_set16_off,
      rdVec_set16_off, rd16_set16_same, rd16_set16_off, at8_copyVec_off, rdVec_copyVec_same,
      rdVec_copyVec_off, rd16_copyVec_off, at8_set_same, at8_set_ne, rdVec_set_off, rd16_set_off]

theorem FileDesc.from_to {data : Bytes} {off : Nat} (fd : FileDesc)
    (h : ∀ i, i < 35 → at8 data (off + i) = at8 fd.toBytes i) : FileDesc.fromBytes data off = fd := by
  obtain ⟨tt, ts, ft, fn, sc⟩ := fd
  unfold FileDesc.fromBytes
  rw [FileDesc.mk.injEq]
  rw [h _ (by omega), h _ (by omega), h _ (by omega),
    rdVec_congr (b := FileDesc.toBytes ⟨tt, ts, ft, fn, sc⟩) (off' := 3)
      (fun i hi => by rw [Nat.add_assoc]; exact h _ (by omega)),
    rd16_congr (b := FileDesc.toBytes ⟨tt, ts, ft, fn, sc⟩) (off' := 0x21)
      (fun i hi => by rw [Nat.add_assoc]; exact h _ (by omega))]
  unfold FileDesc.toBytes
  refine ⟨?_, ?_, ?_, ?_, ?_⟩ <;>
    simp (disch := rt_side) only [at8_copyEach_off, rdVec_copyEach_off, rd16_copyEach_off, at8_set16_off,
      rdVec_set16_off, rd16_set16_same, rd16_set16_off, at8_copyVec_off, rdVec_copyVec_same,
      rdVec_copyVec_off, rd16_copyVec_off, at8_set_same, at8_set_ne, rdVec_set_off, rd16_set_off]

theorem CatalogSector.from_to (v v0 : CatalogSector) :
    ∃ bytes, v.toSector = .ok bytes ∧ bytes.length = 256 ∧
      CatalogSector.fromSector v0 bytes = .ok { v with track := v0.track, sector := v0.sector } := by
  refine ⟨_, rfl, by len_tac, ?_⟩
  rw [CatalogSector.fromSector, if_neg (by len_tac)]
  obtain ⟨trk, sec, u1, nt, ns, u2, fds⟩ := v
  refine congrArg Out.ok ?_
  have hfds : ∀ (l : Bytes), l.length = 256 →
      (Vector.ofFn fun i : Fin 7 => FileDesc.fromBytes
        (copyEach 35 l 0x0b (fds.toList.map fun fd => fd.toBytes)) (0x0b + 35 * i.val)) = fds := by
    intro l hl
    apply Vector.ext
    intro i hi
    rw [Vector.getElem_ofFn]
    apply FileDesc.from_to
    intro j hj
    rw [at8_copyEach_in (d := fds[i].toBytes) (by omega) (len35 _) (by simp [hi]) hj (by simp [hl])]
  rw [CatalogSector.mk.injEq]
  refine ⟨rfl, rfl, ?_, ?_, ?_, ?_, hfds _ (by len_tac)⟩ <;>
    simp (disch := rt_side) only [at8_copyEach_off, rdVec_copyEach_off, rd16_copyEach_off, at8_set16_off,
      rdVec_set16_off, rd16_set16_same, rd16_set16_off, at8_copyVec_off, rdVec_copyVec_same,
      rdVec_copyVec_off, rd16_copyVec_off, at8_set_same, at8_set_ne, rdVec_set_off, rd16_set_off]

theorem TrackSectorList.from_to (v v0 : TrackSectorList) :
    ∃ bytes, v.toSector = .ok bytes ∧ bytes.length = 256 ∧
      TrackSectorList.fromSector v0 bytes = .ok { v with track := v0.track, sector := v0.sector } := by
  refine ⟨_, rfl, by len_tac, ?_⟩
  rw [TrackSectorList.fromSector, if_neg (by len_tac)]
  obtain ⟨trk, sec, u1, nt, ns, u2, so, u3, tss⟩ := v
  refine congrArg Out.ok ?_
  have htss : ∀ (l : Bytes), l.length = 256 →
      (Vector.ofFn fun i : Fin 122 => (⟨at8 (copyEach 2 l 0x0C (tss.toList.map fun ts => [ts.track, ts.sector]))
          (0x0C + i.val * 2),
        at8 (copyEach 2 l 0x0C (tss.toList.map fun ts => [ts.track, ts.sector])) (0x0D + i.val * 2)⟩ : TrackSector))
        = tss := by
    intro l hl
    apply Vector.ext
    intro i hi
    rw [Vector.getElem_ofFn]
    have key : ∀ j, j < 2 → at8 (copyEach 2 l 0x0C (tss.toList.map fun ts => [ts.track, ts.sector]))
        (0x0C + 2 * i + j) = at8 [tss[i].track, tss[i].sector] j := fun j hj =>
      at8_copyEach_in (d := [tss[i].track, tss[i].sector]) (by omega) (len2 _) (by simp [hi]) hj (by simp [hl])
    have k0 := key 0 (by omega)
    have k1 := key 1 (by omega)
    rw [show 0x0C + 2 * i + 0 = 0x0C + i * 2 by omega] at k0
    rw [show 0x0C + 2 * i + 1 = 0x0D + i * 2 by omega] at k1
    simp only [k0, k1]
    rfl
  rw [TrackSectorList.mk.injEq]
  refine ⟨rfl, rfl, ?_, ?_, ?_, ?_, ?_, ?_, htss _ (by len_tac)⟩ <;>
    simp (disch := rt_side) only [at8_copyEach_off, rdVec_copyEach_off, rd16_copyEach_off, at8_set16_off,
      rdVec_set16_off, rd16_set16_same, rd16_set16_off, at8_copyVec_off, rdVec_copyVec_same,
      rdVec_copyVec_off, rd16_copyVec_off, at8_set_same, at8_set_ne, rdVec_set_off, rd16_set_off]

end Verif.Dos3
