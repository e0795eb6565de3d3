import Verif.Proofs.Dos3Catalog

/-!
# Reading a DOS 3.3 file's sectors
-/

set_option autoImplicit false
set_option maxRecDepth 20000

namespace Verif.Dos3

open Verif Verif.Disk Verif.Spec

/-- What is decoded from a sector as a track/sector list. -/
def tslAt (img : Bytes) (t s : UInt8) : TrackSectorList where
  track := t
  sector := s
  unused1 := at8 (sectorAt img t.toNat s.toNat) 0x00
  nextTrack := at8 (sectorAt img t.toNat s.toNat) 0x01
  nextSector := at8 (sectorAt img t.toNat s.toNat) 0x02
  unused2 := rdVec 2 (sectorAt img t.toNat s.toNat) 0x03
  sectorOffset := rd16 (sectorAt img t.toNat s.toNat) 0x05
  unused3 := rdVec 5 (sectorAt img t.toNat s.toNat) 0x07
  trackSectors := Vector.ofFn fun i : Fin 122 =>
      ⟨at8 (sectorAt img t.toNat s.toNat) (0x0C + i.val * 2), at8 (sectorAt img t.toNat s.toNat) (0x0D + i.val * 2)⟩

theorem unmarshalTSL_eq (img : Bytes) (t s : UInt8) :
    unmarshalTSL img t s =
      if img.length < 4096 * t.toNat + 256 * s.toNat + 256 then .err .other else .ok (tslAt img t s) := by
  unfold unmarshalTSL
  rw [readSector_eq]
  by_cases h : img.length < 4096 * t.toNat + 256 * s.toNat + 256
  · rw [if_pos h, if_pos h]; rfl
  · rw [if_neg h, if_neg h, Out.bind_ok, TrackSectorList.fromSector, if_neg]
    · rfl
    · rw [sectorAt_length (by omega)]; simp

/-- A pair as numbers. -/
def TrackSector.nat (ts : TrackSector) : Nat × Nat := nat2 ts.track ts.sector

theorem TrackSector.nat_inj {a b : TrackSector} (h : a.nat = b.nat) : a = b := by
  obtain ⟨a1, a2⟩ := a
  obtain ⟨b1, b2⟩ := b
  simp only [TrackSector.nat, nat2, Prod.mk.injEq] at h
  rw [UInt8.toNat_inj.1 h.1, UInt8.toNat_inj.1 h.2]

theorem tslAt_pairs (img : Bytes) (t s : UInt8) :
    (tslAt img t s).trackSectors.toList.map TrackSector.nat = pairs img (nat2 t s) := by
  apply List.ext_getElem
  · simp [pairs]
  · intro i h1 h2
    have hi : i < 122 := by simpa using h1
    simp only [tslAt, List.getElem_map, Vector.getElem_toList, Vector.getElem_ofFn, pairs, List.getElem_range,
      TrackSector.nat, nat2, sbyte]
    rw [show 12 + 2 * i = 0x0C + i * 2 by omega, show 13 + 2 * i = 0x0D + i * 2 by omega]
    rfl

variable {img : Bytes}

theorem tslLoop_succ (t s : UInt8) (fuel : Nat) (seen : List TrackSector) (tsls : List TrackSectorList) :
    tslLoop img (fuel + 1) t s seen tsls =
      if nat2 t s = (0, 0) then .ok tsls
      else if nat2 t s ∈ seen.map TrackSector.nat then .err .other
      else if 4096 * t.toNat + 256 * s.toNat + 256 ≤ img.length then
        tslLoop img fuel (tslAt img t s).nextTrack (tslAt img t s).nextSector (⟨t, s⟩ :: seen)
          (tsls ++ [tslAt img t s])
      else .err .other := by
  rw [tslLoop]
  have hmem : nat2 t s ∈ seen.map TrackSector.nat ↔ (⟨t, s⟩ : TrackSector) ∈ seen := by
    rw [List.mem_map]
    constructor
    · rintro ⟨a, ha, e⟩
      have : a = ⟨t, s⟩ := TrackSector.nat_inj e
      rwa [← this]
    · intro h; exact ⟨_, h, rfl⟩
  by_cases h0 : nat2 t s = (0, 0)
  · rw [if_pos h0, if_neg (by rw [ne_zero_iff]; simp [h0])]
  · rw [if_neg h0, if_pos (ne_zero_iff.2 h0)]
    by_cases h1 : (⟨t, s⟩ : TrackSector) ∈ seen
    · rw [if_pos h1, if_pos (hmem.2 h1)]
    · rw [if_neg h1, if_neg (fun h => h1 (hmem.1 h)), unmarshalTSL_eq]
      by_cases h3 : img.length < 4096 * t.toNat + 256 * s.toNat + 256
      · rw [if_pos h3, if_neg (by omega)]
      · rw [if_neg h3, if_pos (by omega)]

/-- The lists decoded from a chain of sectors. -/
def tslsAt (img : Bytes) (l : List (Nat × Nat)) : List TrackSectorList :=
  l.map fun p => tslAt img (UInt8.ofNat p.1) (UInt8.ofNat p.2)

theorem tslsAt_cons (t s : UInt8) (l : List (Nat × Nat)) :
    tslsAt img (nat2 t s :: l) = tslAt img t s :: tslsAt img l := by
  unfold tslsAt
  rw [List.map_cons]
  simp [nat2]

theorem tslLoop_chain {t s : UInt8} {l : List (Nat × Nat)} (h : Chain img (OnImage img) (nat2 t s) l)
    {fuel : Nat} (hf : l.length < fuel) {seen : List TrackSector}
    (hs : ∀ p ∈ l, p ∉ seen.map TrackSector.nat) (tsls : List TrackSectorList) :
    tslLoop img fuel t s seen tsls = .ok (tsls ++ tslsAt img l) := by
  obtain ⟨fuel, rfl⟩ : ∃ k, fuel = k + 1 := ⟨fuel - 1, by omega⟩
  induction l generalizing t s fuel seen tsls with
  | nil =>
    have h0 : nat2 t s = (0, 0) := by
      generalize nat2 t s = p at h
      cases h; rfl
    rw [tslLoop_succ, if_pos h0]; simp [tslsAt]
  | cons p rest ih =>
    have hp : p = nat2 t s := by
      generalize nat2 t s = q at h
      cases h; rfl
    subst hp
    have hnd := h.nodup
    have h' : nat2 t s ≠ (0, 0) ∧ OnImage img (nat2 t s) ∧
        Chain img (OnImage img) (linkOf img (nat2 t s)) rest := by
      generalize nat2 t s = q at h
      cases h; exact ⟨by assumption, by assumption, by assumption⟩
    obtain ⟨h0, h1, h2⟩ := h'
    have h1' : 4096 * t.toNat + 256 * s.toNat + 256 ≤ img.length := h1
    rw [linkOf_eq] at h2
    obtain ⟨fuel, rfl⟩ : ∃ k, fuel = k + 1 := ⟨fuel - 1, by simp at hf; omega⟩
    rw [tslLoop_succ, if_neg h0, if_neg (hs _ (by simp)), if_pos h1', tslsAt_cons,
      show tsls ++ tslAt img t s :: tslsAt img rest = tsls ++ [tslAt img t s] ++ tslsAt img rest by simp]
    refine ih h2 ?_ _ _ (by simpa using hf)
    intro q hq hm
    rw [List.map_cons, List.mem_cons] at hm
    rcases hm with e | hm
    · rw [List.nodup_cons] at hnd
      exact hnd.1 (by rw [← show q = nat2 t s from e]; exact hq)
    · exact hs q (by simp [hq]) hm

theorem tslLoop_ok {t s : UInt8} {fuel : Nat} {seen : List TrackSector} {tsls r : List TrackSectorList}
    (h : tslLoop img fuel t s seen tsls = .ok r) :
    ∃ l, Chain img (OnImage img) (nat2 t s) l ∧ r = tsls ++ tslsAt img l := by
  induction fuel generalizing t s seen tsls with
  | zero => simp [tslLoop] at h
  | succ fuel ih =>
    rw [tslLoop_succ] at h
    by_cases h0 : nat2 t s = (0, 0)
    · rw [if_pos h0] at h
      refine ⟨[], by rw [h0]; exact .done, ?_⟩
      simp [tslsAt, Out.ok.inj h]
    · rw [if_neg h0] at h
      by_cases h1 : nat2 t s ∈ seen.map TrackSector.nat
      · rw [if_pos h1] at h; simp at h
      · rw [if_neg h1] at h
        by_cases h2 : 4096 * t.toNat + 256 * s.toNat + 256 ≤ img.length
        · rw [if_pos h2] at h
          obtain ⟨l, hc, hr⟩ := ih h
          refine ⟨nat2 t s :: l, .step h0 h2 (by rw [linkOf_eq]; exact hc), ?_⟩
          rw [hr, tslsAt_cons]; simp
        · rw [if_neg h2] at h; simp at h

/-- The loop ends: every round adds a new pair to `seen` and there are 65536 pairs. -/
theorem tslLoop_ends {t s : UInt8} {fuel : Nat} {seen : List TrackSector} {tsls : List TrackSectorList}
    (hn : seen.Nodup) (hf : 65536 < fuel + seen.length) :
    tslLoop img fuel t s seen tsls = .err .other ∨ ∃ r, tslLoop img fuel t s seen tsls = .ok r := by
  have hbound : ∀ l : List TrackSector, l.Nodup → l.length ≤ 65536 := by
    intro l hl
    have h1 : (l.map TrackSector.nat).Nodup :=
      (List.nodup_map_iff (fun _ _ h => TrackSector.nat_inj h)).2 hl
    have := nodup_length_le (a := 256) (b := 256) h1 (by
      intro q hq
      obtain ⟨a, _, rfl⟩ := List.mem_map.1 hq
      exact ⟨a.track.toNat_lt, a.sector.toNat_lt⟩)
    simpa using this
  induction fuel generalizing t s seen tsls with
  | zero => have := hbound seen hn; omega
  | succ fuel ih =>
    rw [tslLoop_succ]
    by_cases h0 : nat2 t s = (0, 0)
    · rw [if_pos h0]; exact Or.inr ⟨_, rfl⟩
    · rw [if_neg h0]
      by_cases h1 : nat2 t s ∈ seen.map TrackSector.nat
      · rw [if_pos h1]; exact Or.inl rfl
      · rw [if_neg h1]
        by_cases h2 : 4096 * t.toNat + 256 * s.toNat + 256 ≤ img.length
        · rw [if_pos h2]
          apply ih
          · rw [List.nodup_cons]
            exact ⟨fun hm => h1 (List.mem_map.2 ⟨_, hm, rfl⟩), hn⟩
          · simp only [List.length_cons]; omega
        · rw [if_neg h2]; exact Or.inl rfl

/-! ## The data -/

/-- Every named sector of a list of pairs is on the image. -/
def Readable (img : Bytes) (ps : List (Nat × Nat)) : Prop := ∀ p ∈ ps, p ≠ (0, 0) → OnImage img p

instance (img : Bytes) (p : Nat × Nat) : Decidable (OnImage img p) := inferInstanceAs (Decidable (_ ≤ _))
instance (img : Bytes) (ps : List (Nat × Nat)) : Decidable (Readable img ps) :=
  inferInstanceAs (Decidable (∀ p ∈ ps, _))

theorem Readable.cons {p : Nat × Nat} {ps : List (Nat × Nat)} :
    Readable img (p :: ps) ↔ (p ≠ (0, 0) → OnImage img p) ∧ Readable img ps := by
  unfold Readable; simp

theorem appendSectors_eq (tss : List TrackSector) (data : Bytes) :
    appendSectors img tss data =
      if Readable img (tss.map TrackSector.nat) then .ok (data ++ pairsData img (tss.map TrackSector.nat))
      else .err .other := by
  induction tss generalizing data with
  | nil => rw [appendSectors, if_pos (by simp [Readable])]; simp [pairsData]
  | cons ts rest ih =>
    rw [appendSectors]
    simp only [List.map_cons]
    have h0 : ts.nat = (0, 0) ↔ ts.track = 0 ∧ ts.sector = 0 := nat2_eq_zero
    by_cases h : ts.track = 0 ∧ ts.sector = 0
    · rw [if_pos h, ih]
      have e : Readable img (ts.nat :: rest.map TrackSector.nat) ↔ Readable img (rest.map TrackSector.nat) := by
        rw [Readable.cons]; simp [h0.2 h]
      by_cases hr : Readable img (rest.map TrackSector.nat)
      · rw [if_pos hr, if_pos (e.2 hr)]
        simp only [pairsData, List.flatMap_cons, if_pos (h0.2 h), zeros, List.append_assoc]
      · rw [if_neg hr, if_neg (fun x => hr (e.1 x))]
    · rw [if_neg h, readSector_eq]
      have hne : ts.nat ≠ (0, 0) := fun x => h (h0.1 x)
      by_cases h1 : img.length < 4096 * ts.track.toNat + 256 * ts.sector.toNat + 256
      · rw [if_pos h1, if_neg]
        intro hr
        have : 4096 * ts.track.toNat + 256 * ts.sector.toNat + 256 ≤ img.length := (Readable.cons.1 hr).1 hne
        omega
      · rw [if_neg h1]
        simp only
        rw [ih]
        have e : Readable img (ts.nat :: rest.map TrackSector.nat) ↔ Readable img (rest.map TrackSector.nat) := by
          rw [Readable.cons]
          constructor
          · exact fun x => x.2
          · exact fun x => ⟨fun _ => (by
              show 4096 * ts.track.toNat + 256 * ts.sector.toNat + 256 ≤ img.length
              omega), x⟩
        by_cases hr : Readable img (rest.map TrackSector.nat)
        · rw [if_pos hr, if_pos (e.2 hr)]
          simp only [pairsData, List.flatMap_cons, if_neg hne, List.append_assoc]
          rfl
        · rw [if_neg hr, if_neg (fun x => hr (e.1 x))]

/-- Without trailing holes, all of it if there are only holes. -/
def usedPart (ps : List (Nat × Nat)) : List (Nat × Nat) :=
  if ∀ p ∈ ps, p = (0, 0) then ps else withoutTrailing (0, 0) ps

theorem withoutTrailing_eq_nil {α : Type} [DecidableEq α] {c : α} {l : List α}
    (h : withoutTrailing c l = []) : ∀ x ∈ l, x = c := by
  intro x hx
  unfold withoutTrailing at h
  rw [List.reverse_eq_nil_iff] at h
  have hm : x ∈ l.reverse := by simpa using hx
  generalize l.reverse = m at h hm
  induction m with
  | nil => simp at hm
  | cons y m ih =>
    rw [List.dropWhile_cons] at h
    by_cases e : y = c
    · rw [if_pos (by simpa using e)] at h
      rcases List.mem_cons.1 hm with e2 | hm
      · rw [e2, e]
      · exact ih h hm
    · rw [if_neg (by simpa using e)] at h; simp at h

theorem lastEntry_eq (tss : List TrackSector) (end_ j : Nat) :
    lastEntry tss end_ j =
      if ∀ ts ∈ tss, ts.nat = (0, 0) then end_
      else j + (withoutTrailing (0, 0) (tss.map TrackSector.nat)).length - 1 := by
  induction tss generalizing end_ j with
  | nil => simp [lastEntry]
  | cons ts rest ih =>
    rw [lastEntry, ih]
    have h0 : ts.nat = (0, 0) ↔ ts.track = 0 ∧ ts.sector = 0 := nat2_eq_zero
    have hz : (ts.track ≠ 0 ∨ ts.sector ≠ 0) ↔ ts.nat ≠ (0, 0) := ne_zero_iff
    by_cases hall : ∀ t ∈ rest, t.nat = (0, 0)
    · rw [if_pos hall]
      by_cases h : ts.nat = (0, 0)
      · rw [if_neg (by rw [hz]; simp [h]), if_pos (by
          intro t ht
          rcases List.mem_cons.1 ht with e | ht
          · rw [e]; exact h
          · exact hall t ht)]
      · rw [if_pos (hz.2 h), if_neg (fun x => h (x ts (by simp)))]
        have : withoutTrailing (0, 0) ((ts :: rest).map TrackSector.nat) = [ts.nat] := by
          unfold withoutTrailing
          rw [List.map_cons, List.reverse_cons, List.dropWhile_append_of_pos]
          · simp [List.dropWhile, h]
          · intro x hx
            rw [List.mem_reverse, List.mem_map] at hx
            obtain ⟨t, ht, rfl⟩ := hx
            simp [hall t ht]
        rw [this]; simp
    · rw [if_neg hall, if_neg (fun x => hall fun t ht => x t (by simp [ht]))]
      have hne : withoutTrailing (0, 0) (rest.map TrackSector.nat) ≠ [] := by
        intro e
        apply hall
        intro t ht
        exact withoutTrailing_eq_nil e t.nat (List.mem_map.2 ⟨t, ht, rfl⟩)
      have : withoutTrailing (0, 0) ((ts :: rest).map TrackSector.nat) =
          ts.nat :: withoutTrailing (0, 0) (rest.map TrackSector.nat) := by
        unfold withoutTrailing at hne ⊢
        rw [List.map_cons, List.reverse_cons, List.dropWhile_append]
        rw [if_neg (by
          intro hx
          apply hne
          rw [List.isEmpty_iff] at hx
          rw [hx]; rfl)]
        simp
      rw [this]
      have hlen : 0 < (withoutTrailing (0, 0) (rest.map TrackSector.nat)).length :=
        List.length_pos_iff.2 hne
      simp only [List.length_cons]
      omega

theorem withoutTrailing_prefix {α : Type} [DecidableEq α] (c : α) (l : List α) :
    l.take (withoutTrailing c l).length = withoutTrailing c l := by
  have h : withoutTrailing c l <+: l := by
    unfold withoutTrailing
    have := (List.dropWhile_suffix (fun x => decide (x = c)) (l := l.reverse))
    have := List.reverse_prefix.2 this
    rwa [List.reverse_reverse] at this
  exact (List.prefix_iff_eq_take.1 h).symm

theorem take_lastEntry (tss : List TrackSector) (hl : tss.length = 122) :
    (tss.take (lastEntry tss 121 0 + 1)).map TrackSector.nat = usedPart (tss.map TrackSector.nat) := by
  rw [lastEntry_eq, List.map_take]
  unfold usedPart
  by_cases h : ∀ ts ∈ tss, ts.nat = (0, 0)
  · rw [if_pos h, if_pos (by
      intro p hp
      obtain ⟨t, ht, rfl⟩ := List.mem_map.1 hp
      exact h t ht)]
    exact List.take_of_length_le (by simp [hl])
  · have h2 : ¬ ∀ p ∈ tss.map TrackSector.nat, p = (0, 0) := fun hp =>
      h fun t ht => hp t.nat (List.mem_map.2 ⟨t, ht, rfl⟩)
    rw [if_neg h, if_neg h2]
    have hne : 0 < (withoutTrailing (0, 0) (tss.map TrackSector.nat)).length := by
      rw [List.length_pos_iff]
      intro e
      exact h2 (withoutTrailing_eq_nil e)
    rw [show 0 + (withoutTrailing (0, 0) (tss.map TrackSector.nat)).length - 1 + 1 =
      (withoutTrailing (0, 0) (tss.map TrackSector.nat)).length by omega]
    exact withoutTrailing_prefix _ _

/-- The pairs the code reads. -/
def codePairs (img : Bytes) : List (Nat × Nat) → List (Nat × Nat)
  | [] => []
  | [p] => usedPart (pairs img p)
  | p :: q :: rest => pairs img p ++ codePairs img (q :: rest)

theorem readable_append {a b : List (Nat × Nat)} :
    Readable img (a ++ b) ↔ Readable img a ∧ Readable img b := by
  unfold Readable
  simp only [List.mem_append]
  constructor
  · exact fun h => ⟨fun p hp => h p (Or.inl hp), fun p hp => h p (Or.inr hp)⟩
  · rintro ⟨h1, h2⟩ p (hp | hp)
    · exact h1 p hp
    · exact h2 p hp

theorem appendLists_eq {q : Nat × Nat} {l : List (Nat × Nat)} (hc : Chain img (OnImage img) q l)
    (hq : q.1 < 256 ∧ q.2 < 256) (data : Bytes) :
    appendLists img (tslsAt img l) data =
      if Readable img (codePairs img l) then .ok (data ++ pairsData img (codePairs img l))
      else .err .other := by
  induction hc generalizing data with
  | done => simp [tslsAt, appendLists, codePairs, Readable, pairsData]
  | @step p rest h0 h1 h2 ih =>
    have hlink : (linkOf img p).1 < 256 ∧ (linkOf img p).2 < 256 := ⟨UInt8.toNat_lt _, UInt8.toNat_lt _⟩
    have hp : p = nat2 (UInt8.ofNat p.1) (UInt8.ofNat p.2) := by
      have e1 : p.1 % 256 = p.1 := Nat.mod_eq_of_lt hq.1
      have e2 : p.2 % 256 = p.2 := Nat.mod_eq_of_lt hq.2
      simp [nat2, e1, e2]
    have e : tslsAt img (p :: rest) = tslAt img (UInt8.ofNat p.1) (UInt8.ofNat p.2) :: tslsAt img rest := rfl
    rw [e, appendLists]
    have hpairs : (tslAt img (UInt8.ofNat p.1) (UInt8.ofNat p.2)).trackSectors.toList.map TrackSector.nat
        = pairs img p := by rw [tslAt_pairs, ← hp]
    rw [appendSectors_eq]
    cases rest with
    | nil =>
      rw [if_pos (show tslsAt img [] = [] from rfl), take_lastEntry _ (by simp), hpairs]
      rw [show codePairs img [p] = usedPart (pairs img p) from rfl]
      by_cases hr : Readable img (usedPart (pairs img p))
      · rw [if_pos hr]; rfl
      · rw [if_neg hr]
    | cons q' rest' =>
      rw [if_neg (show tslsAt img (q' :: rest') ≠ [] by simp [tslsAt]),
        List.take_of_length_le (by simp), hpairs]
      have hcp : codePairs img (p :: q' :: rest') = pairs img p ++ codePairs img (q' :: rest') := rfl
      rw [hcp]
      by_cases hr : Readable img (pairs img p)
      · rw [if_pos hr]
        simp only
        rw [ih hlink]
        by_cases hr2 : Readable img (codePairs img (q' :: rest'))
        · rw [if_pos hr2, if_pos (readable_append.2 ⟨hr, hr2⟩)]
          simp [pairsData]
        · rw [if_neg hr2, if_neg (fun x => hr2 (readable_append.1 x).2)]
      · rw [if_neg hr, if_neg (fun x => hr (readable_append.1 x).1)]

/-- What `Contents` does. -/
theorem contents_eq (fd : FileDesc) (img : Bytes) :
    (∀ l, Chain img (OnImage img) (nat2 fd.trackSectorListTrack fd.trackSectorListSector) l →
      contents fd img = if Readable img (codePairs img l) then
        .ok ⟨pairsData img (codePairs img l), 256 * 122 * l.length - (pairsData img (codePairs img l)).length⟩
        else .err .other) ∧
    ((¬ ∃ l, Chain img (OnImage img) (nat2 fd.trackSectorListTrack fd.trackSectorListSector) l) →
      contents fd img = .err .other) := by
  unfold contents contentsFuel
  constructor
  · intro l hl
    have hlen : l.length ≤ 65536 := by
      have := nodup_length_le (a := 256) (b := 256) hl.nodup (by
        intro q hq
        -- every element of the chain is the start or a link
        have gen : ∀ {p : Nat × Nat} {l : List (Nat × Nat)}, Chain img (OnImage img) p l →
            p.1 < 256 ∧ p.2 < 256 → ∀ q ∈ l, q.1 < 256 ∧ q.2 < 256 := by
          intro p l h
          induction h with
          | done => intro _ q hq; simp at hq
          | step h0 h1 h2 ih =>
            intro hp q hq
            rcases List.mem_cons.1 hq with e | hq
            · subst e; exact hp
            · exact ih ⟨UInt8.toNat_lt _, UInt8.toNat_lt _⟩ q hq
        exact gen hl ⟨UInt8.toNat_lt _, UInt8.toNat_lt _⟩ q hq)
      simpa using this
    rw [tslLoop_chain hl (by omega) (by simp), Out.bind_ok, List.nil_append,
      appendLists_eq hl ⟨UInt8.toNat_lt _, UInt8.toNat_lt _⟩]
    by_cases hr : Readable img (codePairs img l)
    · rw [if_pos hr, if_pos hr, Out.bind_ok, List.nil_append]
      rw [show (tslsAt img l).length = l.length by simp [tslsAt]]
    · rw [if_neg hr, if_neg hr]; rfl
  · intro h
    rcases tslLoop_ends (img := img) (t := fd.trackSectorListTrack) (s := fd.trackSectorListSector)
      (fuel := 65537) (seen := []) (tsls := []) List.nodup_nil (by simp) with e | ⟨r, e⟩
    · rw [e]; rfl
    · obtain ⟨l, hl, _⟩ := tslLoop_ok e
      exact absurd ⟨l, hl⟩ h

theorem pairsData_length {ps : List (Nat × Nat)} (h : Readable img ps) :
    (pairsData img ps).length = 256 * ps.length := by
  induction ps with
  | nil => rfl
  | cons p ps ih =>
    rw [Readable.cons] at h
    unfold pairsData at ih ⊢
    rw [List.flatMap_cons, List.length_append, ih h.2, List.length_cons]
    split
    · simp; omega
    · rename_i hp
      rw [sectorAt_length (by have := h.1 hp; unfold OnImage at this; omega)]; omega

theorem withoutTrailing_length_le {α : Type} [DecidableEq α] (c : α) (l : List α) :
    (withoutTrailing c l).length ≤ l.length := by
  have := congrArg List.length (withoutTrailing_prefix c l)
  rw [List.length_take] at this
  omega

theorem pairs_length (p : Nat × Nat) : (pairs img p).length = 122 := by simp [pairs]

theorem usedPart_length_le (ps : List (Nat × Nat)) : (usedPart ps).length ≤ ps.length := by
  unfold usedPart
  split
  · exact Nat.le_refl _
  · exact withoutTrailing_length_le _ _

theorem usedPart_ne_nil {ps : List (Nat × Nat)} (h : ps ≠ []) : usedPart ps ≠ [] := by
  unfold usedPart
  split
  · exact h
  · rename_i hn
    intro e
    exact hn (withoutTrailing_eq_nil e)

theorem codePairs_length_le (l : List (Nat × Nat)) : (codePairs img l).length ≤ 122 * l.length := by
  induction l with
  | nil => simp [codePairs]
  | cons p l ih =>
    cases l with
    | nil =>
      have := usedPart_length_le (pairs img p)
      rw [pairs_length] at this
      simpa [codePairs] using this
    | cons q l =>
      rw [codePairs, List.length_append, pairs_length, List.length_cons]
      omega

theorem codePairs_ne_nil {l : List (Nat × Nat)} (h : l ≠ []) : codePairs img l ≠ [] := by
  cases l with
  | nil => exact absurd rfl h
  | cons p l =>
    cases l with
    | nil =>
      exact usedPart_ne_nil (by intro e; have := congrArg List.length e; rw [pairs_length] at this; simp at this)
    | cons q l =>
      rw [codePairs]
      intro e
      have := congrArg List.length e
      rw [List.length_append, pairs_length] at this
      simp at this

theorem codePairs_eq {l : List (Nat × Nat)} (h : LastListUsed img l) : codePairs img l = filePairs img l := by
  induction l with
  | nil => rfl
  | cons p l ih =>
    cases l with
    | nil =>
      rw [codePairs, filePairs]
      unfold usedPart
      rw [if_neg]
      intro hall
      obtain ⟨q, hq, hne⟩ := h p (by simp)
      exact hne (hall q hq)
    | cons q l =>
      rw [codePairs, filePairs, ih]
      intro r hr
      exact h r (by rw [List.getLast?_cons_cons]; exact hr)

end Verif.Dos3
