import Verif.Model.Prodos
import Verif.Spec.ProdosCheck
import Mathlib.Tactic.Common

/-!
# Checks of ProDOS directory blocks (C69)

A directory block is checked by reading it and calling `Validate`.  It should report a problem
exactly if the block breaks the format.  It does not, because it takes the minute for the hour.
-/

set_option autoImplicit false

namespace Verif.Prodos

open Spec.Prodos

/-- What a report of problems says about block `b`, if times of day are stored at `times`:
an hour is at fault iff the first byte of some time is 24 or more, a minute iff the second byte is
60 or more, and `prev`, `mark` and the last byte if they do not have their fixed value. -/
structure Reports (b : Bytes) (times : List Nat) (key sub : Bool) (report : List Complaint) : Prop where
  hour : .hour ∈ report ↔ ∃ i ∈ times, 24 ≤ (b.getD i 0).toNat
  minute : .minute ∈ report ↔ ∃ i ∈ times, 60 ≤ (b.getD (i + 1) 0).toNat
  prev : .prev ∈ report ↔ key = true ∧ ¬ (b.getD 0 0 = 0 ∧ b.getD 1 0 = 0)
  seventyFive : .seventyFive ∈ report ↔ sub = true ∧ b.getD 0x14 0 ≠ 0x75
  extra : .extra ∈ report ↔ b.getD 511 0 ≠ 0

/-- The complaints about the time of day at `i`. -/
def timeReport (b : Bytes) (i : Nat) : List Complaint :=
  (if b.getD i 0 ≥ 24 then [.hour] else []) ++ (if b.getD (i + 1) 0 ≥ 60 then [.minute] else [])

theorem dateTime_report (b : Bytes) (off : Nat) :
    (DateTime.fromBytes (rdVec 4 b off)).validate = timeReport b (off + 2) := by
  unfold DateTime.validate DateTime.fromBytes timeReport
  simp only [Vector.getElem_mk, List.getElem_toArray, List.getElem_cons_zero, List.getElem_cons_succ,
    rdVec_getElem, at8]

theorem descriptor_report (b : Bytes) (off : Nat) :
    (FileDescriptor.fromBytes b off).validate = timeReport b (off + 0x1a) ++ timeReport b (off + 0x23) := by
  unfold FileDescriptor.validate FileDescriptor.fromBytes
  simp only [dateTime_report]

theorem descriptors_report (n : Nat) (b : Bytes) (start : Nat) (c : Complaint) :
    c ∈ (Vector.ofFn fun i : Fin n => FileDescriptor.fromBytes b (start + 0x27 * i.val)).toList.flatMap
        FileDescriptor.validate ↔
      ∃ i ∈ (List.range n).flatMap fun k => [start + 39 * k + 0x1a, start + 39 * k + 0x23],
        c ∈ timeReport b i := by
  simp only [List.mem_flatMap, Vector.toList_ofFn, List.mem_ofFn, List.mem_range]
  constructor
  · rintro ⟨d, ⟨k, rfl⟩, h⟩
    rw [descriptor_report, List.mem_append] at h
    rcases h with h | h
    · exact ⟨_, ⟨k, k.isLt, by simp⟩, h⟩
    · exact ⟨start + 39 * k + 0x23, ⟨k, k.isLt, by simp⟩, h⟩
  · rintro ⟨i, ⟨k, hk, hi⟩, h⟩
    refine ⟨_, ⟨⟨k, hk⟩, rfl⟩, ?_⟩
    rw [descriptor_report, List.mem_append]
    simp only [List.mem_cons, List.not_mem_nil, or_false] at hi
    rcases hi with rfl | rfl
    · exact Or.inl h
    · exact Or.inr h

theorem hour_mem (b : Bytes) (i : Nat) : .hour ∈ timeReport b i ↔ 24 ≤ (b.getD i 0).toNat := by
  unfold timeReport
  simp only [ge_iff_le, UInt8.le_iff_toNat_le]
  split <;> split <;> simp_all

theorem minute_mem (b : Bytes) (i : Nat) : .minute ∈ timeReport b i ↔ 60 ≤ (b.getD (i + 1) 0).toNat := by
  unfold timeReport
  simp only [ge_iff_le, UInt8.le_iff_toNat_le]
  split <;> split <;> simp_all

theorem other_mem (b : Bytes) (i : Nat) (c : Complaint) (hc : c ≠ .hour ∧ c ≠ .minute) : c ∉ timeReport b i := by
  unfold timeReport
  split <;> split <;> simp_all

theorem rd16_zero (b : Bytes) (i : Nat) : rd16 b i = 0 ↔ b.getD i 0 = 0 ∧ b.getD (i + 1) 0 = 0 := by
  unfold rd16 at8
  rw [← UInt16.toNat_inj, le16_toNat, ← UInt8.toNat_inj, ← UInt8.toNat_inj]
  show _ = 0 ↔ _ = 0 ∧ _ = 0
  omega

theorem mem_one {c d : Complaint} {p : Prop} [Decidable p] : c ∈ (if p then [d] else []) ↔ p ∧ c = d := by
  split <;> simp_all

theorem reports_of {b : Bytes} {times : List Nat} {key sub : Bool} {report : List Complaint}
    (h : ∀ c, c ∈ report ↔ ((key = true ∧ rd16 b 0 ≠ 0) ∧ c = .prev) ∨ ((sub = true ∧ b.getD 0x14 0 ≠ 0x75) ∧ c = .seventyFive) ∨
      (∃ i ∈ times, c ∈ timeReport b i) ∨ (b.getD 511 0 ≠ 0 ∧ c = .extra)) : Reports b times key sub report where
  hour := by rw [h]; simp [hour_mem]
  minute := by rw [h]; simp [minute_mem]
  prev := by
    rw [h, ne_eq, rd16_zero]
    simp [other_mem]
  seventyFive := by rw [h]; simp [other_mem]
  extra := by rw [h]; simp [other_mem]

/-- **C69 (partial).** The checks of the four kinds of directory blocks, read from a block's
bytes, report exactly the fields at fault, except that they take the two bytes of a time of day
for hour and minute: ProDOS stores the minute first. -/
theorem C69_reports_partial (b : Bytes) :
    (∀ v : VolumeDirectoryKeyBlock, Reports b keyTimes true false (v.fromBlock b).validate) ∧
    (∀ v : VolumeDirectoryBlock, Reports b blockTimes false false (v.fromBlock b).validate) ∧
    (∀ v : SubdirectoryKeyBlock, Reports b keyTimes true true (v.fromBlock b).validate) ∧
    (∀ v : SubdirectoryBlock, Reports b blockTimes false false (v.fromBlock b).validate) := by
  refine ⟨fun v => reports_of fun c => ?_, fun v => reports_of fun c => ?_, fun v => reports_of fun c => ?_,
    fun v => reports_of fun c => ?_⟩
  · unfold VolumeDirectoryKeyBlock.validate VolumeDirectoryKeyBlock.fromBlock VolumeDirectoryHeader.validate
      VolumeDirectoryHeader.fromBytes
    simp only [List.mem_append, mem_one, descriptors_report, dateTime_report, keyTimes, List.mem_cons,
      exists_eq_or_imp]
    simp [at8, or_assoc]
  · unfold VolumeDirectoryBlock.validate VolumeDirectoryBlock.fromBlock
    simp only [List.mem_append, mem_one, descriptors_report]
    simp [at8, blockTimes]
  · unfold SubdirectoryKeyBlock.validate SubdirectoryKeyBlock.fromBlock SubdirectoryHeader.validate
      SubdirectoryHeader.fromBytes
    simp only [List.mem_append, mem_one, descriptors_report, dateTime_report, keyTimes, List.mem_cons,
      exists_eq_or_imp]
    simp [at8, or_assoc]
  · unfold SubdirectoryBlock.validate SubdirectoryBlock.fromBlock
    simp only [List.mem_append, mem_one, descriptors_report]
    simp [at8, blockTimes]

/-- The time fields of block `b` at `times` hold 0 to 23 in both bytes, so that it does not matter
which of them is the hour. -/
def SmallTimes (b : Bytes) (times : List Nat) : Prop :=
  ∀ i ∈ times, (b.getD i 0).toNat < 24 ∧ (b.getD (i + 1) 0).toNat < 24

theorem passed_of {b : Bytes} {times : List Nat} {key sub : Bool} {report : List Complaint}
    (r : Reports b times key sub report) (small : SmallTimes b times) :
    report = [] ↔ (key = true → b.getD 0 0 = 0 ∧ b.getD 1 0 = 0) ∧ (sub = true → b.getD 0x14 0 = 0x75) ∧
      b.getD 511 0 = 0 := by
  constructor
  · rintro rfl
    refine ⟨fun hk => ?_, fun hk => ?_, ?_⟩
    · by_contra hc; exact List.not_mem_nil (r.prev.mpr ⟨hk, hc⟩)
    · by_contra hc; exact List.not_mem_nil (r.seventyFive.mpr ⟨hk, hc⟩)
    · by_contra hc; exact List.not_mem_nil (r.extra.mpr hc)
  · rintro ⟨h1, h2, h3⟩
    rw [List.eq_nil_iff_forall_not_mem]
    intro c hc
    cases c with
    | hour => obtain ⟨i, hi, h⟩ := r.hour.mp hc; have := small i hi; omega
    | minute => obtain ⟨i, hi, h⟩ := r.minute.mp hc; have := small i hi; omega
    | prev => exact (r.prev.mp hc).2 (h1 (r.prev.mp hc).1)
    | extra => exact (r.extra.mp hc) h3
    | seventyFive => exact (r.seventyFive.mp hc).2 (h2 (r.seventyFive.mp hc).1)

/-- **C69 (partial).** On blocks whose times do not tell minutes from hours, the checks are right:
a block is passed without complaint iff its fixed fields have their fixed values - the back
pointer of key blocks, the byte `$75` of subdirectory headers, the last byte of all. -/
theorem C69_passed_partial (b : Bytes) :
    (SmallTimes b keyTimes → ∀ v : VolumeDirectoryKeyBlock,
      (v.fromBlock b).validate = [] ↔ (b.getD 0 0 = 0 ∧ b.getD 1 0 = 0) ∧ b.getD 511 0 = 0) ∧
    (SmallTimes b blockTimes → ∀ v : VolumeDirectoryBlock, (v.fromBlock b).validate = [] ↔ b.getD 511 0 = 0) ∧
    (SmallTimes b keyTimes → ∀ v : SubdirectoryKeyBlock,
      (v.fromBlock b).validate = [] ↔
        (b.getD 0 0 = 0 ∧ b.getD 1 0 = 0) ∧ b.getD 0x14 0 = 0x75 ∧ b.getD 511 0 = 0) ∧
    (SmallTimes b blockTimes → ∀ v : SubdirectoryBlock, (v.fromBlock b).validate = [] ↔ b.getD 511 0 = 0) := by
  have r := C69_reports_partial b
  refine ⟨fun s v => ?_, fun s v => ?_, fun s v => ?_, fun s v => ?_⟩
  · rw [passed_of (r.1 v) s]; simp
  · rw [passed_of (r.2.1 v) s]; simp
  · rw [passed_of (r.2.2.1 v) s]; simp
  · rw [passed_of (r.2.2.2 v) s]; simp

/-- A block of zeros in which the header's time of creation is `minute` and `hour`. -/
def timedBlock (minute hour : UInt8) : Bytes := ((zeros 512).set 30 minute).set 31 hour

theorem timedBlock_length (m h : UInt8) : (timedBlock m h).length = 512 := by
  unfold timedBlock
  rw [List.length_set, List.length_set, zeros_length]

theorem timedBlock_getD (m h : UInt8) (i : Nat) :
    (timedBlock m h).getD i 0 = if i = 30 then m else if i = 31 then h else 0 := by
  unfold timedBlock
  simp only [List.getD_eq_getElem?_getD, List.getElem?_set, List.length_set, zeros_length]
  by_cases h1 : i = 30
  · subst h1; simp
  · by_cases h2 : i = 31
    · subst h2; simp
    · have z : (zeros 512)[i]?.getD 0 = 0 := by
        unfold zeros
        rw [List.getElem?_replicate]
        split <;> rfl
      rw [if_neg (by omega), if_neg (by omega), if_neg h1, if_neg h2, z]

theorem keyTimes_far : ∀ i ∈ keyTimes, i = 30 ∨ 31 < i := by decide

theorem timedBlock_time (m h : UInt8) {i : Nat} (hi : i ∈ keyTimes) :
    ((timedBlock m h).getD i 0 = m ∧ (timedBlock m h).getD (i + 1) 0 = h) ∨
      ((timedBlock m h).getD i 0 = 0 ∧ (timedBlock m h).getD (i + 1) 0 = 0) := by
  simp only [timedBlock_getD]
  rcases keyTimes_far i hi with rfl | hf
  · left; simp
  · right
    rw [if_neg (by omega), if_neg (by omega), if_neg (by omega), if_neg (by omega)]
    exact ⟨rfl, rfl⟩

/-- **C69 is violated.** A directory created at 10:30, as ProDOS records it, is reported faulty,
although every field is as the format has it. -/
theorem C69_violated_refused : ∃ b : Bytes, b.length = 512 ∧ (∀ i ∈ keyTimes, ProdosTime b i) ∧
    b.getD 0 0 = 0 ∧ b.getD 1 0 = 0 ∧ b.getD 511 0 = 0 ∧
    ∀ v : VolumeDirectoryKeyBlock, .hour ∈ (v.fromBlock b).validate := by
  refine ⟨timedBlock 30 10, timedBlock_length _ _, fun i hi => ?_, ?_, ?_, ?_, fun v => ?_⟩
  · unfold ProdosTime
    rcases timedBlock_time 30 10 hi with ⟨h1, h2⟩ | ⟨h1, h2⟩ <;> rw [h1, h2] <;> decide
  · rw [timedBlock_getD]; rfl
  · rw [timedBlock_getD]; rfl
  · rw [timedBlock_getD]; rfl
  · rw [((C69_reports_partial _).1 v).hour]
    refine ⟨30, by decide, ?_⟩
    rw [timedBlock_getD]; decide

/-- **C69 is violated.** A directory created at hour 30 is passed without complaint. -/
theorem C69_violated_passed : ∃ b : Bytes, b.length = 512 ∧ (∃ i ∈ keyTimes, ¬ ProdosTime b i) ∧
    ∀ v : VolumeDirectoryKeyBlock, (v.fromBlock b).validate = [] := by
  refine ⟨timedBlock 5 30, timedBlock_length _ _, ⟨30, by decide, ?_⟩, fun v => ?_⟩
  · unfold ProdosTime
    rw [timedBlock_getD, timedBlock_getD]; decide
  · have r := (C69_reports_partial (timedBlock 5 30)).1 v
    rw [List.eq_nil_iff_forall_not_mem]
    intro c hc
    cases c with
    | hour =>
      obtain ⟨i, hi, h⟩ := r.hour.mp hc
      rcases timedBlock_time 5 30 hi with ⟨h1, -⟩ | ⟨h1, -⟩ <;> rw [h1] at h <;> exact absurd h (by decide)
    | minute =>
      obtain ⟨i, hi, h⟩ := r.minute.mp hc
      rcases timedBlock_time 5 30 hi with ⟨-, h1⟩ | ⟨-, h1⟩ <;> rw [h1] at h <;> exact absurd h (by decide)
    | prev =>
      refine (r.prev.mp hc).2 ?_
      rw [timedBlock_getD, timedBlock_getD]; exact ⟨rfl, rfl⟩
    | extra =>
      refine r.extra.mp hc ?_
      rw [timedBlock_getD]; rfl
    | seventyFive => exact absurd (r.seventyFive.mp hc).1 (by decide)

/-- C69 applies: a directory created at 9:05 has small times and is passed. -/
example (v : VolumeDirectoryKeyBlock) : (v.fromBlock (timedBlock 5 9)).validate = [] := by
  refine ((C69_passed_partial _).1 (fun i hi => ?_) v).mpr ?_
  · rcases timedBlock_time 5 9 hi with ⟨h1, h2⟩ | ⟨h1, h2⟩ <;> rw [h1, h2] <;> decide
  · simp only [timedBlock_getD]; decide

end Verif.Prodos
