import Verif.Proofs.ProdosRecog

/-!
# Recognition of ProDOS volumes (C70)
-/

set_option autoImplicit false
set_option maxRecDepth 20000

namespace Verif.Prodos

open Verif Verif.Disk Verif.Spec Verif.Spec.Prodos

/-- **C70.** Whenever the test for ProDOS gives an answer, it is right: it says yes only for
volumes all of whose directories can be read, and no only for others, whatever the order of map
iteration. -/
theorem C70_answers (n : Nat) (ord : RangeOrder UInt16 Subdirectory) (img : Bytes) (hlen : img.length < 2 ^ 36) :
    (seemsToMatch n ord img = .ok true → ReadableVolume img) ∧
    (seemsToMatch n ord img = .ok false → ¬ ReadableVolume img) := by
  unfold seemsToMatch
  constructor
  · intro h
    cases hv : readVolume n ord img 2 with
    | ok v => exact readVolume_good hlen hv
    | err e => rw [hv] at h; simp at h
    | panic => rw [hv] at h; simp at h
    | timeout => rw [hv] at h; simp at h
  · intro h
    cases hv : readVolume n ord img 2 with
    | ok v => rw [hv] at h; simp at h
    | err e => exact readVolume_err (n := n) (ord := ord) hlen (by rw [hv]; rfl)
    | panic => rw [hv] at h; simp at h
    | timeout => rw [hv] at h; simp at h

/-- **C70 (partial).** If no directory chain, no nesting of directories and no parent pointers
loop, the test for ProDOS gives an answer, and it is yes exactly for volumes all of whose
directories can be read.  (Missing: with such loops it may not end, see C47.) -/
theorem C70_recognised_partial (img : Bytes) (hlen : img.length < 2 ^ 36)
    (hch : ∀ k, k = 2 ∨ Subdir img k → ¬ Endless img (nextOf img k))
    (hac : ∀ k, Subdir img k → ¬ Relation.TransGen (Child img) k k)
    (hpa : ∀ k, Subdir img k → ¬ Relation.TransGen (Parent img) k k) :
    ∃ n₀, ∀ n, n₀ ≤ n → ∀ ord,
      (ReadableVolume img → seemsToMatch n ord img = .ok true) ∧
      (¬ ReadableVolume img → seemsToMatch n ord img = .ok false) := by
  obtain ⟨n₀, h⟩ := readVolume_returns hlen hch hac hpa
  refine ⟨n₀, fun n hn ord => ?_⟩
  have hr := h n hn ord
  have ha := C70_answers n ord img hlen
  have hb : seemsToMatch n ord img = .ok true ∨ seemsToMatch n ord img = .ok false := by
    unfold seemsToMatch
    cases hv : readVolume n ord img 2 with
    | ok v => exact Or.inl rfl
    | err e => exact Or.inr rfl
    | panic => rw [hv] at hr; simp at hr
    | timeout => rw [hv] at hr; simp at hr
  constructor
  · intro hg
    rcases hb with hb | hb
    · exact hb
    · exact absurd hg (ha.2 hb)
  · intro hg
    rcases hb with hb | hb
    · exact absurd (ha.1 hb) hg
    · exact hb

/-- An image whose block 2 is blank has no subdirectories. -/
theorem blank_no_child {img : Bytes} (hz : ∀ i, bbyte img 2 i = 0) (j : Nat) : ¬ Child img 2 j := by
  rintro ⟨l, e, hl, he, hs, _⟩
  have hnext : nextOf img 2 = 0 := by
    unfold nextOf word
    rw [hz, hz]; rfl
  have hl0 : l = [] := by
    have := hl.2
    rw [hnext] at this
    exact this.unique .done
  subst hl0
  simp only [dirEntries, List.flatMap_nil, List.append_nil, keyEntries, List.mem_map, List.mem_range] at he
  obtain ⟨k, hk, rfl⟩ := he
  have h0 : (recordAt img 2 (43 + 39 * k)).getD 0 0 = 0 := by
    have := hz (43 + 39 * k)
    unfold bbyte at this
    unfold recordAt
    rw [List.getD_eq_getElem?_getD] at this ⊢
    rw [List.getElem?_take, if_pos (by omega), List.getElem?_drop]
    simpa using this
  unfold storageType at hs
  rw [h0] at hs
  exact absurd hs (by decide)

theorem blank_no_subdir {img : Bytes} (hz : ∀ i, bbyte img 2 i = 0) (j : Nat) : ¬ Subdir img j := by
  intro h
  unfold Subdir at h
  obtain ⟨b, hb, _⟩ := Relation.TransGen.head'_iff.1 h
  exact blank_no_child hz b hb

/-- **C70.** The test is lenient: every floppy image in which block 2 is blank, in particular a
disk of zeros, is taken for a ProDOS volume (with an empty directory). -/
theorem C70_blank (img : Bytes) (h1 : 1536 ≤ img.length) (h2 : img.length < 2 ^ 21) (hz : ∀ i, bbyte img 2 i = 0) :
    ∃ n₀, ∀ n, n₀ ≤ n → ∀ ord, seemsToMatch n ord img = .ok true := by
  have hnext : nextOf img 2 = 0 := by
    unfold nextOf word
    rw [hz, hz]; rfl
  obtain ⟨n₀, h⟩ := C70_recognised_partial img (by omega)
    (fun k hk hE => by
      rcases hk with rfl | hk
      · exact (hE 0).1 hnext
      · exact blank_no_subdir hz k hk)
    (fun k hk => absurd hk (blank_no_subdir hz k)) (fun k hk => absurd hk (blank_no_subdir hz k))
  refine ⟨n₀, fun n hn ord => (h n hn ord).1 ⟨?_, ⟨[], ?_, ?_⟩, ?_, ?_⟩⟩
  · intro i hi
    have : img.length / 512 / 4096 = 0 := by rw [Nat.div_div_eq_div_mul]; omega
    rw [this] at hi
    omega
  · unfold OnDevice; omega
  · rw [hnext]; exact .done
  · exact fun j hj => absurd hj (blank_no_subdir hz j)
  · exact fun j hj => absurd hj (blank_no_subdir hz j)

/-- **C70.** An image too short to hold block 2 is not taken for a ProDOS volume. -/
theorem C70_short (img : Bytes) (h : img.length < 1536) (n : Nat) (ord : RangeOrder UInt16 Subdirectory) :
    seemsToMatch n ord img = .ok false := by
  unfold seemsToMatch readVolume
  rw [unmarshalVolumeKey_err img 2 (by unfold OnDevice; have : (2 : UInt16).toNat = 2 := rfl; omega)]
  rfl

/-- `C70_blank` applies to a disk of zeros. -/
example : ∃ n₀, ∀ n, n₀ ≤ n → ∀ ord, seemsToMatch n ord (zeros 143360) = .ok true := by
  refine C70_blank _ (by rw [zeros_length]; omega) (by rw [zeros_length]; omega) fun i => ?_
  unfold bbyte blockAt zeros
  rw [List.getD_eq_getElem?_getD]
  simp only [List.drop_replicate, List.take_replicate, List.getElem?_replicate]
  split <;> rfl

end Verif.Prodos
