import Verif.Props.Hang
import Verif.Props.EndlessWit
import Verif.Props.RecogniseWit

/-!
# C70, exactly: what becomes of the test for ProDOS
-/

set_option autoImplicit false

namespace Verif.Prodos
open Spec.Prodos

/-- C70, exactly: given time and whatever the order of maps, the test for ProDOS says yes if and only if all directories can be read and the volume is not
one that may never be read to its end. -/
theorem C70_yes_exact {img : Bytes} (hlen : img.length < 2 ^ 36) :
    (∃ n₀, ∀ n, n₀ ≤ n → ∀ ord, seemsToMatch n ord img = .ok true) ↔ ReadableVolume img ∧ ¬ EndlessVolume img := by
  constructor
  · rintro ⟨n, hn⟩
    refine ⟨(C70_answers n .stored img hlen).1 (hn n (le_refl n) _), fun he => ?_⟩
    obtain ⟨ord, ho⟩ := Cmd.prodos_hangs hlen he
    have := hn n (le_refl n) ord
    unfold seemsToMatch at this
    rw [ho] at this
    cases this
  · rintro ⟨hr, he⟩
    obtain ⟨n, hn⟩ := Cmd.prodos_settles hlen he
    refine ⟨n, fun m hm ord => ?_⟩
    have h1 := hn m hm ord
    have h2 := (C70_answers m ord img hlen).2
    unfold seemsToMatch at h2 ⊢
    cases e : readVolume m ord img 2 with
    | ok x => rfl
    | err x => rw [e] at h2; exact absurd hr (h2 rfl)
    | panic => rw [e] at h1; cases h1
    | timeout => rw [e] at h1; cases h1

/-- C70, exactly: it says no if and only if some directory can not be read and the volume is not one that may never be read to its end. -/
theorem C70_no_exact {img : Bytes} (hlen : img.length < 2 ^ 36) :
    (∃ n₀, ∀ n, n₀ ≤ n → ∀ ord, seemsToMatch n ord img = .ok false) ↔ ¬ ReadableVolume img ∧ ¬ EndlessVolume img := by
  constructor
  · rintro ⟨n, hn⟩
    refine ⟨(C70_answers n .stored img hlen).2 (hn n (le_refl n) _), fun he => ?_⟩
    obtain ⟨ord, ho⟩ := Cmd.prodos_hangs hlen he
    have := hn n (le_refl n) ord
    unfold seemsToMatch at this
    rw [ho] at this
    cases this
  · rintro ⟨hr, he⟩
    obtain ⟨n, hn⟩ := Cmd.prodos_settles hlen he
    refine ⟨n, fun m hm ord => ?_⟩
    have h1 := hn m hm ord
    have h2 := (C70_answers m ord img hlen).1
    unfold seemsToMatch at h2 ⊢
    cases e : readVolume m ord img 2 with
    | ok x => rw [e] at h2; exact absurd (h2 rfl) hr
    | err x => rfl
    | panic => rw [e] at h1; cases h1
    | timeout => rw [e] at h1; cases h1

/-- C70, exactly: in some order of maps there is never an answer if and only if the volume is one that may never be read to its end. -/
theorem C70_never_exact {img : Bytes} (hlen : img.length < 2 ^ 36) :
    (∃ ord, ∀ n, seemsToMatch n ord img = .timeout) ↔ EndlessVolume img := by
  rw [show EndlessVolume img ↔ ∃ ord, ∀ n, readVolume n ord img 2 = .timeout from (C47_can_be_endless hlen).symm]
  refine exists_congr fun ord => forall_congr' fun n => ?_
  unfold seemsToMatch
  cases e : readVolume n ord img 2 <;> simp

/-- All three happen: a disk of zeros is an empty volume, a file that is too short is none, and for a directory that goes round in a circle there is no answer. -/
example : (∃ img : Bytes, img.length < 2 ^ 36 ∧ ReadableVolume img ∧ ¬ EndlessVolume img) ∧
    (∃ img : Bytes, img.length < 2 ^ 36 ∧ ¬ ReadableVolume img ∧ ¬ EndlessVolume img) ∧ ∃ img : Bytes, img.length < 2 ^ 36 ∧ EndlessVolume img := by
  refine ⟨⟨zeros 1536, by rw [zeros_length]; omega, ?_⟩, ⟨[], by simp, ?_⟩, ⟨mixedDev, by rw [mixed_length]; omega, ?_⟩⟩
  · exact (C70_yes_exact (by rw [zeros_length]; omega)).1 (C70_blank _ (by rw [zeros_length]) (by rw [zeros_length]; omega) (fun i => Cmd.blank_bbyte 1536 i))
  · exact (C70_no_exact (by simp)).1 ⟨0, fun n _ ord => C70_short [] (by simp) n ord⟩
  · exact Or.inr ⟨bitmap_small mixed_length, ⟨3, mixed_read3⟩, 3, (mixed_subdir 3).2 (Or.inl rfl), mixed_endless⟩

end Verif.Prodos
