import Verif.Props.Orders
import Verif.Props.EndlessWit

/-!
# C46, C48 and C86: volumes of each kind
-/

set_option autoImplicit false
set_option maxRecDepth 20000

namespace Verif.Prodos

open Verif Verif.Disk Verif.Spec Verif.Spec.Prodos

/-- The volume with two subdirectories "A" is well formed, and they are twins. -/
example : twinDev.length < 2 ^ 36 ∧ WellFormed twinDev ∧ Twins twinDev (str "A") ∧ ¬ Torn twinDev := by
  have hl : twinDev.length < 2 ^ 36 := by
    rw [show twinDev.length = 143360 from dev_length (by decide +kernel) (by decide +kernel) (by decide +kernel)]; omega
  obtain ⟨h1, h2⟩ := C48_needs_distinct_paths
  obtain ⟨hw, _, ht⟩ := (C48_exact hl (str "A")).1 ⟨_, _, _, _, _, _, h1, h2, by simp⟩
  refine ⟨hl, hw, ht, ?_⟩
  rintro ⟨_, _, ⟨k, hk, hu⟩, _⟩
  obtain ⟨p, hp⟩ := hw.2.2 k hk
  exact pathOf_not_endless hp hu

/-- The volume on which it depends on the order of visiting maps whether reading ends is torn. -/
example : mixedDev.length < 2 ^ 36 ∧ Torn mixedDev ∧ ¬ WellFormed mixedDev := by
  refine ⟨by rw [mixed_length]; omega, ⟨bitmap_small mixed_length, ⟨3, mixed_read3⟩, ⟨3, (mixed_subdir 3).2 (Or.inl rfl), mixed_endless⟩,
    4, (mixed_subdir 4).2 (Or.inr rfl), mixed_lost⟩, ?_⟩
  rintro ⟨_, _, h⟩
  obtain ⟨p, hp⟩ := h 3 ((mixed_subdir 3).2 (Or.inl rfl))
  exact pathOf_not_endless hp mixed_endless

end Verif.Prodos
