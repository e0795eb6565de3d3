import Verif.Props.Forever
import Verif.Props.EndsWit

/-!
# Commands that may run for ever, and commands that do not
-/

set_option autoImplicit false

namespace Verif.Cmd
open Disk Spec

theorem loop_opening : OpeningMayHang (str "a.do") (str "auto") (str "auto") Dos3.loopDisk :=
  ⟨[str "do"], (str "do", .dos3), ⟨Dos3.loopDisk_length, CandidateOrders.byExtDO, Or.inl rfl⟩,
    ⟨[], [(str "do", .nakedos), (str "do", .prodos)], by unfold attempts; simp, by simp⟩, Dos3.loopDisk, view_self Dos3.loopDisk_length, loop_endless⟩

theorem loop_believed : Believed (str "a.do") (str "auto") (str "dos3") Dos3.loopDisk .dos3 Dos3.loopDisk :=
  .named Dos3.loopDisk_length CandidateOrders.byExtDO rfl (view_self Dos3.loopDisk_length)

/-- On a disk whose catalog goes round in a circle, `rm` may run for ever, as does every command that opens it. Told that the disk is a DOS 3.3 disk, `rm`
ends, but `ls` and `dump` may go on for ever. -/
theorem C87_told {w : World} (hw : w.files (str "a.do") = some Dos3.loopDisk) (name : Str) (m : Bool) :
    MayRunForEver (.rm (str "auto") (str "auto") m (str "a.do") name) w ∧
    ¬ MayRunForEver (.rm (str "auto") (str "dos3") m (str "a.do") name) w ∧
    MayRunForEver (.dump (str "auto") (str "dos3") (str "a.do") name) w ∧
    MayRunForEver (.ls (str "auto") (str "dos3") m (str "a.do") []) w := by
  have hc : contentOf w (str "a.do") = some Dos3.loopDisk := by unfold contentOf; rw [if_neg (by decide), hw]
  have hj : judgedBy (str "a.do") = str "a.do" := by unfold judgedBy; rw [if_neg (by decide)]
  refine ⟨⟨_, hc, ?_⟩, ?_, ⟨_, hc, Or.inr ⟨_, ?_, loop_endless⟩⟩, ⟨_, hc, Or.inr ⟨.dos3, _, ?_, loop_endless, Or.inl rfl⟩⟩⟩
  · rw [hj]; exact loop_opening
  · rintro ⟨raw, hr, os, p, ⟨_, hos, ha⟩, _⟩
    rw [hj] at hos
    have e := (ordersToTry_iff _ _ _).2 hos
    have e' : ordersToTry (str "auto") (toLower (pathExt (str "a.do"))) = some [str "do"] := by decide
    rw [e'] at e
    rcases ha with ha | ha
    · exact absurd ha (by decide)
    · exact ha (by rw [← Option.some.inj e]; rfl)
  · rw [hj]; exact loop_believed
  · rw [hj]; exact loop_believed

/-- A ProDOS volume whose directory goes round in a circle, in a file. -/
example : ∃ raw : Bytes, ∀ w : World, w.files (str "x.po") = some raw → ∀ dir,
    MayRunForEver (.ls (str "auto") (str "prodos") false (str "x.po") dir) w := by
  obtain ⟨raw, _, h⟩ := C87_violated_directory
  exact ⟨raw, fun w hw dir => (C87_exact _ w).1 ⟨.stored, fun n => h _ w hw dir⟩⟩

end Verif.Cmd
