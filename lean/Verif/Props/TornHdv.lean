import Verif.Props.Torn

/-!
# C82: what holds of torn images whatever their name
-/

set_option autoImplicit false

namespace Verif.Cmd
open Disk Spec

/-- A file that has not the size of a floppy disk is refused or opened as a ProDOS volume. -/
theorem odd_size_opens (env : Env) (w : World) (p : Str) (hp : p ≠ str "-") {raw : Bytes} (hraw : w.files p = some raw)
    (hl : raw.length ≠ 143360) (order : DiskOrder) (system : Str) :
    (openDisk env p order system w).1.isErr = true ∨ ∃ o ord, Finds env w p order system (.prodos o) ord := by
  rcases C08_wrong_images_refused raw p order system (factories env) with h | ⟨h1, h2, h3, h4, h5, _⟩ | h
  · exact absurd h hl
  · refine Or.inr ⟨⟨raw⟩, str "po", raw, ?_, ?_⟩
    · unfold given
      rw [if_neg hp]
      exact hraw
    · rw [if_neg hp]
      have := C08_hdv_opened_by_prodos raw (filename := p) (order := order) (system := system)
        (pre := [Factory.map AnyOp.dos3 Dos3.factory, Factory.map .nakedos Supermon.factory]) (post := [])
        (f := Factory.map .prodos (Prodos.factory env.budget env.order)) h1 h2 h3 hl h4 h5 (by
          intro g hg
          simp only [List.mem_cons, List.not_mem_nil, or_false] at hg
          rcases hg with rfl | rfl
          · show str "dos3" ≠ _
            decide +kernel
          · show str "nakedos" ≠ _
            decide +kernel) rfl
      exact this
  · refine Or.inl ?_
    unfold openDisk openFilename
    rw [if_neg hp, hraw]
    exact h

/-- C82, for all names: a file that has not the size of a floppy disk is never changed and never copied by a command that is told to
read it as a disk; every command other than `ls` ends with an error and prints nothing. -/
theorem C82_only_ls (env : Env) (c : Command) (w : World) (p : Str) (hp : p ≠ str "-") (hc : diskOf c = some p) {raw : Bytes}
    (hraw : w.files p = some raw) (hl : raw.length ≠ 143360) :
    (run env c w).2.files = w.files ∧
      ((∃ o s short d, c = .ls o s short p d) ∨ ((run env c w).1.isErr = true ∧ (run env c w).2.stdout = w.stdout)) := by
  have fin : (run env c w).1.isErr = true → (run env c w).2.files = w.files ∧
      ((∃ o s short d, c = .ls o s short p d) ∨ ((run env c w).1.isErr = true ∧ (run env c w).2.stdout = w.stdout)) := by
    intro key
    obtain ⟨h1, h2⟩ := C59_failure_changes_nothing env c w (isErr_ne_ok key ())
    exact ⟨h1, Or.inr ⟨key, h2⟩⟩
  cases c with
  | filetypes => simp [diskOf] at hc
  | decode => simp [diskOf] at hc
  | mksd => simp [diskOf] at hc
  | ls o s sh i d =>
    simp only [diskOf, Option.some.injEq] at hc
    subst hc
    exact ⟨funext fun q => C59_other_files_untouched env _ w q (by simp [target]), Or.inl ⟨o, s, sh, d, rfl⟩⟩
  | dump o s i n =>
    simp only [diskOf, Option.some.injEq] at hc
    subst hc
    refine fin ?_
    rcases odd_size_opens env w i hp hraw hl o s with h | ⟨op, ord, h⟩
    · exact act_bind_err h
    · exact (C67_read_refused h n).1
  | rm o s m i n =>
    simp only [diskOf, Option.some.injEq] at hc
    subst hc
    refine fin ?_
    rcases odd_size_opens env w i hp hraw hl o s with h | ⟨op, ord, h⟩
    · exact act_bind_err h
    · exact ((C67_writes_refused h (Or.inr ⟨op, rfl⟩)).2 m n).1
  | put o s t ow a i x y =>
    simp only [diskOf, Option.some.injEq] at hc
    subst hc
    refine fin ?_
    rcases odd_size_opens env w i hp hraw hl o s with h | ⟨op, ord, h⟩
    · change (putCmd env World.writeOutput o s t ow a i x y w).1.isErr = true
      unfold putCmd
      rw [if_neg (fun h => hp h.1)]
      exact act_bind_err h
    · exact ((C67_writes_refused h (Or.inr ⟨op, rfl⟩)).1 t ow a x y).1
  | mkhello o i n a s =>
    simp only [diskOf, Option.some.injEq] at hc
    subst hc
    refine fin ?_
    rcases odd_size_opens env w i hp hraw hl o (str "auto") with h | ⟨op, ord, h⟩
    · change (mkhello env World.writeOutput o i n a s w).1.isErr = true
      unfold mkhello
      dsimp only
      split
      · rfl
      · split
        · rfl
        · exact act_bind_err h
    · exact (C67_mkhello_refused h (Or.inr ⟨op, rfl⟩) n a s).1
  | reorder o n ow i j =>
    simp only [diskOf, Option.some.injEq] at hc
    subst hc
    refine fin ?_
    have hret := C80_blind env (.reorder o n ow i j) trivial w
    rcases reorder_cases World.writeOutput w o n ow i j with ⟨h1, _⟩ | ⟨b, w', old, hs, hold, lo, lb, e⟩
    · have h1 : (run env (.reorder o n ow i j) w).1 ≠ .ok () := h1
      generalize (run env (.reorder o n ow i j) w).1 = r at h1 hret
      cases r with
      | ok a => exact absurd rfl h1
      | err k => rfl
      | panic => simp at hret
      | timeout => simp at hret
    · have := hold hp
      rw [hraw] at this
      cases this
      exact absurd lo hl

/-- C82, for all names: if the process dies while a command writes image `p`, then `p` is as before, as after, or cut short; and then
no command that is told to read it changes or copies anything, and all but `ls` end with an error. -/
theorem C82_torn_images_kept (env : Env) (c : Command) (w w' : World) (p : Str) (hp : p ≠ str "-") (hc : target c = some p)
    (h : CrashState env c w w') :
    w'.files p = w.files p ∨ w'.files p = (run env c w).2.files p ∨
    ∀ c' w2, diskOf c' = some p → w2.files p = w'.files p → (run env c' w2).2.files = w2.files ∧
      ((∃ o s short d, c' = .ls o s short p d) ∨ ((run env c' w2).1.isErr = true ∧ (run env c' w2).2.stdout = w2.stdout)) := by
  rcases (C60_crash_partial env c w w' h p).2 with h | h | ⟨new, k, hok, h1, h2⟩
  · exact Or.inl h
  · exact Or.inr (Or.inl h)
  · obtain ⟨new', h3, h4⟩ := C82_images_complete env c w p hp hc hok
    rw [h1] at h3
    cases h3
    by_cases hk : new.length ≤ k
    · refine Or.inr (Or.inl ?_)
      rw [h1, h2, List.take_of_length_le hk]
    · refine Or.inr (Or.inr fun c' w2 hc' hw2 => ?_)
      exact C82_only_ls env c' w2 p hp hc' (hw2.trans h2) (by rw [List.length_take]; omega)

end Verif.Cmd
