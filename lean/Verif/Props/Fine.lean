import Verif.Spec.Fine
import Verif.Proofs.Fine
import Verif.Props.Sched

/-!
# C98 when files are read and written in pieces
-/

set_option autoImplicit false

namespace Verif.Cmd
open Disk Spec

variable {ι : Type} [DecidableEq ι]

/-- The command just started. -/
abbrev fresh (env : Env) (c : Command) (stdin : Bytes) : Worker := ⟨program env c, none, stdin, []⟩

/-- What the files and the programs are after a schedule: each program is where it would be if it had run alone from the first files, with
the same turns. -/
theorem pieces_invariant (env : Env) {cmds : ι → Command} (h : Apart cmds) (stdin : ι → Bytes) (fs : FileSystem) (schedule : List (ι × Nat)) :
    (∀ i, ((Crew.start env fs cmds stdin).run schedule).workers i = (alone (fresh env (cmds i) (stdin i)) fs (turnsOf i schedule)).2) ∧
    (∀ i q, Touches (cmds i) q →
      ((Crew.start env fs cmds stdin).run schedule).files q = (alone (fresh env (cmds i) (stdin i)) fs (turnsOf i schedule)).1 q) ∧
    (∀ i, ((alone (fresh env (cmds i) (stdin i)) fs (turnsOf i schedule)).2).prog.Within (Touches (cmds i)) (WritesTo (cmds i))) ∧
    (∀ q, (∀ i, ¬ WritesTo (cmds i) q) → ((Crew.start env fs cmds stdin).run schedule).files q = fs q) := by
  induction schedule using List.reverseRecOn with
  | nil => exact ⟨fun _ => rfl, fun _ _ _ => rfl, fun i => within_program env (cmds i), fun _ _ => rfl⟩
  | append_singleton l t ih =>
    obtain ⟨h1, h2, h3, h4⟩ := ih
    obtain ⟨j, n⟩ := t
    rw [crew_snoc]
    generalize (Crew.start env fs cmds stdin).run l = s at h1 h2 h3 h4
    obtain ⟨a1, a2, a3, a4⟩ := worker_agrees (changes_touches (cmds j)) (s.workers j) (by rw [h1 j]; exact h3 j) n s.files
      (alone (fresh env (cmds j) (stdin j)) fs (turnsOf j l)).1 (h2 j)
    have hself : alone (fresh env (cmds j) (stdin j)) fs (turnsOf j (l ++ [(j, n)])) =
        (s.workers j).step (alone (fresh env (cmds j) (stdin j)) fs (turnsOf j l)).1 n := by
      rw [turnsOf_snoc_self, alone_snoc, h1 j]
    have hci : ∀ i, i ≠ j → turnsOf i (l ++ [(j, n)]) = turnsOf i l := fun i hi => turnsOf_snoc_other hi l n
    have hfar : ∀ i, i ≠ j → ∀ q, Touches (cmds i) q → ¬ WritesTo (cmds j) q :=
      fun i hi q hq hc => h j i (Ne.symm hi) q hc.1 hc.2 hq.1
    refine ⟨fun i => ?_, fun i q hq => ?_, fun i => ?_, fun q hq => ?_⟩
    · by_cases hi : i = j
      · subst hi
        rw [hself]
        show (if i = i then _ else _) = _
        rw [if_pos rfl, a1]
      · rw [hci i hi]
        show (if i = j then _ else _) = _
        rw [if_neg hi, h1 i]
    · by_cases hi : i = j
      · subst hi
        rw [hself]
        exact a2 q hq
      · rw [hci i hi]
        exact (a3 q (hfar i hi q hq)).trans (h2 i q hq)
    · by_cases hi : i = j
      · subst hi
        rw [hself, ← a1]
        exact a4
      · rw [hci i hi]
        exact h3 i
    · exact (a3 q (hq j)).trans (h4 q hq)

/-- C98, with files read and written in pieces of any size: a command that has ended has ended as if it had been alone. -/
theorem C98_pieces_as_if_alone (env : Env) {cmds : ι → Command} (h : Apart cmds) (stdin : ι → Bytes) (fs : FileSystem)
    (schedule : List (ι × Nat)) {i : ι} {o : Out Unit} (hi : Finished ((Crew.start env fs cmds stdin).run schedule) i o) :
    o = (run env (cmds i) ⟨fs, stdin i, []⟩).1 ∧
    hasPrinted ((Crew.start env fs cmds stdin).run schedule) i = (run env (cmds i) ⟨fs, stdin i, []⟩).2.stdout ∧
    ∀ q ∈ mentions (cmds i), q ≠ str "-" →
      ((Crew.start env fs cmds stdin).run schedule).files q = doing env (cmds i) (stdin i) fs q := by
  obtain ⟨h1, h2, _, _⟩ := pieces_invariant env h stdin fs schedule
  have he := (alone_exec (fresh env (cmds i) (stdin i)) fs (turnsOf i schedule) valid_fresh).2
  unfold Finished at hi
  unfold hasPrinted
  rw [h1 i] at hi ⊢
  rw [hi, exec_program] at he
  have he' : (o, (⟨(alone (fresh env (cmds i) (stdin i)) fs (turnsOf i schedule)).1, _, _⟩ : World)) =
    run env (cmds i) ⟨fs, stdin i, []⟩ := he
  refine ⟨congrArg Prod.fst he', congrArg (fun x => x.2.stdout) he', fun q hq hn => ?_⟩
  rw [h2 i q ⟨hq, hn⟩]
  exact congrArg (fun x => x.2.files q) he'

/-- C98, with files read and written in pieces: no schedule changes a file that is not the target of a command. -/
theorem C98_pieces_other_files (env : Env) {cmds : ι → Command} (h : Apart cmds) (stdin : ι → Bytes) (fs : FileSystem)
    (schedule : List (ι × Nat)) (q : Str) (hq : ∀ i, target (cmds i) ≠ some q) :
    ((Crew.start env fs cmds stdin).run schedule).files q = fs q :=
  (pieces_invariant env h stdin fs schedule).2.2.2 q fun i hc => hq i hc.1

/-- C98, with files read and written in pieces: a command ends once it has been given enough turns, whatever the others do and
however little each call moves. -/
theorem C98_pieces_ends (env : Env) {cmds : ι → Command} (h : Apart cmds) (stdin : ι → Bytes) (fs : FileSystem) (i : ι) :
    ∃ n, ∀ schedule : List (ι × Nat), n ≤ turnCount i schedule → ∃ o, Finished ((Crew.start env fs cmds stdin).run schedule) i o := by
  obtain ⟨n, r, hr⟩ := alone_ends (program env (cmds i)) (stdin i) [] fs
  refine ⟨n, fun schedule hn => ⟨r, ?_⟩⟩
  unfold Finished
  rw [(pieces_invariant env h stdin fs schedule).1 i]
  refine hr _ ?_
  unfold turnsOf
  rw [List.length_map]
  exact hn

/-- C98, with files read and written in pieces: when all commands have ended, the files are as if the commands had run one by one,
in whichever order. -/
theorem C98_pieces_any_schedule_any_order (env : Env) {cmds : ι → Command} (h : Apart cmds) (stdin : ι → Bytes) (fs : FileSystem)
    (schedule : List (ι × Nat)) (he : ∀ i, ∃ o, Finished ((Crew.start env fs cmds stdin).run schedule) i o)
    (order : List ι) (hn : order.Nodup) (ha : ∀ i, i ∈ order) :
    ((Crew.start env fs cmds stdin).run schedule).files = oneByOne env cmds stdin order fs := by
  funext q
  obtain ⟨o1, o2⟩ := oneByOne_apart env h stdin order hn fs
  by_cases hq : ∃ i, WritesTo (cmds i) q
  · obtain ⟨i, hi⟩ := hq
    obtain ⟨o, ho⟩ := he i
    rw [o1 i (ha i) q hi]
    exact (C98_pieces_as_if_alone env h stdin fs schedule ho).2.2 q (target_in_mentions _ q hi.1) hi.2
  · rw [o2 q fun i _ hc => hq ⟨i, hc⟩]
    exact (pieces_invariant env h stdin fs schedule).2.2.2 q fun i hc => hq ⟨i, hc⟩

end Verif.Cmd
