import Verif.Spec.Fine
import Verif.Proofs.Mixed
import Verif.Props.Fine
import Verif.Props.Torn

/-!
# C102: reading a file while one command rewrites it
-/

set_option autoImplicit false

namespace Verif.Cmd
open Disk Spec

variable {ι : Type} [DecidableEq ι]

/-- Programs keep to the files of their commands. -/
theorem crew_within (env : Env) (cmds : ι → Command) (stdin : ι → Bytes) (fs : FileSystem) (schedule : List (ι × Nat)) (i : ι) :
    (((Crew.start env fs cmds stdin).run schedule).workers i).prog.Within (Touches (cmds i)) (WritesTo (cmds i)) := by
  induction schedule using List.reverseRecOn with
  | nil => exact within_program env (cmds i)
  | append_singleton l t ih =>
    obtain ⟨k, n⟩ := t
    rw [crew_snoc]
    generalize (Crew.start env fs cmds stdin).run l = s at ih
    show (if i = k then ((s.workers k).step s.files n).2 else s.workers i).prog.Within _ _
    by_cases hik : i = k
    · subst hik
      rw [if_pos rfl]
      exact (worker_agrees (changes_touches (cmds i)) (s.workers i) ih n s.files s.files fun _ _ => rfl).2.2.2
    · rw [if_neg hik]
      exact ih

/-- A command whose files nobody else writes goes as if alone. -/
theorem crew_alone (env : Env) (cmds : ι → Command) (stdin : ι → Bytes) (fs : FileSystem) (j : ι)
    (h : ∀ i, i ≠ j → ∀ q, WritesTo (cmds i) q → ¬ Touches (cmds j) q) (schedule : List (ι × Nat)) :
    ((Crew.start env fs cmds stdin).run schedule).workers j = (alone (fresh env (cmds j) (stdin j)) fs (turnsOf j schedule)).2 ∧
    ∀ q, Touches (cmds j) q →
      ((Crew.start env fs cmds stdin).run schedule).files q = (alone (fresh env (cmds j) (stdin j)) fs (turnsOf j schedule)).1 q := by
  induction schedule using List.reverseRecOn with
  | nil => exact ⟨rfl, fun _ _ => rfl⟩
  | append_singleton l t ih =>
    obtain ⟨h1, h2⟩ := ih
    obtain ⟨k, n⟩ := t
    have hw := crew_within env cmds stdin fs l
    rw [crew_snoc]
    generalize (Crew.start env fs cmds stdin).run l = s at h1 h2 hw
    by_cases hk : j = k
    · subst hk
      obtain ⟨a1, a2, _, _⟩ := worker_agrees (changes_touches (cmds j)) (s.workers j) (hw j) n s.files
        (alone (fresh env (cmds j) (stdin j)) fs (turnsOf j l)).1 h2
      rw [turnsOf_snoc_self, alone_snoc, ← h1]
      refine ⟨?_, a2⟩
      show (if j = j then _ else _) = _
      rw [if_pos rfl, a1]
    · rw [turnsOf_snoc_other hk]
      refine ⟨?_, fun q hq => ?_⟩
      · show (if j = k then _ else _) = _
        rw [if_neg hk, h1]
      · have := (worker_agrees (changes_touches (cmds k)) (s.workers k) (hw k) n s.files s.files fun _ _ => rfl).2.2.1 q
          fun hc => h k (Ne.symm hk) q hc hq
        exact this.trans (h2 q hq)

omit [DecidableEq ι] in
theorem shared_far {cmds : ι → Command} {j : ι} {p : Str} (h : OnlyShared cmds j p) {i k : ι} (hi : i ≠ j) (hk : k ≠ i) {q : Str}
    (hq : WritesTo (cmds i) q) : ¬ Touches (cmds k) q :=
  fun hc => h.2.2 i hi q hq.1 hq.2 k hk hc.1

omit [DecidableEq ι] in
theorem shared_not_target {cmds : ι → Command} {j : ι} {p : Str} (h : OnlyShared cmds j p) {i : ι} (hi : i ≠ j) : target (cmds i) ≠ some p :=
  fun ht => h.2.2 i hi p ht h.2.1 j (Ne.symm hi) (target_in_mentions _ p h.1)

/-- Where the writer is. -/
theorem crew_phase (env : Env) {cmds : ι → Command} {j : ι} {p : Str} (h : OnlyShared cmds j p) (stdin : ι → Bytes) (fs : FileSystem)
    (schedule : List (ι × Nat)) :
    Before p (fs p) (((Crew.start env fs cmds stdin).run schedule).files p) (((Crew.start env fs cmds stdin).run schedule).workers j) ∨
    ∃ new, Makes env (cmds j) (stdin j) fs p new ∧
      During p new (((Crew.start env fs cmds stdin).run schedule).files p) (((Crew.start env fs cmds stdin).run schedule).workers j) := by
  obtain ⟨h1, h2⟩ := crew_alone env cmds stdin fs j (fun i hi q hq => shared_far h hi (Ne.symm hi) hq) schedule
  rw [h1, h2 p ⟨target_in_mentions _ p h.1, h.2.1⟩]
  exact writer_phase env h.1 (stdin j) fs _

/-- Where a reader is. -/
theorem crew_reader (env : Env) {cmds : ι → Command} {j : ι} {p : Str} (h : OnlyShared cmds j p) (stdin : ι → Bytes) (fs : FileSystem)
    (schedule : List (ι × Nat)) (i : ι) (hi : i ≠ j) :
    ReaderAt env (cmds i) (stdin i) fs p (Makes env (cmds j) (stdin j) fs p) ((Crew.start env fs cmds stdin).run schedule).files
      (((Crew.start env fs cmds stdin).run schedule).workers j) (((Crew.start env fs cmds stdin).run schedule).workers i) := by
  have ht := shared_not_target h hi
  induction schedule using List.reverseRecOn with
  | nil => exact ⟨fs, fun _ _ _ => rfl, .inl ⟨once_program env _ _ ht, fun _ => valid_fresh, fun x => by
      show (program env (cmds i)).exec _ = _
      rw [exec_program]
      rfl⟩⟩
  | append_singleton l t ih =>
    obtain ⟨k, n⟩ := t
    have hw := crew_within env cmds stdin fs l
    have hph := crew_phase env h stdin fs l
    have hph' := crew_phase env h stdin fs (l ++ [(k, n)])
    rw [crew_snoc] at hph' ⊢
    generalize (Crew.start env fs cmds stdin).run l = s at ih hw hph hph'
    have hkeep := (worker_agrees (changes_touches (cmds k)) (s.workers k) (hw k) n s.files s.files fun _ _ => rfl).2.2.1
    show ReaderAt env (cmds i) (stdin i) fs p _ ((s.workers k).step s.files n).1 (if j = k then ((s.workers k).step s.files n).2 else s.workers j)
      (if i = k then ((s.workers k).step s.files n).2 else s.workers i)
    by_cases hik : i = k
    · subst hik
      rw [if_neg (Ne.symm hi), if_pos rfl]
      exact reader_turn env n (hw i) ht hph ih
    · rw [if_neg hik]
      by_cases hjk : j = k
      · subst hjk
        rw [if_pos rfl]
        have e : (s.step (j, n)).workers j = ((s.workers j).step s.files n).2 := if_pos rfl
        rw [e] at hph'
        refine writer_turn env (fun q hq => hkeep q fun hc => hq ?_) hph' (fun new hd => during_step _ _ n hd) ih
        exact (Option.some.inj (h.1.symm.trans hc.1)).symm
      · rw [if_neg hjk]
        refine other_turn env (hkeep p fun hc => shared_not_target h (Ne.symm hjk) hc.1) (fun q hq => hkeep q fun hc => ?_) ih
        exact shared_far h (Ne.symm hjk) hik hc hq

/-- C102: the command that rewrites the file is not disturbed by those that read it. -/
theorem C102_writer_as_if_alone (env : Env) {cmds : ι → Command} {j : ι} {p : Str} (h : OnlyShared cmds j p) (stdin : ι → Bytes) (fs : FileSystem)
    (schedule : List (ι × Nat)) {o : Out Unit} (hj : Finished ((Crew.start env fs cmds stdin).run schedule) j o) :
    o = (run env (cmds j) ⟨fs, stdin j, []⟩).1 ∧
    hasPrinted ((Crew.start env fs cmds stdin).run schedule) j = (run env (cmds j) ⟨fs, stdin j, []⟩).2.stdout ∧
    ∀ q ∈ mentions (cmds j), q ≠ str "-" →
      ((Crew.start env fs cmds stdin).run schedule).files q = doing env (cmds j) (stdin j) fs q := by
  obtain ⟨h1, h2⟩ := crew_alone env cmds stdin fs j (fun i hi q hq => shared_far h hi (Ne.symm hi) hq) schedule
  have he := (alone_exec (fresh env (cmds j) (stdin j)) fs (turnsOf j schedule) valid_fresh).2
  unfold Finished at hj
  unfold hasPrinted
  rw [h1] at hj ⊢
  rw [hj, exec_program] at he
  have he' : (o, (⟨(alone (fresh env (cmds j) (stdin j)) fs (turnsOf j schedule)).1, _, _⟩ : World)) =
    run env (cmds j) ⟨fs, stdin j, []⟩ := he
  refine ⟨congrArg Prod.fst he', congrArg (fun x => x.2.stdout) he', fun q hq hn => ?_⟩
  rw [h2 q ⟨hq, hn⟩]
  exact congrArg (fun x => x.2.files q) he'

/-- C102: at every moment, so also if the command dies there, the file has its old contents or a beginning of the new ones; and it changes only
if the command would succeed. -/
theorem C102_at_every_moment (env : Env) {cmds : ι → Command} {j : ι} {p : Str} (h : OnlyShared cmds j p) (stdin : ι → Bytes) (fs : FileSystem)
    (schedule : List (ι × Nat)) :
    ((Crew.start env fs cmds stdin).run schedule).files p = fs p ∨
    ∃ new d, (run env (cmds j) ⟨fs, stdin j, []⟩).1 = .ok () ∧ doing env (cmds j) (stdin j) fs p = some new ∧
      ((Crew.start env fs cmds stdin).run schedule).files p = some d ∧ d <+: new := by
  rcases crew_phase env h stdin fs schedule with hb | ⟨new, hm, d, h1, h2, _⟩
  · exact .inl hb.1
  · exact .inr ⟨new, d, hm.1, hm.2, h1, h2⟩

/-- C102, what holds: another command that has ended has ended as if it had run alone, finding in the file either its old contents or a mixture: a
beginning of the old contents, continued with what stands there in the new ones. -/
theorem C102_reader_partial (env : Env) {cmds : ι → Command} {j : ι} {p : Str} (h : OnlyShared cmds j p) (stdin : ι → Bytes) (fs : FileSystem)
    (schedule : List (ι × Nat)) {i : ι} (hij : i ≠ j) {o : Out Unit} (hi : Finished ((Crew.start env fs cmds stdin).run schedule) i o) :
    ∃ x, (x = fs p ∨ ∃ new b, (run env (cmds j) ⟨fs, stdin j, []⟩).1 = .ok () ∧ doing env (cmds j) (stdin j) fs p = some new ∧ x = some b ∧
        Mixture ((fs p).getD []) new b) ∧
      o = (run env (cmds i) ⟨having fs p x, stdin i, []⟩).1 ∧
      hasPrinted ((Crew.start env fs cmds stdin).run schedule) i = (run env (cmds i) ⟨having fs p x, stdin i, []⟩).2.stdout ∧
      ∀ q ∈ mentions (cmds i), q ≠ str "-" → q ≠ p →
        ((Crew.start env fs cmds stdin).run schedule).files q = doing env (cmds i) (stdin i) (having fs p x) q := by
  obtain ⟨G, hG, hr⟩ := crew_reader env h stdin fs schedule i hij
  unfold Finished at hi
  unfold hasPrinted doing
  have finish : ∀ x, (((Crew.start env fs cmds stdin).run schedule).workers i).prog.exec ⟨having G p x,
      (((Crew.start env fs cmds stdin).run schedule).workers i).stdin, (((Crew.start env fs cmds stdin).run schedule).workers i).stdout⟩ =
      run env (cmds i) ⟨having fs p x, stdin i, []⟩ →
      o = (run env (cmds i) ⟨having fs p x, stdin i, []⟩).1 ∧
      (((Crew.start env fs cmds stdin).run schedule).workers i).stdout = (run env (cmds i) ⟨having fs p x, stdin i, []⟩).2.stdout ∧
      ∀ q ∈ mentions (cmds i), q ≠ str "-" → q ≠ p →
        ((Crew.start env fs cmds stdin).run schedule).files q = (run env (cmds i) ⟨having fs p x, stdin i, []⟩).2.files q := by
    intro x hx
    rw [← hx, hi]
    exact ⟨rfl, rfl, fun q hq hn hp => (hG q ⟨hq, hn⟩ hp).trans (having_other G x hp).symm⟩
  rcases hr with ⟨_, _, h3⟩ | ⟨k, got, h1, _⟩ | ⟨_, x, h2, _, h4⟩
  · exact ⟨fs p, .inl rfl, finish _ (h3 _)⟩
  · rw [hi] at h1
    cases h1
  · refine ⟨x, ?_, finish _ h4⟩
    rcases h2 with h2 | ⟨new, b, hm, hx, hmix⟩
    · exact .inl h2
    · exact .inr ⟨new, b, hm.1, hm.2, hx, hmix⟩

/-- C102: a command that reads the file as its disk image, without the .hdv extension, fails and does nothing, or it finds the old image, or
a mixture of floppy size: the old image up to some byte and the new one from there on. -/
theorem C102_whole_images_partial (env : Env) {cmds : ι → Command} {j : ι} {p : Str} (h : OnlyShared cmds j p) (stdin : ι → Bytes) (fs : FileSystem)
    (schedule : List (ι × Nat)) {i : ι} (hij : i ≠ j) (hd : diskOf (cmds i) = some p) (hext : toLower (pathExt p) ≠ str ".hdv")
    {old : Bytes} (hold : fs p = some old) {o : Out Unit} (hi : Finished ((Crew.start env fs cmds stdin).run schedule) i o) :
    (o.isErr = true ∧ hasPrinted ((Crew.start env fs cmds stdin).run schedule) i = []) ∨
    ∃ b, (b = old ∨ ∃ new r, (run env (cmds j) ⟨fs, stdin j, []⟩).1 = .ok () ∧ doing env (cmds j) (stdin j) fs p = some new ∧ r ≤ old.length ∧
        b = old.take r ++ new.drop r ∧ b.length = 143360) ∧
      o = (run env (cmds i) ⟨having fs p (some b), stdin i, []⟩).1 ∧
      hasPrinted ((Crew.start env fs cmds stdin).run schedule) i = (run env (cmds i) ⟨having fs p (some b), stdin i, []⟩).2.stdout := by
  obtain ⟨x, hx, h1, h2, _⟩ := C102_reader_partial env h stdin fs schedule hij hi
  rcases hx with hx | ⟨new, b, hok, hnew, hx, r, m, hr, hb⟩
  · rw [hold] at hx
    subst hx
    exact .inr ⟨old, .inl rfl, h1, h2⟩
  · subst hx
    by_cases hl : b.length = 143360
    · refine .inr ⟨b, .inr ⟨new, r, hok, hnew, ?_, ?_, hl⟩, h1, h2⟩
      · rwa [hold] at hr
      · obtain ⟨new', hn1, hn2⟩ := C82_images_complete env (cmds j) ⟨fs, stdin j, []⟩ p h.2.1 h.1 hok
        have : new' = new := Option.some.inj (hn1.symm.trans hnew)
        subst this
        rw [hold, Option.getD_some] at hb hr
        rw [hb]
        congr 1
        refine List.take_of_length_le ?_
        rw [List.length_drop, hn2]
        have hlen := hl
        rw [hb, List.length_append, List.length_take, List.length_take, List.length_drop, hn2, Nat.min_eq_left hr] at hlen
        omega
    · left
      have := C82_wrong_size_refused env (cmds i) ⟨having fs p (some b), stdin i, []⟩ p h.2.1 hd (raw := b) (having_self _ _ _) hl hext
      rw [h1, h2]
      exact ⟨this.1, this.2.2⟩

/-! ## The mixture does come up -/

/-- Two workers. -/
def duo (p0 p1 : Worker) : Bool → Worker := fun b => if b then p1 else p0

theorem duo_false {fs fs' : FileSystem} {p0 p0' p1 : Worker} {n : Nat} (h : p0.step fs n = (fs', p0')) :
    Crew.step ⟨fs, duo p0 p1⟩ (false, n) = ⟨fs', duo p0' p1⟩ := by
  have e : (duo p0 p1 false).step fs n = (fs', p0') := h
  unfold Crew.step
  simp only [e]
  congr 1
  funext j
  cases j <;> simp [duo]

theorem duo_true {fs fs' : FileSystem} {p0 p1 p1' : Worker} {n : Nat} (h : p1.step fs n = (fs', p1')) :
    Crew.step ⟨fs, duo p0 p1⟩ (true, n) = ⟨fs', duo p0 p1'⟩ := by
  have e : (duo p0 p1 true).step fs n = (fs', p1') := h
  unfold Crew.step
  simp only [e]
  congr 1
  funext j
  cases j <;> simp [duo]

theorem step_open {fs : FileSystem} {q : Str} {c : Bytes} {k : Option Bytes → Prog Unit} {i o : Bytes} {n : Nat} (h : fs q = some c) :
    Worker.step fs ⟨.read q k, none, i, o⟩ n = (fs, ⟨.read q k, some [], i, o⟩) := by
  simp only [Worker.step, h]

theorem step_more {fs : FileSystem} {q : Str} {c : Bytes} {k : Option Bytes → Prog Unit} {i o got piece : Bytes} {n : Nat} (h : fs q = some c)
    (hp : (c.drop got.length).take (n + 1) = piece) (hne : piece ≠ []) :
    Worker.step fs ⟨.read q k, some got, i, o⟩ n = (fs, ⟨.read q k, some (got ++ piece), i, o⟩) := by
  simp only [Worker.step, h, Option.getD_some, hp, if_neg hne]

theorem step_end {fs : FileSystem} {q : Str} {c : Bytes} {k : Option Bytes → Prog Unit} {i o got : Bytes} {n : Nat} (h : fs q = some c)
    (hp : c.length ≤ got.length) :
    Worker.step fs ⟨.read q k, some got, i, o⟩ n = (fs, ⟨k (some got), none, i, o⟩) := by
  simp only [Worker.step, h, Option.getD_some, List.drop_eq_nil_of_le hp, List.take_nil, if_true]

theorem step_write {fs : FileSystem} {q : Str} {b : Bytes} {k : Prog Unit} {i o : Bytes} {n : Nat} (h : fs q = some []) (hb : b.length ≤ n + 1) :
    Worker.step fs ⟨.write q b k, none, i, o⟩ n = (having fs q (some b), ⟨k, none, i, o⟩) := by
  have : (b.drop ([] : Bytes).length).take (n + 1) = b := by rw [List.length_nil, List.drop_zero, List.take_of_length_le hb]
  simp only [Worker.step, h, Option.getD_some, Option.getD_none, this, List.nil_append, Nat.le_refl, if_true]
  congr 1
  funext r
  unfold having writeAt
  simp [zeros]

theorem start_duo (env : Env) (fs : FileSystem) (c0 c1 : Command) :
    Crew.start env fs (both c0 c1) (fun _ => []) = ⟨fs, duo ⟨program env c0, none, [], []⟩ ⟨program env c1, none, [], []⟩⟩ := by
  unfold Crew.start both duo
  congr 1
  funext j
  cases j <;> rfl

theorem mixed_run (env : Env) {a n : Str} {x x' z : Bytes} {m N : Nat} (n1 : a ≠ str "-") (n3 : n ≠ str "-") (n4 : n ≠ []) (d : a ≠ n)
    (hx : reorderBytes (str "do") (str "po") x = .ok x') (hxn : x.length = N + 1) (hxn' : x'.length = N + 1) (hm : m < N)
    (hz : reorderBytes (str "do") (str "po") (x.take (m + 1) ++ x'.drop (m + 1)) = .ok z) (hzn : z.length = N + 1) :
    ∃ schedule s, (Crew.start env (twoImages a a x x) (both (.reorder (str "do") (str "po") false a []) (.reorder (str "do") (str "po") false a n))
      fun _ => []).run schedule = s ∧ (∀ b, Finished s b (.ok ())) ∧ s.files n = some z := by
  refine ⟨[(true, 0), (true, m), (false, 0), (false, N), (false, 0), (false, 0), (false, N), (true, N), (true, 0), (true, 0), (true, 0), (true, N)],
    _, rfl, ?_⟩
  rw [start_duo, reorder_in_place_program env n1, reorder_program env n1 n4 n3]
  have fa : twoImages a a x x a = some x := by simp [twoImages]
  have fn : twoImages a a x x n = none := by simp [twoImages, Ne.symm d]
  generalize twoImages a a x x = fs at *
  unfold Crew.run
  simp only [List.foldl_cons, List.foldl_nil]
  have hne : ∀ {l : Bytes}, 0 < l.length → l ≠ [] := fun h => List.length_pos_iff.1 h
  -- the reader opens the file and reads its beginning
  rw [duo_true (step_open fa)]
  rw [duo_true (step_more fa (piece := x.take (m + 1)) (by rw [List.length_nil, List.drop_zero])
    (hne (by rw [List.length_take]; omega)))]
  -- the writer reads the file and rewrites it
  rw [duo_false (step_open fa)]
  rw [duo_false (step_more fa (piece := x) (by rw [List.length_nil, List.drop_zero, List.take_of_length_le (by omega)]) (hne (by omega)))]
  rw [List.nil_append, List.nil_append, duo_false (step_end fa (Nat.le_refl _))]
  simp only [hx, Prog.bind]
  rw [duo_false (fs' := having fs a (some [])) (p0' := ⟨.write a x' (.ret (.ok ())), none, [], []⟩) rfl]
  rw [duo_false (step_write (having_self _ _ _) (by omega))]
  -- the reader reads on
  have hl : (x.take (m + 1)).length = m + 1 := by rw [List.length_take]; omega
  rw [duo_true (step_more (c := x') (piece := x'.drop (m + 1)) (having_self _ _ _)
    (by rw [hl, List.take_of_length_le (by rw [List.length_drop]; omega)]) (hne (by rw [List.length_drop]; omega)))]
  rw [duo_true (step_end (c := x') (having_self _ _ _) (by rw [List.length_append, hl, List.length_drop]; omega))]
  simp only [hz, Prog.bind]
  have fn' : having (having fs a (some [])) a (some x') n = none := by
    rw [having_other _ _ (Ne.symm d), having_other _ _ (Ne.symm d), fn]
  generalize having (having fs a (some [])) a (some x') = gs at fn'
  rw [duo_true (fs' := gs) (p1' := ⟨.trunc n (.write n z (.ret (.ok ()))), none, [], []⟩) (by
    simp only [Worker.step, fn', Option.isSome_none, Bool.false_eq_true, if_false])]
  rw [duo_true (fs' := having gs n (some [])) (p1' := ⟨.write n z (.ret (.ok ())), none, [], []⟩) rfl]
  rw [duo_true (step_write (having_self _ _ _) (by omega))]
  exact ⟨fun b => by cases b <;> rfl, having_self _ _ _⟩

theorem sector_take {x y : Bytes} {t s k : Nat} (hk : 4096 * t + 256 * s + 256 ≤ k) (hx : k ≤ x.length) :
    sectorAt (x.take k ++ y) t s = sectorAt x t s := by
  unfold sectorAt
  rw [List.drop_append_of_le_length (by rw [List.length_take]; omega), List.take_append_of_le_length (by
    rw [List.length_drop, List.length_take]; omega), List.drop_take, List.take_take, Nat.min_eq_left (by omega)]

theorem sector_drop {x y : Bytes} {t s k : Nat} (hk : k ≤ 4096 * t + 256 * s) (hx : k ≤ x.length) :
    sectorAt (x.take k ++ y.drop k) t s = sectorAt y t s := by
  unfold sectorAt
  rw [List.drop_append, List.drop_eq_nil_of_le (by rw [List.length_take]; omega), List.nil_append, List.drop_drop, List.length_take,
    Nat.min_eq_left hx, show k + (4096 * t + 256 * s - k) = 4096 * t + 256 * s by omega]

/-- C102 fails in what a user would want, that a reader goes as if it had run before the writer or after it.  While `reorder` rewrites an image in
place, another `reorder` that reads it to make a new image can succeed and make the image of a disk that never was: of the first track as it was
before and the other tracks as they are after. -/
theorem C102_violated (env : Env) {x : Bytes} (hx : x.length = 143360) (h0 : sectorAt x 0 1 ≠ sectorAt x 0 14) (h1 : sectorAt x 1 1 ≠ sectorAt x 1 14) :
    ∃ (cmds : Bool → Command) (fs : FileSystem) (schedule : List (Bool × Nat)) (p q : Str) (y₀ y₁ z : Bytes), OnlyShared cmds false p ∧
      (∀ b, Finished ((Crew.start env fs cmds fun _ => []).run schedule) b (.ok ())) ∧
      doing env (cmds true) [] fs q = some y₀ ∧ doing env (cmds true) [] (doing env (cmds false) [] fs) q = some y₁ ∧
      ((Crew.start env fs cmds fun _ => []).run schedule).files q = some z ∧ z ≠ y₀ ∧ z ≠ y₁ := by
  obtain ⟨x', hx1, hxl, hx2⟩ := C09_reorder_involutive (a := str "do") (b := str "po") (by simp) (by simp) hx
  have hl' := (reorderBytes_lengths hx1).2
  obtain ⟨x'', hx3, _, _⟩ := C09_reorder_involutive (a := str "do") (b := str "po") (by simp) (by simp) hl'
  have hmix : (x.take (4095 + 1) ++ x'.drop (4095 + 1)).length = 143360 := by
    rw [List.length_append, List.length_take, List.length_drop]; omega
  obtain ⟨z, hz1, _, hz2⟩ := C09_reorder_involutive (a := str "do") (b := str "po") (by simp) (by simp) hmix
  have n1 : str "a.do" ≠ str "-" := by decide +kernel
  have n3 : str "n.po" ≠ str "-" := by decide +kernel
  have n4 : str "n.po" ≠ [] := by decide +kernel
  have d : str "a.do" ≠ str "n.po" := by decide +kernel
  generalize str "a.do" = a at *
  generalize str "n.po" = n at *
  obtain ⟨schedule, s, hs, hs1, hs2⟩ := mixed_run env (N := 143359) (m := 4095) n1 n3 n4 d hx1 (by omega) (by omega) (by omega) hz1
    (by rw [(reorderBytes_lengths hz1).2])
  have fa : twoImages a a x x a = some x := by simp [twoImages]
  have fn : twoImages a a x x n = none := by simp [twoImages, Ne.symm d]
  have w0 : doing env (.reorder (str "do") (str "po") false a []) [] (twoImages a a x x) = fun r => if r = a then some x' else twoImages a a x x r := by
    unfold doing
    rw [← exec_program, reorder_in_place_program env n1]
    simp only [Prog.exec, fa, hx1, Prog.bind]
    simp only [if_true, Option.getD_some, List.drop_nil, List.append_nil]
    funext r
    split <;> rfl
  have hz : ∀ {u v : Bytes}, reorderBytes (str "do") (str "po") u = .ok v → z = v → sectorAt u 0 14 = sectorAt x 0 14 ∧ sectorAt u 1 14 = sectorAt x' 1 14 := by
    rintro u v hu rfl
    have e1 := fun t (ht : t < 35) => (C09_do_to_po hu ht).2.2 14 (by omega) (by omega)
    have e2 := fun t (ht : t < 35) => (C09_do_to_po hz1 ht).2.2 14 (by omega) (by omega)
    rw [← e1 0 (by omega), ← e1 1 (by omega), e2 0 (by omega), e2 1 (by omega)]
    exact ⟨sector_take (by omega) (by omega), sector_drop (by omega) (by omega)⟩
  have swap := fun t (ht : t < 35) => (C09_do_to_po hx1 ht).2.2 1 (by omega) (by omega)
  refine ⟨both (.reorder (str "do") (str "po") false a []) (.reorder (str "do") (str "po") false a n), twoImages a a x x, schedule, a, n, x', x'', z,
    ⟨?_, n1, ?_⟩, ?_, ?_, ?_, ?_, ?_, ?_⟩
  · show target (.reorder (str "do") (str "po") false a []) = _
    simp [target]
  · intro i hi q hq _ k hk
    have : i = true := by cases i <;> simp_all
    subst this
    have : k = false := by cases k <;> simp_all
    subst this
    have hq' : n = q := by
      have hq2 : target (.reorder (str "do") (str "po") false a n) = some q := hq
      simpa [target, n4] using hq2
    subst hq'
    show n ∉ mentions (.reorder (str "do") (str "po") false a [])
    simp [mentions, Ne.symm d, n4]
  · rw [hs]; exact hs1
  · show doing env (.reorder (str "do") (str "po") false a n) [] _ n = _
    unfold doing
    rw [(exec_reorder env n1 n4 n3 fa hx1 [] []).1 fn]
    exact if_pos rfl
  · show doing env (.reorder (str "do") (str "po") false a n) [] (doing env (.reorder (str "do") (str "po") false a []) [] _) n = _
    rw [w0]
    unfold doing
    rw [(exec_reorder env n1 n4 n3 (x := x') (by simp) hx3 [] []).1 (by simp only [if_neg (Ne.symm d)]; exact fn)]
    exact if_pos rfl
  · rw [hs]; exact hs2
  · intro e
    have := (hz hx1 e).2
    rw [swap 1 (by omega)] at this
    exact h1 this.symm
  · intro e
    have := (hz hx3 e).1
    rw [swap 0 (by omega)] at this
    exact h0 this

/-- An image for `C102_violated`. -/
def twoTracks : Bytes := (zeros 256 ++ List.replicate 256 1 ++ zeros 3584) ++ ((zeros 256 ++ List.replicate 256 1 ++ zeros 3584) ++ zeros 135168)

/-- Non-vacuity of `C102_violated`. -/
example : twoTracks.length = 143360 ∧ sectorAt twoTracks 0 1 ≠ sectorAt twoTracks 0 14 ∧ sectorAt twoTracks 1 1 ≠ sectorAt twoTracks 1 14 := by
  have differ : ∀ {k l : Nat}, twoTracks[k]? = some 1 → twoTracks[l]? = some 0 →
      (twoTracks.drop k).take 256 ≠ (twoTracks.drop l).take 256 := by
    intro k l hk hl h
    have := congrArg (fun z => z[0]?) h
    simp only [List.getElem?_take, List.getElem?_drop, Nat.add_zero, hk, hl] at this
    simp at this
  refine ⟨?_, differ ?_ ?_, differ ?_ ?_⟩
  · unfold twoTracks
    simp only [List.length_append, zeros_length, List.length_replicate]
  all_goals
    unfold twoTracks zeros
    simp only [List.getElem?_append, List.getElem?_replicate, List.length_append, List.length_replicate]
    decide

end Verif.Cmd
