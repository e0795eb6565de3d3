import Verif.Spec.Sched
import Verif.Proofs.Sched
import Verif.Props.Open
import Verif.Props.Cmd

/-!
# C98: commands that run at the same time
-/

set_option autoImplicit false

namespace Verif.Cmd
open Disk Spec

variable {ι : Type} [DecidableEq ι]

/-- What the files and the programs are after a schedule: each program is where it would be if it had run alone from the first files, for
as many system calls as it has made. -/
theorem schedule_invariant (env : Env) {cmds : ι → Command} (h : Apart cmds) (stdin : ι → Bytes) (fs : FileSystem) (schedule : List ι) :
    (∀ i, ((Sys.start env fs cmds stdin).run schedule).procs i = (solo ⟨program env (cmds i), stdin i, []⟩ fs (schedule.count i)).2) ∧
    (∀ i q, Touches (cmds i) q →
      ((Sys.start env fs cmds stdin).run schedule).files q = (solo ⟨program env (cmds i), stdin i, []⟩ fs (schedule.count i)).1 q) ∧
    (∀ i, ((solo ⟨program env (cmds i), stdin i, []⟩ fs (schedule.count i)).2).prog.Within (Touches (cmds i)) (WritesTo (cmds i))) ∧
    (∀ q, (∀ i, ¬ WritesTo (cmds i) q) → ((Sys.start env fs cmds stdin).run schedule).files q = fs q) := by
  induction schedule using List.reverseRecOn with
  | nil => exact ⟨fun _ => rfl, fun _ _ _ => rfl, fun i => within_program env (cmds i), fun _ _ => rfl⟩
  | append_singleton l j ih =>
    obtain ⟨h1, h2, h3, h4⟩ := ih
    have hrun : (Sys.start env fs cmds stdin).run (l ++ [j]) = ((Sys.start env fs cmds stdin).run l).step j := by
      unfold Sys.run
      rw [List.foldl_append]
      rfl
    rw [hrun]
    generalize (Sys.start env fs cmds stdin).run l = s at h1 h2 h3 h4
    obtain ⟨a1, a2, a3, a4⟩ := step_agrees (changes_touches (cmds j)) (s.procs j) (by rw [h1 j]; exact h3 j) s.files
      (solo ⟨program env (cmds j), stdin j, []⟩ fs (l.count j)).1 (h2 j)
    have hcj : (l ++ [j]).count j = l.count j + 1 := by simp
    have hci : ∀ i, i ≠ j → (l ++ [j]).count i = l.count i := by
      intro i hi
      rw [List.count_append, List.count_singleton, if_neg (by simpa using Ne.symm hi), Nat.add_zero]
    have hsolo : solo ⟨program env (cmds j), stdin j, []⟩ fs (l.count j + 1) =
        (s.procs j).step (solo ⟨program env (cmds j), stdin j, []⟩ fs (l.count j)).1 := by
      rw [h1 j]; rfl
    have hfar : ∀ i, i ≠ j → ∀ q, Touches (cmds i) q → ¬ WritesTo (cmds j) q :=
      fun i hi q hq hc => h j i (Ne.symm hi) q hc.1 hc.2 hq.1
    refine ⟨fun i => ?_, fun i q hq => ?_, fun i => ?_, fun q hq => ?_⟩
    · by_cases hi : i = j
      · subst hi
        rw [hcj, hsolo]
        show (if i = i then _ else _) = _
        rw [if_pos rfl, a1]
      · rw [hci i hi]
        show (if i = j then _ else _) = _
        rw [if_neg hi, h1 i]
    · by_cases hi : i = j
      · subst hi
        rw [hcj, hsolo]
        exact a2 q hq
      · rw [hci i hi]
        exact (a3 q (hfar i hi q hq)).trans (h2 i q hq)
    · by_cases hi : i = j
      · subst hi
        rw [hcj, hsolo, ← a1]
        exact a4
      · rw [hci i hi]
        exact h3 i
    · exact (a3 q (hq j)).trans (h4 q hq)

/-- C98: whatever the schedule, a command that has ended has ended as if it had been alone: with the same outcome, the same
output, and the same contents in the file that it writes. -/
theorem C98_as_if_alone (env : Env) {cmds : ι → Command} (h : Apart cmds) (stdin : ι → Bytes) (fs : FileSystem) (schedule : List ι)
    {i : ι} {o : Out Unit} (hi : Ended ((Sys.start env fs cmds stdin).run schedule) i o) :
    o = (run env (cmds i) ⟨fs, stdin i, []⟩).1 ∧
    printed ((Sys.start env fs cmds stdin).run schedule) i = (run env (cmds i) ⟨fs, stdin i, []⟩).2.stdout ∧
    ∀ q ∈ mentions (cmds i), q ≠ str "-" →
      ((Sys.start env fs cmds stdin).run schedule).files q = doing env (cmds i) (stdin i) fs q := by
  obtain ⟨h1, h2, _, _⟩ := schedule_invariant env h stdin fs schedule
  have he := solo_exec ⟨program env (cmds i), stdin i, []⟩ fs (schedule.count i)
  unfold Ended at hi
  unfold printed
  rw [h1 i] at hi ⊢
  rw [hi, exec_program] at he
  have he' : (o, (⟨(solo ⟨program env (cmds i), stdin i, []⟩ fs (schedule.count i)).1, _, _⟩ : World)) =
    run env (cmds i) ⟨fs, stdin i, []⟩ := he
  refine ⟨congrArg Prod.fst he', congrArg (fun x => x.2.stdout) he', fun q hq hn => ?_⟩
  rw [h2 i q ⟨hq, hn⟩]
  exact congrArg (fun x => x.2.files q) he'

/-- C98: no schedule changes a file that is not the target of a command. -/
theorem C98_other_files (env : Env) {cmds : ι → Command} (h : Apart cmds) (stdin : ι → Bytes) (fs : FileSystem) (schedule : List ι)
    (q : Str) (hq : ∀ i, target (cmds i) ≠ some q) : ((Sys.start env fs cmds stdin).run schedule).files q = fs q :=
  (schedule_invariant env h stdin fs schedule).2.2.2 q fun i hc => hq i hc.1

/-- C98: no command waits for another: it ends once it has been given enough turns, whatever the others do. -/
theorem C98_ends (env : Env) {cmds : ι → Command} (h : Apart cmds) (stdin : ι → Bytes) (fs : FileSystem) (i : ι) :
    ∃ n, ∀ schedule : List ι, n ≤ schedule.count i → ∃ o, Ended ((Sys.start env fs cmds stdin).run schedule) i o := by
  obtain ⟨n, r, hr⟩ := solo_ends (program env (cmds i)) (stdin i) [] fs
  refine ⟨n, fun schedule hn => ⟨r, ?_⟩⟩
  unfold Ended
  rw [(schedule_invariant env h stdin fs schedule).1 i]
  obtain ⟨m, hm⟩ := Nat.exists_eq_add_of_le hn
  rw [hm, solo_stays _ _ _ _ hr]
  exact hr

/-- What a command does depends only on the files it names, and it changes only its target. -/
theorem doing_apart (env : Env) (c : Command) (i : Bytes) (fs gs : FileSystem) (h : ∀ q, Touches c q → fs q = gs q) :
    (∀ q, Touches c q → doing env c i fs q = doing env c i gs q) ∧ (∀ q, ¬ WritesTo c q → doing env c i fs q = fs q) := by
  obtain ⟨_, _, h3, h4⟩ := exec_agrees (changes_touches c) (program env c) (within_program env c) fs gs i [] h
  rw [exec_program] at h3 h4
  exact ⟨h3, h4⟩

omit [DecidableEq ι] in
theorem oneByOne_apart (env : Env) {cmds : ι → Command} (h : Apart cmds) (stdin : ι → Bytes) (order : List ι) (hn : order.Nodup) (fs : FileSystem) :
    (∀ i ∈ order, ∀ q, WritesTo (cmds i) q → oneByOne env cmds stdin order fs q = doing env (cmds i) (stdin i) fs q) ∧
    (∀ q, (∀ i ∈ order, ¬ WritesTo (cmds i) q) → oneByOne env cmds stdin order fs q = fs q) := by
  induction order generalizing fs with
  | nil => exact ⟨fun i hi => by simp at hi, fun _ _ => rfl⟩
  | cons j rest ih =>
    obtain ⟨hj, hn'⟩ := List.nodup_cons.1 hn
    obtain ⟨ih1, ih2⟩ := ih hn' (doing env (cmds j) (stdin j) fs)
    obtain ⟨_, d2⟩ := doing_apart env (cmds j) (stdin j) fs fs (fun _ _ => rfl)
    have hfar : ∀ i, i ≠ j → ∀ q, Touches (cmds i) q → ¬ WritesTo (cmds j) q :=
      fun i hi q hq hc => h j i (Ne.symm hi) q hc.1 hc.2 hq.1
    refine ⟨fun i hi q hq => ?_, fun q hq => ?_⟩
    · rcases List.mem_cons.1 hi with rfl | hi
      · refine ih2 q fun k hk hc => ?_
        have hne : k ≠ i := fun e => hj (e ▸ hk)
        exact hfar k hne q (changes_touches _ q hc) hq
      · have hne : i ≠ j := fun e => hj (e ▸ hi)
        rw [show oneByOne env cmds stdin (j :: rest) fs q = oneByOne env cmds stdin rest (doing env (cmds j) (stdin j) fs) q from rfl, ih1 i hi q hq]
        exact (doing_apart env (cmds i) (stdin i) _ fs (fun r hr => d2 r (hfar i hne r hr))).1 q (changes_touches _ q hq)
    · exact (ih2 q fun i hi => hq i (List.mem_cons_of_mem _ hi)).trans (d2 q (hq j List.mem_cons_self))

/-- C98: when all commands have ended, the files are as if the commands had run one by one, in whichever order. -/
theorem C98_any_schedule_any_order (env : Env) {cmds : ι → Command} (h : Apart cmds) (stdin : ι → Bytes) (fs : FileSystem) (schedule : List ι)
    (he : ∀ i, ∃ o, Ended ((Sys.start env fs cmds stdin).run schedule) i o) (order : List ι) (hn : order.Nodup) (ha : ∀ i, i ∈ order) :
    ((Sys.start env fs cmds stdin).run schedule).files = oneByOne env cmds stdin order fs := by
  funext q
  obtain ⟨o1, o2⟩ := oneByOne_apart env h stdin order hn fs
  by_cases hq : ∃ i, WritesTo (cmds i) q
  · obtain ⟨i, hi⟩ := hq
    obtain ⟨o, ho⟩ := he i
    rw [o1 i (ha i) q hi]
    exact (C98_as_if_alone env h stdin fs schedule ho).2.2 q (target_in_mentions _ q hi.1) hi.2
  · rw [o2 q fun i _ hc => hq ⟨i, hc⟩]
    exact (schedule_invariant env h stdin fs schedule).2.2.2 q fun i hc => hq ⟨i, hc⟩

/-! ## When the files are shared -/

/-- Two programs. -/
def pair (p0 p1 : Proc) : Bool → Proc := fun b => if b then p1 else p0

theorem step_false (fs : FileSystem) (p0 p1 : Proc) :
    Sys.step ⟨fs, pair p0 p1⟩ false = ⟨(p0.step fs).1, pair (p0.step fs).2 p1⟩ := by
  unfold Sys.step pair
  congr 1
  funext j
  cases j <;> simp

theorem step_true (fs : FileSystem) (p0 p1 : Proc) :
    Sys.step ⟨fs, pair p0 p1⟩ true = ⟨(p1.step fs).1, pair p0 (p1.step fs).2⟩ := by
  unfold Sys.step pair
  congr 1
  funext j
  cases j <;> simp

theorem reorder_program (env : Env) {p q : Str} (hp : p ≠ str "-") (hq : q ≠ []) (hq' : q ≠ str "-") :
    program env (.reorder (str "do") (str "po") false p q) =
      .read p fun
        | none => .ret (.err .other)
        | some x => (Prog.ret (reorderBytes (str "do") (str "po") x)).bind fun y =>
          .stat q fun there => if there = true then .ret (.err .other) else .trunc q (.write q y (.ret (.ok ()))) := by
  show Prog.reorder _ _ _ _ _ = _
  unfold Prog.reorder
  rw [(C10_explicit_flags_honoured p q (x := str "do") (y := str "po") (by simp) (by simp)).1 (by decide)]
  show Prog.bind (Prog.contentsOf p) _ = _
  unfold Prog.contentsOf
  rw [if_neg hp]
  show Prog.read p _ = _
  congr 1
  funext r
  cases r with
  | none => rfl
  | some x =>
    show Prog.bind (Prog.ret _) _ = _
    simp only [if_neg hq]
    unfold Prog.writeOutput
    simp only [if_neg hq', if_true]
    rfl

theorem reorder_in_place_program (env : Env) {p : Str} (hp : p ≠ str "-") :
    program env (.reorder (str "do") (str "po") false p []) =
      .read p fun
        | none => .ret (.err .other)
        | some x => (Prog.ret (reorderBytes (str "do") (str "po") x)).bind fun y => .trunc p (.write p y (.ret (.ok ()))) := by
  show Prog.reorder _ _ _ _ _ = _
  unfold Prog.reorder
  rw [(C10_explicit_flags_honoured p [] (x := str "do") (y := str "po") (by simp) (by simp)).1 (by decide)]
  show Prog.bind (Prog.contentsOf p) _ = _
  unfold Prog.contentsOf
  rw [if_neg hp]
  show Prog.read p _ = _
  congr 1
  funext r
  cases r with
  | none => rfl
  | some x =>
    show Prog.bind (Prog.ret _) _ = _
    simp only [if_true]
    unfold Prog.writeOutput
    simp only [if_neg hp]
    rfl

/-- Two commands. -/
def both (c0 c1 : Command) : Bool → Command := fun b => if b then c1 else c0

theorem start_both (env : Env) (fs : FileSystem) (c0 c1 : Command) :
    Sys.start env fs (both c0 c1) (fun _ => []) = ⟨fs, pair ⟨program env c0, [], []⟩ ⟨program env c1, [], []⟩⟩ := by
  unfold Sys.start both pair
  congr 1
  funext j
  cases j <;> rfl

/-- A file system with two images. -/
def twoImages (p q : Str) (x y : Bytes) : FileSystem := fun r => if r = p then some x else if r = q then some y else none

theorem exec_reorder (env : Env) {p n : Str} (hp : p ≠ str "-") (hn : n ≠ []) (hn' : n ≠ str "-") {fs : FileSystem} {x x' : Bytes} (hf : fs p = some x)
    (hx : reorderBytes (str "do") (str "po") x = .ok x') (i o : Bytes) :
    (fs n = none → run env (.reorder (str "do") (str "po") false p n) ⟨fs, i, o⟩ = (.ok (), (⟨fs, i, o⟩ : World).writeFile n x')) ∧
    (fs n ≠ none → run env (.reorder (str "do") (str "po") false p n) ⟨fs, i, o⟩ = (.err .other, ⟨fs, i, o⟩)) := by
  rw [← exec_program, reorder_program env hp hn hn']
  simp only [Prog.exec, hf, hx, Prog.bind]
  constructor
  · intro h
    have hb : ¬ ((fs n).isSome = true) := by simp [h]
    exact (congrArg (fun m : Prog Unit => m.exec ⟨fs, i, o⟩) (if_neg hb)).trans (exec_writeFile n x' _)
  · intro h
    have hb : (fs n).isSome = true := by
      cases hz : fs n with
      | none => exact absurd hz h
      | some z => rfl
    exact congrArg (fun m : Prog Unit => m.exec ⟨fs, i, o⟩) (if_pos hb)

theorem race (env : Env) {a b n : Str} {x y x' y' : Bytes} (n1 : a ≠ str "-") (n2 : b ≠ str "-") (n3 : n ≠ str "-") (n4 : n ≠ []) (d1 : b ≠ a)
    (d2 : n ≠ a) (d3 : n ≠ b) (hx : reorderBytes (str "do") (str "po") x = .ok x') (hy : reorderBytes (str "do") (str "po") y = .ok y') :
    ∃ s, (Sys.start env (twoImages a b x y) (both (.reorder (str "do") (str "po") false a n) (.reorder (str "do") (str "po") false b n)) fun _ => []).run
      [false, true, false, true, false, false, true, true] = s ∧ (∀ b, Ended s b (.ok ())) ∧ s.files n = some y' := by
  refine ⟨_, rfl, ?_⟩
  rw [start_both, reorder_program env n1 n4 n3, reorder_program env n2 n4 n3]
  have fa : twoImages a b x y a = some x := by simp [twoImages]
  have fb : twoImages a b x y b = some y := by simp [twoImages, d1]
  have fn : twoImages a b x y n = none := by simp [twoImages, d2, d3]
  generalize twoImages a b x y = fs at *
  simp only [Sys.run, List.foldl_cons, List.foldl_nil, step_false, step_true, Proc.step, fa, fb, fn, hx, hy, Prog.bind, Option.isSome_none,
    Bool.false_eq_true, if_false, if_true, Option.getD_some, List.drop_nil, List.append_nil]
  refine ⟨fun c => by cases c <;> rfl, trivial⟩

/-- C98: without the hypothesis the claim fails.  Two `reorder` commands without --overwrite that make the same new file can both
succeed, one of them replacing what the other has made; one after the other, in either order, the second refuses. -/
theorem C98_shared_target_race (env : Env) {x y : Bytes} (hx : x.length = 143360) (hy : y.length = 143360) (hxy : x ≠ y) :
    ∃ (cmds : Bool → Command) (fs : FileSystem) (schedule : List Bool) (q : Str) (x' y' : Bytes), fs q = none ∧ x' ≠ y' ∧
      doing env (cmds false) [] fs q = some x' ∧ doing env (cmds true) [] fs q = some y' ∧
      (∀ b, Ended ((Sys.start env fs cmds fun _ => []).run schedule) b (.ok ())) ∧
      ((Sys.start env fs cmds fun _ => []).run schedule).files q = some y' ∧
      (run env (cmds true) ⟨doing env (cmds false) [] fs, [], []⟩).1 = .err .other ∧
      (run env (cmds false) ⟨doing env (cmds true) [] fs, [], []⟩).1 = .err .other := by
  obtain ⟨x', hx1, _, hx2⟩ := C09_reorder_involutive (a := str "do") (b := str "po") (by simp) (by simp) hx
  obtain ⟨y', hy1, _, hy2⟩ := C09_reorder_involutive (a := str "do") (b := str "po") (by simp) (by simp) hy
  have hne : x' ≠ y' := by
    rintro rfl
    rw [hx2] at hy2
    exact hxy (Out.ok.inj hy2)
  have n1 : str "a.do" ≠ str "-" := by decide +kernel
  have n2 : str "b.do" ≠ str "-" := by decide +kernel
  have n3 : str "n.po" ≠ str "-" := by decide +kernel
  have n4 : str "n.po" ≠ [] := by decide +kernel
  have d1 : str "b.do" ≠ str "a.do" := by decide +kernel
  have d2 : str "n.po" ≠ str "a.do" := by decide +kernel
  have d3 : str "n.po" ≠ str "b.do" := by decide +kernel
  generalize str "a.do" = a at *
  generalize str "b.do" = b at *
  generalize str "n.po" = n at *
  obtain ⟨s, hs, h1, h2⟩ := race env n1 n2 n3 n4 d1 d2 d3 hx1 hy1
  have fa : twoImages a b x y a = some x := by simp [twoImages]
  have fb : twoImages a b x y b = some y := by simp [twoImages, d1]
  have fn : twoImages a b x y n = none := by simp [twoImages, d2, d3]
  have r0 := (exec_reorder env n1 n4 n3 fa hx1 [] []).1 fn
  have r1 := (exec_reorder env n2 n4 n3 fb hy1 [] []).1 fn
  have w0 : doing env (.reorder (str "do") (str "po") false a n) [] (twoImages a b x y) = fun r => if r = n then some x' else twoImages a b x y r := by
    unfold doing; rw [r0]; rfl
  have w1 : doing env (.reorder (str "do") (str "po") false b n) [] (twoImages a b x y) = fun r => if r = n then some y' else twoImages a b x y r := by
    unfold doing; rw [r1]; rfl
  refine ⟨both (.reorder (str "do") (str "po") false a n) (.reorder (str "do") (str "po") false b n), twoImages a b x y, [false, true, false, true, false, false, true, true], n, x', y', fn, hne, ?_, ?_,
    ?_, ?_, ?_, ?_⟩
  · show doing env (.reorder (str "do") (str "po") false a n) [] _ n = _
    rw [w0]; exact if_pos rfl
  · show doing env (.reorder (str "do") (str "po") false b n) [] _ n = _
    rw [w1]; exact if_pos rfl
  · rw [hs]; exact h1
  · rw [hs]; exact h2
  · show (run env (.reorder (str "do") (str "po") false b n) ⟨doing env (.reorder (str "do") (str "po") false a n) [] _, [], []⟩).1 = _
    rw [w0, (exec_reorder env n2 n4 n3 (x := y) (by simp only [if_neg (Ne.symm d3)]; exact fb) hy1 [] []).2 (by simp)]
  · show (run env (.reorder (str "do") (str "po") false a n) ⟨doing env (.reorder (str "do") (str "po") false b n) [] _, [], []⟩).1 = _
    rw [w1, (exec_reorder env n1 n4 n3 (x := x) (by simp only [if_neg (Ne.symm d2)]; exact fa) hx1 [] []).2 (by simp)]

theorem torn_read (env : Env) {a n : Str} {x x' : Bytes} (n1 : a ≠ str "-") (n3 : n ≠ str "-") (n4 : n ≠ [])
    (hx : reorderBytes (str "do") (str "po") x = .ok x') :
    ∃ s, (Sys.start env (twoImages a a x x) (both (.reorder (str "do") (str "po") false a []) (.reorder (str "do") (str "po") false a n)) fun _ => []).run
      [false, false, true, false] = s ∧ Ended s false (.ok ()) ∧ Ended s true (.err .other) := by
  refine ⟨_, rfl, ?_⟩
  rw [start_both, reorder_in_place_program env n1, reorder_program env n1 n4 n3]
  have fa : twoImages a a x x a = some x := by simp [twoImages]
  generalize twoImages a a x x = fs at *
  have he : reorderBytes (str "do") (str "po") [] = .err .other := by decide +kernel
  simp only [Sys.run, List.foldl_cons, List.foldl_nil, step_false, step_true, Proc.step, fa, hx, he, Prog.bind, if_true]
  exact ⟨rfl, rfl⟩

/-- C98: nor does it hold for a command that only reads the file another one writes.  `reorder` to a new file can find its image
empty while another `reorder` rewrites it in place, and fail, though it succeeds both before and after. -/
theorem C98_shared_reader_race (env : Env) {x : Bytes} (hx : x.length = 143360) :
    ∃ (cmds : Bool → Command) (fs : FileSystem) (schedule : List Bool),
      (∃ q, target (cmds false) = some q ∧ target (cmds true) ≠ some q) ∧
      Ended ((Sys.start env fs cmds fun _ => []).run schedule) false (.ok ()) ∧
      Ended ((Sys.start env fs cmds fun _ => []).run schedule) true (.err .other) ∧
      (run env (cmds true) ⟨fs, [], []⟩).1 = .ok () ∧
      (run env (cmds true) ⟨doing env (cmds false) [] fs, [], []⟩).1 = .ok () := by
  obtain ⟨x', hx1, _, hx2⟩ := C09_reorder_involutive (a := str "do") (b := str "po") (by simp) (by simp) hx
  obtain ⟨x'', hx3, _, _⟩ := C09_reorder_involutive (a := str "do") (b := str "po") (by simp) (by simp) (reorderBytes_lengths hx1).2
  have n1 : str "a.do" ≠ str "-" := by decide +kernel
  have n3 : str "n.po" ≠ str "-" := by decide +kernel
  have n4 : str "n.po" ≠ [] := by decide +kernel
  have d2 : str "n.po" ≠ str "a.do" := by decide +kernel
  generalize str "a.do" = a at *
  generalize str "n.po" = n at *
  obtain ⟨s, hs, h1, h2⟩ := torn_read env n1 n3 n4 hx1
  have fa : twoImages a a x x a = some x := by simp [twoImages]
  have fn : twoImages a a x x n = none := by simp [twoImages, d2]
  have w0 : doing env (.reorder (str "do") (str "po") false a []) [] (twoImages a a x x) = fun r => if r = a then some x' else twoImages a a x x r := by
    unfold doing
    rw [← exec_program, reorder_in_place_program env n1]
    simp only [Prog.exec, fa, hx1, Prog.bind]
    simp only [if_true, Option.getD_some, List.drop_nil, List.append_nil]
    funext r
    split <;> rfl
  refine ⟨both (.reorder (str "do") (str "po") false a []) (.reorder (str "do") (str "po") false a n), twoImages a a x x, [false, false, true, false], ⟨a, ?_, ?_⟩, ?_, ?_, ?_, ?_⟩
  · show target (.reorder (str "do") (str "po") false a []) = _
    simp [target]
  · show target (.reorder (str "do") (str "po") false a n) ≠ _
    simp [target, n4, d2]
  · rw [hs]; exact h1
  · rw [hs]; exact h2
  · show (run env (.reorder (str "do") (str "po") false a n) _).1 = _
    rw [(exec_reorder env n1 n4 n3 fa hx1 [] []).1 fn]
  · show (run env (.reorder (str "do") (str "po") false a n) ⟨doing env (.reorder (str "do") (str "po") false a []) [] _, [], []⟩).1 = _
    rw [w0, (exec_reorder env n1 n4 n3 (x := x') (by simp) hx3 [] []).1 (by simp only [if_neg d2]; exact fn)]

/-- Non-vacuity of `Apart`, and of the end of all commands: two `reorder` commands in place on files of their own. -/
example (env : Env) {x y : Bytes} (hx : x.length = 143360) (hy : y.length = 143360) :
    ∃ (cmds : Bool → Command) (fs : FileSystem) (schedule : List Bool), Apart cmds ∧ schedule = [false, true, true, false, false, true] ∧
      (∀ b, Ended ((Sys.start env fs cmds fun _ => []).run schedule) b (.ok ())) ∧ ∀ b, ∃ q, target (cmds b) = some q := by
  obtain ⟨x', hx1, _, _⟩ := C09_reorder_involutive (a := str "do") (b := str "po") (by simp) (by simp) hx
  obtain ⟨y', hy1, _, _⟩ := C09_reorder_involutive (a := str "do") (b := str "po") (by simp) (by simp) hy
  have n1 : str "a.do" ≠ str "-" := by decide +kernel
  have n2 : str "b.do" ≠ str "-" := by decide +kernel
  have e1 : str "a.do" ≠ [] := by decide +kernel
  have e2 : str "b.do" ≠ [] := by decide +kernel
  have d1 : str "b.do" ≠ str "a.do" := by decide +kernel
  generalize str "a.do" = a at *
  generalize str "b.do" = b at *
  refine ⟨both (.reorder (str "do") (str "po") false a []) (.reorder (str "do") (str "po") false b []), twoImages a b x y, _, ?_, rfl, ?_, ?_⟩
  · intro i j hij q hq _
    cases i <;> cases j
    · exact absurd rfl hij
    · have : a = q := by simpa [both, target] using hq
      subst this
      simp [both, mentions, Ne.symm d1, e1]
    · have : b = q := by simpa [both, target] using hq
      subst this
      simp [both, mentions, d1, e2]
    · exact absurd rfl hij
  · rw [start_both, reorder_in_place_program env n1, reorder_in_place_program env n2]
    have fa : twoImages a b x y a = some x := by simp [twoImages]
    have fb : twoImages a b x y b = some y := by simp [twoImages, d1]
    generalize twoImages a b x y = fs at *
    simp only [Sys.run, List.foldl_cons, List.foldl_nil, step_false, step_true, Proc.step, fa, fb, hx1, hy1, Prog.bind, if_true]
    intro c
    cases c <;> rfl
  · intro c
    cases c
    · exact ⟨a, by simp [both, target]⟩
    · exact ⟨b, by simp [both, target]⟩

end Verif.Cmd
