import Verif.Spec.Overlap
import Verif.Props.HistoryWit

/-!
# C79: commands that run at the same time
-/

set_option autoImplicit false

namespace Verif.Cmd
open Disk Spec

variable {α : Type}

/-- The same for a program that looks only at the files of `S`. -/
def Agree (S : List Str) (w1 w2 : World) : Prop :=
  w1.stdin = w2.stdin ∧ w1.stdout = w2.stdout ∧ ∀ q ∈ S, w1.files q = w2.files q

theorem agree_files {S : List Str} {w1 w2 w1' w2' : World} (h : Agree S w1 w2) (h1 : w1'.files = w1.files) (h2 : w2'.files = w2.files)
    (hi : w1'.stdin = w2'.stdin) (ho : w1'.stdout = w2'.stdout) : Agree S w1' w2' :=
  ⟨hi, ho, fun q hq => by rw [h1, h2]; exact h.2.2 q hq⟩

/-- Reads only files of `S` and changes neither files nor standard output. -/
def Reads (S : List Str) (m : Act α) : Prop := ∀ w1 w2, Agree S w1 w2 →
  (m w1).1 = (m w2).1 ∧ Agree S (m w1).2 (m w2).2 ∧ SameOutside (m w1).2 w1 ∧ SameOutside (m w2).2 w2

/-- A command that reads only files of `S` and then writes `p` or nothing. -/
def Staged (S : List Str) (p : Option Str) (m : Output → Act Unit) : Prop := ∀ w1 w2, Agree S w1 w2 →
  (∃ out w1' w2', Agree S w1' w2' ∧ w1'.files = w1.files ∧ w2'.files = w2.files ∧ (p ≠ none → out ≠ .ok ()) ∧
    ∀ wo, m wo w1 = (out, w1') ∧ m wo w2 = (out, w2')) ∨
  ∃ q d force w1' w2', p = some q ∧ Agree S w1' w2' ∧ SameOutside w1' w1 ∧ SameOutside w2' w2 ∧
    ∀ wo, m wo w1 = wo w1' q d force ∧ m wo w2 = wo w2' q d force

theorem Reads.lift {S : List Str} (o : Out α) : Reads S (lift o) := fun _ _ h => ⟨rfl, h, ⟨rfl, rfl⟩, ⟨rfl, rfl⟩⟩

theorem Reads.contentsOf {S : List Str} {p : Str} (hp : p ∈ S) : Reads S (contentsOf p) := by
  intro w1 w2 h
  have e1 := Quiet.contentsOf p w1
  have e2 := Quiet.contentsOf p w2
  refine ⟨?_, ?_, e1, e2⟩
  · unfold Cmd.contentsOf World.fileContentsOrStdIn
    rw [h.2.2 p hp, h.1]
    split
    · rfl
    · split <;> rfl
  · refine agree_files h e1.1 e2.1 ?_ (by rw [e1.2, e2.2]; exact h.2.1)
    unfold Cmd.contentsOf World.fileContentsOrStdIn
    rw [h.2.2 p hp]
    split
    · rfl
    · split <;> exact h.1

theorem Reads.openDisk {S : List Str} {p : Str} (hp : p ∈ S) (env : Env) (o : DiskOrder) (s : Str) : Reads S (openDisk env p o s) := by
  intro w1 w2 h
  have e1 := Quiet.openDisk env p o s w1
  have e2 := Quiet.openDisk env p o s w2
  refine ⟨?_, ?_, e1, e2⟩
  · unfold Cmd.openDisk openFilename
    rw [h.2.2 p hp, h.1]
    split
    · rfl
    · split <;> rfl
  · refine agree_files h e1.1 e2.1 ?_ (by rw [e1.2, e2.2]; exact h.2.1)
    unfold Cmd.openDisk openFilename
    rw [h.2.2 p hp]
    split
    · rfl
    · split <;> exact h.1

theorem Staged.bind {S : List Str} {p : Option Str} {m : Act α} {f : Output → α → Act Unit} (hm : Reads S m)
    (hf : ∀ a, Staged S p (fun wo => f wo a)) : Staged S p (fun wo => m >>= f wo) := by
  intro w1 w2 h
  obtain ⟨e, ha, s1, s2⟩ := hm w1 w2 h
  rcases e1 : m w1 with ⟨o, w1'⟩
  rcases e2 : m w2 with ⟨o', w2'⟩
  rw [e1, e2] at e ha
  rw [e1] at s1
  rw [e2] at s2
  dsimp only at e ha s1 s2
  subst e
  have run : ∀ wo, (m >>= f wo) w1 = Act.bind m (f wo) w1 ∧ (m >>= f wo) w2 = Act.bind m (f wo) w2 := fun _ => ⟨rfl, rfl⟩
  cases o with
  | ok a =>
    rcases hf a w1' w2' ha with ⟨out, v1, v2, h1, h2, h3, h4, h5⟩ | ⟨q, d, force, v1, v2, h1, h2, h3, h4, h5⟩
    · refine Or.inl ⟨out, v1, v2, h1, h2.trans s1.1, h3.trans s2.1, h4, fun wo => ?_⟩
      dsimp only
      rw [bind_ok e1, bind_ok e2]
      exact h5 wo
    · refine Or.inr ⟨q, d, force, v1, v2, h1, h2, ⟨h3.1.trans s1.1, h3.2.trans s1.2⟩, ⟨h4.1.trans s2.1, h4.2.trans s2.2⟩, fun wo => ?_⟩
      dsimp only
      rw [bind_ok e1, bind_ok e2]
      exact h5 wo
  | err k =>
    refine Or.inl ⟨.err k, w1', w2', ha, s1.1, s2.1, fun _ => by simp, fun wo => ?_⟩
    dsimp only
    rw [(run wo).1, (run wo).2]; unfold Act.bind; rw [e1, e2]; exact ⟨rfl, rfl⟩
  | panic =>
    refine Or.inl ⟨.panic, w1', w2', ha, s1.1, s2.1, fun _ => by simp, fun wo => ?_⟩
    dsimp only
    rw [(run wo).1, (run wo).2]; unfold Act.bind; rw [e1, e2]; exact ⟨rfl, rfl⟩
  | timeout =>
    refine Or.inl ⟨.timeout, w1', w2', ha, s1.1, s2.1, fun _ => by simp, fun wo => ?_⟩
    dsimp only
    rw [(run wo).1, (run wo).2]; unfold Act.bind; rw [e1, e2]; exact ⟨rfl, rfl⟩

theorem Staged.fail {S : List Str} {p : Option Str} (k : ErrKind) : Staged S p (fun _ => lift (.err k)) :=
  fun w1 w2 h => Or.inl ⟨.err k, w1, w2, h, rfl, rfl, fun _ => by simp, fun _ => ⟨rfl, rfl⟩⟩

theorem Staged.print {S : List Str} (t : Bytes) : Staged S none (fun _ => print t) :=
  fun w1 w2 h => Or.inl ⟨.ok (), { w1 with stdout := w1.stdout ++ t }, { w2 with stdout := w2.stdout ++ t },
    ⟨h.1, by dsimp only; rw [h.2.1], h.2.2⟩, rfl, rfl, fun c => absurd rfl c, fun _ => ⟨rfl, rfl⟩⟩

theorem Staged.write {S : List Str} (q : Str) (d : Bytes) (force : Bool) : Staged S (some q) (fun wo w => wo w q d force) :=
  fun w1 w2 h => Or.inr ⟨q, d, force, w1, w2, rfl, h, ⟨rfl, rfl⟩, ⟨rfl, rfl⟩, fun _ => ⟨rfl, rfl⟩⟩

theorem Staged.writeDisk {S : List Str} (q : Str) (op : AnyOp) (o : DiskOrder) : Staged S (some q) (fun wo => writeDisk wo q op o) := by
  intro w1 w2 h
  unfold Cmd.writeDisk writeBackVia
  cases writeBackBytes op o with
  | ok b => exact Staged.write q b true w1 w2 h
  | err k => exact Or.inl ⟨.err k, w1, w2, h, rfl, rfl, fun _ => by simp, fun _ => ⟨rfl, rfl⟩⟩
  | panic => exact Or.inl ⟨.panic, w1, w2, h, rfl, rfl, fun _ => by simp, fun _ => ⟨rfl, rfl⟩⟩
  | timeout => exact Or.inl ⟨.timeout, w1, w2, h, rfl, rfl, fun _ => by simp, fun _ => ⟨rfl, rfl⟩⟩

theorem staged (env : Env) (c : Command) : Staged (mentions c) (target c) (fun wo => runVia env wo c) := by
  unfold runVia mentions
  cases c with
  | ls o s sh i d =>
    dsimp only
    refine Staged.bind (Reads.openDisk (by simp) _ _ _) fun p => ?_
    obtain ⟨op, _⟩ := p
    dsimp only
    split
    · exact Staged.fail _
    · exact Staged.bind (Reads.lift _) fun _ => Staged.print _
  | reorder o n ow i j =>
    dsimp only
    intro w1 w2 h
    unfold reorder reorderVia
    dsimp only
    cases getOrders i o j n with
    | err k => exact Or.inl ⟨.err k, w1, w2, h, rfl, rfl, fun _ => by simp, fun _ => ⟨rfl, rfl⟩⟩
    | panic => exact Or.inl ⟨.panic, w1, w2, h, rfl, rfl, fun _ => by simp, fun _ => ⟨rfl, rfl⟩⟩
    | timeout => exact Or.inl ⟨.timeout, w1, w2, h, rfl, rfl, fun _ => by simp, fun _ => ⟨rfl, rfl⟩⟩
    | ok p =>
      obtain ⟨a, b⟩ := p
      dsimp only
      obtain ⟨e, ha, s1, s2⟩ := Reads.contentsOf (S := [i, j]) (p := i) (by simp) w1 w2 h
      unfold contentsOf at e ha s1 s2
      rcases e1 : w1.fileContentsOrStdIn i with ⟨r, w1'⟩
      rcases e2 : w2.fileContentsOrStdIn i with ⟨r', w2'⟩
      rw [e1, e2] at e ha
      rw [e1] at s1
      rw [e2] at s2
      dsimp only at e ha s1 s2
      subst e
      cases r with
      | err k => exact Or.inl ⟨.err k, w1', w2', ha, s1.1, s2.1, fun _ => by simp, fun _ => ⟨rfl, rfl⟩⟩
      | panic => exact Or.inl ⟨.panic, w1', w2', ha, s1.1, s2.1, fun _ => by simp, fun _ => ⟨rfl, rfl⟩⟩
      | timeout => exact Or.inl ⟨.timeout, w1', w2', ha, s1.1, s2.1, fun _ => by simp, fun _ => ⟨rfl, rfl⟩⟩
      | ok bytes =>
        dsimp only
        cases reorderBytes a b bytes with
        | err k => exact Or.inl ⟨.err k, w1', w2', ha, s1.1, s2.1, fun _ => by simp, fun _ => ⟨rfl, rfl⟩⟩
        | panic => exact Or.inl ⟨.panic, w1', w2', ha, s1.1, s2.1, fun _ => by simp, fun _ => ⟨rfl, rfl⟩⟩
        | timeout => exact Or.inl ⟨.timeout, w1', w2', ha, s1.1, s2.1, fun _ => by simp, fun _ => ⟨rfl, rfl⟩⟩
        | ok new =>
          dsimp only
          unfold target
          dsimp only
          split
          · exact Or.inr ⟨i, new, true, w1', w2', rfl, ha, s1, s2, fun _ => ⟨rfl, rfl⟩⟩
          · exact Or.inr ⟨j, new, ow, w1', w2', rfl, ha, s1, s2, fun _ => ⟨rfl, rfl⟩⟩
  | filetypes a => exact Staged.print _
  | put o s t ow a i x y =>
    dsimp only
    unfold putCmd
    split
    · exact Staged.fail _
    · refine Staged.bind (Reads.openDisk (by simp) _ _ _) fun p => ?_
      obtain ⟨op, dord⟩ := p
      refine Staged.bind (Reads.contentsOf (by simp)) fun contents => ?_
      refine Staged.bind (Reads.lift _) fun ft => ?_
      dsimp only
      refine Staged.bind (Reads.lift _) fun _ => Staged.writeDisk _ _ _
  | rm o s m i n =>
    dsimp only
    refine Staged.bind (Reads.openDisk (by simp) _ _ _) fun p => ?_
    obtain ⟨op, dord⟩ := p
    dsimp only
    refine Staged.bind (Reads.lift _) fun d => ?_
    split
    · exact Staged.fail _
    · exact Staged.writeDisk _ _ _
  | dump o s i n =>
    dsimp only
    refine Staged.bind (Reads.openDisk (by simp) _ _ _) fun p => ?_
    obtain ⟨op, dord⟩ := p
    exact Staged.bind (Reads.lift _) fun _ => Staged.print _
  | mkhello o i n a s =>
    dsimp only
    unfold mkhello
    dsimp only
    split
    · exact Staged.fail _
    · split
      · exact Staged.fail _
      · refine Staged.bind (Reads.openDisk (by simp) _ _ _) fun p => ?_
        obtain ⟨op, dord⟩ := p
        cases op with
        | dos3 o => exact Staged.fail _
        | prodos o => exact Staged.fail _
        | nakedos o =>
          refine Staged.bind (Reads.lift _) fun q => ?_
          obtain ⟨addr, sa, _⟩ := q
          dsimp only
          split
          · exact Staged.fail _
          · exact Staged.bind (Reads.lift _) fun _ => Staged.writeDisk _ _ _
  | mksd o i b a s =>
    dsimp only
    refine Staged.bind (Reads.contentsOf (by simp)) fun contents => ?_
    refine Staged.bind (Reads.lift _) fun disk => ?_
    exact Staged.bind (Reads.lift _) fun raw => Staged.write _ _ _
  | decode f l r =>
    dsimp only
    refine Staged.bind (Reads.contentsOf (by simp)) fun contents => ?_
    refine Staged.bind (Reads.lift _) fun listing => ?_
    split <;> exact Staged.print _

/-! ## Theorems -/

theorem agree_refl (S : List Str) (w : World) : Agree S w w := ⟨rfl, rfl, fun _ _ => rfl⟩

/-- A run that succeeds and has a target writes it. -/
theorem writes {env : Env} {c : Command} {w : World} {p : Str} (ht : target c = some p) (hok : (run env c w).1 = .ok ()) :
    ∃ d force w', SameOutside w' w ∧ ∀ wo, runVia env wo c w = wo w' p d force := by
  rcases staged env c w w (agree_refl _ _) with ⟨out, _, _, _, _, _, h, hr⟩ | ⟨q, d, force, w', _, hq, _, h1, _, hr⟩
  · have := (hr World.writeOutput).1
    unfold run at hok
    dsimp only at this
    rw [this] at hok
    exact absurd hok (h (by rw [ht]; simp))
  · rw [ht] at hq
    cases hq
    exact ⟨d, force, w', h1, fun wo => (hr wo).1⟩

theorem target_mentioned {c : Command} {p : Str} (h : target c = some p) : p ∈ mentions c := by
  cases c <;> simp only [target, mentions, Option.some.injEq, reduceCtorEq] at h ⊢
  · split at h <;> simp [← h]
  all_goals simp [h]

/-- C79: what a command does depends on the files named on its command line only. -/
theorem C79_depends (env : Env) (c : Command) (w1 w2 : World) (hi : w1.stdin = w2.stdin) (ho : w1.stdout = w2.stdout)
    (h : ∀ q ∈ mentions c, w1.files q = w2.files q) :
    (run env c w1).1 = (run env c w2).1 ∧ (run env c w1).2.stdout = (run env c w2).2.stdout ∧
    ∀ q ∈ mentions c, (run env c w1).2.files q = (run env c w2).2.files q := by
  unfold run
  rcases staged env c w1 w2 ⟨hi, ho, h⟩ with ⟨out, w1', w2', ha, _, _, _, hr⟩ | ⟨q, d, force, w1', w2', hq, ha, _, _, hr⟩
  · have := hr World.writeOutput
    dsimp only at this
    rw [this.1, this.2]
    exact ⟨rfl, ha.2⟩
  · have := hr World.writeOutput
    dsimp only at this
    rw [this.1, this.2]
    unfold World.writeOutput
    rw [ha.2.2 q (target_mentioned hq)]
    split
    · exact ⟨rfl, by dsimp only; rw [ha.2.1], ha.2.2⟩
    · split
      · exact ⟨rfl, ha.2⟩
      · refine ⟨rfl, ha.2.1, fun r hr => ?_⟩
        unfold World.writeFile
        dsimp only
        rw [ha.2.2 r hr]

/-- C79: whatever other programs do while a command runs, the file it writes is in the end what the command makes of the
files it has read, and all other files are as the other programs leave them.  What the others wrote to that file is lost. -/
theorem C79_overlap (env : Env) (g : FileSystem → FileSystem) {c : Command} {w : World} {p : Str} (hp : p ≠ str "-") (ht : target c = some p)
    (hok : (run env c w).1 = .ok ()) :
    (∀ q, q ≠ p → (overlapped env g c w).2.files q = g w.files q) ∧
    ((overlapped env g c w).1 = .ok () → (overlapped env g c w).2.files p = (run env c w).2.files p) ∧
    ((overlapped env g c w).1 ≠ .ok () → g w.files p ≠ none ∧ (overlapped env g c w).2.files p = g w.files p) := by
  obtain ⟨d, force, w', hs, hr⟩ := writes ht hok
  unfold run at hok ⊢
  unfold overlapped
  rw [hr] at hok ⊢
  rw [hr]
  unfold meddled
  unfold World.writeOutput at hok ⊢
  rw [if_neg hp] at hok ⊢
  rw [if_neg hp, hs.1] at *
  dsimp only
  by_cases hx : force = false ∧ (g w.files p).isSome
  · rw [if_pos hx]
    refine ⟨fun q _ => rfl, fun h => by simp at h, fun _ => ⟨?_, rfl⟩⟩
    intro hn
    rw [hn] at hx
    simp at hx
  · rw [if_neg hx]
    by_cases hy : force = false ∧ (w.files p).isSome
    · rw [if_pos hy] at hok; simp at hok
    · rw [if_neg hy]
      refine ⟨fun q hq => ?_, fun _ => ?_, fun h => absurd rfl h⟩
      · unfold World.writeFile; dsimp only; rw [if_neg hq]
      · unfold World.writeFile; simp

theorem overlap_ok {env : Env} {g : FileSystem → FileSystem} {c : Command} {w : World} {p : Str} (hp : p ≠ str "-") (ht : target c = some p)
    (hok : (run env c w).1 = .ok ()) (hg : g w.files p = w.files p) : (overlapped env g c w).1 = .ok () := by
  obtain ⟨d, force, w', hs, hr⟩ := writes ht hok
  unfold run at hok
  unfold overlapped
  rw [hr] at hok ⊢
  unfold meddled
  unfold World.writeOutput at hok ⊢
  rw [if_neg hp] at hok ⊢
  by_cases hx : force = false ∧ (w'.files p).isSome
  · rw [if_pos hx] at hok; simp at hok
  · rw [if_neg]
    intro hy
    dsimp only at hy
    rw [hs.1, hg, ← hs.1] at hy
    exact hx hy

/-- A command that was allowed to replace a file is not stopped by others. -/
theorem overlap_forced {env : Env} {g : FileSystem → FileSystem} {c : Command} {w : World} {p : Str} (hp : p ≠ str "-")
    (ht : target c = some p) (hok : (run env c w).1 = .ok ()) (hx : ∃ b, w.files p = some b) : (overlapped env g c w).1 = .ok () := by
  obtain ⟨d, force, w', hs, hr⟩ := writes ht hok
  unfold run at hok
  unfold overlapped
  rw [hr] at hok ⊢
  unfold meddled
  unfold World.writeOutput at hok ⊢
  rw [if_neg hp] at hok ⊢
  obtain ⟨b, hb⟩ := hx
  by_cases hf : force = false
  · rw [if_pos ⟨hf, by rw [hs.1, hb]; rfl⟩] at hok; simp at hok
  · rw [if_neg (fun h => hf h.1)]

/-- C79: another command that is not given the file that is written may as well run afterwards. -/
theorem C79_as_if_after_partial (env : Env) {a b : Command} {w : World} {p : Str} (hp : p ≠ str "-") (ht : target a = some p)
    (hok : (run env a w).1 = .ok ()) (stdin : Bytes) (hb : p ∉ mentions b) :
    (overlapped env (doing env b stdin) a w).1 = .ok () ∧
    (overlapped env (doing env b stdin) a w).2.files = doing env b stdin (run env a w).2.files := by
  have htb : target b ≠ some p := fun h => hb (target_mentioned h)
  have hkeep : ∀ fs : FileSystem, doing env b stdin fs p = fs p := fun fs =>
    C59_other_files_untouched env b ⟨fs, stdin, []⟩ p htb
  have hfr : ∀ q, q ≠ p → doing env b stdin w.files q = doing env b stdin (run env a w).2.files q := by
    intro q hq
    have hout : ∀ r, r ≠ p → (run env a w).2.files r = w.files r := fun r hr =>
      C59_other_files_untouched env a w r (by rw [ht]; simpa using Ne.symm hr)
    by_cases hm : q ∈ mentions b
    · exact (C79_depends env b ⟨w.files, stdin, []⟩ ⟨(run env a w).2.files, stdin, []⟩ rfl rfl (fun r hr => by
        dsimp only
        rw [hout r (by rintro rfl; exact hb hr)])).2.2 q hm
    · have hq' : target b ≠ some q := fun h => hm (target_mentioned h)
      unfold doing
      rw [C59_other_files_untouched env b _ q hq', C59_other_files_untouched env b _ q hq']
      exact (hout q hq).symm
  have ho := C79_overlap env (doing env b stdin) hp ht hok
  have hsucc := overlap_ok (g := doing env b stdin) hp ht hok (hkeep _)
  refine ⟨hsucc, funext fun q => ?_⟩
  by_cases hq : q = p
  · subst hq
    rw [ho.2.1 hsucc, hkeep]
  · rw [ho.1 q hq, hfr q hq]

/-- C79: another command that writes no file given to the first may as well run before. -/
theorem C79_as_if_before_partial (env : Env) {a b : Command} {w : World} {p : Str} (hp : p ≠ str "-") (ht : target a = some p)
    (hok : (run env a w).1 = .ok ()) (stdin : Bytes) (hb : ∀ q ∈ mentions a, target b ≠ some q) :
    (run env a { w with files := doing env b stdin w.files }).1 = .ok () ∧
    (overlapped env (doing env b stdin) a w).1 = .ok () ∧
    (overlapped env (doing env b stdin) a w).2.files = (run env a { w with files := doing env b stdin w.files }).2.files := by
  have hkeep : ∀ q ∈ mentions a, doing env b stdin w.files q = w.files q := fun q hq =>
    C59_other_files_untouched env b ⟨w.files, stdin, []⟩ q (hb q hq)
  have hf := C79_depends env a { w with files := doing env b stdin w.files } w rfl rfl hkeep
  have ho := C79_overlap env (doing env b stdin) hp ht hok
  have hsucc := overlap_ok (g := doing env b stdin) hp ht hok (hkeep p (target_mentioned ht))
  refine ⟨hf.1.trans hok, hsucc, funext fun q => ?_⟩
  by_cases hq : q = p
  · subst hq
    rw [ho.2.1 hsucc, ← hf.2.2 q (target_mentioned ht)]
  · rw [ho.1 q hq, C59_other_files_untouched env a _ q (by rw [ht]; simpa using Ne.symm hq)]

/-- Non-vacuity: a put on `a.do` while another command makes `z.po` from `z.do`. -/
example (env : Env) : ∃ w, target putX = some (str "a.do") ∧ (run env putX w).1 = .ok () ∧
    str "a.do" ∉ mentions (.reorder (str "do") (str "po") true (str "z.do") (str "z.po")) ∧
    ∀ q ∈ mentions putX, target (.reorder (str "do") (str "po") true (str "z.do") (str "z.po")) ≠ some q := by
  refine ⟨twoFiles Supermon.lonelyImg, rfl, ?_, by decide +kernel, by decide +kernel⟩
  rw [(putX_runs env Supermon.lonely_good (twoFiles_a _) (twoFiles_x _) lonely_5 (by rw [Supermon.lonely_free]; omega)).1]

theorem lost_update (env : Env) {sm : Supermon.SectorMap} {img : Bytes} (h : Supermon.Good sm img) (h5 : ownedBy (own sm) 5 = [])
    (h6 : ownedBy (own sm) 6 = []) (hfree : 1 ≤ (ownedBy (own sm) 0xFF).length) :
    (run env putX (twoFiles img)).1 = .ok () ∧ (run env putY (twoFiles img)).1 = .ok () ∧
    (overlapped env (doing env putY []) putX (twoFiles img)).1 = .ok () ∧
    DumpFails env (overlapped env (doing env putY []) putX (twoFiles img)).2 (str "do") (str "nakedos") (str "a.do") (dfName 6) := by
  obtain ⟨r1, g1⟩ := putX_runs env h (twoFiles_a img) (twoFiles_x img) h5 hfree
  obtain ⟨r2, g2⟩ := putY_runs env h (twoFiles_a img) (twoFiles_y img) h6 hfree
  have hokx : (run env putX (twoFiles img)).1 = .ok () := by rw [r1]
  have ho := C79_overlap env (doing env putY []) (c := putX) (p := str "a.do") (by decide +kernel) rfl hokx
  have hov : (overlapped env (doing env putY []) putX (twoFiles img)).1 = .ok () := by
    exact overlap_forced (by decide +kernel) (p := str "a.do") rfl hokx ⟨_, twoFiles_a img⟩
  refine ⟨hokx, by rw [r2], hov, ?_⟩
  have hfile := ho.2.1 hov
  rw [r1] at hfile
  have hf : HasFiles (overlapped env (doing env putY []) putX (twoFiles img)).2 (str "a.do") orderDO
      (fileOnDisk (Supermon.newImg sm 5 [1] img)) :=
    hasFiles_good g1 (hfile.trans (writeFile_self _ _ _))
  refine (C77_dump (by decide +kernel) (Or.inl rfl) hf ⟨numeric6.1, by decide, by decide⟩).2 ?_
  rw [← g1.onDisk, ← List.length_eq_zero_iff, Supermon.fileBytes_length g1.len, Supermon.ownedBy_newMap_other _ _ (by decide) (by decide), h6]
  rfl

/-- C79 fails for two commands on the same image: both puts report success, and one of the files is not on the disk. -/
theorem C79_violated_lost_update (env : Env) : ∃ w a b, (run env a w).1 = .ok () ∧ (run env b w).1 = .ok () ∧
    (overlapped env (doing env b []) a w).1 = .ok () ∧
    DumpFails env (overlapped env (doing env b []) a w).2 (str "do") (str "nakedos") (str "a.do") (dfName 6) ∧
    b = .put (str "do") (str "nakedos") (str "B") false 0 (str "a.do") (dfName 6) (str "y") :=
  ⟨_, putX, putY, (lost_update env Supermon.lonely_good lonely_5 lonely_6 (by rw [Supermon.lonely_free]; omega)).1,
    (lost_update env Supermon.lonely_good lonely_5 lonely_6 (by rw [Supermon.lonely_free]; omega)).2.1,
    (lost_update env Supermon.lonely_good lonely_5 lonely_6 (by rw [Supermon.lonely_free]; omega)).2.2.1,
    (lost_update env Supermon.lonely_good lonely_5 lonely_6 (by rw [Supermon.lonely_free]; omega)).2.2.2, by
      unfold putY
      rw [show dfName 6 = str "DF06" by decide +kernel]⟩

end Verif.Cmd
