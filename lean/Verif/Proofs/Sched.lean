import Verif.Model.Sched
import Verif.Spec.Overlap
import Verif.Proofs.Cmd

/-!
# Lemmas about commands as programs that make system calls
-/

set_option autoImplicit false

namespace Verif.Cmd
open Disk Spec

variable {α β : Type}

/-- A program run to its end with no other program between its system calls. -/
def Prog.exec : Prog α → Act α
  | .ret o, w => (o, w)
  | .stdin k, w => (k w.stdin).exec { w with stdin := [] }
  | .read p k, w => (k (w.files p)).exec w
  | .stat p k, w => (k (w.files p).isSome).exec w
  | .trunc p k, w => k.exec { w with files := fun r => if r = p then some [] else w.files r }
  | .write p b k, w => k.exec { w with files := fun r => if r = p then some (b ++ ((w.files p).getD []).drop b.length) else w.files r }
  | .print b k, w => k.exec { w with stdout := w.stdout ++ b }

theorem exec_bind' (m : Prog α) (f : α → Prog β) (w : World) :
    (m.bind f).exec w = (m.exec >>= fun a => (f a).exec : Act β) w := by
  induction m generalizing w with
  | ret o => cases o <;> rfl
  | stdin k ih => exact ih _ _
  | read p k ih => exact ih _ _
  | stat p k ih => exact ih _ _
  | trunc p k ih => exact ih _
  | write p b k ih => exact ih _
  | print b k ih => exact ih _

theorem exec_bind (m : Prog α) (f : α → Prog β) : (m >>= f).exec = (m.exec >>= fun a => (f a).exec : Act β) :=
  funext fun w => exec_bind' m f w

theorem exec_ret (o : Out α) : (Prog.ret o).exec = (lift o : Act α) := rfl

theorem exec_print (b : Bytes) : (Prog.print b (.ret (.ok ()))).exec = print b := rfl

theorem exec_ite {c : Prop} [Decidable c] (m n : Prog α) : (if c then m else n).exec = if c then m.exec else n.exec := by
  split <;> rfl

theorem exec_contentsOf (p : Str) : (Prog.contentsOf p).exec = contentsOf p := by
  funext w
  unfold Prog.contentsOf contentsOf World.fileContentsOrStdIn
  split
  · rfl
  · simp only [Prog.exec]
    cases w.files p <;> rfl

theorem exec_openDisk (env : Env) (p : Str) (o : DiskOrder) (s : Str) : (Prog.openDisk env p o s).exec = openDisk env p o s := by
  funext w
  unfold Prog.openDisk openDisk openFilename
  split
  · rfl
  · simp only [Prog.exec]
    cases w.files p <;> rfl

theorem exec_writeFile (p : Str) (b : Bytes) (w : World) : (Prog.writeFile p b).exec w = (.ok (), w.writeFile p b) := by
  simp only [Prog.writeFile, Prog.exec, World.writeFile, if_true, Option.getD_some, List.drop_nil, List.append_nil]
  congr 2
  funext r
  split <;> rfl

theorem exec_writeOutput (p : Str) (b : Bytes) (force : Bool) :
    (Prog.writeOutput p b force).exec = fun w => World.writeOutput w p b force := by
  funext w
  unfold Prog.writeOutput World.writeOutput
  by_cases h : p = str "-"
  · rw [if_pos h, if_pos h]
    rfl
  · rw [if_neg h, if_neg h]
    cases force
    · rw [if_pos rfl]
      simp only [Prog.exec]
      cases hf : (w.files p).isSome
      · rw [if_neg (by simp), if_neg (by simp)]
        exact exec_writeFile p b w
      · rw [if_pos rfl, if_pos (by simp)]
        rfl
    · rw [if_neg (by simp), if_neg (by simp)]
      exact exec_writeFile p b w

theorem exec_writeDisk (p : Str) (op : AnyOp) (o : DiskOrder) :
    (Prog.writeDisk p op o).exec = writeDisk World.writeOutput p op o := by
  funext w
  unfold Prog.writeDisk writeDisk writeBackVia
  rw [exec_bind']
  cases writeBackBytes op o with
  | ok b => exact congrFun (exec_writeOutput p b true) w
  | err k => rfl
  | panic => rfl
  | timeout => rfl

/-- Without other programs in between, the system calls of a command add up to what `run` says. -/
theorem exec_program (env : Env) (c : Command) : (program env c).exec = run env c := by
  cases c with
  | ls o s sh i d =>
    show (Prog.ls env o s sh i d).exec = ls env o s sh i d
    unfold Prog.ls ls
    rw [exec_bind, exec_openDisk]
    congr 1; funext x
    obtain ⟨op, d'⟩ := x
    simp only [exec_ite, exec_bind, exec_ret, exec_print]
  | reorder o n ow i j =>
    funext w
    show (Prog.reorder o n ow i j).exec w = reorderVia World.writeOutput w o n ow i j
    unfold Prog.reorder reorderVia
    rw [exec_bind, exec_ret]
    cases getOrders i o j n with
    | ok x =>
      obtain ⟨a, b⟩ := x
      show ((Prog.contentsOf i >>= _ : Prog Unit)).exec w = _
      rw [exec_bind, exec_contentsOf]
      rw [bind_apply]
      unfold Act.bind
      have hc : contentsOf i w = World.fileContentsOrStdIn w i := rfl
      rw [hc]
      cases World.fileContentsOrStdIn w i with
      | mk r w' =>
        cases r with
        | ok fb =>
          simp only
          rw [exec_bind, exec_ret, bind_apply]
          unfold Act.bind lift
          cases reorderBytes a b fb with
          | ok tb =>
            simp only []
            split
            · rw [exec_writeOutput]
            · rw [exec_writeOutput]
          | err k => rfl
          | panic => rfl
          | timeout => rfl
        | err k => rfl
        | panic => rfl
        | timeout => rfl
    | err k => rfl
    | panic => rfl
    | timeout => rfl
  | filetypes a => rfl
  | put o s t ow a i x y =>
    show (Prog.putCmd env o s t ow a i x y).exec = putCmd env World.writeOutput o s t ow a i x y
    unfold Prog.putCmd putCmd
    rw [exec_ite]
    split
    · rfl
    · rw [exec_bind, exec_openDisk]
      congr 1; funext z
      obtain ⟨op, d⟩ := z
      simp only [exec_bind, exec_ret, exec_contentsOf, exec_writeDisk]
  | rm o s m i n =>
    show (Prog.rm env o s m i n).exec = rm env World.writeOutput o s m i n
    unfold Prog.rm rm
    rw [exec_bind, exec_openDisk]
    congr 1; funext z
    obtain ⟨op, d⟩ := z
    simp only [exec_ite, exec_bind, exec_ret, exec_writeDisk]
  | dump o s i n =>
    show (Prog.dump env o s i n).exec = dump env o s i n
    unfold Prog.dump dump
    rw [exec_bind, exec_openDisk]
    congr 1; funext z
    obtain ⟨op, d⟩ := z
    simp only [exec_bind, exec_ret, exec_print]
  | mkhello o i n a s =>
    show (Prog.mkhello env o i n a s).exec = mkhello env World.writeOutput o i n a s
    unfold Prog.mkhello mkhello
    simp only []
    rw [exec_ite, exec_ite]
    split
    · rfl
    · split
      · rfl
      · rw [exec_bind, exec_openDisk]
        congr 1; funext z
        obtain ⟨op, d⟩ := z
        cases op with
        | dos3 o => rfl
        | prodos o => rfl
        | nakedos o =>
          simp only []
          rw [exec_bind, exec_ret]
          congr 1; funext z
          obtain ⟨x, y, n⟩ := z
          simp only [exec_ite, exec_bind, exec_ret, exec_writeDisk]
  | mksd o i b a s =>
    show (Prog.mksd o i b a s).exec = mksd World.writeOutput o i b a s
    unfold Prog.mksd mksd
    simp only [exec_bind, exec_ret, exec_contentsOf, exec_writeOutput]
  | decode f l r =>
    show (Prog.decodeCmd env f l r).exec = decodeCmd env f l r
    unfold Prog.decodeCmd decodeCmd
    simp only [exec_ite, exec_bind, exec_ret, exec_contentsOf, exec_print]

/-! ## Which files a program can touch -/

/-- The program only looks at files of `S` and only changes files of `T`. -/
def Prog.Within (S T : Str → Prop) : Prog α → Prop
  | .ret _ => True
  | .stdin k => ∀ b, (k b).Within S T
  | .read p k => S p ∧ ∀ b, (k b).Within S T
  | .stat p k => S p ∧ ∀ b, (k b).Within S T
  | .trunc p k => T p ∧ k.Within S T
  | .write p _ k => T p ∧ k.Within S T
  | .print _ k => k.Within S T

theorem within_bind' {S T : Str → Prop} (m : Prog α) (f : α → Prog β) (hm : m.Within S T) (hf : ∀ a, (f a).Within S T) :
    (m.bind f).Within S T := by
  induction m with
  | ret o =>
    cases o with
    | ok a => exact hf a
    | err k => trivial
    | panic => trivial
    | timeout => trivial
  | stdin k ih => exact fun b => ih b (hm b)
  | read p k ih => exact ⟨hm.1, fun b => ih b (hm.2 b)⟩
  | stat p k ih => exact ⟨hm.1, fun b => ih b (hm.2 b)⟩
  | trunc p k ih => exact ⟨hm.1, ih hm.2⟩
  | write p b k ih => exact ⟨hm.1, ih hm.2⟩
  | print b k ih => exact ih hm

theorem within_bind {S T : Str → Prop} (m : Prog α) (f : α → Prog β) (hm : m.Within S T) (hf : ∀ a, (f a).Within S T) :
    (m >>= f : Prog β).Within S T := within_bind' m f hm hf

theorem within_ret {S T : Str → Prop} (o : Out α) : (Prog.ret o).Within S T := trivial

theorem within_print {S T : Str → Prop} (b : Bytes) : (Prog.print b (.ret (.ok ()))).Within S T := trivial

theorem within_ite {S T : Str → Prop} {c : Prop} [Decidable c] {m n : Prog α} (hm : m.Within S T) (hn : n.Within S T) :
    (if c then m else n).Within S T := by
  split
  · exact hm
  · exact hn

theorem within_contentsOf {S T : Str → Prop} (p : Str) (h : p ≠ str "-" → S p) : (Prog.contentsOf p).Within S T := by
  unfold Prog.contentsOf
  split
  · exact fun _ => trivial
  · rename_i hp
    refine ⟨h hp, fun b => ?_⟩
    cases b <;> trivial

theorem within_openDisk {S T : Str → Prop} (env : Env) (p : Str) (o : DiskOrder) (s : Str) (h : p ≠ str "-" → S p) :
    (Prog.openDisk env p o s).Within S T := by
  unfold Prog.openDisk
  split
  · exact fun _ => trivial
  · rename_i hp
    refine ⟨h hp, fun b => ?_⟩
    cases b <;> trivial

theorem within_writeOutput {S T : Str → Prop} (p : Str) (b : Bytes) (force : Bool) (h : p ≠ str "-" → S p) (ht : p ≠ str "-" → T p) :
    (Prog.writeOutput p b force).Within S T := by
  unfold Prog.writeOutput
  split
  · trivial
  · rename_i hp
    exact within_ite ⟨h hp, fun there => within_ite trivial ⟨ht hp, ht hp, trivial⟩⟩ ⟨ht hp, ht hp, trivial⟩

theorem within_writeDisk {S T : Str → Prop} (p : Str) (op : AnyOp) (o : DiskOrder) (h : p ≠ str "-" → S p) (ht : p ≠ str "-" → T p) :
    (Prog.writeDisk p op o).Within S T :=
  within_bind' _ _ trivial fun b => within_writeOutput p b true h ht

/-- A file named on the command line; `-` is none. -/
def Touches (c : Command) (q : Str) : Prop := q ∈ mentions c ∧ q ≠ str "-"

/-- The file that a command writes; `-` is none. -/
def WritesTo (c : Command) (q : Str) : Prop := target c = some q ∧ q ≠ str "-"

/-- A command looks at no files but those named on its command line and changes at most its target. -/
theorem within_program (env : Env) (c : Command) : (program env c).Within (Touches c) (WritesTo c) := by
  cases c with
  | ls o s sh i d =>
    refine within_bind _ _ (within_openDisk env _ _ _ (fun h => ⟨by simp [mentions], h⟩)) fun x => ?_
    exact within_ite trivial (within_bind _ _ trivial fun _ => trivial)
  | reorder o n ow i j =>
    refine within_bind _ _ trivial fun x => within_bind _ _ (within_contentsOf _ (fun h => ⟨by simp [mentions], h⟩)) fun y =>
      within_bind _ _ trivial fun z => ?_
    by_cases hj : j = []
    · rw [if_pos hj]
      exact within_writeOutput _ _ _ (fun h => ⟨by simp [mentions], h⟩) (fun h => ⟨by simp [target, hj], h⟩)
    · rw [if_neg hj]
      exact within_writeOutput _ _ _ (fun h => ⟨by simp [mentions], h⟩) (fun h => ⟨by simp [target, hj], h⟩)
  | filetypes a => trivial
  | put o s t ow a i x y =>
    refine within_ite trivial (within_bind _ _ (within_openDisk env _ _ _ (fun h => ⟨by simp [mentions], h⟩)) fun z =>
      within_bind _ _ (within_contentsOf _ (fun h => ⟨by simp [mentions], h⟩)) fun u => within_bind _ _ trivial fun v =>
      within_bind _ _ trivial fun t => ?_)
    exact within_writeDisk _ _ _ (fun h => ⟨by simp [mentions], h⟩) (fun h => ⟨rfl, h⟩)
  | rm o s m i n =>
    refine within_bind _ _ (within_openDisk env _ _ _ (fun h => ⟨by simp [mentions], h⟩)) fun z =>
      within_bind _ _ trivial fun u => within_ite trivial ?_
    exact within_writeDisk _ _ _ (fun h => ⟨by simp [mentions], h⟩) (fun h => ⟨rfl, h⟩)
  | dump o s i n =>
    exact within_bind _ _ (within_openDisk env _ _ _ (fun h => ⟨by simp [mentions], h⟩)) fun z => within_bind _ _ trivial fun u => trivial
  | mkhello o i n a s =>
    refine within_ite trivial (within_ite trivial (within_bind _ _ (within_openDisk env _ _ _ (fun h => ⟨by simp [mentions], h⟩)) fun z => ?_))
    obtain ⟨op, d⟩ := z
    cases op with
    | dos3 o => trivial
    | prodos o => trivial
    | nakedos o =>
      refine within_bind _ _ trivial fun u => within_ite trivial (within_bind _ _ trivial fun v => ?_)
      exact within_writeDisk _ _ _ (fun h => ⟨by simp [mentions], h⟩) (fun h => ⟨rfl, h⟩)
  | mksd o i b a s =>
    refine within_bind _ _ (within_contentsOf _ (fun h => ⟨by simp [mentions], h⟩)) fun u =>
      within_bind _ _ trivial fun v => within_bind _ _ trivial fun t => ?_
    exact within_writeOutput _ _ _ (fun h => ⟨by simp [mentions], h⟩) (fun h => ⟨rfl, h⟩)
  | decode f l r =>
    exact within_bind _ _ (within_contentsOf _ (fun h => ⟨by simp [mentions], h⟩)) fun u => within_bind _ _ trivial fun v => within_ite trivial trivial

theorem target_in_mentions (c : Command) (q : Str) (h : target c = some q) : q ∈ mentions c := by
  cases c <;> simp only [target, Option.some.injEq, reduceCtorEq] at h
  all_goals (subst h; simp only [mentions]; try split)
  all_goals simp_all

theorem changes_touches (c : Command) (q : Str) (h : WritesTo c q) : Touches c q := ⟨target_in_mentions c q h.1, h.2⟩

theorem exec_agrees {S T : Str → Prop} (hTS : ∀ q, T q → S q) (m : Prog α) (hm : m.Within S T) (fs gs : FileSystem) (i o : Bytes)
    (h : ∀ q, S q → fs q = gs q) :
    (m.exec ⟨fs, i, o⟩).1 = (m.exec ⟨gs, i, o⟩).1 ∧ (m.exec ⟨fs, i, o⟩).2.stdout = (m.exec ⟨gs, i, o⟩).2.stdout ∧
      (∀ q, S q → (m.exec ⟨fs, i, o⟩).2.files q = (m.exec ⟨gs, i, o⟩).2.files q) ∧ (∀ q, ¬ T q → (m.exec ⟨fs, i, o⟩).2.files q = fs q) := by
  induction m generalizing fs gs i o with
  | ret r => exact ⟨rfl, rfl, h, fun _ _ => rfl⟩
  | stdin k ih => exact ih i (hm i) fs gs [] o h
  | read p k ih =>
    have := ih (fs p) (hm.2 _) fs gs i o h
    simp only [Prog.exec, ← h p hm.1]
    exact this
  | stat p k ih =>
    have := ih (fs p).isSome (hm.2 _) fs gs i o h
    simp only [Prog.exec, ← h p hm.1]
    exact this
  | trunc p k ih =>
    obtain ⟨h1, h2, h3, h4⟩ := ih hm.2 (fun r => if r = p then some [] else fs r) (fun r => if r = p then some [] else gs r) i o
      (fun q hq => by simp only [h q hq])
    refine ⟨h1, h2, h3, fun q hq => (h4 q hq).trans ?_⟩
    show (if q = p then _ else fs q) = fs q
    rw [if_neg]
    rintro rfl
    exact hq hm.1
  | write p b k ih =>
    obtain ⟨h1, h2, h3, h4⟩ := ih hm.2 (fun r => if r = p then some (b ++ ((fs p).getD []).drop b.length) else fs r)
      (fun r => if r = p then some (b ++ ((gs p).getD []).drop b.length) else gs r) i o
      (fun q hq => by simp only [h q hq, h p (hTS p hm.1)])
    refine ⟨h1, h2, h3, fun q hq => (h4 q hq).trans ?_⟩
    show (if q = p then _ else fs q) = fs q
    rw [if_neg]
    rintro rfl
    exact hq hm.1
  | print b k ih => exact ih hm fs gs i (o ++ b) h

/-! ## One step -/

theorem step_agrees {S T : Str → Prop} (hTS : ∀ q, T q → S q) (p : Proc) (hp : p.prog.Within S T)
    (fs gs : FileSystem) (h : ∀ q, S q → fs q = gs q) :
    (p.step fs).2 = (p.step gs).2 ∧ (∀ q, S q → (p.step fs).1 q = (p.step gs).1 q) ∧ (∀ q, ¬ T q → (p.step fs).1 q = fs q) ∧
      (p.step fs).2.prog.Within S T := by
  obtain ⟨prog, i, o⟩ := p
  cases prog with
  | ret r => exact ⟨rfl, h, fun _ _ => rfl, trivial⟩
  | stdin k => exact ⟨rfl, h, fun _ _ => rfl, hp _⟩
  | read q k =>
    refine ⟨?_, h, fun _ _ => rfl, hp.2 _⟩
    simp only [Proc.step, h q hp.1]
  | stat q k =>
    refine ⟨?_, h, fun _ _ => rfl, hp.2 _⟩
    simp only [Proc.step, h q hp.1]
  | trunc q k =>
    refine ⟨rfl, fun r hr => ?_, fun r hr => ?_, hp.2⟩
    · simp only [Proc.step, h r hr]
    · simp only [Proc.step]
      rw [if_neg]
      rintro rfl
      exact hr hp.1
  | write q b k =>
    refine ⟨rfl, fun r hr => ?_, fun r hr => ?_, hp.2⟩
    · simp only [Proc.step, h r hr, h q (hTS q hp.1)]
    · simp only [Proc.step]
      rw [if_neg]
      rintro rfl
      exact hr hp.1
  | print b k => exact ⟨rfl, h, fun _ _ => rfl, hp⟩

theorem exec_step (p : Proc) (fs : FileSystem) :
    (p.step fs).2.prog.exec ⟨(p.step fs).1, (p.step fs).2.stdin, (p.step fs).2.stdout⟩ = p.prog.exec ⟨fs, p.stdin, p.stdout⟩ := by
  obtain ⟨prog, i, o⟩ := p
  cases prog <;> rfl

/-- The program alone, after so many system calls. -/
def solo (p : Proc) (fs : FileSystem) : Nat → FileSystem × Proc
  | 0 => (fs, p)
  | n + 1 => (solo p fs n).2.step (solo p fs n).1

theorem solo_exec (p : Proc) (fs : FileSystem) (n : Nat) :
    (solo p fs n).2.prog.exec ⟨(solo p fs n).1, (solo p fs n).2.stdin, (solo p fs n).2.stdout⟩ =
      p.prog.exec ⟨fs, p.stdin, p.stdout⟩ := by
  induction n with
  | zero => rfl
  | succ n ih => exact (exec_step _ _).trans ih

theorem solo_front (p : Proc) (fs : FileSystem) (n : Nat) : solo p fs (n + 1) = solo (p.step fs).2 (p.step fs).1 n := by
  induction n with
  | zero => rfl
  | succ n ih =>
    show (solo p fs (n + 1)).2.step (solo p fs (n + 1)).1 = _
    rw [ih]
    rfl

theorem solo_ends (prog : Prog Unit) (i o : Bytes) (fs : FileSystem) : ∃ n r, (solo ⟨prog, i, o⟩ fs n).2.prog = .ret r := by
  induction prog generalizing i o fs with
  | ret r => exact ⟨0, r, rfl⟩
  | stdin k ih => obtain ⟨n, r, h⟩ := ih i [] o fs; exact ⟨n + 1, r, by rw [solo_front]; exact h⟩
  | read q k ih => obtain ⟨n, r, h⟩ := ih (fs q) i o fs; exact ⟨n + 1, r, by rw [solo_front]; exact h⟩
  | stat q k ih => obtain ⟨n, r, h⟩ := ih (fs q).isSome i o fs; exact ⟨n + 1, r, by rw [solo_front]; exact h⟩
  | trunc q k ih =>
    obtain ⟨n, r, h⟩ := ih i o (fun r => if r = q then some [] else fs r)
    exact ⟨n + 1, r, by rw [solo_front]; exact h⟩
  | write q b k ih =>
    obtain ⟨n, r, h⟩ := ih i o (fun r => if r = q then some (b ++ ((fs q).getD []).drop b.length) else fs r)
    exact ⟨n + 1, r, by rw [solo_front]; exact h⟩
  | print b k ih => obtain ⟨n, r, h⟩ := ih i (o ++ b) fs; exact ⟨n + 1, r, by rw [solo_front]; exact h⟩

theorem solo_stays (p : Proc) (fs : FileSystem) (n : Nat) (r : Out Unit) (h : (solo p fs n).2.prog = .ret r) (m : Nat) :
    solo p fs (n + m) = solo p fs n := by
  induction m with
  | zero => rfl
  | succ m ih =>
    show (solo p fs (n + m)).2.step (solo p fs (n + m)).1 = _
    rw [ih]
    simp only [Proc.step, h]

end Verif.Cmd
