import Verif.Spec.Faults
import Verif.Props.Cmd

/-!
# C88, C89: writes that fail
-/

set_option autoImplicit false

namespace Verif.Cmd
open Disk Spec

/-- `m` does what `m'` does, or returns an error. -/
def Reports (m m' : Act Unit) : Prop := ∀ w, m w = m' w ∨ (m w).1 = .err .other

theorem Reports.bind {α : Type} {x : Act α} {f g : α → Act Unit} (h : ∀ a, Reports (f a) (g a)) : Reports (x >>= f) (x >>= g) := by
  intro w
  rw [bind_apply, bind_apply]
  unfold Act.bind
  rcases x w with ⟨r, w'⟩
  cases r with
  | ok a => exact h a w'
  | err k => exact Or.inl rfl
  | panic => exact Or.inl rfl
  | timeout => exact Or.inl rfl

theorem Reports.refl (m : Act Unit) : Reports m m := fun _ => Or.inl rfl

/-- `m` and `m'` leave the same files. -/
def FilesLike (m m' : Act Unit) : Prop := ∀ w, (m w).2.files = (m' w).2.files

theorem FilesLike.bind {α : Type} {x : Act α} {f g : α → Act Unit} (h : ∀ a, FilesLike (f a) (g a)) : FilesLike (x >>= f) (x >>= g) := by
  intro w
  rw [bind_apply, bind_apply]
  unfold Act.bind
  rcases x w with ⟨r, w'⟩
  cases r with
  | ok a => exact h a w'
  | err k => rfl
  | panic => rfl
  | timeout => rfl

/-! ### The output -/

theorem print_reports (fa : Faults) (i : Nat) (t : Bytes) : Reports (fa.print i t) (print t) := by
  intro w
  unfold Faults.print
  split
  · exact Or.inl rfl
  · exact Or.inr rfl

theorem print_files (fa : Faults) (i : Nat) (t : Bytes) (w : World) : (fa.print i t w).2.files = w.files := by
  unfold Faults.print
  split <;> rfl

theorem output_reports (fa : Faults) (p : Str) (b : Bytes) (ow : Bool) : Reports (fun w => fa.output w p b ow) (fun w => w.writeOutput p b ow) := by
  intro w
  dsimp only
  unfold Faults.output World.writeOutput
  by_cases hp : p = str "-"
  · rw [if_pos hp, if_pos hp]
    exact print_reports fa 0 b w
  · rw [if_neg hp, if_neg hp]
    by_cases hf : ow = false ∧ (w.files p).isSome
    · rw [if_pos hf]; exact Or.inr rfl
    · rw [if_neg hf, if_neg hf]
      split
      · exact Or.inl rfl
      · exact Or.inr rfl
      · exact Or.inr rfl

/-- The ways in which the output file may be left. -/
def Left (fa : Faults) : Output → Prop := fun wo =>
  match fa.file with
  | .done => wo = World.writeOutput
  | .refused => wo = fun w _ _ _ => (.err .other, w)
  | .cut k => wo = interrupted k

theorem output_files {fa : Faults} {wo : Output} (h : Left fa wo) (p : Str) (b : Bytes) (ow : Bool) :
    FilesLike (fun w => fa.output w p b ow) (fun w => wo w p b ow) := by
  intro w
  dsimp only
  unfold Left at h
  unfold Faults.output
  split at h
  · rename_i e
    rw [h, e]
    unfold World.writeOutput
    split
    · exact print_files _ _ _ _
    · split <;> rfl
  · rename_i e
    rw [h, e]
    split
    · exact print_files _ _ _ _
    · split <;> rfl
  · rename_i k e
    rw [h, e]
    unfold interrupted
    split
    · exact print_files _ _ _ _
    · split <;> rfl

theorem writeDisk_reports (fa : Faults) (p : Str) (op : AnyOp) (o : DiskOrder) :
    Reports (writeDisk fa.output p op o) (writeDisk World.writeOutput p op o) := by
  unfold writeDisk writeBackVia
  cases writeBackBytes op o with
  | ok b => exact output_reports fa p b true
  | err k => exact Reports.refl _
  | panic => exact Reports.refl _
  | timeout => exact Reports.refl _

theorem writeDisk_files {fa : Faults} {wo : Output} (h : Left fa wo) (p : Str) (op : AnyOp) (o : DiskOrder) :
    FilesLike (writeDisk fa.output p op o) (writeDisk wo p op o) := by
  unfold writeDisk writeBackVia
  cases writeBackBytes op o with
  | ok b => exact output_files h p b true
  | err k => exact fun _ => rfl
  | panic => exact fun _ => rfl
  | timeout => exact fun _ => rfl

theorem reorder_reports (fa : Faults) (o n : DiskOrder) (ow : Bool) (i j : Str) :
    Reports (reorder fa.output o n ow i j) (reorder World.writeOutput o n ow i j) := by
  intro w
  unfold reorder reorderVia
  cases getOrders i o j n with
  | ok x =>
    obtain ⟨a, b⟩ := x
    dsimp only
    rcases w.fileContentsOrStdIn i with ⟨r, w'⟩
    cases r with
    | ok bs =>
      dsimp only
      cases reorderBytes a b bs with
      | ok t =>
        dsimp only
        by_cases hj : j = []
        · rw [if_pos hj, if_pos hj]; exact output_reports fa i t true w'
        · rw [if_neg hj, if_neg hj]; exact output_reports fa j t ow w'
      | err k => exact Or.inl rfl
      | panic => exact Or.inl rfl
      | timeout => exact Or.inl rfl
    | err k => exact Or.inl rfl
    | panic => exact Or.inl rfl
    | timeout => exact Or.inl rfl
  | err k => exact Or.inl rfl
  | panic => exact Or.inl rfl
  | timeout => exact Or.inl rfl

theorem reorder_files {fa : Faults} {wo : Output} (h : Left fa wo) (o n : DiskOrder) (ow : Bool) (i j : Str) :
    FilesLike (reorder fa.output o n ow i j) (reorder wo o n ow i j) := by
  intro w
  unfold reorder reorderVia
  cases getOrders i o j n with
  | ok x =>
    obtain ⟨a, b⟩ := x
    dsimp only
    rcases w.fileContentsOrStdIn i with ⟨r, w'⟩
    cases r with
    | ok bs =>
      dsimp only
      cases reorderBytes a b bs with
      | ok t =>
        dsimp only
        by_cases hj : j = []
        · rw [if_pos hj, if_pos hj]; exact output_files h i t true w'
        · rw [if_neg hj, if_neg hj]; exact output_files h j t ow w'
      | err k => rfl
      | panic => rfl
      | timeout => rfl
    | err k => rfl
    | panic => rfl
    | timeout => rfl
  | err k => rfl
  | panic => rfl
  | timeout => rfl

/-! ### C88 -/

/-- **C88 (partial).** A command that looks at the outcome of its writes either does all it should,
so that files, standard output and outcome are as they would be if nothing could fail, or exits with
status 1.  (Missing: `ls`, `decode` and `filetypes`, for which this is false: `C88_violated`.) -/
theorem C88_reported_partial (fa : Faults) (env : Env) (c : Command) (hc : Attentive c) (w : World) :
    runWith fa env c w = run env c w ∨ exitStatus (runWith fa env c w).1 = some 1 := by
  have key : Reports (runWith fa env c) (run env c) := by
    cases c with
    | ls => exact hc.elim
    | decode => exact hc.elim
    | filetypes => exact hc.elim
    | reorder o n ow i j => exact reorder_reports fa o n ow i j
    | put o s t ow a i x y =>
      change Reports (putCmd env fa.output o s t ow a i x y) (putCmd env World.writeOutput o s t ow a i x y)
      unfold putCmd
      by_cases hi : i = str "-" ∧ y = str "-"
      · rw [if_pos hi, if_pos hi]; exact Reports.refl _
      · rw [if_neg hi, if_neg hi]
        exact Reports.bind fun _ => Reports.bind fun _ => Reports.bind fun _ => Reports.bind fun _ => writeDisk_reports _ _ _ _
    | rm o s m i n =>
      change Reports (rm env fa.output o s m i n) (rm env World.writeOutput o s m i n)
      unfold rm
      refine Reports.bind fun p => Reports.bind fun b => ?_
      by_cases hb : b = false ∧ m = false
      · rw [if_pos hb, if_pos hb]; exact Reports.refl _
      · rw [if_neg hb, if_neg hb]; exact writeDisk_reports _ _ _ _
    | dump o s i n =>
      change Reports (dumpWith fa env o s i n) (dump env o s i n)
      unfold dump dumpWith
      exact Reports.bind fun p => Reports.bind fun b => print_reports _ _ _
    | mkhello o i n a s =>
      change Reports (mkhello env fa.output o i n a s) (mkhello env World.writeOutput o i n a s)
      unfold mkhello
      dsimp only
      split
      · exact Reports.refl _
      · split
        · exact Reports.refl _
        · refine Reports.bind fun p => ?_
          obtain ⟨op, ord⟩ := p
          cases op with
          | dos3 o => exact Reports.refl _
          | prodos o => exact Reports.refl _
          | nakedos op =>
            dsimp only
            refine Reports.bind fun p => ?_
            obtain ⟨x, y, z⟩ := p
            dsimp only
            split
            · exact Reports.refl _
            · exact Reports.bind fun _ => writeDisk_reports _ _ _ _
    | mksd o i b a s =>
      change Reports (mksd fa.output o i b a s) (mksd World.writeOutput o i b a s)
      unfold mksd
      exact Reports.bind fun _ => Reports.bind fun _ => Reports.bind fun _ => output_reports _ _ _ _
  rcases key w with h | h
  · exact Or.inl h
  · rw [h]; exact Or.inr rfl

theorem lsPrint_ok (fa : Faults) (sh : Bool) (fds : List Descriptor) (i : Nat) (w : World) : (lsPrint fa sh i fds w).1 = .ok () := by
  induction fds generalizing i w with
  | nil => rfl
  | cons fd fds ih =>
    unfold lsPrint
    rw [bind_apply]
    unfold Act.bind ignoring
    exact ih _ _

/-- C88 fails for the other commands: their exit status does not depend on whether anything can be
written. -/
theorem C88_violated (fa : Faults) (env : Env) (c : Command) (hc : ¬ Attentive c) (w : World) :
    exitStatus (runWith fa env c w).1 = exitStatus (run env c w).1 := by
  cases c with
  | ls o s sh i d =>
    change exitStatus (lsWith fa env o s sh i d w).1 = exitStatus (ls env o s sh i d w).1
    unfold ls lsWith
    rw [bind_apply, bind_apply]
    unfold Act.bind
    rcases openDisk env i o s w with ⟨r, w'⟩
    cases r with
    | ok p =>
      obtain ⟨op, _⟩ := p
      dsimp only
      split
      · rfl
      · rw [bind_apply, bind_apply]
        unfold Act.bind lift
        dsimp only
        cases op.catalog env d with
        | ok fds => dsimp only; rw [lsPrint_ok]; rfl
        | err k => rfl
        | panic => rfl
        | timeout => rfl
    | err k => rfl
    | panic => rfl
    | timeout => rfl
  | decode f l r =>
    change exitStatus (decodeWith fa env f l r w).1 = exitStatus (decodeCmd env f l r w).1
    unfold decodeCmd decodeWith
    rw [bind_apply, bind_apply]
    unfold Act.bind
    rcases contentsOf f w with ⟨x, w'⟩
    cases x with
    | ok b =>
      dsimp only
      rw [bind_apply, bind_apply]
      unfold Act.bind lift
      dsimp only
      cases Applesoft.decode env.budget b l with
      | ok li => dsimp only; split <;> rfl
      | err k => rfl
      | panic => rfl
      | timeout => rfl
    | err k => rfl
    | panic => rfl
    | timeout => rfl
  | filetypes a => rfl
  | reorder => exact absurd trivial hc
  | put => exact absurd trivial hc
  | rm => exact absurd trivial hc
  | dump => exact absurd trivial hc
  | mkhello => exact absurd trivial hc
  | mksd => exact absurd trivial hc

/-- C88 fails: `filetypes` exits with status 0 although nothing at all could be printed. -/
theorem C88_violated_filetypes (env : Env) (w : World) (all : Bool) :
    ∃ fa, exitStatus (runWith fa env (.filetypes all) w).1 = some 0 ∧ (runWith fa env (.filetypes all) w).2.stdout = w.stdout ∧
      (run env (.filetypes all) w).2.stdout ≠ w.stdout := by
  refine ⟨⟨fun _ => some 0, .done⟩, rfl, ?_, ?_⟩
  · change w.stdout ++ _ = _
    rw [List.take_zero, List.append_nil]
  · intro h
    have h' : w.stdout ++ ((filetypeRows all).flatMap (tabLine (filetypeRows all))) = w.stdout := h
    have := List.append_right_eq_self.1 h'
    rw [show filetypeRows all = [str "Description", str "Name", str "Three-letter Name", str "One-letter Name"] :: (filetypeRows all).tail from rfl,
      List.flatMap_cons] at this
    have h2 := (List.append_eq_nil_iff.1 this).1
    unfold tabLine at h2
    simp at h2

/-- With nothing to go wrong, these are the commands of `Model/Cmd.lean`. -/
theorem C88_faultless (fa : Faults) (h : NoFault fa) (env : Env) (c : Command) (w : World) : runWith fa env c w = run env c w := by
  have hp : ∀ i t, fa.print i t = print t := by
    intro i t
    funext w
    unfold Faults.print print
    rw [h.1 i]
  have ho : fa.output = World.writeOutput := by
    funext w p b ow
    unfold Faults.output World.writeOutput
    rw [hp, h.2]
    rfl
  have hi : ∀ t, ignoring (print t) = print t := fun t => rfl
  have hl : ∀ sh fds i, lsPrint fa sh i fds = print (lsLines sh fds) := by
    intro sh fds
    induction fds with
    | nil => intro i; funext w; unfold print lsLines; rw [List.flatMap_nil, List.append_nil]; rfl
    | cons fd fds ih =>
      intro i
      unfold lsPrint
      rw [hp, hi, ih]
      funext w
      rw [bind_apply]
      unfold Act.bind print lsLines
      dsimp only
      rw [List.flatMap_cons, List.append_assoc]
  cases c with
  | ls o s sh i d =>
    change lsWith fa env o s sh i d w = ls env o s sh i d w
    unfold ls lsWith
    simp only [hl]
  | reorder o n ow i j => change reorder fa.output o n ow i j w = reorder World.writeOutput o n ow i j w; rw [ho]
  | filetypes a => change ignoring (fa.print 0 _) w = _; rw [hp, hi]; rfl
  | put o s t ow a i x y => change putCmd env fa.output o s t ow a i x y w = putCmd env World.writeOutput o s t ow a i x y w; rw [ho]
  | rm o s m i n => change rm env fa.output o s m i n w = rm env World.writeOutput o s m i n w; rw [ho]
  | dump o s i n =>
    change dumpWith fa env o s i n w = dump env o s i n w
    unfold dump dumpWith
    simp only [hp]
  | mkhello o i n a s => change mkhello env fa.output o i n a s w = mkhello env World.writeOutput o i n a s w; rw [ho]
  | mksd o i b a s => change mksd fa.output o i b a s w = mksd World.writeOutput o i b a s w; rw [ho]
  | decode f l r =>
    change decodeWith fa env f l r w = decodeCmd env f l r w
    unfold decodeCmd decodeWith
    simp only [hp, hi]

/-! ### C89 -/

theorem lsPrint_files (fa : Faults) (sh : Bool) (fds : List Descriptor) (i : Nat) (w : World) : (lsPrint fa sh i fds w).2.files = w.files := by
  induction fds generalizing i w with
  | nil => rfl
  | cons fd fds ih =>
    unfold lsPrint
    rw [bind_apply]
    unfold Act.bind ignoring
    dsimp only
    rw [ih, print_files]

theorem runWith_files {fa : Faults} {wo : Output} (h : Left fa wo) (env : Env) (c : Command) : FilesLike (runWith fa env c) (runVia env wo c) := by
  cases c with
  | ls o s sh i d =>
    change FilesLike (lsWith fa env o s sh i d) (ls env o s sh i d)
    unfold ls lsWith
    refine FilesLike.bind fun p => ?_
    obtain ⟨op, _⟩ := p
    dsimp only
    split
    · exact fun _ => rfl
    · exact FilesLike.bind fun fds w => lsPrint_files fa sh fds 0 w
  | decode f l r =>
    change FilesLike (decodeWith fa env f l r) (decodeCmd env f l r)
    unfold decodeCmd decodeWith
    refine FilesLike.bind fun b => FilesLike.bind fun li => ?_
    by_cases hr : r = true
    · rw [if_pos hr, if_pos hr]; exact fun w => print_files _ _ _ w
    · rw [if_neg hr, if_neg hr]; exact fun w => print_files _ _ _ w
  | filetypes a => exact fun w => print_files _ _ _ w
  | reorder o n ow i j => exact reorder_files h o n ow i j
  | put o s t ow a i x y =>
    change FilesLike (putCmd env fa.output o s t ow a i x y) (putCmd env wo o s t ow a i x y)
    unfold putCmd
    by_cases hi : i = str "-" ∧ y = str "-"
    · rw [if_pos hi, if_pos hi]; exact fun _ => rfl
    · rw [if_neg hi, if_neg hi]
      exact FilesLike.bind fun _ => FilesLike.bind fun _ => FilesLike.bind fun _ => FilesLike.bind fun _ => writeDisk_files h _ _ _
  | rm o s m i n =>
    change FilesLike (rm env fa.output o s m i n) (rm env wo o s m i n)
    unfold rm
    refine FilesLike.bind fun p => FilesLike.bind fun b => ?_
    by_cases hb : b = false ∧ m = false
    · rw [if_pos hb, if_pos hb]; exact fun _ => rfl
    · rw [if_neg hb, if_neg hb]; exact writeDisk_files h _ _ _
  | dump o s i n =>
    change FilesLike (dumpWith fa env o s i n) (dump env o s i n)
    unfold dump dumpWith
    exact FilesLike.bind fun p => FilesLike.bind fun b w => print_files _ _ _ w
  | mkhello o i n a s =>
    change FilesLike (mkhello env fa.output o i n a s) (mkhello env wo o i n a s)
    unfold mkhello
    dsimp only
    split
    · exact fun _ => rfl
    · split
      · exact fun _ => rfl
      · refine FilesLike.bind fun p => ?_
        obtain ⟨op, ord⟩ := p
        cases op with
        | dos3 o => exact fun _ => rfl
        | prodos o => exact fun _ => rfl
        | nakedos op =>
          dsimp only
          refine FilesLike.bind fun p => ?_
          obtain ⟨x, y, z⟩ := p
          dsimp only
          split
          · exact fun _ => rfl
          · exact FilesLike.bind fun _ => writeDisk_files h _ _ _
  | mksd o i b a s =>
    change FilesLike (mksd fa.output o i b a s) (mksd wo o i b a s)
    unfold mksd
    exact FilesLike.bind fun _ => FilesLike.bind fun _ => FilesLike.bind fun _ => output_files h _ _ _

/-- A write that does nothing changes nothing. -/
theorem refused_keeps (env : Env) (c : Command) (w : World) :
    (runVia env (fun w _ _ _ => (.err .other, w)) c w).2.files = w.files := by
  have hw : ∀ p op o, Only none (writeDisk (fun w _ _ _ => (.err .other, w)) p op o) := by
    intro p op o w q _
    unfold writeDisk writeBackVia
    split <;> rfl
  have key : Only none (runVia env (fun w _ _ _ => (.err .other, w)) c) := by
    cases c with
    | ls o s sh i d =>
      refine Only.bind (Quiet.openDisk _ _ _ _) fun p => ?_
      obtain ⟨op, _⟩ := p
      dsimp only
      split
      · exact Only.lift _ _
      · exact Only.bind (Quiet.lift _) fun _ => Only.print _ _
    | decode f l r =>
      refine Only.bind (Quiet.contentsOf _) fun b => Only.bind (Quiet.lift _) fun li => ?_
      split <;> exact Only.print _ _
    | filetypes a => exact Only.print _ _
    | reorder o n ow i j =>
      intro w q _
      change (reorder _ o n ow i j w).2.files q = _
      unfold reorder reorderVia
      cases getOrders i o j n with
      | ok x =>
        obtain ⟨a, b⟩ := x
        dsimp only
        have := (Quiet.contentsOf i w).1
        unfold contentsOf at this
        rcases hc : w.fileContentsOrStdIn i with ⟨r, w'⟩
        rw [hc] at this
        cases r with
        | ok bs =>
          dsimp only
          cases reorderBytes a b bs with
          | ok t => dsimp only; split <;> exact congrFun this q
          | err k => exact congrFun this q
          | panic => exact congrFun this q
          | timeout => exact congrFun this q
        | err k => exact congrFun this q
        | panic => exact congrFun this q
        | timeout => exact congrFun this q
      | err k => rfl
      | panic => rfl
      | timeout => rfl
    | put o s t ow a i x y =>
      change Only none (putCmd _ _ _ _ _ _ _ _ _ _)
      unfold putCmd
      split
      · exact Only.lift _ _
      · exact Only.bind (Quiet.openDisk _ _ _ _) fun _ => Only.bind (Quiet.contentsOf _) fun _ => Only.bind (Quiet.lift _) fun _ =>
          Only.bind (Quiet.lift _) fun _ => hw _ _ _
    | rm o s m i n =>
      refine Only.bind (Quiet.openDisk _ _ _ _) fun p => Only.bind (Quiet.lift _) fun b => ?_
      split
      · exact Only.lift _ _
      · exact hw _ _ _
    | dump o s i n =>
      exact Only.bind (Quiet.openDisk _ _ _ _) fun p => Only.bind (Quiet.lift _) fun b => Only.print _ _
    | mkhello o i n a s =>
      change Only none (mkhello _ _ _ _ _ _ _)
      unfold mkhello
      dsimp only
      split
      · exact Only.lift _ _
      · split
        · exact Only.lift _ _
        · refine Only.bind (Quiet.openDisk _ _ _ _) fun p => ?_
          obtain ⟨op, ord⟩ := p
          cases op with
          | dos3 o => exact Only.lift _ _
          | prodos o => exact Only.lift _ _
          | nakedos op =>
            dsimp only
            refine Only.bind (Quiet.lift _) fun p => ?_
            obtain ⟨x, y, z⟩ := p
            dsimp only
            split
            · exact Only.lift _ _
            · exact Only.bind (Quiet.lift _) fun _ => hw _ _ _
    | mksd o i b a s =>
      exact Only.bind (Quiet.contentsOf _) fun _ => Only.bind (Quiet.lift _) fun _ => Only.bind (Quiet.lift _) fun _ => fun _ _ _ => rfl
  funext q
  exact key w q (by simp)

/-- A command that writes no file. -/
theorem careless_files (fa : Faults) (env : Env) (c : Command) (hc : ¬ Attentive c) (w : World) (q : Str) : (runWith fa env c w).2.files q = w.files q := by
  have ht : target c = none := by
    cases c <;> first | rfl | exact absurd trivial hc
  have hl : ∃ wo, Left fa wo := by
    unfold Left
    cases fa.file <;> exact ⟨_, rfl⟩
  obtain ⟨wo, hl⟩ := hl
  have hd : ∀ wo, runVia env wo c = run env c := by
    intro wo
    cases c <;> first | rfl | exact absurd trivial hc
  rw [runWith_files hl env c w, hd]
  exact C59_other_files_untouched env c w q (by rw [ht]; simp)

/-- **C89 (partial).** Whatever writes fail: all files but the one the command is told to write are
as they were; that one is as it was, or as it should be, or it holds the beginning of what it should
hold, and then the exit status is 1.
(Missing: that a failed write leaves the old contents, which is false: `C89_violated`.) -/
theorem C89_failed_write_partial (fa : Faults) (env : Env) (c : Command) (w : World) (q : Str) :
    (target c ≠ some q → (runWith fa env c w).2.files q = w.files q) ∧
    ((runWith fa env c w).2.files q = w.files q ∨ (runWith fa env c w).2.files q = (run env c w).2.files q ∨
      ∃ new k, exitStatus (runWith fa env c w).1 = some 1 ∧ (run env c w).2.files q = some new ∧
        (runWith fa env c w).2.files q = some (new.take k)) := by
  by_cases hcar : Attentive c
  · have hc : ∃ w', CrashState env c w w' ∧ (runWith fa env c w).2.files = w'.files := by
      cases hf : fa.file with
      | done => exact ⟨_, CrashState.after, runWith_files (by unfold Left; rw [hf]) env c w⟩
      | refused =>
        exact ⟨w, CrashState.before w ⟨rfl, rfl⟩, (runWith_files (by unfold Left; rw [hf]) env c w).trans (refused_keeps env c w)⟩
      | cut k => exact ⟨_, CrashState.during k, runWith_files (by unfold Left; rw [hf]) env c w⟩
    obtain ⟨w', h1, h2⟩ := hc
    obtain ⟨ha, hb⟩ := C60_crash_partial env c w w' h1 q
    rw [← h2] at ha hb
    refine ⟨ha, ?_⟩
    rcases hb with hb | hb | ⟨new, k, _, hn, hk⟩
    · exact Or.inl hb
    · exact Or.inr (Or.inl hb)
    · rcases C88_reported_partial fa env c hcar w with h | h
      · exact Or.inr (Or.inl (by rw [h]))
      · exact Or.inr (Or.inr ⟨new, k, h, hn, hk⟩)
  · exact ⟨fun _ => careless_files fa env c hcar w q, Or.inl (careless_files fa env c hcar w q)⟩

/-- C89 fails: if the file system is full, `reorder` in place empties the image, for every image. -/
theorem C89_violated (env : Env) (w : World) (p : Str) (hp : p ≠ str "-") (img : Bytes)
    (hf : w.files p = some img) (hi : img.length = 143360) :
    ∃ fa, exitStatus (runWith fa env (.reorder (str "do") (str "po") false p []) w).1 = some 1 ∧
      (runWith fa env (.reorder (str "do") (str "po") false p []) w).2.files p = some [] := by
  refine ⟨⟨fun _ => none, .cut 0⟩, ?_⟩
  obtain ⟨w1, _, h1, _⟩ := C09_reorder_command_round_trip w p img hp hf hi
  change exitStatus (reorder _ _ _ _ _ _ w).1 = _ ∧ (reorder _ _ _ _ _ _ w).2.files p = _
  rcases reorder_cases World.writeOutput w (str "do") (str "po") false p [] with ⟨h3, h4⟩ | ⟨b, w', old, hs, _, _, lb, e⟩
  · exact absurd (by unfold reorder; unfold reorderRun at h1; rw [h1]) h3
  · rw [e, if_pos rfl]
    unfold Faults.output
    rw [if_neg hp, if_neg (by simp)]
    refine ⟨rfl, ?_⟩
    unfold World.writeFile
    dsimp only
    rw [if_pos rfl, List.take_zero]

/-- Non-vacuity of C88 and C89: if the image cannot be opened for writing, `reorder` in place exits with
status 1 and leaves it as it was; if nothing fails it exits with status 0. -/
example (env : Env) (w : World) (p : Str) (hp : p ≠ str "-") (img : Bytes) (hf : w.files p = some img) (hi : img.length = 143360) :
    exitStatus (runWith ⟨fun _ => none, .refused⟩ env (.reorder (str "do") (str "po") false p []) w).1 = some 1 ∧
    (runWith ⟨fun _ => none, .refused⟩ env (.reorder (str "do") (str "po") false p []) w).2.files p = some img ∧
    exitStatus (runWith ⟨fun _ => none, .done⟩ env (.reorder (str "do") (str "po") false p []) w).1 = some 0 := by
  obtain ⟨w1, _, h1, _⟩ := C09_reorder_command_round_trip w p img hp hf hi
  change exitStatus (reorder _ _ _ _ _ _ w).1 = _ ∧ (reorder _ _ _ _ _ _ w).2.files p = _ ∧ exitStatus (reorder _ _ _ _ _ _ w).1 = _
  rcases reorder_cases World.writeOutput w (str "do") (str "po") false p [] with ⟨h3, h4⟩ | ⟨b, w', old, hs, _, _, lb, e⟩
  · exact absurd (by unfold reorder; unfold reorderRun at h1; rw [h1]) h3
  · rw [e, e, if_pos rfl]
    unfold Faults.output
    rw [if_neg hp, if_neg (by simp), if_neg hp, if_neg (by simp)]
    exact ⟨rfl, by rw [← hf, ← hs.1], rfl⟩

end Verif.Cmd
