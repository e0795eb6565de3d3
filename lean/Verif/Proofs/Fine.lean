import Verif.Model.Fine
import Verif.Proofs.Sched

/-!
# Lemmas about commands that read and write in pieces
-/

set_option autoImplicit false

namespace Verif.Cmd
open Disk Spec

/-! ## One program -/

/-- The program alone, with these turns. -/
def alone (p : Worker) (fs : FileSystem) (turns : List Nat) : FileSystem × Worker :=
  turns.foldl (fun s n => s.2.step s.1 n) (fs, p)

theorem alone_cons (p : Worker) (fs : FileSystem) (n : Nat) (ns : List Nat) :
    alone p fs (n :: ns) = alone (p.step fs n).2 (p.step fs n).1 ns := rfl

theorem alone_snoc (p : Worker) (fs : FileSystem) (n : Nat) (ns : List Nat) :
    alone p fs (ns ++ [n]) = (alone p fs ns).2.step (alone p fs ns).1 n := by
  unfold alone
  rw [List.foldl_append]
  rfl

theorem worker_agrees {S T : Str → Prop} (hTS : ∀ q, T q → S q) (p : Worker) (hp : p.prog.Within S T) (n : Nat)
    (fs gs : FileSystem) (h : ∀ q, S q → fs q = gs q) :
    (p.step fs n).2 = (p.step gs n).2 ∧ (∀ q, S q → (p.step fs n).1 q = (p.step gs n).1 q) ∧ (∀ q, ¬ T q → (p.step fs n).1 q = fs q) ∧
      (p.step fs n).2.prog.Within S T := by
  obtain ⟨prog, moved, i, o⟩ := p
  cases prog with
  | ret r => exact ⟨rfl, h, fun _ _ => rfl, trivial⟩
  | stdin k => exact ⟨rfl, h, fun _ _ => rfl, hp _⟩
  | read q k =>
    have hq := h q hp.1
    cases moved with
    | none =>
      unfold Worker.step
      simp only [← hq]
      cases fs q with
      | none => exact ⟨rfl, h, fun _ _ => rfl, hp.2 _⟩
      | some c => exact ⟨rfl, h, fun _ _ => rfl, hp⟩
    | some got =>
      unfold Worker.step
      simp only [← hq]
      split
      · exact ⟨rfl, h, fun _ _ => rfl, hp.2 _⟩
      · exact ⟨rfl, h, fun _ _ => rfl, hp⟩
  | stat q k =>
    refine ⟨?_, h, fun _ _ => rfl, hp.2 _⟩
    simp only [Worker.step, h q hp.1]
  | trunc q k =>
    refine ⟨rfl, fun r hr => ?_, fun r hr => ?_, hp.2⟩
    · simp only [Worker.step, h r hr]
    · simp only [Worker.step]
      rw [if_neg]
      rintro rfl
      exact hr hp.1
  | write q b k =>
    refine ⟨rfl, fun r hr => ?_, fun r hr => ?_, ?_⟩
    · simp only [Worker.step, h r hr, h q (hTS q hp.1)]
    · simp only [Worker.step]
      rw [if_neg]
      rintro rfl
      exact hr hp.1
    · simp only [Worker.step]
      split
      · exact hp.2
      · exact hp
  | print b k => exact ⟨rfl, h, fun _ _ => rfl, hp⟩

/-- What has been moved is a beginning of what is to be moved. -/
def Worker.Valid (p : Worker) (fs : FileSystem) : Prop :=
  match p.prog, p.moved with
  | .read q _, some got => ∃ c, fs q = some c ∧ got <+: c
  | .write q b _, some d => ∃ c, fs q = some c ∧ d <+: c ∧ d <+: b
  | .write _ _ _, none => True
  | _, m => m = none

theorem valid_fresh {prog : Prog Unit} {i o : Bytes} {fs : FileSystem} : Worker.Valid ⟨prog, none, i, o⟩ fs := by
  unfold Worker.Valid
  split
  · rename_i h; cases h
  · rename_i h; cases h
  · trivial
  · rfl

theorem writeAt_spec {c d b : Bytes} (hd : d <+: c) (hb : d <+: b) (n : Nat) :
    writeAt c d.length ((b.drop d.length).take (n + 1)) =
      (d ++ (b.drop d.length).take (n + 1)) ++ c.drop (d ++ (b.drop d.length).take (n + 1)).length := by
  obtain ⟨e, rfl⟩ := hd
  unfold writeAt
  rw [List.take_left, show d.length - (d ++ e).length = 0 by simp]
  simp [zeros]

theorem piece_prefix {d b : Bytes} (hb : d <+: b) (n : Nat) : d ++ (b.drop d.length).take n <+: b := by
  obtain ⟨e, rfl⟩ := hb
  rw [List.drop_left]
  exact (List.prefix_append_right_inj d).2 (List.take_prefix n e)

theorem fs_eta {q : Str} (fs : FileSystem) {c : Bytes} (h : fs q = some c) : (fun r => if r = q then some c else fs r) = fs := by
  funext r
  split
  · rename_i e; rw [e, h]
  · rfl

/-- One system call keeps this, and does not change what the program will come to. -/
theorem worker_step (p : Worker) (fs : FileSystem) (n : Nat) (hv : p.Valid fs) :
    (p.step fs n).2.Valid (p.step fs n).1 ∧
    (p.step fs n).2.prog.exec ⟨(p.step fs n).1, (p.step fs n).2.stdin, (p.step fs n).2.stdout⟩ = p.prog.exec ⟨fs, p.stdin, p.stdout⟩ := by
  obtain ⟨prog, moved, i, o⟩ := p
  cases prog with
  | ret r => exact ⟨hv, rfl⟩
  | stdin k => exact ⟨valid_fresh, rfl⟩
  | read q k =>
    cases moved with
    | none =>
      unfold Worker.step
      simp only
      cases hq : fs q with
      | none => exact ⟨valid_fresh, by simp only [Prog.exec, hq]⟩
      | some c => exact ⟨⟨c, hq, List.nil_prefix⟩, rfl⟩
    | some got =>
      obtain ⟨c, hq, hg⟩ := hv
      unfold Worker.step
      simp only [hq, Option.getD_some]
      split
      · rename_i hp
        have hgc : got = c := by
          obtain ⟨e, rfl⟩ := hg
          rw [List.drop_left] at hp
          cases e with
          | nil => simp
          | cons x e => simp at hp
        exact ⟨valid_fresh, by simp only [Prog.exec, hq, hgc]⟩
      · exact ⟨⟨c, hq, piece_prefix hg (n + 1)⟩, rfl⟩
  | stat q k => exact ⟨valid_fresh, rfl⟩
  | trunc q k => exact ⟨valid_fresh, rfl⟩
  | write q b k =>
    have hv' : moved.getD [] <+: (fs q).getD [] ∧ moved.getD [] <+: b := by
      cases moved with
      | none => exact ⟨List.nil_prefix, List.nil_prefix⟩
      | some d =>
        obtain ⟨c, hq, h1, h2⟩ := hv
        rw [hq]
        exact ⟨h1, h2⟩
    obtain ⟨h1, h2⟩ := hv'
    unfold Worker.step
    simp only [writeAt_spec h1 h2]
    have h3 := piece_prefix h2 (n + 1)
    generalize moved.getD [] ++ (b.drop (moved.getD []).length).take (n + 1) = d' at h3
    split
    · rename_i hl
      have hb : d' = b := h3.eq_of_length_le hl
      subst hb
      exact ⟨valid_fresh, rfl⟩
    · rename_i hl
      refine ⟨⟨_, if_pos rfl, List.prefix_append _ _, h3⟩, ?_⟩
      simp only [Prog.exec]
      congr 2
      funext r
      split
      · simp only [Option.getD_some, if_true]
        congr 2
        rw [List.drop_append, List.drop_eq_nil_of_le (by omega), List.nil_append, List.drop_drop]
        congr 1
        have := h3.length_le
        omega
      · rfl
  | print b k => exact ⟨valid_fresh, rfl⟩

theorem alone_exec (p : Worker) (fs : FileSystem) (ns : List Nat) (hv : p.Valid fs) :
    (alone p fs ns).2.Valid (alone p fs ns).1 ∧
    (alone p fs ns).2.prog.exec ⟨(alone p fs ns).1, (alone p fs ns).2.stdin, (alone p fs ns).2.stdout⟩ =
      p.prog.exec ⟨fs, p.stdin, p.stdout⟩ := by
  induction ns generalizing p fs with
  | nil => exact ⟨hv, rfl⟩
  | cons n ns ih =>
    rw [alone_cons]
    obtain ⟨h1, h2⟩ := worker_step p fs n hv
    obtain ⟨h3, h4⟩ := ih _ _ h1
    exact ⟨h3, h4.trans h2⟩

/-! ## It ends -/

theorem alone_ret (r : Out Unit) (m : Option Bytes) (i o : Bytes) (fs : FileSystem) (ns : List Nat) :
    (alone ⟨.ret r, m, i, o⟩ fs ns) = (fs, ⟨.ret r, m, i, o⟩) := by
  induction ns with
  | nil => rfl
  | cons n ns ih => rw [alone_cons]; exact ih

theorem read_ends {q : Str} {k : Option Bytes → Prog Unit} {i o : Bytes} {fs : FileSystem} {c : Bytes} (hq : fs q = some c) {N : Nat}
    {r : Out Unit} (hk : ∀ ns : List Nat, N ≤ ns.length → (alone ⟨k (some c), none, i, o⟩ fs ns).2.prog = .ret r) (m : Nat) :
    ∀ got : Bytes, got <+: c → c.length ≤ got.length + m → ∀ ns : List Nat, N + 1 + m ≤ ns.length →
      (alone ⟨.read q k, some got, i, o⟩ fs ns).2.prog = .ret r := by
  induction m with
  | zero =>
    intro got hg hl ns hn
    have : got = c := hg.eq_of_length_le hl
    subst this
    cases ns with
    | nil => simp at hn
    | cons n ns =>
      rw [alone_cons]
      unfold Worker.step
      simp only [hq, Option.getD_some, List.drop_length, List.take_nil, if_true]
      exact hk ns (by simp only [List.length_cons] at hn; omega)
  | succ m ih =>
    intro got hg hl ns hn
    cases ns with
    | nil => simp at hn
    | cons n ns =>
      simp only [List.length_cons] at hn
      rw [alone_cons]
      unfold Worker.step
      simp only [hq, Option.getD_some]
      split
      · rename_i hp
        have hgc : got = c := by
          obtain ⟨e, rfl⟩ := hg
          rw [List.drop_left] at hp
          cases e with
          | nil => simp
          | cons x e => simp at hp
        rw [hgc]
        exact hk ns (by omega)
      · rename_i hp
        refine ih _ (piece_prefix hg (n + 1)) ?_ ns (by omega)
        have : 0 < ((c.drop got.length).take (n + 1)).length := by
          rw [List.length_pos_iff]; exact hp
        rw [List.length_append]
        omega

theorem write_ends {q : Str} {b : Bytes} {k : Prog Unit} {i o : Bytes} {g : FileSystem} {N : Nat}
    {r : Out Unit} (hk : ∀ ns : List Nat, N ≤ ns.length → (alone ⟨k, none, i, o⟩ g ns).2.prog = .ret r) (m : Nat) :
    ∀ (moved : Option Bytes) (fs : FileSystem), moved.getD [] <+: (fs q).getD [] → moved.getD [] <+: b →
      (fun r => if r = q then some (b ++ ((fs q).getD []).drop b.length) else fs r) = g →
      b.length ≤ (moved.getD []).length + m → ∀ ns : List Nat, N + 1 + m ≤ ns.length →
      (alone ⟨.write q b k, moved, i, o⟩ fs ns).2.prog = .ret r := by
  induction m with
  | zero =>
    intro moved fs h1 h2 hg hl ns hn
    cases ns with
    | nil => simp at hn
    | cons n ns =>
      rw [alone_cons]
      unfold Worker.step
      simp only [writeAt_spec h1 h2]
      have h3 := piece_prefix h2 (n + 1)
      have hle : (moved.getD []).length ≤ (moved.getD [] ++ (b.drop (moved.getD []).length).take (n + 1)).length := by simp
      generalize moved.getD [] ++ (b.drop (moved.getD []).length).take (n + 1) = d' at h3 hle
      rw [if_pos (by omega), h3.eq_of_length_le (by omega), hg]
      exact hk ns (by simp only [List.length_cons] at hn; omega)
  | succ m ih =>
    intro moved fs h1 h2 hg hl ns hn
    cases ns with
    | nil => simp at hn
    | cons n ns =>
      simp only [List.length_cons] at hn
      rw [alone_cons]
      unfold Worker.step
      simp only [writeAt_spec h1 h2]
      have h3 := piece_prefix h2 (n + 1)
      have hlen : (moved.getD [] ++ (b.drop (moved.getD []).length).take (n + 1)).length =
          (moved.getD []).length + min (n + 1) (b.length - (moved.getD []).length) := by simp
      generalize moved.getD [] ++ (b.drop (moved.getD []).length).take (n + 1) = d' at h3 hlen
      split
      · rename_i hd
        rw [h3.eq_of_length_le hd, hg]
        exact hk ns (by omega)
      · rename_i hd
        refine ih (some d') _ ?_ h3 ?_ (by simp only [Option.getD_some]; omega) ns (by omega)
        · simp only [if_true, Option.getD_some]
          exact List.prefix_append _ _
        · rw [← hg]
          funext r
          split
          · simp only [Option.getD_some, if_true]
            congr 2
            rw [List.drop_append, List.drop_eq_nil_of_le (by omega), List.nil_append, List.drop_drop]
            congr 1
            omega
          · rfl

/-- A program alone ends once it has had enough turns, however little each call moves. -/
theorem alone_ends (prog : Prog Unit) (i o : Bytes) (fs : FileSystem) :
    ∃ N r, ∀ ns : List Nat, N ≤ ns.length → (alone ⟨prog, none, i, o⟩ fs ns).2.prog = .ret r := by
  have first : ∀ {p : Worker} {fs fs' : FileSystem} {p' : Worker} (_ : ∀ n, p.step fs n = (fs', p')) {N : Nat} {r : Out Unit}
      (_ : ∀ ns : List Nat, N ≤ ns.length → (alone p' fs' ns).2.prog = .ret r),
      ∃ N r, ∀ ns : List Nat, N ≤ ns.length → (alone p fs ns).2.prog = .ret r := by
    intro p fs fs' p' hs N r h
    refine ⟨N + 1, r, fun ns hn => ?_⟩
    cases ns with
    | nil => simp at hn
    | cons n ns =>
      rw [alone_cons, hs]
      exact h ns (by simp only [List.length_cons] at hn; omega)
  induction prog generalizing i o fs with
  | ret r => exact ⟨0, r, fun ns _ => by rw [alone_ret]⟩
  | stdin k ih =>
    obtain ⟨N, r, h⟩ := ih i [] o fs
    exact first (fun n => rfl) h
  | read q k ih =>
    cases hq : fs q with
    | none =>
      obtain ⟨N, r, h⟩ := ih none i o fs
      exact first (fun n => by unfold Worker.step; simp only [hq]) h
    | some c =>
      obtain ⟨N, r, h⟩ := ih (some c) i o fs
      exact first (fun n => by unfold Worker.step; simp only [hq]) (read_ends hq h c.length [] List.nil_prefix (by simp))
  | stat q k ih =>
    obtain ⟨N, r, h⟩ := ih (fs q).isSome i o fs
    exact first (fun n => rfl) h
  | trunc q k ih =>
    obtain ⟨N, r, h⟩ := ih i o (fun r => if r = q then some [] else fs r)
    exact first (fun n => rfl) h
  | write q b k ih =>
    obtain ⟨N, r, h⟩ := ih i o (fun r => if r = q then some (b ++ ((fs q).getD []).drop b.length) else fs r)
    exact ⟨_, r, write_ends h b.length none fs List.nil_prefix List.nil_prefix rfl (by simp)⟩
  | print b k ih =>
    obtain ⟨N, r, h⟩ := ih i (o ++ b) fs
    exact first (fun n => rfl) h

/-! ## Programs that write at their end, and programs that read a file once -/

/-- The program's only change to files is at its end, where it replaces `p`. -/
inductive Prog.Tail (p : Str) : Prog Unit → Prop
  | ret (o : Out Unit) : Prog.Tail p (.ret o)
  | stdin (k : Bytes → Prog Unit) (h : ∀ b, Prog.Tail p (k b)) : Prog.Tail p (.stdin k)
  | read (q : Str) (k : Option Bytes → Prog Unit) (h : ∀ b, Prog.Tail p (k b)) : Prog.Tail p (.read q k)
  | stat (q : Str) (k : Bool → Prog Unit) (h : ∀ b, Prog.Tail p (k b)) : Prog.Tail p (.stat q k)
  | print (b : Bytes) (k : Prog Unit) (h : Prog.Tail p k) : Prog.Tail p (.print b k)
  | done (b : Bytes) : Prog.Tail p (.trunc p (.write p b (.ret (.ok ()))))

theorem tail_bind {α : Type} {p : Str} (m : Prog α) (f : α → Prog Unit) (hm : m.Within (fun _ => True) fun _ => False)
    (hf : ∀ a, (f a).Tail p) : Prog.Tail p (m >>= f) := by
  show Prog.Tail p (m.bind f)
  induction m with
  | ret o =>
    cases o with
    | ok a => exact hf a
    | err k => exact .ret _
    | panic => exact .ret _
    | timeout => exact .ret _
  | stdin k ih => exact .stdin _ fun b => ih b (hm b)
  | read q k ih => exact .read _ _ fun b => ih b (hm.2 b)
  | stat q k ih => exact .stat _ _ fun b => ih b (hm.2 b)
  | trunc q k ih => exact hm.1.elim
  | write q b k ih => exact hm.1.elim
  | print b k ih => exact .print _ _ (ih hm)

theorem tail_ite {p : Str} {c : Prop} [Decidable c] {m n : Prog Unit} (hm : m.Tail p) (hn : n.Tail p) : (if c then m else n).Tail p := by
  split
  · exact hm
  · exact hn

theorem tail_writeOutput (p : Str) (b : Bytes) (force : Bool) : (Prog.writeOutput p b force).Tail p := by
  unfold Prog.writeOutput
  exact tail_ite (.print _ _ (.ret _)) (tail_ite (.stat _ _ fun _ => tail_ite (.ret _) (.done b)) (.done b))

theorem tail_writeDisk (p : Str) (op : AnyOp) (o : DiskOrder) : (Prog.writeDisk p op o).Tail p :=
  tail_bind _ _ trivial fun b => tail_writeOutput p b true

theorem tail_program (env : Env) (c : Command) (p : Str) (h : target c = some p) : (program env c).Tail p := by
  have T : ∀ q : Str, q ≠ str "-" → True := fun _ _ => trivial
  cases c with
  | ls o s sh i d => cases h
  | reorder o n ow i j =>
    refine tail_bind _ _ trivial fun x => tail_bind _ _ (within_contentsOf i (T _)) fun y =>
      tail_bind _ _ trivial fun z => ?_
    by_cases hj : j = []
    · simp only [target, if_pos hj, Option.some.injEq] at h
      rw [if_pos hj, h]
      exact tail_writeOutput _ _ _
    · simp only [target, if_neg hj, Option.some.injEq] at h
      rw [if_neg hj, h]
      exact tail_writeOutput _ _ _
  | filetypes a => cases h
  | put o s t ow a i x y =>
    obtain rfl := Option.some.inj h
    refine tail_ite (.ret _) (tail_bind _ _ (within_openDisk env _ _ _ (T _)) fun z =>
      tail_bind _ _ (within_contentsOf y (T _)) fun u => tail_bind _ _ trivial fun v =>
      tail_bind _ _ trivial fun t => ?_)
    exact tail_writeDisk _ _ _
  | rm o s m i n =>
    obtain rfl := Option.some.inj h
    refine tail_bind _ _ (within_openDisk env _ _ _ (T _)) fun z =>
      tail_bind _ _ trivial fun u => tail_ite (.ret _) ?_
    exact tail_writeDisk _ _ _
  | dump o s i n => cases h
  | mkhello o i n a s =>
    obtain rfl := Option.some.inj h
    refine tail_ite (.ret _) (tail_ite (.ret _) (tail_bind _ _ (within_openDisk env _ _ _ (T _)) fun z => ?_))
    obtain ⟨op, d⟩ := z
    cases op with
    | dos3 o => exact .ret _
    | prodos o => exact .ret _
    | nakedos o =>
      refine tail_bind _ _ trivial fun u => tail_ite (.ret _) (tail_bind _ _ trivial fun v => ?_)
      exact tail_writeDisk _ _ _
  | mksd o i b a s =>
    obtain rfl := Option.some.inj h
    refine tail_bind _ _ (within_contentsOf b (T _)) fun u =>
      tail_bind _ _ trivial fun v => tail_bind _ _ trivial fun t => ?_
    exact tail_writeOutput _ _ _
  | decode f l r => cases h

/-- The program has nothing to do with `p`. -/
def Prog.Without {α : Type} (p : Str) (m : Prog α) : Prop := m.Within (fun q => q ≠ p) (fun q => q ≠ p)

/-- The program reads `p` at most once, and does nothing else with it. -/
def Prog.Once {α : Type} (p : Str) : Prog α → Prop
  | .ret _ => True
  | .stdin k => ∀ b, (k b).Once p
  | .read q k => if q = p then ∀ b, (k b).Without p else ∀ b, (k b).Once p
  | .stat q k => q ≠ p ∧ ∀ b, (k b).Once p
  | .trunc q k => q ≠ p ∧ k.Once p
  | .write q _ k => q ≠ p ∧ k.Once p
  | .print _ k => k.Once p

theorem once_of_without {α : Type} {p : Str} (m : Prog α) (h : m.Without p) : m.Once p := by
  induction m with
  | ret o => trivial
  | stdin k ih => exact fun b => ih b (h b)
  | read q k ih =>
    unfold Prog.Once
    rw [if_neg h.1]
    exact fun b => ih b (h.2 b)
  | stat q k ih => exact ⟨h.1, fun b => ih b (h.2 b)⟩
  | trunc q k ih => exact ⟨h.1, ih h.2⟩
  | write q b k ih => exact ⟨h.1, ih h.2⟩
  | print b k ih => exact ih h

/-- The file is read in the first part. -/
theorem once_bind_first {α β : Type} {p : Str} (m : Prog α) (f : α → Prog β) (hm : m.Once p) (hf : ∀ a, (f a).Without p) :
    Prog.Once p (m >>= f) := by
  show Prog.Once p (m.bind f)
  induction m with
  | ret o =>
    cases o with
    | ok a => exact once_of_without _ (hf a)
    | err k => trivial
    | panic => trivial
    | timeout => trivial
  | stdin k ih => exact fun b => ih b (hm b)
  | read q k ih =>
    unfold Prog.Once at hm
    show (Prog.read q fun b => (k b).bind f).Once p
    unfold Prog.Once
    split
    · rename_i hq
      rw [if_pos hq] at hm
      exact fun b => within_bind' _ _ (hm b) hf
    · rename_i hq
      rw [if_neg hq] at hm
      exact fun b => ih b (hm b)
  | stat q k ih => exact ⟨hm.1, fun b => ih b (hm.2 b)⟩
  | trunc q k ih => exact ⟨hm.1, ih hm.2⟩
  | write q b k ih => exact ⟨hm.1, ih hm.2⟩
  | print b k ih => exact ih hm

/-- The file is read in the second part. -/
theorem once_bind_second {α β : Type} {p : Str} (m : Prog α) (f : α → Prog β) (hm : m.Without p) (hf : ∀ a, (f a).Once p) :
    Prog.Once p (m >>= f) := by
  show Prog.Once p (m.bind f)
  induction m with
  | ret o =>
    cases o with
    | ok a => exact hf a
    | err k => trivial
    | panic => trivial
    | timeout => trivial
  | stdin k ih => exact fun b => ih b (hm b)
  | read q k ih =>
    show (Prog.read q fun b => (k b).bind f).Once p
    unfold Prog.Once
    rw [if_neg hm.1]
    exact fun b => ih b (hm.2 b)
  | stat q k ih => exact ⟨hm.1, fun b => ih b (hm.2 b)⟩
  | trunc q k ih => exact ⟨hm.1, ih hm.2⟩
  | write q b k ih => exact ⟨hm.1, ih hm.2⟩
  | print b k ih => exact ih hm

theorem once_contentsOf (p q : Str) : (Prog.contentsOf q).Once p := by
  unfold Prog.contentsOf
  split
  · exact fun _ => trivial
  · unfold Prog.Once
    split <;> (intro b; cases b <;> trivial)

theorem once_openDisk (p : Str) (env : Env) (q : Str) (o : DiskOrder) (s : Str) : (Prog.openDisk env q o s).Once p := by
  unfold Prog.openDisk
  split
  · exact fun _ => trivial
  · unfold Prog.Once
    split <;> (intro b; cases b <;> trivial)

/-- A command reads a file that is not its target at most once, and does nothing else with it. -/
theorem once_program (env : Env) (c : Command) (p : Str) (h : target c ≠ some p) : (program env c).Once p := by
  have W : ∀ {q : Str} {b : Bytes} {force : Bool}, q ≠ p → (Prog.writeOutput q b force).Without p :=
    fun hq => within_writeOutput _ _ _ (fun _ => hq) (fun _ => hq)
  have D : ∀ {q : Str} {op : AnyOp} {o : DiskOrder}, q ≠ p → (Prog.writeDisk q op o).Without p :=
    fun hq => within_writeDisk _ _ _ (fun _ => hq) (fun _ => hq)
  cases c with
  | ls o s sh i d =>
    refine once_bind_first _ _ (once_openDisk p env _ _ _) fun x => ?_
    exact within_ite trivial (within_bind _ _ trivial fun _ => trivial)
  | reorder o n ow i j =>
    refine once_bind_second _ _ trivial fun x => once_bind_first _ _ (once_contentsOf p i) fun y => within_bind _ _ trivial fun z => ?_
    by_cases hj : j = []
    · simp only [target, if_pos hj, ne_eq, Option.some.injEq] at h
      rw [if_pos hj]
      exact W h
    · simp only [target, if_neg hj, ne_eq, Option.some.injEq] at h
      rw [if_neg hj]
      exact W h
  | filetypes a => trivial
  | put o s t ow a i x y =>
    have hi : i ≠ p := fun e => h (by rw [e]; rfl)
    show Prog.Once p (if _ then _ else _)
    split
    · trivial
    · refine once_bind_second _ _ (within_openDisk env i _ _ (fun _ => hi)) fun z => once_bind_first _ _ (once_contentsOf p y) fun u =>
        within_bind _ _ trivial fun v => within_bind _ _ trivial fun t => ?_
      exact D hi
  | rm o s m i n =>
    have hi : i ≠ p := fun e => h (by rw [e]; rfl)
    refine once_bind_first _ _ (once_openDisk p env _ _ _) fun z => within_bind _ _ trivial fun u => within_ite trivial ?_
    exact D hi
  | dump o s i n =>
    exact once_bind_first _ _ (once_openDisk p env _ _ _) fun z => within_bind _ _ trivial fun u => trivial
  | mkhello o i n a s =>
    have hi : i ≠ p := fun e => h (by rw [e]; rfl)
    show Prog.Once p (if _ then _ else if _ then _ else _)
    split
    · trivial
    · split
      · trivial
      · refine once_bind_first _ _ (once_openDisk p env _ _ _) fun z => ?_
        obtain ⟨op, d⟩ := z
        cases op with
        | dos3 o => trivial
        | prodos o => trivial
        | nakedos o =>
          refine within_bind _ _ trivial fun u => within_ite trivial (within_bind _ _ trivial fun v => ?_)
          exact D hi
  | mksd o i b a s =>
    have hi : i ≠ p := fun e => h (by rw [e]; rfl)
    refine once_bind_first _ _ (once_contentsOf p b) fun u => within_bind _ _ trivial fun v => within_bind _ _ trivial fun t => ?_
    exact W hi
  | decode f l r =>
    exact once_bind_first _ _ (once_contentsOf p f) fun u => within_bind _ _ trivial fun v => within_ite trivial trivial

/-! ## Many programs -/

variable {ι : Type} [DecidableEq ι]

/-- The turns of program `i` in a schedule. -/
def turnsOf (i : ι) (schedule : List (ι × Nat)) : List Nat := (schedule.filter fun t => t.1 = i).map (·.2)

theorem turnsOf_snoc_self (i : ι) (l : List (ι × Nat)) (n : Nat) : turnsOf i (l ++ [(i, n)]) = turnsOf i l ++ [n] := by
  unfold turnsOf
  simp

theorem turnsOf_snoc_other {i j : ι} (h : i ≠ j) (l : List (ι × Nat)) (n : Nat) : turnsOf i (l ++ [(j, n)]) = turnsOf i l := by
  unfold turnsOf
  simp [Ne.symm h]

theorem crew_snoc (s : Crew ι) (l : List (ι × Nat)) (t : ι × Nat) : s.run (l ++ [t]) = (s.run l).step t := by
  unfold Crew.run
  rw [List.foldl_append]
  rfl

end Verif.Cmd
