import Verif.Spec.Fine
import Verif.Proofs.Fine

/-!
# Lemmas about reading a file that is being rewritten
-/

set_option autoImplicit false

namespace Verif.Cmd
open Disk Spec

/-! ## One call looks at one file -/

/-- The next call concerns `q`. -/
def Prog.Next (q : Str) : Prog Unit → Prop
  | .read r _ => r = q
  | .stat r _ => r = q
  | .trunc r _ => r = q
  | .write r _ _ => r = q
  | _ => False

theorem step_next (w : Worker) (F H : FileSystem) (n : Nat) (h : ∀ q, w.prog.Next q → F q = H q) :
    (w.step F n).2 = (w.step H n).2 ∧ (∀ q, F q = H q → (w.step F n).1 q = (w.step H n).1 q) ∧
    ∀ q, ¬ w.prog.Next q → (w.step F n).1 q = F q := by
  obtain ⟨prog, moved, i, o⟩ := w
  cases prog with
  | ret r => exact ⟨rfl, fun q hq => hq, fun _ _ => rfl⟩
  | stdin k => exact ⟨rfl, fun q hq => hq, fun _ _ => rfl⟩
  | read q k =>
    have hq := h q rfl
    cases moved with
    | none =>
      unfold Worker.step
      simp only [← hq]
      cases fs : F q with
      | none => exact ⟨rfl, fun q hq => hq, fun _ _ => rfl⟩
      | some c => exact ⟨rfl, fun q hq => hq, fun _ _ => rfl⟩
    | some got =>
      unfold Worker.step
      simp only [← hq]
      split
      · exact ⟨rfl, fun q hq => hq, fun _ _ => rfl⟩
      · exact ⟨rfl, fun q hq => hq, fun _ _ => rfl⟩
  | stat q k =>
    refine ⟨?_, fun q hq => hq, fun _ _ => rfl⟩
    simp only [Worker.step, h q rfl]
  | trunc q k =>
    refine ⟨rfl, fun r hr => ?_, fun r hr => ?_⟩
    · simp only [Worker.step, hr]
    · simp only [Worker.step]
      rw [if_neg]
      rintro rfl
      exact hr rfl
  | write q b k =>
    refine ⟨rfl, fun r hr => ?_, fun r hr => ?_⟩
    · simp only [Worker.step, hr, h q rfl]
    · simp only [Worker.step]
      rw [if_neg]
      rintro rfl
      exact hr rfl
  | print b k => exact ⟨rfl, fun q hq => hq, fun _ _ => rfl⟩

theorem next_within {S T : Str → Prop} (hTS : ∀ q, T q → S q) {m : Prog Unit} (h : m.Within S T) {q : Str} (hq : m.Next q) : S q := by
  cases m with
  | ret o => exact hq.elim
  | stdin k => exact hq.elim
  | read r k => cases hq; exact h.1
  | stat r k => cases hq; exact h.1
  | trunc r k => cases hq; exact hTS _ h.1
  | write r b k => cases hq; exact hTS _ h.1
  | print b k => exact hq.elim

theorem once_step {p : Str} (w : Worker) (F : FileSystem) (n : Nat) (h : w.prog.Once p) (hn : ¬ w.prog.Next p) : (w.step F n).2.prog.Once p := by
  obtain ⟨prog, moved, i, o⟩ := w
  cases prog with
  | ret r => trivial
  | stdin k => exact h _
  | read q k =>
    have hk : ∀ b, (k b).Once p := by
      have h' := h
      have hn' : ¬ q = p := hn
      unfold Prog.Once at h'
      rwa [if_neg hn'] at h'
    cases moved with
    | none =>
      unfold Worker.step
      simp only
      split
      · exact hk _
      · exact h
    | some got =>
      unfold Worker.step
      simp only
      split
      · exact hk _
      · exact h
  | stat q k => exact h.2 _
  | trunc q k => exact h.2
  | write q b k =>
    unfold Worker.step
    simp only
    split
    · exact h.2
    · exact h
  | print b k => exact h

theorem having_self (fs : FileSystem) (p : Str) (x : Option Bytes) : having fs p x p = x := if_pos rfl

theorem having_other (fs : FileSystem) {p q : Str} (x : Option Bytes) (h : q ≠ p) : having fs p x q = fs q := if_neg h

theorem having_eq (fs : FileSystem) (p : Str) : having fs p (fs p) = fs := by
  funext q
  unfold having
  split
  · rename_i h; rw [h]
  · rfl

/-- A call that does not concern `p` goes as it would with any other contents of `p`. -/
theorem ghost_step {c : Command} {p : Str} {F G : FileSystem} (w : Worker) (n : Nat) (hw : w.prog.Within (Touches c) (WritesTo c))
    (hn : ¬ w.prog.Next p) (hFG : ∀ q, Touches c q → q ≠ p → F q = G q) :
    (∀ q, Touches c q → q ≠ p → (w.step F n).1 q = (w.step G n).1 q) ∧
    ∀ x, w.Valid (having G p x) → (w.step F n).2.Valid (having (w.step G n).1 p x) ∧
      (w.step F n).2.prog.exec ⟨having (w.step G n).1 p x, (w.step F n).2.stdin, (w.step F n).2.stdout⟩ =
        w.prog.exec ⟨having G p x, w.stdin, w.stdout⟩ := by
  have hne : ∀ q, w.prog.Next q → q ≠ p := fun q hq e => hn (e ▸ hq)
  have hnext : ∀ q, w.prog.Next q → F q = G q := fun q hq => hFG q (next_within (changes_touches c) hw hq) (hne q hq)
  obtain ⟨a1, a2, _⟩ := step_next w F G n hnext
  refine ⟨fun q hq hqp => a2 q (hFG q hq hqp), fun x hv => ?_⟩
  obtain ⟨b1, b2, _⟩ := step_next w G (having G p x) n fun q hq => (having_other G x (hne q hq)).symm
  obtain ⟨_, _, b3⟩ := step_next w (having G p x) G n fun q hq => having_other G x (hne q hq)
  have hfs : having (w.step G n).1 p x = (w.step (having G p x) n).1 := by
    funext q
    by_cases hq : q = p
    · subst hq
      rw [having_self, b3 q hn, having_self]
    · rw [having_other _ _ hq]
      exact b2 q (having_other G x hq).symm
  rw [hfs, a1, b1]
  exact worker_step w (having G p x) n hv

/-! ## The writer -/

/-- The writer has not touched `p` yet; `c` is what is there now and `c₀` what was there at first. -/
def Before (p : Str) (c₀ c : Option Bytes) (w : Worker) : Prop := c = c₀ ∧ w.prog.Tail p

/-- The writer is writing `new`, or has written it. -/
def During (p : Str) (new : Bytes) (c : Option Bytes) (w : Worker) : Prop :=
  ∃ d, c = some d ∧ d <+: new ∧
    (w.prog = .write p new (.ret (.ok ())) ∧ w.moved.getD [] = d ∨ w.prog = .ret (.ok ()) ∧ d = new)

theorem tail_step {p : Str} (w : Worker) (F : FileSystem) (n : Nat) (h : w.prog.Tail p) :
    ((w.step F n).1 p = F p ∧ (w.step F n).2.prog.Tail p) ∨ ∃ b, During p b ((w.step F n).1 p) (w.step F n).2 := by
  obtain ⟨prog, moved, i, o⟩ := w
  cases h with
  | ret r => exact .inl ⟨rfl, .ret _⟩
  | stdin k h => exact .inl ⟨rfl, h _⟩
  | read q k h =>
    refine .inl ?_
    unfold Worker.step
    cases moved with
    | none =>
      simp only
      split
      · exact ⟨rfl, h _⟩
      · exact ⟨rfl, .read _ _ h⟩
    | some got =>
      simp only
      split
      · exact ⟨rfl, h _⟩
      · exact ⟨rfl, .read _ _ h⟩
  | stat q k h => exact .inl ⟨rfl, h _⟩
  | print b k h => exact .inl ⟨rfl, h⟩
  | done b => exact .inr ⟨b, [], if_pos rfl, List.nil_prefix, .inl ⟨rfl, rfl⟩⟩

theorem during_step {p : Str} {new : Bytes} (w : Worker) (F : FileSystem) (n : Nat) (h : During p new (F p) w) :
    During p new ((w.step F n).1 p) (w.step F n).2 := by
  obtain ⟨prog, moved, i, o⟩ := w
  obtain ⟨d, h1, h2, ⟨h3, h4⟩ | ⟨h3, h4⟩⟩ := h
  · simp only at h3 h4
    subst h3
    unfold Worker.step
    simp only [if_true, h1, Option.getD_some, h4, writeAt_spec (List.prefix_refl d) h2]
    have h5 := piece_prefix h2 (n + 1)
    have h6 : d.drop (d ++ (new.drop d.length).take (n + 1)).length = [] := List.drop_eq_nil_of_le (by simp)
    rw [h6, List.append_nil]
    generalize d ++ (new.drop d.length).take (n + 1) = d' at h5
    split
    · rename_i hl
      exact ⟨d', rfl, h5, .inr ⟨rfl, h5.eq_of_length_le hl⟩⟩
    · exact ⟨d', rfl, h5, .inl ⟨rfl, rfl⟩⟩
  · simp only at h3
    subst h3
    exact ⟨d, h1, h2, .inr ⟨rfl, h4⟩⟩

/-- What a writer in the middle of its writing will come to. -/
theorem during_exec {p : Str} {new : Bytes} {w : Worker} {F : FileSystem} (h : During p new (F p) w) :
    (w.prog.exec ⟨F, w.stdin, w.stdout⟩).1 = .ok () ∧ (w.prog.exec ⟨F, w.stdin, w.stdout⟩).2.files p = some new := by
  obtain ⟨d, h1, h2, ⟨h3, _⟩ | ⟨h3, h4⟩⟩ := h
  · rw [h3]
    simp only [Prog.exec, if_true, h1, Option.getD_some, List.drop_eq_nil_of_le h2.length_le, List.append_nil, and_self]
  · rw [h3]
    exact ⟨rfl, h4 ▸ h1⟩

/-- The contents that a command leaves in `p`, if it succeeds. -/
def Makes (env : Env) (c : Command) (stdin : Bytes) (fs : FileSystem) (p : Str) (new : Bytes) : Prop :=
  (run env c ⟨fs, stdin, []⟩).1 = .ok () ∧ doing env c stdin fs p = some new

theorem writer_phase (env : Env) {c : Command} {p : Str} (hc : target c = some p) (stdin : Bytes) (fs : FileSystem) (ns : List Nat) :
    Before p (fs p) ((alone ⟨program env c, none, stdin, []⟩ fs ns).1 p) (alone ⟨program env c, none, stdin, []⟩ fs ns).2 ∨
    ∃ new, Makes env c stdin fs p new ∧
      During p new ((alone ⟨program env c, none, stdin, []⟩ fs ns).1 p) (alone ⟨program env c, none, stdin, []⟩ fs ns).2 := by
  induction ns using List.reverseRecOn with
  | nil => exact .inl ⟨rfl, tail_program env c p hc⟩
  | append_singleton ns n ih =>
    have he := (alone_exec ⟨program env c, none, stdin, []⟩ fs (ns ++ [n]) valid_fresh).2
    rw [alone_snoc] at he ⊢
    rcases ih with ⟨h1, h2⟩ | ⟨new, hm, hd⟩
    · rcases tail_step _ _ n h2 with ⟨h3, h4⟩ | ⟨b, hb⟩
      · exact .inl ⟨h3.trans h1, h4⟩
      · refine .inr ⟨b, ?_, hb⟩
        obtain ⟨e1, e2⟩ := during_exec hb
        rw [he] at e1 e2
        simp only [exec_program] at e1 e2
        exact ⟨e1, e2⟩
    · exact .inr ⟨new, hm, during_step _ _ n hd⟩

/-! ## The readers -/

/-- What a reader has got so far of `p`. -/
def Part (p : Str) (c₀ : Option Bytes) (c : Option Bytes) (writer : Worker) (Mk : Bytes → Prop) (got : Bytes) : Prop :=
  (Before p c₀ c writer ∧ ∃ old, c₀ = some old ∧ got <+: old) ∨
  ∃ new, Mk new ∧ During p new c writer ∧ ∃ r, r ≤ (c₀.getD []).length ∧ r ≤ got.length ∧
    got = (c₀.getD []).take r ++ (new.drop r).take (got.length - r)

/-- What a reader can have found in `p`. -/
def View (c₀ : Option Bytes) (Mk : Bytes → Prop) (x : Option Bytes) : Prop :=
  x = c₀ ∨ ∃ new b, Mk new ∧ x = some b ∧ Mixture (c₀.getD []) new b

/-- Where a reader can be. -/
def ReaderAt (env : Env) (c : Command) (stdin : Bytes) (fs : FileSystem) (p : Str) (Mk : Bytes → Prop) (F : FileSystem) (writer w : Worker) : Prop :=
  ∃ G : FileSystem, (∀ q, Touches c q → q ≠ p → F q = G q) ∧
    ((w.prog.Once p ∧ (∀ x, w.Valid (having G p x)) ∧
        ∀ x, w.prog.exec ⟨having G p x, w.stdin, w.stdout⟩ = run env c ⟨having fs p x, stdin, []⟩) ∨
     (∃ k got, w.prog = .read p k ∧ w.moved = some got ∧ (∀ b, (k b).Without p) ∧ Part p (fs p) (F p) writer Mk got ∧
        ∀ x, w.prog.exec ⟨having G p x, w.stdin, w.stdout⟩ = run env c ⟨having fs p x, stdin, []⟩) ∨
     (w.prog.Without p ∧ ∃ x, View (fs p) Mk x ∧ w.Valid (having G p x) ∧
        w.prog.exec ⟨having G p x, w.stdin, w.stdout⟩ = run env c ⟨having fs p x, stdin, []⟩))

theorem mixture_more {old new d got : Bytes} {r n : Nat} (hd : d <+: new) (hr : r ≤ old.length) (hg : r ≤ got.length)
    (h : got = old.take r ++ (new.drop r).take (got.length - r)) :
    got ++ (d.drop got.length).take n =
      old.take r ++ (new.drop r).take ((got ++ (d.drop got.length).take n).length - r) := by
  have h1 : (d.drop got.length).take n = (new.drop got.length).take ((d.drop got.length).take n).length := by
    obtain ⟨e, rfl⟩ := hd
    by_cases hl : got.length ≤ d.length
    · rw [List.drop_append_of_le_length hl, List.take_append_of_le_length (by simp; omega)]
      simp
    · rw [List.drop_eq_nil_of_le (by omega : d.length ≤ got.length)]
      simp
  generalize (d.drop got.length).take n = piece at h1 ⊢
  rw [List.length_append, show got.length + piece.length - r = (got.length - r) + piece.length by omega, List.take_add, ← List.append_assoc, ← h,
    List.drop_drop, show r + (got.length - r) = got.length by omega, ← h1]

/-- A turn of the reader. -/
theorem reader_turn (env : Env) {c : Command} {stdin : Bytes} {fs : FileSystem} {p : Str} {Mk : Bytes → Prop} {F : FileSystem} {writer w : Worker}
    (n : Nat) (hw : w.prog.Within (Touches c) (WritesTo c)) (hc : target c ≠ some p)
    (hph : Before p (fs p) (F p) writer ∨ ∃ new, Mk new ∧ During p new (F p) writer)
    (h : ReaderAt env c stdin fs p Mk F writer w) : ReaderAt env c stdin fs p Mk (w.step F n).1 writer (w.step F n).2 := by
  have hFp : (w.step F n).1 p = F p := (worker_agrees (changes_touches c) w hw n F F fun _ _ => rfl).2.2.1 p fun ht => hc ht.1
  obtain ⟨G, hG, h⟩ := h
  rcases h with ⟨h1, h2, h3⟩ | ⟨k, got, h1, h2, h3, h4, h5⟩ | ⟨h1, x, h2, h3, h4⟩
  · by_cases hn : w.prog.Next p
    · obtain ⟨prog, moved, i, o⟩ := w
      cases prog with
      | ret r => exact hn.elim
      | stdin k => exact hn.elim
      | read q k =>
        cases hn
        have hk : ∀ b, (k b).Without p := by
          have h' := h1
          unfold Prog.Once at h'
          rwa [if_pos rfl] at h'
        cases moved with
        | some got =>
          obtain ⟨b, hb, _⟩ := h2 none
          rw [having_self] at hb
          cases hb
        | none =>
          unfold Worker.step
          simp only
          cases hF : F p with
          | none =>
            simp only
            refine ⟨G, hG, .inr (.inr ⟨hk _, none, ?_, valid_fresh, ?_⟩)⟩
            · rcases hph with ⟨hb, _⟩ | ⟨new, _, d, hd, _⟩
              · exact .inl (hF.symm.trans hb)
              · rw [hF] at hd; cases hd
            · rw [← h3 none]
              simp only [Prog.exec, having_self]
          | some b =>
            simp only
            refine ⟨G, hG, .inr (.inl ⟨k, [], rfl, rfl, hk, ?_, h3⟩)⟩
            rcases hph with hb | ⟨new, hm, hd⟩
            · refine .inl ⟨hb, b, ?_, List.nil_prefix⟩
              exact hb.1.symm.trans hF
            · exact .inr ⟨new, hm, hd, 0, Nat.zero_le _, Nat.zero_le _, by simp⟩
      | stat q k => cases hn; exact absurd rfl h1.1
      | trunc q k => cases hn; exact absurd rfl h1.1
      | write q b k => cases hn; exact absurd rfl h1.1
      | print b k => exact hn.elim
    · obtain ⟨g1, g2⟩ := ghost_step w n hw hn hG
      exact ⟨_, g1, .inl ⟨once_step w F n h1 hn, fun x => (g2 x (h2 x)).1, fun x => (g2 x (h2 x)).2.trans (h3 x)⟩⟩
  · obtain ⟨prog, moved, i, o⟩ := w
    simp only at h1 h2
    subst h1 h2
    unfold Worker.step
    simp only
    split
    · rename_i hp
      refine ⟨G, hG, .inr (.inr ⟨h3 _, some got, ?_, valid_fresh, ?_⟩)⟩
      · rcases h4 with ⟨hb, old, ho, hg⟩ | ⟨new, hm, _, r, hr, hrg, hgot⟩
        · left
          have : F p = some old := hb.1.trans ho
          rw [this, Option.getD_some] at hp
          rw [ho]
          obtain ⟨e, rfl⟩ := hg
          rw [List.drop_left] at hp
          cases e with
          | nil => simp
          | cons x e => simp at hp
        · exact .inr ⟨new, got, hm, rfl, r, _, hr, hgot⟩
      · rw [← h5 (some got)]
        simp only [Prog.exec, having_self]
    · refine ⟨G, hG, .inr (.inl ⟨k, _, rfl, rfl, h3, ?_, h5⟩)⟩
      rcases h4 with ⟨hb, old, ho, hg⟩ | ⟨new, hm, hd, r, hr, hrg, hgot⟩
      · refine .inl ⟨hb, old, ho, ?_⟩
        rw [show F p = some old from hb.1.trans ho]
        exact piece_prefix hg (n + 1)
      · refine .inr ⟨new, hm, hd, r, hr, by simp; omega, ?_⟩
        obtain ⟨d, hd1, hd2, _⟩ := hd
        rw [hd1, Option.getD_some]
        exact mixture_more hd2 hr hrg hgot
  · have hn : ¬ w.prog.Next p := fun hn => next_within (S := fun q => q ≠ p) (T := fun q => q ≠ p) (fun _ h => h) h1 hn rfl
    obtain ⟨g1, g2⟩ := ghost_step w n hw hn hG
    exact ⟨_, g1, .inr (.inr ⟨(worker_agrees (fun _ h => h) w h1 n F F fun _ _ => rfl).2.2.2, x, h2, (g2 x h3).1, (g2 x h3).2.trans h4⟩)⟩

/-- A turn of the writer. -/
theorem writer_turn (env : Env) {c : Command} {stdin : Bytes} {fs : FileSystem} {p : Str} {Mk : Bytes → Prop} {F F' : FileSystem} {writer writer' w : Worker}
    (hF : ∀ q, q ≠ p → F' q = F q)
    (hph : Before p (fs p) (F' p) writer' ∨ ∃ new, Mk new ∧ During p new (F' p) writer')
    (hd : ∀ new, During p new (F p) writer → During p new (F' p) writer')
    (h : ReaderAt env c stdin fs p Mk F writer w) : ReaderAt env c stdin fs p Mk F' writer' w := by
  obtain ⟨G, hG, h⟩ := h
  refine ⟨G, fun q hq hqp => (hF q hqp).trans (hG q hq hqp), ?_⟩
  rcases h with h | ⟨k, got, h1, h2, h3, h4, h5⟩ | h
  · exact .inl h
  · refine .inr (.inl ⟨k, got, h1, h2, h3, ?_, h5⟩)
    rcases h4 with ⟨hb, old, ho, hg⟩ | ⟨new, hm, hdu, r⟩
    · rcases hph with hb' | ⟨new, hm, hdu⟩
      · exact .inl ⟨hb', old, ho, hg⟩
      · refine .inr ⟨new, hm, hdu, got.length, ?_, Nat.le_refl _, ?_⟩
        · rw [ho]; exact hg.length_le
        · rw [ho, Option.getD_some, Nat.sub_self, List.take_zero, List.append_nil]
          exact (List.prefix_iff_eq_take.1 hg)
    · exact .inr ⟨new, hm, hd new hdu, r⟩
  · exact .inr (.inr h)

/-- A turn of another command. -/
theorem other_turn (env : Env) {c : Command} {stdin : Bytes} {fs : FileSystem} {p : Str} {Mk : Bytes → Prop} {F F' : FileSystem} {writer w : Worker}
    (hp : F' p = F p) (hF : ∀ q, Touches c q → F' q = F q)
    (h : ReaderAt env c stdin fs p Mk F writer w) : ReaderAt env c stdin fs p Mk F' writer w := by
  obtain ⟨G, hG, h⟩ := h
  refine ⟨G, fun q hq hqp => (hF q hq).trans (hG q hq hqp), ?_⟩
  rw [hp]
  exact h

end Verif.Cmd
