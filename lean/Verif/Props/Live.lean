import Verif.Spec.Live
import Verif.Props.Mixed
import Mathlib.Data.Set.Finite.Lattice

/-!
# C106: no command waits for another
-/

set_option autoImplicit false

namespace Verif.Cmd
open Disk Spec

/-! ## Programs are well-founded -/

/-- `q` is what can remain to be done of `p` after its first system call is complete. -/
inductive Next : Prog Unit → Prog Unit → Prop
  | stdin (k : Bytes → Prog Unit) (b : Bytes) : Next (k b) (.stdin k)
  | read (p : Str) (k : Option Bytes → Prog Unit) (b : Option Bytes) : Next (k b) (.read p k)
  | stat (p : Str) (k : Bool → Prog Unit) (b : Bool) : Next (k b) (.stat p k)
  | trunc (p : Str) (k : Prog Unit) : Next k (.trunc p k)
  | write (p : Str) (b : Bytes) (k : Prog Unit) : Next k (.write p b k)
  | print (b : Bytes) (k : Prog Unit) : Next k (.print b k)

theorem next_acc (p : Prog Unit) : Acc Next p := by
  induction p with
  | ret o => exact ⟨_, fun q h => by cases h⟩
  | stdin k ih => exact ⟨_, fun q h => by cases h; exact ih _⟩
  | read p k ih => exact ⟨_, fun q h => by cases h; exact ih _⟩
  | stat p k ih => exact ⟨_, fun q h => by cases h; exact ih _⟩
  | trunc p k ih => exact ⟨_, fun q h => by cases h; exact ih⟩
  | write p b k ih => exact ⟨_, fun q h => by cases h; exact ih⟩
  | print b k ih => exact ⟨_, fun q h => by cases h; exact ih⟩

/-- A turn either completes a call or leaves the program where it is: at its end, or in a reading or writing that has come further. -/
theorem turn_next (fs : Str → Option Bytes) (p : Worker) (n : Nat) :
    Next (p.step fs n).2.prog p.prog ∨
    (p.step fs n).2.prog = p.prog ∧
      ((∃ o, p.prog = .ret o ∧ p.step fs n = (fs, p)) ∨
       (∃ q k, p.prog = .read q k ∧ (p.step fs n).1 = fs ∧
         ((p.moved = none ∧ (p.step fs n).2.moved = some []) ∨
          ∃ got got', p.moved = some got ∧ (p.step fs n).2.moved = some got' ∧ got.length < got'.length ∧ got'.length ≤ ((fs q).getD []).length)) ∨
       (∃ q b k, p.prog = .write q b k ∧ ∃ d', (p.step fs n).2.moved = some d' ∧ (p.moved.getD []).length < d'.length ∧ d'.length < b.length)) := by
  obtain ⟨prog, moved, stdin, stdout⟩ := p
  cases prog with
  | ret o => exact Or.inr ⟨rfl, Or.inl ⟨o, rfl, rfl⟩⟩
  | stdin k => exact Or.inl (.stdin k _)
  | read q k =>
    cases moved with
    | none =>
      cases hq : fs q with
      | none =>
        left
        simp only [Worker.step, hq]
        exact .read q k none
      | some d =>
        right
        simp only [Worker.step, hq]
        exact ⟨trivial, Or.inr (Or.inl ⟨q, k, rfl, trivial, Or.inl ⟨trivial, trivial⟩⟩)⟩
    | some got =>
      by_cases hp : (((fs q).getD []).drop got.length).take (n + 1) = []
      · left
        simp only [Worker.step, if_pos hp]
        exact .read q k _
      · right
        simp only [Worker.step, if_neg hp]
        have h1 := List.length_pos_iff.2 hp
        have h2 : ((((fs q).getD []).drop got.length).take (n + 1)).length ≤ ((fs q).getD []).length - got.length := by
          rw [List.length_take, List.length_drop]; omega
        refine ⟨trivial, Or.inr (Or.inl ⟨q, k, rfl, trivial, Or.inr ⟨got, _, rfl, rfl, ?_, ?_⟩⟩)⟩
        · rw [List.length_append]; omega
        · rw [List.length_append]; omega
  | stat q k => exact Or.inl (.stat q k _)
  | trunc q k => exact Or.inl (.trunc q k)
  | write q b k =>
    by_cases hb : b.length ≤ (moved.getD [] ++ (b.drop (moved.getD []).length).take (n + 1)).length
    · left
      simp only [Worker.step, if_pos hb]
      exact .write q b k
    · right
      simp only [Worker.step, if_neg hb]
      refine ⟨trivial, Or.inr (Or.inr ⟨q, b, k, rfl, _, rfl, ?_, by omega⟩)⟩
      rw [List.length_append, List.length_take, List.length_drop] at hb ⊢
      omega
  | print b k => exact Or.inl (.print b k)

/-! ## Endless schedules -/

theorem no_endless_descent {f : Nat → Nat} {t : Nat} (h1 : ∀ n, t ≤ n → f (n + 1) ≤ f n) (h2 : ∀ n, t ≤ n → ∃ m, n ≤ m ∧ f (m + 1) < f m) : False := by
  have mono : ∀ n d, t ≤ n → f (n + d) ≤ f n := by
    intro n d hn
    induction d with
    | zero => exact Nat.le_refl _
    | succ d ih => exact Nat.le_trans (h1 (n + d) (by omega)) ih
  have key : ∀ v n, t ≤ n → f n = v → False := by
    intro v
    induction v using Nat.strongRecOn with
    | ind v ih =>
      intro n hn e
      obtain ⟨m, hm, hlt⟩ := h2 n hn
      have := mono n (m - n) hn
      rw [show n + (m - n) = m by omega] at this
      exact ih (f (m + 1)) (by omega) (m + 1) (by omega) rfl
  exact key _ t (Nat.le_refl _) rfl

variable {ι : Type} [DecidableEq ι]

theorem after_other (s : Crew ι) (turns : Nat → ι × Nat) {n : Nat} {i : ι} (h : (turns n).1 ≠ i) :
    (Crew.after s turns (n + 1)).workers i = (Crew.after s turns n).workers i := by
  show (if i = (turns n).1 then _ else _) = _
  rw [if_neg (fun e => h e.symm)]

theorem after_own (s : Crew ι) (turns : Nat → ι × Nat) {n : Nat} {i : ι} (h : (turns n).1 = i) :
    (Crew.after s turns (n + 1)).workers i = (((Crew.after s turns n).workers i).step (Crew.after s turns n).files (turns n).2).2 ∧
    (Crew.after s turns (n + 1)).files = (((Crew.after s turns n).workers i).step (Crew.after s turns n).files (turns n).2).1 := by
  subst h
  refine ⟨?_, rfl⟩
  show (if _ = (turns n).1 then _ else _) = _
  rw [if_pos rfl]

/-- Every command completes its last call at some time. -/
theorem settles (s : Crew ι) (turns : Nat → ι × Nat) (i : ι) :
    ∃ t, ∀ n, t ≤ n → ¬ Next ((Crew.after s turns (n + 1)).workers i).prog ((Crew.after s turns n).workers i).prog := by
  have key : ∀ p, ∀ n, ((Crew.after s turns n).workers i).prog = p →
      ∃ t, ∀ n, t ≤ n → ¬ Next ((Crew.after s turns (n + 1)).workers i).prog ((Crew.after s turns n).workers i).prog := by
    intro p
    induction next_acc p with
    | intro p _ ih =>
      intro n hn
      by_contra hc
      have hc' : ∀ t, ∃ m, t ≤ m ∧ Next ((Crew.after s turns (m + 1)).workers i).prog ((Crew.after s turns m).workers i).prog := by
        intro t
        by_contra h
        exact hc ⟨t, fun m hm hx => h ⟨m, hm, hx⟩⟩
      -- the first completed call after time `n`
      have hex := hc' n
      classical
      have h1 := Nat.find_spec hex
      have h2 : ∀ d, n + d ≤ Nat.find hex → ((Crew.after s turns (n + d)).workers i).prog = p := by
        intro d
        induction d with
        | zero => exact fun _ => hn
        | succ d ihd =>
          intro hd
          have hp := ihd (by omega)
          have hno := Nat.find_min hex (m := n + d) (by omega)
          by_cases ht : (turns (n + d)).1 = i
          · rcases turn_next (Crew.after s turns (n + d)).files ((Crew.after s turns (n + d)).workers i) (turns (n + d)).2 with h | ⟨h, _⟩
            · rw [← (after_own s turns ht).1] at h
              exact absurd ⟨by omega, h⟩ hno
            · rw [← (after_own s turns ht).1] at h
              rw [show n + (d + 1) = n + d + 1 by omega, h, hp]
          · rw [show n + (d + 1) = n + d + 1 by omega, after_other s turns ht, hp]
      have h3 := h2 (Nat.find hex - n) (by have := h1.1; omega)
      rw [show n + (Nat.find hex - n) = Nat.find hex by have := h1.1; omega] at h3
      have h4 := h1.2
      rw [h3] at h4
      exact hc (ih _ h4 _ rfl)
  exact key _ 0 rfl

/-- When it has settled it stays in the same call. -/
theorem settled_prog (s : Crew ι) (turns : Nat → ι × Nat) {i : ι} {t : Nat}
    (h : ∀ n, t ≤ n → ¬ Next ((Crew.after s turns (n + 1)).workers i).prog ((Crew.after s turns n).workers i).prog) (d : Nat) :
    ((Crew.after s turns (t + d)).workers i).prog = ((Crew.after s turns t).workers i).prog := by
  induction d with
  | zero => rfl
  | succ d ih =>
    rw [show t + (d + 1) = t + d + 1 by omega, ← ih]
    by_cases ht : (turns (t + d)).1 = i
    · rcases turn_next (Crew.after s turns (t + d)).files ((Crew.after s turns (t + d)).workers i) (turns (t + d)).2 with h' | ⟨h', _⟩
      · rw [← (after_own s turns ht).1] at h'
        exact absurd h' (h _ (by omega))
      · rw [← (after_own s turns ht).1] at h'
        exact h'
    · rw [after_other s turns ht]

/-- A writing cannot go on for ever. -/
theorem no_endless_write (s : Crew ι) (turns : Nat → ι × Nat) {i : ι} {t : Nat}
    (ht : ∀ n, t ≤ n → ¬ Next ((Crew.after s turns (n + 1)).workers i).prog ((Crew.after s turns n).workers i).prog) (hk : KeepsGoing turns i)
    {n : Nat} (hn : t ≤ n) {q : Str} {b : Bytes} {k : Prog Unit} (hp : ((Crew.after s turns n).workers i).prog = .write q b k) : False := by
  have hprog := settled_prog s turns ht
  have hstay : ∀ m, n ≤ m → ((Crew.after s turns m).workers i).prog = .write q b k := by
    intro m hm
    rw [← hp, show m = t + (m - t) by omega, show n = t + (n - t) by omega, hprog, hprog]
  have hdown : ∀ m, n ≤ m → (turns m).1 = i → b.length - (((Crew.after s turns (m + 1)).workers i).moved.getD []).length <
      b.length - (((Crew.after s turns m).workers i).moved.getD []).length := by
    intro m hm hi
    have hown := after_own s turns hi
    rcases turn_next (Crew.after s turns m).files ((Crew.after s turns m).workers i) (turns m).2 with h | ⟨_, h | h | h⟩
    · rw [← hown.1] at h
      exact absurd h (ht m (by omega))
    · obtain ⟨o, h, _⟩ := h
      rw [hstay m hm] at h
      cases h
    · obtain ⟨q', k', h, _⟩ := h
      rw [hstay m hm] at h
      cases h
    · obtain ⟨q', b', k', h, d', h1, h2, h3⟩ := h
      rw [hstay m hm] at h
      cases h
      rw [← hown.1] at h1
      rw [h1, Option.getD_some]
      omega
  refine no_endless_descent (t := n) (f := fun m => b.length - (((Crew.after s turns m).workers i).moved.getD []).length) ?_ ?_
  · intro m hm
    by_cases hi : (turns m).1 = i
    · exact Nat.le_of_lt (hdown m hm hi)
    ·       rw [after_other s turns hi]
  · intro m hm
    obtain ⟨m', h1, h2⟩ := hk m
    exact ⟨m', h1, hdown m' (by omega) h2⟩

/-- From some time on it changes no file. -/
theorem settles_files (s : Crew ι) (turns : Nat → ι × Nat) (i : ι) :
    ∃ t, ∀ n, t ≤ n → (turns n).1 = i → (Crew.after s turns (n + 1)).files = (Crew.after s turns n).files := by
  obtain ⟨t, ht⟩ := settles s turns i
  have hprog := settled_prog s turns ht
  by_cases hk : KeepsGoing turns i
  · refine ⟨t, fun n hn hi => ?_⟩
    have hown := after_own s turns hi
    rcases turn_next (Crew.after s turns n).files ((Crew.after s turns n).workers i) (turns n).2 with h | ⟨_, h | h | h⟩
    · rw [← hown.1] at h
      exact absurd h (ht n hn)
    · obtain ⟨o, _, h⟩ := h
      rw [hown.2, h]
    · obtain ⟨q, k, _, h, _⟩ := h
      rw [hown.2, h]
    · -- a writing cannot go on for ever
      exfalso
      obtain ⟨q, b, k, hp, _⟩ := h
      exact no_endless_write s turns ht hk hn hp
  · unfold KeepsGoing at hk
    rw [not_forall] at hk
    obtain ⟨u, hu⟩ := hk
    exact ⟨u, fun n hn hi => absurd ⟨n, hn, hi⟩ hu⟩

/-- From some time on the files do not change any more. -/
theorem quiet [Finite ι] (s : Crew ι) (turns : Nat → ι × Nat) :
    ∃ t, ∀ n, t ≤ n → (Crew.after s turns n).files = (Crew.after s turns t).files := by
  choose t ht using settles_files s turns
  obtain ⟨u, hu⟩ := (Set.finite_range t).bddAbove
  have hstep : ∀ n, u ≤ n → (Crew.after s turns (n + 1)).files = (Crew.after s turns n).files := fun n hn =>
    ht (turns n).1 n (Nat.le_trans (hu ⟨_, rfl⟩) hn) rfl
  refine ⟨u, fun n hn => ?_⟩
  obtain ⟨d, rfl⟩ := Nat.exists_eq_add_of_le hn
  clear hn
  induction d with
  | zero => rfl
  | succ d ih => rw [← ih]; exact hstep (u + d) (by omega)

/-- How much there is still to read, of a file of length `l`. -/
def toRead (l : Nat) (w : Worker) : Nat :=
  match w.moved with
  | none => l + 1
  | some got => l - got.length

/-- Nor can a reading, if the file does not change any more. -/
theorem no_endless_read (s : Crew ι) (turns : Nat → ι × Nat) {i : ι} {t₁ t₂ : Nat}
    (ht : ∀ n, t₁ ≤ n → ¬ Next ((Crew.after s turns (n + 1)).workers i).prog ((Crew.after s turns n).workers i).prog) (hk : KeepsGoing turns i)
    (hq : ∀ n, t₂ ≤ n → (Crew.after s turns n).files = (Crew.after s turns t₂).files)
    {n : Nat} (h1 : t₁ ≤ n) (h2 : t₂ ≤ n) {q : Str} {k : Option Bytes → Prog Unit} (hp : ((Crew.after s turns n).workers i).prog = .read q k) : False := by
  have hprog := settled_prog s turns ht
  have hstay : ∀ m, n ≤ m → ((Crew.after s turns m).workers i).prog = .read q k := by
    intro m hm
    rw [← hp, show m = t₁ + (m - t₁) by omega, show n = t₁ + (n - t₁) by omega, hprog, hprog]
  have hdown : ∀ m, n ≤ m → (turns m).1 = i → toRead (((Crew.after s turns t₂).files q).getD []).length ((Crew.after s turns (m + 1)).workers i) <
      toRead (((Crew.after s turns t₂).files q).getD []).length ((Crew.after s turns m).workers i) := by
    intro m hm hi
    have hown := after_own s turns hi
    rcases turn_next (Crew.after s turns m).files ((Crew.after s turns m).workers i) (turns m).2 with h | ⟨_, h | h | h⟩
    · rw [← hown.1] at h
      exact absurd h (ht m (by omega))
    · obtain ⟨o, h, _⟩ := h
      rw [hstay m hm] at h
      cases h
    · obtain ⟨q', k', h, _, h'⟩ := h
      rw [hstay m hm] at h
      cases h
      rw [← hown.1, hq m (by omega)] at h'
      rcases h' with ⟨e1, e2⟩ | ⟨got, got', e1, e2, e3, e4⟩
      · unfold toRead
        rw [e1, e2]
        dsimp only
        omega
      · unfold toRead
        rw [e1, e2]
        dsimp only
        omega
    · obtain ⟨q', b', k', h, _⟩ := h
      rw [hstay m hm] at h
      cases h
  refine no_endless_descent (t := n)
    (f := fun m => toRead (((Crew.after s turns t₂).files q).getD []).length ((Crew.after s turns m).workers i)) ?_ ?_
  · intro m hm
    by_cases hi : (turns m).1 = i
    · exact Nat.le_of_lt (hdown m hm hi)
    · rw [after_other s turns hi]
  · intro m hm
    obtain ⟨m', h1, h2⟩ := hk m
    exact ⟨m', h1, hdown m' (by omega) h2⟩

/-- A command that gets turns again and again ends. -/
theorem keeps_ends [Finite ι] (s : Crew ι) (turns : Nat → ι × Nat) {i : ι} (hk : KeepsGoing turns i) :
    ∃ o t, ∀ n, t ≤ n → Finished (Crew.after s turns n) i o := by
  obtain ⟨t₁, ht⟩ := settles s turns i
  obtain ⟨t₂, hq⟩ := quiet s turns
  have hprog := settled_prog s turns ht
  have hst : ∀ m, t₁ ≤ m → ((Crew.after s turns m).workers i).prog = ((Crew.after s turns t₁).workers i).prog := by
    intro m hm
    rw [show m = t₁ + (m - t₁) by omega, hprog]
  obtain ⟨m, hm, hi⟩ := hk (max t₁ t₂)
  have hown := after_own s turns hi
  have hm1 : t₁ ≤ m := by omega
  have hm2 : t₂ ≤ m := by omega
  rcases turn_next (Crew.after s turns m).files ((Crew.after s turns m).workers i) (turns m).2 with h | ⟨_, h | h | h⟩
  · rw [← hown.1] at h
    exact absurd h (ht m hm1)
  · obtain ⟨o, h, _⟩ := h
    rw [hst m hm1] at h
    exact ⟨o, t₁, fun n hn => (hst n hn).trans h⟩
  · exfalso
    obtain ⟨q, k, hp, _⟩ := h
    exact no_endless_read s turns ht hk hq hm1 hm2 hp
  · exfalso
    obtain ⟨q, b, k, hp, _⟩ := h
    exact no_endless_write s turns ht hk hm1 hp

/-- C106: of any number of commands that run at the same time, whatever files they share, every one that keeps getting turns ends, whatever the
others do, and also if they have died or are never heard of again.  (In the model a command that goes round in circles by itself has ended with the
outcome `timeout`: it makes no further system calls.) -/
theorem C106_ends (env : Env) [Finite ι] (cmds : ι → Command) (stdin : ι → Bytes) (fs : FileSystem) (turns : Nat → ι × Nat) {i : ι}
    (hk : KeepsGoing turns i) : ∃ o t, ∀ n, t ≤ n → Finished (Crew.after (Crew.start env fs cmds stdin) turns n) i o :=
  keeps_ends _ turns hk

/-- C106: if all keep getting turns, there comes a time when all have ended and nothing changes any more. -/
theorem C106_all_end (env : Env) [Finite ι] (cmds : ι → Command) (stdin : ι → Bytes) (fs : FileSystem) (turns : Nat → ι × Nat)
    (hk : ∀ i, KeepsGoing turns i) : ∃ t, (∀ i, ∃ o, Finished (Crew.after (Crew.start env fs cmds stdin) turns t) i o) ∧
      ∀ n, t ≤ n → Crew.after (Crew.start env fs cmds stdin) turns n = Crew.after (Crew.start env fs cmds stdin) turns t := by
  choose o t ht using fun i => C106_ends env cmds stdin fs turns (hk i)
  obtain ⟨u, hu⟩ := (Set.finite_range t).bddAbove
  refine ⟨u, fun i => ⟨o i, ht i u (hu ⟨_, rfl⟩)⟩, fun n hn => ?_⟩
  obtain ⟨d, rfl⟩ := Nat.exists_eq_add_of_le hn
  clear hn
  induction d with
  | zero => rfl
  | succ d ih =>
    rw [← ih]
    have hf := ht (turns (u + d)).1 (u + d) (Nat.le_trans (hu ⟨_, rfl⟩) (by omega))
    unfold Finished at hf
    show Crew.step (Crew.after (Crew.start env fs cmds stdin) turns (u + d)) (turns (u + d)) = _
    generalize Crew.after (Crew.start env fs cmds stdin) turns (u + d) = c at hf
    unfold Crew.step
    have e : ((c.workers (turns (u + d)).1).step c.files (turns (u + d)).2) = (c.files, c.workers (turns (u + d)).1) := by
      unfold Worker.step
      rw [hf]
    rw [e]
    obtain ⟨f, w⟩ := c
    congr 1
    funext j
    split
    · rename_i h; rw [h]
    · rfl

/-- Non-vacuity of C106: two commands on the same file, turn by turn; and the same if one of them dies after three turns. -/
example : (∀ i, KeepsGoing (fun n => (decide (n % 2 = 0), n)) i) ∧ KeepsGoing (fun n => (decide (5 < n), n)) true ∧
    ¬ KeepsGoing (fun n => (decide (5 < n), n)) false := by
  refine ⟨?_, fun n => ⟨n + 6, by omega, ?_⟩, fun h => ?_⟩
  · intro i n
    cases i
    · exact ⟨2 * n + 1, by omega, decide_eq_false (by omega)⟩
    · exact ⟨2 * n, by omega, decide_eq_true (by omega)⟩
  · show decide (5 < n + 6) = true; exact decide_eq_true (by omega)
  · obtain ⟨m, h1, h2⟩ := h 6
    rw [decide_eq_false_iff_not] at h2
    omega

end Verif.Cmd
