import Verif.Spec.Dos3
import Mathlib.Data.Fintype.Pigeonhole
import Mathlib.Data.Fintype.Prod
import Mathlib.Data.Fintype.Card

/-!
# Chains of linked sectors
-/

set_option autoImplicit false

namespace Verif.Spec

variable {img : Bytes} {good : Nat × Nat → Prop}

theorem Chain.unique {p : Nat × Nat} {l m : List (Nat × Nat)} (h : Chain img good p l)
    (k : Chain img good p m) : l = m := by
  induction h generalizing m with
  | done =>
    cases k with
    | done => rfl
    | step h0 _ _ => exact absurd rfl h0
  | step h0 h1 h2 ih =>
    cases k with
    | done => exact absurd rfl h0
    | step _ _ k2 => rw [ih k2]

theorem Chain.suffix {p : Nat × Nat} {l : List (Nat × Nat)} (h : Chain img good p l)
    {q : Nat × Nat} (hq : q ∈ l) : ∃ pre post, l = pre ++ q :: post ∧ Chain img good q (q :: post) := by
  induction h with
  | done => simp at hq
  | @step p rest h0 h1 h2 ih =>
    rcases List.mem_cons.1 hq with e | hq
    · subst e; exact ⟨[], rest, rfl, .step h0 h1 h2⟩
    · obtain ⟨pre, post, e, hc⟩ := ih hq
      exact ⟨p :: pre, post, by rw [e]; rfl, hc⟩

theorem Chain.nodup {p : Nat × Nat} {l : List (Nat × Nat)} (h : Chain img good p l) : l.Nodup := by
  induction h with
  | done => exact List.nodup_nil
  | @step p rest h0 h1 h2 ih =>
    rw [List.nodup_cons]
    refine ⟨fun hm => ?_, ih⟩
    obtain ⟨pre, post, e, hc⟩ := h2.suffix hm
    have := Chain.unique hc (.step h0 h1 h2)
    simp only [List.cons.injEq, true_and] at this
    have hl := congrArg List.length e
    rw [this] at hl
    simp at hl
    omega

theorem Chain.all_good {p : Nat × Nat} {l : List (Nat × Nat)} (h : Chain img good p l) :
    ∀ q ∈ l, good q ∧ q ≠ (0, 0) := by
  induction h with
  | done => simp
  | step h0 h1 h2 ih =>
    intro q hq
    rcases List.mem_cons.1 hq with e | hq
    · subst e; exact ⟨h1, h0⟩
    · exact ih q hq

theorem walk_succ (img : Bytes) (p : Nat × Nat) (n : Nat) :
    walk img p (n + 1) = walk img (linkOf img p) n := by
  induction n with
  | zero => rfl
  | succ n ih =>
    show linkOf img (walk img p (n + 1)) = _
    rw [ih]; rfl

theorem walk_add (img : Bytes) (p : Nat × Nat) (m n : Nat) :
    walk img p (m + n) = walk img (walk img p m) n := by
  induction n with
  | zero => rfl
  | succ n ih =>
    show linkOf img (walk img p (m + n)) = _
    rw [ih]; rfl

/-- A walk that has met the same sector twice only meets sectors it met before. -/
theorem walk_periodic {p : Nat × Nat} {i j : Nat} (hij : i < j) (h : walk img p i = walk img p j)
    (P : Nat × Nat → Prop) (hP : ∀ n, n < j → P (walk img p n)) (n : Nat) : P (walk img p n) := by
  induction n using Nat.strong_induction_on with
  | _ n ih =>
    by_cases hn : n < j
    · exact hP n hn
    · have : walk img p n = walk img p (n - (j - i)) := by
        have h1 : walk img p (j + (n - j)) = walk img p (i + (n - j)) := by
          rw [walk_add, walk_add, h]
        rw [show j + (n - j) = n by omega, show i + (n - j) = n - (j - i) by omega] at h1
        exact h1
      rw [this]
      exact ih _ (by omega)

/-- Among `a * b + 1` consecutive sectors of an `a` by `b` disk two are the same. -/
theorem walk_repeats {p : Nat × Nat} {a b : Nat}
    (h : ∀ n, n < a * b + 1 → (walk img p n).1 < a ∧ (walk img p n).2 < b) :
    ∃ i j, i < j ∧ j < a * b + 1 ∧ walk img p i = walk img p j := by
  let f : Fin (a * b + 1) → Fin a × Fin b := fun n => (⟨_, (h n.1 n.2).1⟩, ⟨_, (h n.1 n.2).2⟩)
  obtain ⟨x, y, hne, hxy⟩ := Fintype.exists_ne_map_eq_of_card_lt f (by simp)
  have e : walk img p x.1 = walk img p y.1 := by
    have h1 : (f x).1.1 = (f y).1.1 := by rw [hxy]
    have h2 : (f x).2.1 = (f y).2.1 := by rw [hxy]
    exact Prod.ext h1 h2
  rcases Nat.lt_or_gt_of_ne (fun h => hne (Fin.ext h)) with hlt | hlt
  · exact ⟨x.1, y.1, hlt, y.2, e⟩
  · exact ⟨y.1, x.1, hlt, x.2, e.symm⟩

/-- A nodup list of sectors of an `a` by `b` disk has at most `a * b` elements. -/
theorem nodup_length_le {l : List (Nat × Nat)} {a b : Nat} (hn : l.Nodup)
    (h : ∀ q ∈ l, q.1 < a ∧ q.2 < b) : l.length ≤ a * b := by
  have : l.toFinset ⊆ (Finset.range a) ×ˢ (Finset.range b) := by
    intro q hq
    rw [List.mem_toFinset] at hq
    rw [Finset.mem_product, Finset.mem_range, Finset.mem_range]
    exact h q hq
  have := Finset.card_le_card this
  rwa [List.toFinset_card_of_nodup hn, Finset.card_product, Finset.card_range, Finset.card_range] at this

/-- Following links either ends properly, or meets a bad sector, or goes on for ever. -/
theorem Chain.of_walk {p : Nat × Nat} {n : Nat} (h0 : walk img p n = (0, 0))
    (hk : ∀ k, k < n → walk img p k ≠ (0, 0) ∧ good (walk img p k)) :
    Chain img good p ((List.range n).map (walk img p)) := by
  induction n generalizing p with
  | zero =>
    have : p = (0, 0) := h0
    subst this; exact .done
  | succ n ih =>
    rw [List.range_succ_eq_map, List.map_cons, List.map_map]
    refine .step (hk 0 (by omega)).1 (hk 0 (by omega)).2 ?_
    have := ih (p := linkOf img p) (by rw [← walk_succ]; exact h0)
      (fun k hk' => by rw [← walk_succ]; exact hk (k + 1) (by omega))
    have e : (walk img p ∘ Nat.succ) = walk img (linkOf img p) := by
      funext k; exact walk_succ img p k
    rw [e]; exact this

theorem Chain.walk_get {p : Nat × Nat} {l : List (Nat × Nat)} (h : Chain img good p l) :
    walk img p l.length = (0, 0) ∧
    ∀ k, k < l.length → walk img p k ≠ (0, 0) ∧ good (walk img p k) := by
  induction h with
  | done => exact ⟨rfl, fun k hk => absurd hk (by simp)⟩
  | @step p rest h0 h1 h2 ih =>
    refine ⟨?_, ?_⟩
    · rw [List.length_cons, walk_succ]; exact ih.1
    · intro k hk
      cases k with
      | zero => exact ⟨h0, h1⟩
      | succ k => rw [walk_succ]; exact ih.2 k (by simpa using hk)

end Verif.Spec
