import Verif.Proofs.EndlessDirs

/-!
# The parents of subdirectories of a ProDOS volume that is not known to be well-formed
-/

set_option autoImplicit false
set_option maxRecDepth 20000

namespace Verif.Prodos

open Verif Verif.Disk Verif.Spec Verif.Spec.Prodos

theorem owner_unique {img : Bytes} {b k k' : Nat} (h : Owner img b k) (h' : Owner img b k') : k = k' := by
  obtain ⟨n, l, h1, h2, h3, h4⟩ := h
  obtain ⟨n', l', h1', h2', h3', h4'⟩ := h'
  rcases Nat.lt_trichotomy n n' with hn | hn | hn
  · exact absurd h3' (h4 n' k' l' hn h1' h2')
  · subst hn; exact comesTo_unique h1 h1'
  · exact absurd h3 (h4' n k l hn h1 h2)

theorem up_unique {img : Bytes} {k j j' : Nat} (h : Up img k j) (h' : Up img k j') : j = j' := by
  obtain ⟨_, hs, h⟩ := h
  obtain ⟨_, hs', h'⟩ := h'
  rcases h with h | ⟨h, ho⟩ <;> rcases h' with h' | ⟨h', ho'⟩
  · rw [← h, ← h']
  · rw [h] at h'; exact absurd hs h'
  · rw [h'] at h; exact absurd hs' h
  · exact owner_unique ho ho'

theorem endlessUp_step {img : Bytes} {k : Nat} (h : EndlessUp img k) : ∃ j, Up img k j ∧ EndlessUp img j := by
  obtain ⟨j, h1, h2⟩ := h
  rcases Relation.ReflTransGen.cases_head h1 with rfl | ⟨i, hi, h1⟩
  · obtain ⟨i, hi, h3⟩ := Relation.TransGen.head'_iff.1 h2
    exact ⟨i, hi, k, h3, h2⟩
  · exact ⟨i, hi, j, h1, h2⟩

theorem endlessUp_of {img : Bytes} {k j : Nat} (h : Up img k j) (hj : EndlessUp img j) : EndlessUp img k := by
  obtain ⟨i, h1, h2⟩ := hj
  exact ⟨i, .head h h1, h2⟩

theorem lost_iff {img : Bytes} {k j : Nat} (h : Up img k j) : Lost img k ↔ Lost img j := by
  constructor
  · rintro ⟨i, h1, h2, h3⟩
    rcases Relation.ReflTransGen.cases_head h1 with rfl | ⟨i', hi, h1⟩
    · exact absurd h (h3 j)
    · rw [up_unique h hi]
      exact ⟨i, h1, h2, h3⟩
  · rintro ⟨i, h1, h2, h3⟩
    exact ⟨i, .head h h1, h2, h3⟩

/-- What is known once all directories have been read. -/
structure ReadAll (img : Bytes) (bb : GoMap UInt16 Subdirectory) (f : GoMap UInt16 UInt16) : Prop where
  complete : Complete img bb f
  owner : ∀ b k : UInt16, f.get? b = some k ↔ Owner img b.toNat k.toNat

theorem readAll_of {img : Bytes} {bb : GoMap UInt16 Subdirectory} {f : GoMap UInt16 UInt16} {M : Nat} (hM : ToRead img M []) (hc : Complete img bb f)
    (ho : Owned img M f) : ReadAll img bb f := by
  refine ⟨hc, fun b k => (ho b k).trans ?_⟩
  have hlt : ∀ n k, ComesTo img n k → n < M := by
    rintro n k ⟨q, hq⟩
    by_contra hn
    by_cases e : n = M
    · subst e; cases toRead_unique hM hq
    · obtain ⟨k', _, ⟨q', hq'⟩, _⟩ := toRead_before hq M (by omega)
      cases toRead_unique hM hq'
  constructor
  · rintro ⟨n, l, _, h2, h3, h4, h5⟩
    exact ⟨n, l, h2, h3, h4, fun n' k' l' a1 a2 => h5 n' k' l' a1 (hlt _ _ a2) a2⟩
  · rintro ⟨n, l, h2, h3, h4, h5⟩
    exact ⟨n, l, hlt _ _ h2, h2, h3, h4, fun n' k' l' a1 _ => h5 n' k' l' a1⟩

variable {img : Bytes} {bb : GoMap UInt16 Subdirectory} {f : GoMap UInt16 UInt16}

theorem atTop_iff (hr : ReadAll img bb f) {k : Nat} {p : UInt16} (hp : p.toNat = parentPointer img k) :
    (p = 2 ∨ (f.get? p).getD 0 = 2) ↔ AtTop img k := by
  unfold AtTop
  rw [← hp, show (2 : Nat) = (2 : UInt16).toNat from rfl, UInt16.toNat_inj]
  refine or_congr Iff.rfl ?_
  rw [← hr.owner]
  cases f.get? p with
  | none => simp
  | some x => simp

theorem get_subdir (hr : ReadAll img bb f) (p : UInt16) : (∃ s, bb.get? p = some s) ↔ Subdir img p.toNat := by
  rw [GoMap.get?_isSome_iff]
  constructor
  · intro h
    obtain ⟨s, hs⟩ := GoMap.get?_isSome_iff.2 h
    exact (hr.complete.sound p s hs).1
  · intro h
    obtain ⟨k', h1, h2⟩ := hr.complete.all _ h
    rw [← UInt16.toNat_inj.1 h2]; exact h1

theorem findParent_some (hr : ReadAll img bb f) {k : Nat} {p : UInt16} (hp : p.toNat = parentPointer img k) (ht : ¬ AtTop img k) {sd : Subdirectory}
    (h : findParent bb f p = some sd) : ∃ (j : UInt16) (l : List Nat), Up img k j.toNat ∧ DirBlocks img j.toNat l ∧ sd = subOf img j l := by
  unfold findParent at h
  cases hb : bb.get? p with
  | some s =>
    rw [hb] at h
    obtain ⟨h1, l, h2, h3⟩ := hr.complete.sound p s hb
    exact ⟨p, l, ⟨ht, h1, Or.inl hp.symm⟩, h2, by rw [← h3]; exact (Option.some.inj h).symm⟩
  | none =>
    rw [hb] at h
    dsimp only at h
    cases hf : f.get? p with
    | none => rw [hf] at h; cases h
    | some x =>
      rw [hf] at h
      obtain ⟨h1, l, h2, h3⟩ := hr.complete.sound x sd h
      refine ⟨x, l, ⟨ht, h1, Or.inr ⟨?_, ?_⟩⟩, h2, h3⟩
      · rw [← hp]
        intro hc
        obtain ⟨s, hs⟩ := (get_subdir hr p).2 hc
        rw [hb] at hs; cases hs
      · rw [← hp]; exact (hr.owner p x).1 hf

theorem owner_lt {img : Bytes} {b k : Nat} (h : Owner img b k) : k < 65536 := by
  obtain ⟨n, l, ⟨q, hq⟩, _⟩ := h
  rcases toRead_subdir hq k List.mem_cons_self with ⟨_, rfl⟩ | h
  · omega
  · exact Subdir.lt h

theorem findParent_none (hr : ReadAll img bb f) {k : Nat} {p : UInt16} (hp : p.toNat = parentPointer img k)
    (h : findParent bb f p = none) (j : Nat) : ¬ Up img k j := by
  rintro ⟨_, hs, hj⟩
  unfold findParent at h
  cases hb : bb.get? p with
  | some s => rw [hb] at h; cases h
  | none =>
    rw [hb] at h
    dsimp only at h
    have hn : ¬ Subdir img p.toNat := fun hc => by
      obtain ⟨s, hs⟩ := (get_subdir hr p).2 hc
      rw [hb] at hs; cases hs
    rcases hj with e | ⟨_, ho⟩
    · rw [hp, e] at hn; exact hn hs
    · have hlt := Subdir.lt hs
      obtain ⟨x, rfl⟩ : ∃ x : UInt16, x.toNat = j := ⟨UInt16.ofNat j, toNat_ofNat hlt⟩
      rw [← hp, ← hr.owner] at ho
      rw [ho] at h
      dsimp only at h
      obtain ⟨s, hx⟩ := (get_subdir hr x).2 hs
      rw [hx] at h; cases h

theorem parentDirName_endless (hr : ReadAll img bb f) (n : Nat) : ∀ (k : Nat) (p : UInt16), EndlessUp img k → p.toNat = parentPointer img k →
    parentDirName n p 2 bb f = .timeout := by
  induction n with
  | zero =>
    intro k p hk hp
    obtain ⟨j, hj, _⟩ := endlessUp_step hk
    rw [parentDirName, if_neg fun h => hj.1 ((atTop_iff hr hp).1 h)]
    cases hf : findParent bb f p with
    | none => exact absurd hj (findParent_none hr hp hf j)
    | some sd => rfl
  | succ n ih =>
    intro k p hk hp
    obtain ⟨j, hj, hje⟩ := endlessUp_step hk
    rw [parentDirName, if_neg fun h => hj.1 ((atTop_iff hr hp).1 h)]
    cases hf : findParent bb f p with
    | none => exact absurd hj (findParent_none hr hp hf j)
    | some sd =>
      obtain ⟨x, l, hx, hl, rfl⟩ := findParent_some hr hp hj.1 hf
      rw [up_unique hj hx] at hje
      dsimp only
      rw [ih x.toNat (subOf img x l).keyBlock.header.parentPointer hje (subKey_parent img x)]
      rfl

/-- If the parents of a subdirectory come to an end, so does finding its name: with the name, or an error. -/
theorem parentDirName_settles (img : Bytes) : ∀ k, Subdir img k → ¬ EndlessUp img k → ∃ n₀, ∀ n, n₀ ≤ n → ∀ bb f, ReadAll img bb f → ∀ p : UInt16,
    p.toNat = parentPointer img k → (Lost img k → (parentDirName n p 2 bb f).isErr) ∧ (¬ Lost img k → (parentDirName n p 2 bb f).isOk) := by
  have wf := wf_of_acyclic 65536 (fun a b => Subdir img a ∧ ¬ EndlessUp img a ∧ Up img a b)
    (fun a b h => ⟨Subdir.lt h.1, Subdir.lt h.2.2.2.1⟩) (fun k hk => by
      have hs : ¬ EndlessUp img k := by
        obtain ⟨i, hi, _⟩ := Relation.TransGen.head'_iff.1 hk
        exact hi.2.1
      exact hs ⟨k, .refl, transGen_imp (fun _ _ h => h.2.2) hk⟩)
  intro k
  induction k using wf.induction with
  | _ k ih =>
    intro hs hne
    by_cases hup : ∃ j, Up img k j
    · obtain ⟨j, hj⟩ := hup
      obtain ⟨n₀, h0⟩ := ih j ⟨hs, hne, hj⟩ hj.2.1 fun hc => hne (endlessUp_of hj hc)
      refine ⟨n₀ + 1, fun n hn bb f hr p hp => ?_⟩
      obtain ⟨m, rfl⟩ : ∃ m, n = m + 1 := ⟨n - 1, by omega⟩
      rw [lost_iff hj, parentDirName, if_neg fun h => hj.1 ((atTop_iff hr hp).1 h)]
      cases hf : findParent bb f p with
      | none => exact absurd hj (findParent_none hr hp hf j)
      | some sd =>
        obtain ⟨x, l, hx, hl, rfl⟩ := findParent_some hr hp hj.1 hf
        obtain rfl := up_unique hj hx
        obtain ⟨h1, h2⟩ := h0 m (by omega) bb f hr (subOf img x l).keyBlock.header.parentPointer (subKey_parent img x)
        dsimp only
        constructor
        · intro hl
          have := h1 hl
          cases hq : parentDirName m (subOf img x l).keyBlock.header.parentPointer 2 bb f <;> rw [hq] at this <;> simp at this ⊢
        · intro hl
          have := h2 hl
          cases hq : parentDirName m (subOf img x l).keyBlock.header.parentPointer 2 bb f with
          | ok r => rw [Out.bind_ok, joinPath_eq]; rfl
          | err e => rw [hq] at this; simp at this
          | panic => rw [hq] at this; simp at this
          | timeout => rw [hq] at this; simp at this
    · refine ⟨0, fun n _ bb f hr p hp => ?_⟩
      rw [parentDirName.eq_def]
      by_cases ht : AtTop img k
      · rw [if_pos ((atTop_iff hr hp).2 ht)]
        refine ⟨?_, fun _ => rfl⟩
        rintro ⟨j, h1, h2, h3⟩
        rcases Relation.ReflTransGen.cases_head h1 with rfl | ⟨i, hi, _⟩
        · exact absurd ht h2
        · exact absurd ⟨i, hi⟩ hup
      · rw [if_neg fun h => ht ((atTop_iff hr hp).1 h)]
        cases hf : findParent bb f p with
        | none => exact ⟨fun _ => rfl, fun hl => absurd ⟨k, .refl, ht, fun i hi => hup ⟨i, hi⟩⟩ hl⟩
        | some sd =>
          obtain ⟨x, l, hx, _⟩ := findParent_some hr hp ht hf
          exact absurd ⟨_, hx⟩ hup

theorem lost_not_endless {img : Bytes} {k : Nat} (h : Lost img k) : ¬ EndlessUp img k := by
  obtain ⟨j, h1, _, h3⟩ := h
  induction h1 using Relation.ReflTransGen.head_induction_on with
  | refl =>
    intro he
    obtain ⟨i, hi, _⟩ := endlessUp_step he
    exact h3 i hi
  | head h _ ih =>
    intro he
    obtain ⟨i, hi, he⟩ := endlessUp_step he
    rw [← up_unique h hi] at he
    exact ih he

end Verif.Prodos
