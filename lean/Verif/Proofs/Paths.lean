import Verif.Props.Endless
import Verif.Spec.Paths

/-!
# Paths of subdirectories, and the order in which maps are visited
-/

set_option autoImplicit false
set_option maxRecDepth 20000

namespace Verif.Prodos

open Verif Verif.Disk Verif.Spec Verif.Spec.Prodos

theorem atTop_not_up {img : Bytes} {k j : Nat} (h : AtTop img k) : ¬ Up img k j := fun hu => hu.1 h

theorem pathOf_unique {img : Bytes} {k : Nat} {p q : Str} (h : PathOf img k p) (h' : PathOf img k q) : p = q := by
  induction h generalizing q with
  | top ht =>
    cases h' with
    | top => rfl
    | under hu _ => exact absurd hu (atTop_not_up ht)
  | under hu _ ih =>
    cases h' with
    | top ht => exact absurd hu (atTop_not_up ht)
    | under hu' hp =>
      obtain rfl := up_unique hu hu'
      rw [ih hp]

theorem pathOf_not_lost {img : Bytes} {k : Nat} {p : Str} (h : PathOf img k p) : ¬ Lost img k := by
  induction h with
  | top ht =>
    rintro ⟨j, h1, h2, h3⟩
    rcases Relation.ReflTransGen.cases_head h1 with rfl | ⟨i, hi, _⟩
    · exact h2 ht
    · exact atTop_not_up ht hi
  | under hu _ ih => rw [lost_iff hu]; exact ih

theorem pathOf_not_endless {img : Bytes} {k : Nat} {p : Str} (h : PathOf img k p) : ¬ EndlessUp img k := by
  induction h with
  | top ht =>
    intro he
    obtain ⟨i, hi, _⟩ := endlessUp_step he
    exact atTop_not_up ht hi
  | under hu _ ih =>
    intro he
    obtain ⟨i, hi, hi'⟩ := endlessUp_step he
    rw [← up_unique hu hi] at hi'
    exact ih hi'

theorem pathOf_exists {img : Bytes} {k : Nat} (hs : Subdir img k) (hne : ¬ EndlessUp img k) (hl : ¬ Lost img k) : ∃ p, PathOf img k p := by
  have wf := wf_of_acyclic 65536 (fun a b => Subdir img a ∧ ¬ EndlessUp img a ∧ Up img a b)
    (fun a b h => ⟨Subdir.lt h.1, Subdir.lt h.2.2.2.1⟩) (fun k hk => by
      have hs : ¬ EndlessUp img k := by
        obtain ⟨i, hi, _⟩ := Relation.TransGen.head'_iff.1 hk
        exact hi.2.1
      exact hs ⟨k, .refl, transGen_imp (fun _ _ h => h.2.2) hk⟩)
  induction k using wf.induction with
  | _ k ih =>
    by_cases ht : AtTop img k
    · exact ⟨_, .top ht⟩
    · by_cases hup : ∃ j, Up img k j
      · obtain ⟨j, hj⟩ := hup
        obtain ⟨p, hp⟩ := ih j ⟨hs, hne, hj⟩ hj.2.1 (fun hc => hne (endlessUp_of hj hc)) (fun hc => hl ((lost_iff hj).2 hc))
        exact ⟨_, .under hj hp⟩
      · exact absurd ⟨k, .refl, ht, fun i hi => hup ⟨i, hi⟩⟩ hl

/-- The name of the parent directory, when there is one, gives the path. -/
theorem parentDirName_path {img : Bytes} {bb : GoMap UInt16 Subdirectory} {f : GoMap UInt16 UInt16} (hr : ReadAll img bb f) (n : Nat) :
    ∀ (k : Nat) (p : UInt16) (r : Str), p.toNat = parentPointer img k → parentDirName n p 2 bb f = .ok r → PathOf img k (joinPath r (headerName img k)) := by
  induction n with
  | zero =>
    intro k p r hp h
    rw [parentDirName] at h
    by_cases ht : AtTop img k
    · rw [if_pos ((atTop_iff hr hp).2 ht)] at h
      cases h
      exact .top ht
    · rw [if_neg fun h => ht ((atTop_iff hr hp).1 h)] at h
      cases hf : findParent bb f p <;> rw [hf] at h <;> cases h
  | succ n ih =>
    intro k p r hp h
    rw [parentDirName] at h
    by_cases ht : AtTop img k
    · rw [if_pos ((atTop_iff hr hp).2 ht)] at h
      cases h
      exact .top ht
    · rw [if_neg fun h => ht ((atTop_iff hr hp).1 h)] at h
      cases hf : findParent bb f p with
      | none => rw [hf] at h; cases h
      | some sd =>
        rw [hf] at h
        obtain ⟨x, l, hx, hl, rfl⟩ := findParent_some hr hp ht hf
        dsimp only at h
        rw [Out.bind_eq_ok] at h
        obtain ⟨q, hq, h⟩ := h
        rw [joinPath_eq] at h
        have hn : (subOf img x l).keyBlock.header.name = headerName img x.toNat := subKey_name hl.1
        rw [hn] at h
        cases h
        exact .under hx (ih _ _ _ (subKey_parent img x) hq)

theorem path_parentDirName {img : Bytes} {k : Nat} {q : Str} (h : PathOf img k q) : ∃ n₀, ∀ n, n₀ ≤ n → ∀ bb f, ReadAll img bb f → ∀ p : UInt16,
    p.toNat = parentPointer img k → ∃ r, parentDirName n p 2 bb f = .ok r := by
  induction h with
  | top ht => exact ⟨0, fun n _ bb f hr p hp => ⟨[], by rw [parentDirName.eq_def, if_pos ((atTop_iff hr hp).2 ht)]⟩⟩
  | @under k j _ hu _ ih =>
    obtain ⟨n₀, h0⟩ := ih
    refine ⟨n₀ + 1, fun n hn bb f hr p hp => ?_⟩
    obtain ⟨m, rfl⟩ : ∃ m, n = m + 1 := ⟨n - 1, by omega⟩
    rw [parentDirName, if_neg fun h => hu.1 ((atTop_iff hr hp).1 h)]
    cases hf : findParent bb f p with
    | none => exact absurd hu (findParent_none hr hp hf j)
    | some sd =>
      obtain ⟨x, l, hx, hl, rfl⟩ := findParent_some hr hp hu.1 hf
      obtain rfl := up_unique hu hx
      obtain ⟨r, hr'⟩ := h0 m (by omega) bb f hr (subOf img x l).keyBlock.header.parentPointer (subKey_parent img x)
      dsimp only
      rw [hr', Out.bind_ok, joinPath_eq]
      exact ⟨_, rfl⟩

theorem pathName_path {img : Bytes} {bb : GoMap UInt16 Subdirectory} {f : GoMap UInt16 UInt16} (hr : ReadAll img bb f) {n : Nat} {k : UInt16} {l : List Nat}
    {r : Str} (hd : DirBlocks img k.toNat l) (h : pathName n bb f (subOf img k l) = .ok r) : PathOf img k.toNat r := by
  unfold pathName at h
  rw [Out.bind_eq_ok] at h
  obtain ⟨p, hp, h⟩ := h
  have hname : (subOf img k l).keyBlock.header.name = headerName img k.toNat := subKey_name hd.1
  rw [hname] at h
  cases h
  exact parentDirName_path hr n _ _ _ (subKey_parent img k) hp

/-- Given enough time, every subdirectory that has a path gets it. -/
theorem paths_found (img : Bytes) : ∃ n₀, ∀ n, n₀ ≤ n → ∀ bb f, ReadAll img bb f → ∀ (k : UInt16) (l : List Nat) (q : Str), DirBlocks img k.toNat l → PathOf img k.toNat q →
    pathName n bb f (subOf img k l) = .ok q := by
  obtain ⟨n₀, h0⟩ := eventually_all (fun k n => (∃ q, PathOf img k q) → ∀ bb f, ReadAll img bb f → ∀ p : UInt16,
      p.toNat = parentPointer img k → ∃ r, parentDirName n p 2 bb f = .ok r) 65536 (fun k _ => by
    by_cases h : ∃ q, PathOf img k q
    · obtain ⟨n₀, h0⟩ := path_parentDirName h.choose_spec
      exact ⟨n₀, fun n hn _ => h0 n hn⟩
    · exact ⟨0, fun n _ h' => absurd h' h⟩)
  refine ⟨n₀, fun n hn bb f hr k l q hd hq => ?_⟩
  obtain ⟨r, hr'⟩ := h0 k.toNat k.toNat_lt n hn ⟨q, hq⟩ bb f hr (subOf img k l).keyBlock.header.parentPointer (subKey_parent img k)
  have e : pathName n bb f (subOf img k l) = .ok (joinPath r (subOf img k l).keyBlock.header.name) := by
    unfold pathName
    rw [hr']
    rfl
  rw [e, pathOf_unique hq (pathName_path hr hd e)]

/-- The order that visits the entry `e` last. -/
def last (e : UInt16 × Subdirectory) : RangeOrder UInt16 Subdirectory where
  visit m := if e ∈ m then m.erase e ++ [e] else m
  perm m := by
    by_cases h : e ∈ m
    · rw [if_pos h]
      exact (List.perm_append_comm).trans (List.perm_cons_erase h).symm
    · rw [if_neg h]

end Verif.Prodos
