import Verif.Go.Basic

/-!
# Go maps

A map is an association list with distinct keys, newest first.  `for k, v := range m` visits the
entries in an order the program cannot rely on; code that ranges over a map takes the order as a
parameter of type `RangeOrder`.
-/

set_option autoImplicit false

namespace Verif

/-- A Go `map[κ]ν`. -/
abbrev GoMap (κ ν : Type) := List (κ × ν)

namespace GoMap

variable {κ ν : Type} [DecidableEq κ]

/-- `m[k]`, with the `ok` result as `some`/`none`. -/
def get? (m : GoMap κ ν) (k : κ) : Option ν := (m.find? fun e => e.1 = k).map (·.2)

/-- `m[k] = v` -/
def set (m : GoMap κ ν) (k : κ) (v : ν) : GoMap κ ν := (k, v) :: m.filter fun e => e.1 ≠ k

/-- The keys. -/
def keys (m : GoMap κ ν) : List κ := m.map (·.1)

@[simp] theorem get?_nil (k : κ) : get? ([] : GoMap κ ν) k = none := rfl

theorem get?_set (m : GoMap κ ν) (k : κ) (v : ν) (j : κ) :
    (m.set k v).get? j = if j = k then some v else m.get? j := by
  unfold get? set
  rw [List.find?_cons]
  by_cases h : j = k
  · subst h; simp
  · rw [if_neg h]
    have h' : ¬ k = j := fun e => h e.symm
    simp only [h', decide_false]
    congr 1
    induction m with
    | nil => rfl
    | cons e m ih =>
      rw [List.filter_cons]
      by_cases he : e.1 = k
      · have : ¬ e.1 = j := by rw [he]; exact h'
        rw [if_neg (by simpa using he), List.find?_cons]
        simp only [this, decide_false]
        exact ih
      · rw [if_pos (by simpa using he), List.find?_cons, List.find?_cons]
        by_cases hj : e.1 = j
        · simp [hj]
        · simp only [hj, decide_false]; exact ih

theorem keys_set (m : GoMap κ ν) (k : κ) (v : ν) : ∀ j, j ∈ (m.set k v).keys ↔ j = k ∨ j ∈ m.keys := by
  intro j
  unfold keys set
  simp only [List.map_cons, List.mem_cons, List.mem_map, List.mem_filter]
  constructor
  · rintro (h | ⟨e, ⟨he, _⟩, rfl⟩)
    · exact Or.inl h
    · exact Or.inr ⟨e, he, rfl⟩
  · rintro (h | ⟨e, he, rfl⟩)
    · exact Or.inl h
    · by_cases h : e.1 = k
      · exact Or.inl h
      · exact Or.inr ⟨e, ⟨he, by simpa using h⟩, rfl⟩

theorem nodup_set {m : GoMap κ ν} (h : m.keys.Nodup) (k : κ) (v : ν) : (m.set k v).keys.Nodup := by
  unfold keys set at *
  rw [List.map_cons, List.nodup_cons]
  constructor
  · rw [List.mem_map]
    rintro ⟨e, he, rfl⟩
    have := (List.mem_filter.1 he).2
    simp at this
  · exact h.sublist (List.Sublist.map _ List.filter_sublist)

theorem mem_of_get? {m : GoMap κ ν} {k : κ} {v : ν} (h : m.get? k = some v) : (k, v) ∈ m := by
  unfold get? at h
  rw [Option.map_eq_some_iff] at h
  obtain ⟨e, he, rfl⟩ := h
  have h1 := List.find?_some he
  have h2 := List.mem_of_find?_eq_some he
  simp only [decide_eq_true_eq] at h1
  rw [← h1]; exact h2

theorem get?_of_mem {m : GoMap κ ν} (hn : m.keys.Nodup) {k : κ} {v : ν} (h : (k, v) ∈ m) :
    m.get? k = some v := by
  induction m with
  | nil => simp at h
  | cons e m ih =>
    unfold keys at hn
    rw [List.map_cons, List.nodup_cons] at hn
    unfold get?
    rw [List.find?_cons]
    rcases List.mem_cons.1 h with he | h
    · rw [← he]; simp
    · have hne : ¬ e.1 = k := fun hk => hn.1 (List.mem_map.2 ⟨(k, v), h, hk.symm⟩)
      simp only [hne, decide_false]
      exact ih hn.2 h

theorem get?_isSome_iff {m : GoMap κ ν} {k : κ} : (∃ v, m.get? k = some v) ↔ k ∈ m.keys := by
  constructor
  · rintro ⟨v, h⟩
    exact List.mem_map.2 ⟨(k, v), mem_of_get? h, rfl⟩
  · intro h
    obtain ⟨e, he, rfl⟩ := List.mem_map.1 h
    unfold get?
    have : (m.find? fun x => x.1 = e.1).isSome := List.find?_isSome.2 ⟨e, he, by simp⟩
    obtain ⟨x, hx⟩ := Option.isSome_iff_exists.1 this
    exact ⟨x.2, by rw [hx]; rfl⟩

end GoMap

/-- The order in which `range` visits the entries of a map: any rearrangement of them. -/
structure RangeOrder (κ ν : Type) where
  visit : GoMap κ ν → List (κ × ν)
  perm : ∀ m, (visit m).Perm m

/-- The order that visits a map as it is stored. -/
def RangeOrder.stored {κ ν : Type} : RangeOrder κ ν := ⟨id, fun _ => .refl _⟩

/-- The opposite order. -/
def RangeOrder.reversed {κ ν : Type} : RangeOrder κ ν := ⟨List.reverse, fun m => List.reverse_perm m⟩

end Verif
