import Verif.Props.SupermonSym

/-!
# C68: symbols grouped by address
-/

set_option autoImplicit false

namespace Verif.Supermon
open Spec

theorem groupByAddress_get (st : SymbolTable) (m : GoMap UInt16 (List Symbol)) (a : UInt16) :
    (groupByAddress st m).get? a =
      if a ≠ 0 ∧ ∃ s ∈ st, s.address = a then some ((m.get? a).getD [] ++ st.filter fun s => s.address = a) else m.get? a := by
  induction st generalizing m with
  | nil => simp [groupByAddress]
  | cons s st ih =>
    rw [groupByAddress]
    by_cases hs : s.address ≠ 0
    · rw [if_pos hs, ih, GoMap.get?_set]
      by_cases ha : s.address = a
      · subst ha
        simp only [if_true, Option.getD_some, ne_eq, hs, not_false_eq_true, true_and, List.mem_cons, exists_eq_or_imp, true_or,
          List.filter_cons, decide_true, List.append_assoc, List.singleton_append]
        split
        · rfl
        · rename_i hno
          have : st.filter (fun x => decide (x.address = s.address)) = [] := by
            rw [List.filter_eq_nil_iff]
            intro x hx
            simpa using fun e => hno ⟨x, hx, e⟩
          rw [this]
      · have ha' : a ≠ s.address := fun e => ha e.symm
        rw [if_neg ha']
        simp only [List.mem_cons, exists_eq_or_imp, ha, false_or, List.filter_cons, decide_false, Bool.false_eq_true, if_false]
    · rw [if_neg hs, ih]
      have h0 : s.address = 0 := by simpa using hs
      by_cases ha : a = 0
      · simp [ha]
      · have : ¬ s.address = a := by rw [h0]; exact fun e => ha e.symm
        simp only [List.mem_cons, exists_eq_or_imp, this, false_or, List.filter_cons, decide_false, Bool.false_eq_true, if_false]

theorem groupByAddress_keys (st : SymbolTable) (m : GoMap UInt16 (List Symbol)) (h : m.keys.Nodup) : (groupByAddress st m).keys.Nodup := by
  induction st generalizing m with
  | nil => exact h
  | cons s st ih =>
    rw [groupByAddress]
    split
    · exact ih _ (GoMap.nodup_set h _ _)
    · exact ih _ h

/-- C68: grouping by address lists, for every address other than 0 that some entry of the table
has, exactly the entries with that address in table order, and nothing else. -/
theorem C68_by_address (st : SymbolTable) :
    (symbolsByAddress st).keys.Nodup ∧
    ∀ a l, (symbolsByAddress st).get? a = some l ↔ a ≠ 0 ∧ l ≠ [] ∧ l = st.filter fun s => s.address = a := by
  refine ⟨groupByAddress_keys st [] (by simp [GoMap.keys]), ?_⟩
  intro a l
  unfold symbolsByAddress
  rw [groupByAddress_get]
  simp only [GoMap.get?_nil, Option.getD_none, List.nil_append]
  split
  · rename_i h
    simp only [Option.some.injEq]
    constructor
    · rintro rfl
      refine ⟨h.1, ?_, rfl⟩
      obtain ⟨s, hs, e⟩ := h.2
      exact List.ne_nil_of_mem (List.mem_filter.2 ⟨hs, by simpa using e⟩)
    · exact fun h => h.2.2.symm
  · rename_i h
    simp only [reduceCtorEq, false_iff]
    rintro ⟨h0, h1, h2⟩
    apply h
    refine ⟨h0, ?_⟩
    rw [h2] at h1
    obtain ⟨s, hs⟩ := List.exists_mem_of_ne_nil _ h1
    obtain ⟨hs, e⟩ := List.mem_filter.1 hs
    exact ⟨s, hs, by simpa using e⟩

/-- C68: the query for one address agrees with the grouping, and every symbol with an address is
found by both. -/
theorem C68_for_address (st : SymbolTable) :
    (∀ a, a ≠ 0 → symbolsForAddress st a = ((symbolsByAddress st).get? a).getD []) ∧
    (∀ s ∈ st, s.address ≠ 0 → s ∈ symbolsForAddress st s.address ∧ ∃ l, (symbolsByAddress st).get? s.address = some l ∧ s ∈ l) ∧
    (∀ a, ∀ s ∈ symbolsForAddress st a, s ∈ st ∧ s.address = a) := by
  have key : ∀ a, a ≠ 0 → symbolsForAddress st a = ((symbolsByAddress st).get? a).getD [] := by
    intro a ha
    cases h : (symbolsByAddress st).get? a with
    | some l =>
      obtain ⟨_, _, e⟩ := ((C68_by_address st).2 a l).1 h
      rw [e]; rfl
    | none =>
      by_contra hc
      have : (symbolsByAddress st).get? a = some (st.filter fun s => s.address = a) :=
        ((C68_by_address st).2 a _).2 ⟨ha, hc, rfl⟩
      rw [h] at this
      simp at this
  refine ⟨key, ?_, ?_⟩
  · intro s hs h0
    have hm : s ∈ symbolsForAddress st s.address := List.mem_filter.2 ⟨hs, by simp⟩
    refine ⟨hm, _, ((C68_by_address st).2 s.address _).2 ⟨h0, List.ne_nil_of_mem hm, rfl⟩, hm⟩
  · intro a s hs
    obtain ⟨h1, h2⟩ := List.mem_filter.1 hs
    exact ⟨h1, by simpa using h2⟩

/-- Non-vacuity: two symbols share an address. -/
example : (symbolsByAddress [⟨5, str "AAA", 0⟩, ⟨0, [], 0⟩, ⟨7, str "BBB", 0⟩, ⟨5, str "CCC", 0⟩]).get? 5 =
    some [⟨5, str "AAA", 0⟩, ⟨5, str "CCC", 0⟩] := by decide +kernel

end Verif.Supermon
