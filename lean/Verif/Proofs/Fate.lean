import Verif.Spec.Fate
import Verif.Props.PutAny

/-! # When a changed symbol table can be read again -/

set_option autoImplicit false

namespace Verif.Supermon
open Disk Spec

/-- All links are as they have to be. -/
def Readable (st : SymbolTable) : Prop := ∀ (i : Nat) (s : Symbol), st[i]? = some s → LinkOk st i s

open Classical in
theorem relink_at (i : Nat) (l : Int) : ∀ (st : SymbolTable) (j0 k : Nat) (t : Symbol), st[k]? = some t →
    (relink i l st j0)[k]? = some (if j0 + k ≠ i ∧ t.link = (i : Int) ∧
      ¬ (∃ (m : Nat) (u : Symbol), m < k ∧ j0 + m ≠ i ∧ st[m]? = some u ∧ u.link = (i : Int)) then { t with link := l } else t) := by
  intro st
  induction st with
  | nil => intro j0 k t h; simp at h
  | cons s rest ih =>
    intro j0 k t hk
    unfold relink
    cases k with
    | zero =>
      simp only [List.getElem?_cons_zero, Option.some.injEq] at hk
      subst hk
      by_cases h1 : i = j0
      · rw [if_pos h1, if_neg (by rintro ⟨h, _⟩; exact h (by omega))]; rfl
      · rw [if_neg h1]
        by_cases h2 : s.link = i
        · rw [if_pos h2, if_pos ⟨by omega, h2, by rintro ⟨m, _, hm, _⟩; omega⟩]; rfl
        · rw [if_neg h2, if_neg (by rintro ⟨_, h, _⟩; exact h2 h)]; rfl
    | succ k =>
      have hk' : rest[k]? = some t := by simpa using hk
      have shift : ¬ (i ≠ j0 ∧ s.link = (i : Int)) →
          (relink i l rest (j0 + 1))[k]? = some (if j0 + (k + 1) ≠ i ∧ t.link = (i : Int) ∧
            ¬ (∃ (m : Nat) (u : Symbol), m < k + 1 ∧ j0 + m ≠ i ∧ (s :: rest)[m]? = some u ∧ u.link = (i : Int)) then { t with link := l } else t) := by
        intro hns
        rw [ih (j0 + 1) k t hk']
        have e : (∃ (m : Nat) (u : Symbol), m < k ∧ j0 + 1 + m ≠ i ∧ rest[m]? = some u ∧ u.link = (i : Int)) ↔
            (∃ (m : Nat) (u : Symbol), m < k + 1 ∧ j0 + m ≠ i ∧ (s :: rest)[m]? = some u ∧ u.link = (i : Int)) := by
          constructor
          · rintro ⟨m, u, h1, h2, h3, h4⟩
            exact ⟨m + 1, u, by omega, by omega, by simpa using h3, h4⟩
          · rintro ⟨m, u, h1, h2, h3, h4⟩
            cases m with
            | zero =>
              simp only [List.getElem?_cons_zero, Option.some.injEq] at h3
              subst h3
              exact absurd ⟨fun e => h2 (by omega), h4⟩ hns
            | succ m => exact ⟨m, u, by omega, by omega, by simpa using h3, h4⟩
        rw [← e, show j0 + (k + 1) = j0 + 1 + k by omega]
      by_cases h1 : i = j0
      · rw [if_pos h1, List.getElem?_cons_succ]
        exact shift (fun h => h.1 h1)
      · rw [if_neg h1]
        by_cases h2 : s.link = i
        · rw [if_pos h2, List.getElem?_cons_succ, hk', if_neg]
          rintro ⟨_, _, h⟩
          exact h ⟨0, s, by omega, by omega, rfl, h2⟩
        · rw [if_neg h2, List.getElem?_cons_succ]
          exact shift (fun h => h2 h.2)

/-- One entry of the table after entry `i` was taken out and replaced. -/
theorem taken_at {st : SymbolTable} {i : Nat} {l : Int} {x : Symbol} {k : Nat} {t : Symbol} (hk : st[k]? = some t) (hki : k ≠ i) :
    (t.link = (i : Int) ∧ ¬ Earlier st i k ∧ ((relink i l st 0).set i x)[k]? = some { t with link := l }) ∨
    (¬ (t.link = (i : Int) ∧ ¬ Earlier st i k) ∧ ((relink i l st 0).set i x)[k]? = some t) := by
  have h := relink_at i l st 0 k t hk
  rw [List.getElem?_set_ne (Ne.symm hki), h]
  by_cases c : t.link = (i : Int) ∧ ¬ Earlier st i k
  · left
    refine ⟨c.1, c.2, ?_⟩
    rw [if_pos]
    refine ⟨by omega, c.1, ?_⟩
    rintro ⟨m, u, h1, h2, h3⟩
    exact c.2 ⟨m, u, h1, by omega, h3⟩
  · right
    refine ⟨c, ?_⟩
    rw [if_neg]
    rintro ⟨_, h1, h2⟩
    refine c ⟨h1, ?_⟩
    rintro ⟨m, u, h3, h4, h5⟩
    exact h2 ⟨m, u, h3, by omega, h5⟩

theorem taken_back {st : SymbolTable} {i : Nat} {l : Int} {x : Symbol} {k : Nat} {u : Symbol}
    (h : ((relink i l st 0).set i x)[k]? = some u) : (k = i ∧ u = x) ∨ (k ≠ i ∧ ∃ t, st[k]? = some t ∧ t.address = u.address) := by
  rcases getElem?_set_cases h with h | ⟨h1, h2⟩
  · exact Or.inl h
  · right
    refine ⟨h1, ?_⟩
    have hl := getElem?_lt h2
    rw [relink_length] at hl
    have hk := List.getElem?_eq_getElem hl
    refine ⟨_, hk, ?_⟩
    rcases taken_at (l := l) (x := x) hk h1 with ⟨_, _, e⟩ | ⟨_, e⟩ <;> rw [h] at e <;> cases e <;> rfl

/-- Taking an entry out and putting something else there: when the table can still be read. -/
theorem readable_taken {st : SymbolTable} {i : Nat} {s x : Symbol} (hr : Readable st) (hi : st[i]? = some s) (hs : s.address ≠ 0)
    (hx : x.address = 0 ∨ x.link = -1) :
    Readable ((relink i s.link st 0).set i x) ↔ ¬ TakingSpoils st i (symbolHash x.address) := by
  have hil : i < (relink i s.link st 0).length := by rw [relink_length]; exact getElem?_lt hi
  have hself := List.getElem?_set_self (a := x) hil
  -- entries keep their addresses
  have addr : ∀ (j : Nat) (t : Symbol), j ≠ i → st[j]? = some t →
      ∃ t', ((relink i s.link st 0).set i x)[j]? = some t' ∧ t'.address = t.address := by
    intro j t hj ht
    rcases taken_at (l := s.link) (x := x) ht hj with ⟨_, _, e⟩ | ⟨_, e⟩
    · exact ⟨_, e, rfl⟩
    · exact ⟨_, e, rfl⟩
  constructor
  · rintro h ⟨s', j, t, hi', ⟨hj, hji, hlive, hl⟩, hsp⟩
    rw [hi] at hi'
    cases hi'
    rcases taken_at (l := s.link) (x := x) hj hji with ⟨_, he, e⟩ | ⟨hn, e⟩
    · rcases hsp with ⟨h1, _⟩ | ⟨_, h1⟩
      · exact he h1
      · rcases h j _ e hlive with h2 | ⟨m, u, h2, h3, _⟩
        · simp only at h2; omega
        · simp only at h2; omega
    · rcases hsp with ⟨_, h1⟩ | ⟨h0, _⟩
      · rcases h j _ e hlive with h2 | ⟨m, u, h2, h3, h4, h5⟩
        · omega
        · have : m = i := by omega
          subst this
          rw [hself] at h4
          cases h4
          exact h1 h5.symm
      · exact hn ⟨hl, h0⟩
  · intro hno k u hk hu
    rcases taken_back hk with ⟨rfl, rfl⟩ | ⟨hki, t, ht, hta⟩
    · rcases hx with h | h
      · exact absurd h hu
      · exact Or.inl h
    · have htl : t.address ≠ 0 := by rw [hta]; exact hu
      rcases taken_at (l := s.link) (x := x) ht hki with ⟨h1, h2, e⟩ | ⟨hn, e⟩
      · rw [hk] at e
        cases e
        -- the relinked entry
        have hh : symbolHash s.address = symbolHash t.address := by
          rcases hr k t ht htl with h | ⟨m, v, h3, _, h5, h6⟩
          · omega
          · have : m = i := by omega
            subst this
            rw [hi] at h5
            cases h5
            exact h6
        rcases hr i s hi hs with h | ⟨m, v, h3, h4, h5, h6⟩
        · exact Or.inl h
        · right
          have hmk : m ≠ k := by
            rintro rfl
            exact hno ⟨s, m, t, hi, ⟨ht, hki, htl, h1⟩, Or.inr ⟨h2, h3⟩⟩
          obtain ⟨v', e1, e2⟩ := addr m v h4 h5
          exact ⟨m, v', h3, hmk, e1, by rw [e2, h6, hh]⟩
      · rw [hk] at e
        cases e
        rcases hr k u ht hu with h | ⟨m, v, h3, h4, h5, h6⟩
        · exact Or.inl h
        · right
          by_cases hmi : m = i
          · subst hmi
            refine ⟨m, x, h3, h4, hself, ?_⟩
            by_contra hc
            have he : Earlier st m k := by
              by_contra he
              exact hn ⟨h3, he⟩
            exact hno ⟨s, k, u, hi, ⟨ht, hki, hu, h3⟩, Or.inl ⟨he, fun e => hc e.symm⟩⟩
          · obtain ⟨v', e1, e2⟩ := addr m v hmi h5
            exact ⟨m, v', h3, h4, e1, by rw [e2, h6]⟩

/-- Putting something into an entry: when the table can still be read. -/
theorem readable_placed {st : SymbolTable} {p : Nat} {e x : Symbol} (hr : Readable st) (hp : st[p]? = some e) (hx : x.link = -1) :
    Readable (st.set p x) ↔ ¬ ∃ j t, LinksTo st j t p ∧ symbolHash t.address ≠ symbolHash x.address := by
  have hself : (st.set p x)[p]? = some x := List.getElem?_set_self (getElem?_lt hp)
  constructor
  · rintro h ⟨j, t, ⟨h1, h2, h3, h4⟩, hne⟩
    rcases h j t (by rw [List.getElem?_set_ne (Ne.symm h2)]; exact h1) h3 with h5 | ⟨m, u, h5, h6, h7, h8⟩
    · omega
    · have : m = p := by omega
      subst this
      rw [hself] at h7
      cases h7
      exact hne h8.symm
  · intro hno k u hk hu
    rcases getElem?_set_cases hk with ⟨rfl, rfl⟩ | ⟨hkp, hk'⟩
    · exact Or.inl hx
    · rcases hr k u hk' hu with h | ⟨m, v, h3, h4, h5, h6⟩
      · exact Or.inl h
      · right
        by_cases hm : m = p
        · subst hm
          refine ⟨m, x, h3, h4, hself, ?_⟩
          by_contra hc
          exact hno ⟨k, u, ⟨hk', hkp, hu, h3⟩, fun e => hc e.symm⟩
        · exact ⟨m, v, h3, h4, by rw [List.getElem?_set_ne (Ne.symm hm)]; exact h5, h6⟩

/-- Changing an address within its chain never spoils the table. -/
theorem readable_update {st : SymbolTable} {i : Nat} {s : Symbol} {a : UInt16} (hr : Readable st) (hi : st[i]? = some s)
    (hs : s.address ≠ 0) (hh : symbolHash s.address = symbolHash a) : Readable (st.set i { s with address := a }) := by
  have addr : ∀ (j : Nat) (t : Symbol), st[j]? = some t → ∃ t', (st.set i { s with address := a })[j]? = some t' ∧
      symbolHash t'.address = symbolHash t.address := by
    intro j t ht
    by_cases hj : j = i
    · subst hj
      rw [hi] at ht; cases ht
      exact ⟨_, List.getElem?_set_self (getElem?_lt hi), hh.symm⟩
    · exact ⟨t, by rw [List.getElem?_set_ne (Ne.symm hj)]; exact ht, rfl⟩
  intro k u hk hu
  rcases getElem?_set_cases hk with ⟨rfl, rfl⟩ | ⟨hki, hk⟩
  · rcases hr k s hi hs with h | ⟨m, v, h3, h4, h5, h6⟩
    · exact Or.inl h
    · obtain ⟨v', e1, e2⟩ := addr m v h5
      exact Or.inr ⟨m, v', h3, h4, e1, by rw [e2, h6]; exact hh⟩
  · rcases hr k u hk hu with h | ⟨m, v, h3, h4, h5, h6⟩
    · exact Or.inl h
    · obtain ⟨v', e1, e2⟩ := addr m v h5
      exact Or.inr ⟨m, v', h3, h4, e1, by rw [e2, h6]⟩

/-- Hanging the new entry onto the end of its chain makes no difference to whether the table can be read. -/
theorem readable_tail {st : SymbolTable} {p : Nat} {x : Symbol} (hp : p < st.length) :
    Readable ((linkTail (addrHash x.address) p st).set p x) ↔ Readable (st.set p x) := by
  rcases linkTail_cases (addrHash x.address) p st with e | ⟨q, sq, hq, hqh, hql, e⟩
  · rw [e]
  rw [e]
  by_cases hqp : q = p
  · subst hqp; rw [List.set_set]
  have hlen : p < (st.set q { sq with link := (p : Int) }).length := by rw [List.length_set]; exact hp
  have hself : ((st.set q { sq with link := (p : Int) }).set p x)[p]? = some x := List.getElem?_set_self hlen
  have hself' : (st.set p x)[p]? = some x := List.getElem?_set_self hp
  have hq1 : ((st.set q { sq with link := (p : Int) }).set p x)[q]? = some { sq with link := (p : Int) } := by
    rw [List.getElem?_set_ne (Ne.symm hqp), List.getElem?_set_self (getElem?_lt hq)]
  have hq2 : (st.set p x)[q]? = some sq := by rw [List.getElem?_set_ne (Ne.symm hqp)]; exact hq
  have hsame : ∀ k, k ≠ q → ((st.set q { sq with link := (p : Int) }).set p x)[k]? = (st.set p x)[k]? := by
    intro k hk
    by_cases hkp : k = p
    · subst hkp; rw [hself, hself']
    · rw [List.getElem?_set_ne (Ne.symm hkp), List.getElem?_set_ne (Ne.symm hk), List.getElem?_set_ne (Ne.symm hkp)]
  constructor
  · intro h k u hk hu
    by_cases hkq : k = q
    · subst hkq
      rw [hq2] at hk; cases hk
      exact Or.inl hql
    · rcases h k u (by rw [hsame k hkq]; exact hk) hu with h | ⟨m, v, h3, h4, h5, h6⟩
      · exact Or.inl h
      · by_cases hm : m = q
        · subst hm
          rw [hq1] at h5; cases h5
          exact Or.inr ⟨m, sq, h3, h4, hq2, h6⟩
        · exact Or.inr ⟨m, v, h3, h4, by rw [← hsame m hm]; exact h5, h6⟩
  · intro h k u hk hu
    by_cases hkq : k = q
    · subst hkq
      rw [hq1] at hk; cases hk
      exact Or.inr ⟨p, x, rfl, Ne.symm hqp, hself, (addrHash_inj.1 hqh).symm⟩
    · rcases h k u (by rw [← hsame k hkq]; exact hk) hu with h | ⟨m, v, h3, h4, h5, h6⟩
      · exact Or.inl h
      · by_cases hm : m = q
        · subst hm
          rw [hq2] at h5; cases h5
          exact Or.inr ⟨m, _, h3, h4, hq1, h6⟩
        · exact Or.inr ⟨m, v, h3, h4, by rw [hsame m hm]; exact h5, h6⟩

/-! ## Where things are -/

theorem namedAt_iff {st : SymbolTable} {n : Str} {i : Nat} {s : Symbol} : NamedAt st n i s ↔ findName st n = some i ∧ st[i]? = some s := by
  constructor
  · rintro ⟨h1, h2, h3⟩
    refine ⟨?_, h1⟩
    unfold findName
    rw [List.findIdx?_eq_some_iff_getElem]
    have hl := getElem?_lt h1
    rw [List.getElem?_eq_getElem hl] at h1
    cases h1
    refine ⟨hl, equalFold_iff.2 h2.symm, fun k hk => ?_⟩
    have := h3 k st[k] hk (List.getElem?_eq_getElem (by omega))
    intro hc
    exact this (equalFold_iff.1 hc).symm
  · rintro ⟨h1, h2⟩
    obtain ⟨s', e1, e2, e3⟩ := findName_some h1
    rw [h2] at e1
    cases e1
    exact ⟨h2, (equalFold_iff.1 e2).symm, fun k t hk ht hc => by
      have := e3 k hk t ht
      rw [equalFold_iff.2 hc.symm] at this
      simp at this⟩

theorem findName_none_iff {st : SymbolTable} {n : Str} : findName st n = none ↔ ∀ s ∈ st, ¬ SameName s.name n := by
  constructor
  · intro h s hs hc
    have := findName_none h s hs
    rw [equalFold_iff.2 hc.symm] at this
    simp at this
  · intro h
    unfold findName
    rw [List.findIdx?_eq_none_iff]
    intro s hs
    exact equalFold_false.2 fun hc => h s hs hc.symm

theorem addScan_free (name : Str) (hash : UInt8) : ∀ (st : SymbolTable) (j : Nat), (∀ s ∈ st, equalFold name s.name = false) →
    (∀ q, addScan name hash st j (some q) = .free (some q)) ∧
    addScan name hash st j none = .free ((st.findIdx? fun s => decide (s.address = 0)).map (· + j)) := by
  intro st
  induction st with
  | nil => intro j _; exact ⟨fun q => rfl, rfl⟩
  | cons s rest ih =>
    intro j hall
    have h0 := hall s (by simp)
    obtain ⟨i1, i2⟩ := ih (j + 1) (fun t ht => hall t (by simp [ht]))
    constructor
    · intro q
      unfold addScan
      rw [if_neg (by rw [h0]; simp), if_neg (by simp), i1]
    · unfold addScan
      rw [if_neg (by rw [h0]; simp), List.findIdx?_cons]
      by_cases hz : s.address = 0
      · rw [if_pos ⟨rfl, hz⟩, i1, if_pos (by simpa using hz)]; simp
      · rw [if_neg (fun h => hz h.2), i2, if_neg (by simpa using hz), Option.map_map]
        congr 1
        cases rest.findIdx? fun s => decide (s.address = 0)
        · rfl
        · simp only [Option.map_some, Function.comp, Option.some.injEq]; omega

theorem unusedAt_iff {st : SymbolTable} {p : Nat} : UnusedAt st p ↔ (st.findIdx? fun s => decide (s.address = 0)) = some p := by
  rw [List.findIdx?_eq_some_iff_getElem]
  constructor
  · rintro ⟨⟨s, h1, h2⟩, h3⟩
    have hl := getElem?_lt h1
    rw [List.getElem?_eq_getElem hl] at h1
    cases h1
    refine ⟨hl, by simpa using h2, fun k hk => ?_⟩
    simpa using h3 k st[k] hk (List.getElem?_eq_getElem (by omega))
  · rintro ⟨hl, h2, h3⟩
    refine ⟨⟨_, List.getElem?_eq_getElem hl, by simpa using h2⟩, fun k t hk ht => ?_⟩
    have := h3 k hk
    rw [List.getElem?_eq_getElem (by omega)] at ht
    cases ht
    simpa using this

/-- Deleting a symbol: when the table can be read afterwards. -/
theorem readable_delete {st : SymbolTable} {n : Str} (hr : Readable st) (hlive : ∀ i s, NamedAt st n i s → s.address ≠ 0) :
    Readable (deleteSymbol st n).2 ↔ ¬ DeletingSpoils st n := by
  cases hf : findName st n with
  | none =>
    have : deleteSymbol st n = (false, st) := by unfold deleteSymbol; rw [hf]
    rw [this]
    refine ⟨fun _ => ?_, fun _ => hr⟩
    rintro ⟨i, s, h, _⟩
    rw [namedAt_iff, hf] at h
    simp at h
  | some i =>
    obtain ⟨s, hs, e⟩ := deleteSymbol_some hf
    have hat : NamedAt st n i s := namedAt_iff.2 ⟨hf, hs⟩
    rw [e]
    rw [readable_taken hr hs (hlive i s hat) (x := ⟨0, [], s.link⟩) (Or.inl rfl), show symbolHash (Symbol.mk 0 [] s.link).address = 0 by change symbolHash 0 = 0; decide +kernel]
    apply not_congr
    constructor
    · intro h; exact ⟨i, s, hat, h⟩
    · rintro ⟨i', s', h, h'⟩
      obtain ⟨h1, h2⟩ := namedAt_iff.1 h
      rw [hf] at h1
      cases h1
      exact h'

/-- Adding a symbol: when the table can be read afterwards. -/
theorem readable_add {st : SymbolTable} {n : Str} {a : UInt16} (hr : Readable st) (hlive : ∀ i s, NamedAt st n i s → s.address ≠ 0)
    (hok : (addSymbol st n a).1 = .ok ()) : Readable (addSymbol st n a).2 ↔ ¬ AddingSpoils st n a := by
  rcases addSymbol_cases st n a with ⟨_, e⟩ | ⟨_, i, s, h1, h2, h3, e⟩ | ⟨_, i, s, h1, h2, h3, e⟩ | ⟨_, _, _, e⟩ | ⟨ha, h1, _⟩
  · rw [e] at hok; simp at hok
  · have hat : NamedAt st n i s := namedAt_iff.2 ⟨h1, h2⟩
    rw [e]
    refine ⟨fun _ => ?_, fun _ => readable_update hr h2 (hlive i s hat) h3⟩
    rintro (⟨i', s', h, h', _⟩ | ⟨h, _⟩)
    · obtain ⟨k1, k2⟩ := namedAt_iff.1 h
      rw [h1] at k1; cases k1
      rw [h2] at k2; cases k2
      exact h' h3
    · exact h s (List.mem_of_getElem? h2) hat.2.1
  · have hat : NamedAt st n i s := namedAt_iff.2 ⟨h1, h2⟩
    obtain ⟨s', k2, e2⟩ := deleteSymbol_some h1
    rw [h2] at k2; cases k2
    rw [e, e2]
    unfold insertAt
    dsimp only
    have hil : i < ((relink i s.link st 0).set i ⟨0, [], s.link⟩).length := by
      rw [List.length_set, relink_length]; exact getElem?_lt h2
    rw [readable_tail (x := ⟨a, n, -1⟩) hil, List.set_set, readable_taken hr h2 (hlive i s hat) (x := ⟨a, n, -1⟩) (Or.inr rfl)]
    apply not_congr
    constructor
    · intro h; exact Or.inl ⟨i, s, hat, h3, h⟩
    · rintro (⟨i', s', h, _, h'⟩ | ⟨h, _⟩)
      · obtain ⟨k1, _⟩ := namedAt_iff.1 h
        rw [h1] at k1; cases k1
        exact h'
      · exact absurd hat.2.1 (h s (List.mem_of_getElem? h2))
  · rw [e] at hok; simp at hok
  · have hfree := (addScan_free n (addrHash a) st 0 (findName_none h1)).2
    have e : addSymbol st n a = match (st.findIdx? fun s => decide (s.address = 0)) with
        | none => (.err .other, st)
        | some pos => (.ok (), insertAt st n a pos) := by
      unfold addSymbol
      rw [if_neg ha, hfree]
      cases (st.findIdx? fun s => decide (s.address = 0)) <;> rfl
    rw [e] at hok ⊢
    cases hp : (st.findIdx? fun s => decide (s.address = 0)) with
    | none => rw [hp] at hok; simp at hok
    | some p =>
      have hu := unusedAt_iff.2 hp
      obtain ⟨⟨x, hx, _⟩, _⟩ := id hu
      dsimp only
      unfold insertAt
      rw [readable_tail (x := ⟨a, n, -1⟩) (getElem?_lt hx), readable_placed hr hx (x := ⟨a, n, -1⟩) rfl]
      apply not_congr
      constructor
      · rintro ⟨j, t, h2, h3⟩
        exact Or.inr ⟨findName_none_iff.1 h1, p, j, t, hu, h2, h3⟩
      · rintro (⟨i', s', h, _⟩ | ⟨_, p', j, t, h, h2, h3⟩)
        · rw [namedAt_iff, h1] at h; simp at h
        · rw [unusedAt_iff, hp] at h
          cases h
          exact ⟨j, t, h2, h3⟩

/-! ## Tables read from a disk -/

theorem stored_eq (n : Str) : stored n = toUpper (n.filter alnum) := rfl

/-- What every table read from a disk is like. -/
structure FromDisk (st : SymbolTable) : Prop where
  length : st.length = 819
  readable : Readable st
  unused : ∀ s ∈ st, s.address = 0 → s.name = []
  names : ∀ s ∈ st, stored s.name = s.name

theorem decodeLoop_stored (v : Nat) : ∀ c ∈ decodeLoop v, alnum c = true ∧ upperByte c = c := by
  induction v using Nat.strongRecOn with
  | ind v ih =>
    rw [decodeLoop]
    split
    · rename_i h
      have tab : ∀ k : Fin 256, (0x41 ≤ k.val ∧ k.val ≤ 0x5A ∨ 0x30 ≤ k.val ∧ k.val ≤ 0x39) →
          alnum (UInt8.ofNat k.val) = true ∧ upperByte (UInt8.ofNat k.val) = UInt8.ofNat k.val := by decide +kernel
      have key : ∀ (k n : Nat), (0x41 ≤ k ∧ k ≤ 0x5A ∨ 0x30 ≤ k ∧ k ≤ 0x39) → n < v →
          ∀ c ∈ UInt8.ofNat k :: decodeLoop n, alnum c = true ∧ upperByte c = c := by
        intro k n hk hn c hc
        rcases List.mem_cons.1 hc with rfl | hc
        · exact tab ⟨k, by omega⟩ hk
        · exact ih n hn c hc
      split
      · exact key _ _ (by omega) (by omega)
      · split
        · exact key _ _ (by omega) (by omega)
        · exact key _ _ (by omega) (by omega)
    · simp

theorem stored_of_chars {n : Str} (h : ∀ c ∈ n, alnum c = true ∧ upperByte c = c) : stored n = n := by
  rw [stored_eq]
  rw [List.filter_eq_self.2 fun c hc => (h c hc).1]
  unfold toUpper
  conv_rhs => rw [← List.map_id n]
  exact List.map_congr_left fun c hc => (h c hc).2

theorem parseSymbols_stored {a b : Vector UInt8 0x1000} : ∀ (n : Nat) (h : n ≤ 819) {st : SymbolTable}, parseSymbols a b n h = .ok st →
    st.length = n ∧ ∀ s ∈ st, stored s.name = s.name := by
  intro n
  induction n with
  | zero =>
    intro h st e
    simp only [parseSymbols, Out.ok.injEq] at e
    subst e
    simp
  | succ n ih =>
    intro h st e
    unfold parseSymbols at e
    obtain ⟨table, e1, e⟩ := Out.bind_eq_ok.1 e
    obtain ⟨sym, e2, e⟩ := Out.bind_eq_ok.1 e
    simp only [Out.ok.injEq] at e
    subst e
    obtain ⟨i1, i2⟩ := ih _ e1
    refine ⟨by simp [i1], fun s hs => ?_⟩
    rcases List.mem_append.1 hs with hs | hs
    · exact i2 s hs
    · rw [List.mem_singleton] at hs
      subst hs
      have hd : ∀ f x, stored (decodeSymbol f x) = decodeSymbol f x := fun f x => stored_of_chars (decodeLoop_stored _)
      unfold parseSymbol at e2
      simp only at e2
      split at e2
      · cases e2; rfl
      · split at e2
        · split at e2
          · simp at e2
          · split at e2
            · simp at e2
            · cases e2; exact hd _ _
        · cases e2; exact hd _ _

theorem readSymbolTable_fromDisk {sm : SectorMap} {img : Bytes} {st : SymbolTable} (hr : readSymbolTable sm img = .ok st) : FromDisk st := by
  unfold readSymbolTable at hr
  obtain ⟨t1, _, hr⟩ := Out.bind_eq_ok.1 hr
  split at hr
  · obtain ⟨t2, _, hr⟩ := Out.bind_eq_ok.1 hr
    split at hr
    · obtain ⟨table, hp, hr⟩ := Out.bind_eq_ok.1 hr
      obtain ⟨u, hc, hr⟩ := Out.bind_eq_ok.1 hr
      cases hr
      obtain ⟨h1, h2⟩ := parseSymbols_stored _ _ hp
      refine ⟨h1, fun i s hi => ?_, parseSymbols_unused _ _ hp, h2⟩
      have := (checkLinks_ok_iff _ _ _).1 hc i s hi
      rw [Nat.zero_add, checkLink_ok_iff] at this
      exact this
    · simp at hr
  · simp at hr

theorem opened_fromDisk {img : Bytes} {o : Operator} (h : openOperator img = .ok o) {st : SymbolTable} (hst : o.st = some st) : FromDisk st := by
  unfold openOperator at h
  obtain ⟨sm, _, h⟩ := Out.bind_eq_ok.1 h
  obtain ⟨_, _, h⟩ := Out.bind_eq_ok.1 h
  cases hr : readSymbolTable sm img with
  | ok st' =>
    rw [hr] at h
    cases h
    cases hst
    exact readSymbolTable_fromDisk hr
  | err k => rw [hr] at h; cases h; simp at hst
  | panic => rw [hr] at h; simp at h
  | timeout => rw [hr] at h; simp at h

theorem FromDisk.live {st : SymbolTable} (h : FromDisk st) {n : Str} (hn : n ≠ []) : ∀ i s, NamedAt st n i s → s.address ≠ 0 := by
  intro i s hat h0
  have := h.unused s (List.mem_of_getElem? hat.1) h0
  have h2 := hat.2.1
  rw [this] at h2
  exact hn (sameName_nil.1 h2.symm)

theorem FromDisk.link {st : SymbolTable} (h : FromDisk st) {s : Symbol} (hs : s ∈ st) : LinkRange s := by
  intro h0
  obtain ⟨i, hi⟩ := List.getElem?_of_mem hs
  rcases h.readable i s hi h0 with e | ⟨j, t, e, _, ht, _⟩
  · exact Or.inl e
  · have := getElem?_lt ht
    rw [h.length] at this
    exact Or.inr ⟨j, e, this⟩

theorem linkRange_relink {st : SymbolTable} {i : Nat} {l : Int} (h : ∀ s ∈ st, LinkRange s) (hl : l = -1 ∨ ∃ j : Nat, l = (j : Int) ∧ j < 819)
    (j : Nat) : ∀ s ∈ relink i l st j, LinkRange s := by
  induction st generalizing j with
  | nil => intro s hs; simp [relink] at hs
  | cons x rest ih =>
    have hx := h x (by simp)
    have hrest : ∀ s ∈ rest, LinkRange s := fun s hs => h s (by simp [hs])
    intro s hs
    unfold relink at hs
    split at hs
    · rcases List.mem_cons.1 hs with rfl | hs
      · exact hx
      · exact ih hrest _ s hs
    · split at hs
      · rcases List.mem_cons.1 hs with rfl | hs
        · intro _; exact hl
        · exact hrest s hs
      · rcases List.mem_cons.1 hs with rfl | hs
        · exact hx
        · exact ih hrest _ s hs

theorem linkRange_set {st : SymbolTable} {i : Nat} {x : Symbol} (h : ∀ s ∈ st, LinkRange s) (hx : LinkRange x) :
    ∀ s ∈ st.set i x, LinkRange s := fun s hs => by
  rcases List.mem_or_eq_of_mem_set hs with hs | rfl
  · exact h s hs
  · exact hx

theorem linkRange_insertAt {st : SymbolTable} {n : Str} {a : UInt16} {p : Nat} (h : ∀ s ∈ st, LinkRange s) (hp : p < 819) :
    ∀ s ∈ insertAt st n a p, LinkRange s := by
  unfold insertAt
  apply linkRange_set _ (fun _ => Or.inl rfl)
  rcases linkTail_cases (addrHash a) p st with e | ⟨k, s, _, _, _, e⟩ <;> rw [e]
  · exact h
  · exact linkRange_set h fun _ => Or.inr ⟨p, rfl, hp⟩

theorem FromDisk.range_delete {st : SymbolTable} (h : FromDisk st) {n : Str} (hlive : ∀ i s, NamedAt st n i s → s.address ≠ 0) :
    ∀ s ∈ (deleteSymbol st n).2, LinkRange s := by
  cases hf : findName st n with
  | none =>
    have : deleteSymbol st n = (false, st) := by unfold deleteSymbol; rw [hf]
    rw [this]
    exact fun s hs => h.link hs
  | some i =>
    obtain ⟨s, hs, e⟩ := deleteSymbol_some hf
    rw [e]
    exact linkRange_set (linkRange_relink (fun t ht => h.link ht)
      (h.link (List.mem_of_getElem? hs) (hlive i s (namedAt_iff.2 ⟨hf, hs⟩))) 0) fun h0 => absurd rfl h0

theorem FromDisk.range_add {st : SymbolTable} (h : FromDisk st) {n : Str} (hlive : ∀ i s, NamedAt st n i s → s.address ≠ 0) (a : UInt16) :
    ∀ s ∈ (addSymbol st n a).2, LinkRange s := by
  have hb : ∀ s ∈ st, LinkRange s := fun s hs => h.link hs
  rcases addSymbol_cases st n a with ⟨_, e⟩ | ⟨_, i, s, h1, h2, h3, e⟩ | ⟨_, i, s, h1, h2, h3, e⟩ | ⟨_, _, _, e⟩ | ⟨_, _, p, s, h2, _, e⟩ <;> rw [e]
  · exact hb
  · have hls := h.link (List.mem_of_getElem? h2) (hlive i s (namedAt_iff.2 ⟨h1, h2⟩))
    exact linkRange_set hb fun _ => hls
  · exact linkRange_insertAt (h.range_delete hlive) (by rw [← h.length]; exact getElem?_lt h2)
  · exact hb
  · exact linkRange_insertAt hb (by rw [← h.length]; exact getElem?_lt h2)

theorem length_of_keys {st st' : SymbolTable} (h : (keys st').length = (keys st).length) : st'.length = st.length := by
  rw [← keys_length, h, keys_length]

/-! ## Names and addresses after a change -/

theorem keys_reread (st : SymbolTable) : keys (st.map reread) = (keys st).map fun k => (k.1, if k.1 = 0 then [] else stored k.2) := by
  unfold keys
  rw [List.map_map, List.map_map]
  apply List.map_congr_left
  intro s _
  simp only [Function.comp]
  unfold reread
  by_cases h : s.address = 0
  · rw [if_pos h, if_pos h, h]; rfl
  · rw [if_neg h, if_neg h]; rfl

theorem FromDisk.keys_eq {st : SymbolTable} (h : FromDisk st) : (keys st).map (fun k => (k.1, if k.1 = 0 then [] else stored k.2)) = keys st := by
  unfold keys
  rw [List.map_map]
  apply List.map_congr_left
  intro s hs
  simp only [Function.comp]
  by_cases h0 : s.address = 0
  · rw [if_pos h0, h.unused s hs h0]
  · rw [if_neg h0, h.names s hs]

theorem stored_same {a b : Str} (h : SameName a b) (hs : stored a = a) : stored b = a := by
  have key : ∀ c : UInt8, alnum (upperByte c) = alnum c := by decide +kernel
  have e : ∀ n : Str, toUpper (n.filter alnum) = (toUpper n).filter alnum := by
    intro n
    unfold toUpper
    rw [List.filter_map]
    congr 1
    apply List.filter_congr
    intro c _
    exact (key c).symm
  rw [stored_eq] at hs ⊢
  unfold SameName at h
  rw [e] at hs ⊢
  rw [← h, hs]

/-- Names and addresses read back after a symbol was added. -/
theorem FromDisk.keys_add {st : SymbolTable} (h : FromDisk st) {n : Str} {a : UInt16} (ha : a ≠ 0) (hok : (addSymbol st n a).1 = .ok ()) :
    ∃ k, (keys ((addSymbol st n a).2.map reread)) = (keys st).set k (a, stored n) ∧ k < st.length ∧
      ((∃ s, NamedAt st n k s) ∨ (∀ s ∈ st, ¬ SameName s.name n) ∧ UnusedAt st k) := by
  have hset : ∀ (k : Nat) (m : Str), ((keys st).set k (a, m)).map (fun k => (k.1, if k.1 = 0 then [] else stored k.2)) =
      (keys st).set k (a, stored m) := by
    intro k m
    rw [List.map_set, h.keys_eq, if_neg ha]
  rw [keys_reread]
  rcases addSymbol_cases st n a with ⟨_, e⟩ | ⟨_, i, s, h1, h2, h3, e⟩ | ⟨_, i, s, h1, h2, h3, e⟩ | ⟨_, _, _, e⟩ | ⟨_, h1, _⟩
  · rw [e] at hok; simp at hok
  · have hat := namedAt_iff.2 ⟨h1, h2⟩
    refine ⟨i, ?_, getElem?_lt h2, Or.inl ⟨s, hat⟩⟩
    rw [e, keys_set, hset]
    rw [h.names s (List.mem_of_getElem? h2), stored_same hat.2.1 (h.names s (List.mem_of_getElem? h2))]
  · refine ⟨i, ?_, getElem?_lt h2, Or.inl ⟨s, namedAt_iff.2 ⟨h1, h2⟩⟩⟩
    rw [e, keys_insertAt, keys_delete h1, List.set_set, hset]
  · rw [e] at hok; simp at hok
  · have hfree := (addScan_free n (addrHash a) st 0 (findName_none h1)).2
    have e : addSymbol st n a = match (st.findIdx? fun s => decide (s.address = 0)) with
        | none => (.err .other, st)
        | some pos => (.ok (), insertAt st n a pos) := by
      unfold addSymbol
      rw [if_neg ha, hfree]
      cases (st.findIdx? fun s => decide (s.address = 0)) <;> rfl
    rw [e] at hok ⊢
    cases hp : (st.findIdx? fun s => decide (s.address = 0)) with
    | none => rw [hp] at hok; simp at hok
    | some p =>
      have hu := unusedAt_iff.2 hp
      obtain ⟨⟨x, hx, _⟩, _⟩ := id hu
      refine ⟨p, ?_, getElem?_lt hx, Or.inr ⟨findName_none_iff.1 h1, hu⟩⟩
      dsimp only
      rw [keys_insertAt, hset]

/-- Names and addresses read back after a symbol was deleted. -/
theorem FromDisk.keys_del {st : SymbolTable} (h : FromDisk st) {n : Str} {b a : SymbolTable} {s : Symbol} (hf : FirstOf st n b s a) :
    keys ((deleteSymbol st n).2.map reread) = keys b ++ (0, []) :: keys a := by
  obtain ⟨rfl, h2, h3⟩ := hf
  have hat : NamedAt (b ++ s :: a) n b.length s := by
    refine ⟨by simp, h2, fun k t hk ht => ?_⟩
    rw [List.getElem?_append_left hk] at ht
    exact h3 t (List.mem_of_getElem? ht)
  have hfn := (namedAt_iff.1 hat).1
  rw [keys_reread, keys_delete hfn, List.map_set, h.keys_eq]
  simp only [if_true]
  unfold keys
  simp

theorem standsFor_byName {st : SymbolTable} {n : Str} {f : UInt8} : StandsFor st n f ↔ IsFileNumber f ∧ (byName st n).toNat = 0xDF00 + f.toNat := by
  unfold StandsFor
  refine and_congr_right fun _ => ?_
  have e : byName st n = match st.find? (fun x => decide (SameName x.name n)) with | some x => x.address | none => 0 := by
    induction st with
    | nil => rfl
    | cons s rest ih =>
      unfold byName
      rw [List.find?_cons]
      by_cases h : SameName s.name n
      · rw [if_pos (equalFold_iff.2 h.symm), decide_eq_true h]
      · rw [if_neg (by rw [equalFold_false.2 fun e => h e.symm]; simp), decide_eq_false h, ih]
  rw [e]
  constructor
  · rintro ⟨b, s, a, h1, h2⟩
    rw [firstOf_find.2 ⟨b, a, h1⟩]
    exact h2
  · intro h
    cases hx : st.find? (fun x => decide (SameName x.name n)) with
    | none => rw [hx] at h; simp at h; omega
    | some x =>
      rw [hx] at h
      obtain ⟨b, a, h1⟩ := firstOf_find.1 hx
      exact ⟨b, x, a, h1, h⟩

end Verif.Supermon
