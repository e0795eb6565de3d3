import Verif.Props.Reopen
import Verif.Spec.Names

/-!
# Symbol tables in order stay in order
-/

set_option autoImplicit false

namespace Verif.Supermon
open Disk Spec

/-- Links of used entries: to used entries of the same hash, no two to the same, without circles. -/
structure Chained (st : SymbolTable) : Prop where
  linked : Linked st
  single : ∀ (i i' : Nat) (s s' : Symbol), st[i]? = some s → st[i']? = some s' → s.address ≠ 0 → s'.address ≠ 0 →
    s.link ≠ -1 → s.link = s'.link → i = i'
  acyclic : ∃ rank : Nat → Nat, ∀ (i j : Nat) (s : Symbol), st[i]? = some s → s.address ≠ 0 → s.link = (j : Int) → rank j < rank i

theorem chained_remove {st : SymbolTable} {i : Nat} {sym : Symbol} (h : Chained st) (hi : st[i]? = some sym) (hlive : sym.address ≠ 0)
    (hdead : ∀ (j : Nat) (s : Symbol), st[j]? = some s → s.address = 0 → s.link ≠ (i : Int)) :
    Chained ((relink i sym.link st 0).set i ⟨0, [], sym.link⟩) ∧
    ∀ (j : Nat) (s : Symbol), ((relink i sym.link st 0).set i ⟨0, [], sym.link⟩)[j]? = some s → j ≠ i → s.link ≠ (i : Int) := by
  obtain ⟨rank, hr⟩ := h.acyclic
  have live : ∀ (j : Nat) (s : Symbol), st[j]? = some s → s.link = (i : Int) → s.address ≠ 0 :=
    fun j s hj hl h0 => hdead j s hj h0 hl
  have hsafe : ∀ (j : Nat) (s : Symbol), st[j]? = some s → j ≠ i → s.link = (i : Int) →
      s.address ≠ 0 ∧ sym.link ≠ j ∧ ∀ (j' : Nat) (s' : Symbol), st[j']? = some s' → j' ≠ i → s'.link = (i : Int) → j' = j := by
    intro j s hj hne hl
    refine ⟨live j s hj hl, fun e => ?_, fun j' s' hj' _ hl' => ?_⟩
    · have := hr j i s hj (live j s hj hl) hl
      have := hr i j sym hi hlive e
      omega
    · exact h.single j' j s' s hj' hj (live j' s' hj' hl') (live j s hj hl) (by omega) (by omega)
  obtain ⟨hL, hN⟩ := linked_remove h.linked hi hlive hsafe
  refine ⟨⟨hL, ?_, rank, ?_⟩, hN⟩
  -- where an entry of the new table comes from
  all_goals
    have old : ∀ (k : Nat) (s : Symbol), ((relink i sym.link st 0).set i ⟨0, [], sym.link⟩)[k]? = some s → s.address ≠ 0 →
        k ≠ i ∧ (st[k]? = some s ∨ (∃ sp, st[k]? = some sp ∧ sp.address ≠ 0 ∧ sp.link = (i : Int) ∧ s = { sp with link := sym.link })) := by
      intro k s hk hs
      rcases getElem?_set_cases hk with ⟨_, rfl⟩ | ⟨hki, hk⟩
      · simp at hs
      · refine ⟨hki, ?_⟩
        rcases relink_cases i sym.link st 0 with ⟨e, _⟩ | ⟨p, sp, hp, hpi, hpl, e⟩
        · rw [e] at hk; exact Or.inl hk
        · rw [e] at hk
          rcases getElem?_set_cases hk with ⟨rfl, rfl⟩ | ⟨_, hk⟩
          · exact Or.inr ⟨sp, hp, hs, hpl, rfl⟩
          · exact Or.inl hk
  · intro k k' s s' hk hk' hs hs' h1 h2
    obtain ⟨hki, ho⟩ := old k s hk hs
    obtain ⟨hki', ho'⟩ := old k' s' hk' hs'
    rcases ho with ho | ⟨sp, hp, hpa, hpl, rfl⟩
    · rcases ho' with ho' | ⟨sp', hp', hpa', hpl', rfl⟩
      · exact h.single k k' s s' ho ho' hs hs' h1 h2
      · exact absurd (h.single k i s sym ho hi hs hlive h1 h2) hki
    · rcases ho' with ho' | ⟨sp', hp', hpa', hpl', rfl⟩
      · exact absurd (h.single k' i s' sym ho' hi hs' hlive (by rw [← h2]; exact h1) h2.symm) hki'
      · exact h.single k k' sp sp' hp hp' hpa hpa' (by omega) (by omega)
  · intro k j s hk hs hl
    obtain ⟨hki, ho⟩ := old k s hk hs
    rcases ho with ho | ⟨sp, hp, hpa, hpl, rfl⟩
    · exact hr k j s ho hs hl
    · have := hr k i sp hp hpa hpl
      have := hr i j sym hi hlive hl
      omega

theorem chained_insert {st : SymbolTable} {name : Str} {a : UInt16} {pos : Nat} (h : Chained st) (ha : a ≠ 0) (hpos : pos < st.length)
    (hno : ∀ (j : Nat) (s : Symbol), st[j]? = some s → j ≠ pos → s.address ≠ 0 → s.link ≠ (pos : Int)) :
    Chained (insertAt st name a pos) := by
  obtain ⟨rank, hr⟩ := h.acyclic
  refine ⟨linked_insert h.linked ha hpos hno, ?_, fun k => if k = pos then 0 else rank k + 1, ?_⟩
  all_goals
    have old : ∀ (k : Nat) (s : Symbol), (insertAt st name a pos)[k]? = some s → s.address ≠ 0 →
        (k = pos ∧ s.link = -1) ∨ (k ≠ pos ∧ (st[k]? = some s ∨ (∃ sq, st[k]? = some sq ∧ sq.link = -1 ∧ s = { sq with link := (pos : Int) }
          ∧ ∀ (k' : Nat) (s' : Symbol), (insertAt st name a pos)[k']? = some s' → k' ≠ pos → k' ≠ k → st[k']? = some s'))) := by
      intro k s hk hs
      unfold insertAt at hk
      rcases getElem?_set_cases hk with ⟨rfl, rfl⟩ | ⟨hkp, hk⟩
      · exact Or.inl ⟨rfl, rfl⟩
      · right
        refine ⟨hkp, ?_⟩
        rcases linkTail_cases (addrHash a) pos st with e | ⟨q, sq, hq, _, hql, e⟩
        · rw [e] at hk; exact Or.inl hk
        · rw [e] at hk
          rcases getElem?_set_cases hk with ⟨rfl, rfl⟩ | ⟨hkq, hk⟩
          · right
            refine ⟨sq, hq, hql, rfl, fun k' s' hk' h1 h2 => ?_⟩
            unfold insertAt at hk'
            rw [e] at hk'
            rw [List.getElem?_set_ne (Ne.symm h1), List.getElem?_set_ne (Ne.symm h2)] at hk'
            exact hk'
          · exact Or.inl hk
  · intro k k' s s' hk hk' hs hs' h1 h2
    rcases old k s hk hs with ⟨_, e⟩ | ⟨hkp, ho⟩
    · exact absurd e h1
    rcases old k' s' hk' hs' with ⟨_, e⟩ | ⟨hkp', ho'⟩
    · exact absurd (h2.trans e) h1
    rcases ho with ho | ⟨sq, hq, hql, rfl, hothers⟩
    · rcases ho' with ho' | ⟨sq', hq', hql', rfl, _⟩
      · exact h.single k k' s s' ho ho' hs hs' h1 h2
      · exact absurd h2 (hno k s ho hkp hs)
    · by_cases e : k' = k
      · exact e.symm
      · exact absurd h2.symm (hno k' s' (hothers k' s' hk' hkp' e) hkp' hs')
  · intro k j s hk hs hl
    rcases old k s hk hs with ⟨_, e⟩ | ⟨hkp, ho⟩
    · omega
    rcases ho with ho | ⟨sq, hq, hql, rfl, _⟩
    · have h1 := hr k j s ho hs hl
      have : j ≠ pos := fun e => hno k s ho hkp hs (by rw [hl, e])
      simp only [if_neg this, if_neg hkp]
      omega
    · have : j = pos := by simp only at hl; omega
      simp only [if_pos this, if_neg hkp]
      omega

theorem chained_update {st : SymbolTable} {i : Nat} {sym : Symbol} {a : UInt16} (h : Chained st) (hi : st[i]? = some sym)
    (hlive : sym.address ≠ 0) (ha : a ≠ 0) (hh : symbolHash sym.address = symbolHash a) : Chained (st.set i { sym with address := a }) := by
  obtain ⟨rank, hr⟩ := h.acyclic
  refine ⟨linked_update h.linked hi hlive ha hh, ?_, rank, ?_⟩
  all_goals
    have old : ∀ (k : Nat) (s : Symbol), (st.set i { sym with address := a })[k]? = some s → s.address ≠ 0 →
        ∃ s', st[k]? = some s' ∧ s'.address ≠ 0 ∧ s'.link = s.link := by
      intro k s hk hs
      rcases getElem?_set_cases hk with ⟨rfl, rfl⟩ | ⟨_, hk⟩
      · exact ⟨sym, hi, hlive, rfl⟩
      · exact ⟨s, hk, hs, rfl⟩
  · intro k k' s s' hk hk' hs hs' h1 h2
    obtain ⟨x, hx, hxa, hxl⟩ := old k s hk hs
    obtain ⟨x', hx', hxa', hxl'⟩ := old k' s' hk' hs'
    exact h.single k k' x x' hx hx' hxa hxa' (by rw [hxl]; exact h1) (by rw [hxl, hxl']; exact h2)
  · intro k j s hk hs hl
    obtain ⟨x, hx, hxa, hxl⟩ := old k s hk hs
    exact hr k j x hx hxa (by rw [hxl]; exact hl)

/-- A table in memory from which a tidy one will be read. -/
structure Neat (st : SymbolTable) : Prop where
  length : st.length = 819
  named : ∀ k ∈ keys st, k.1 ≠ 0 → Symbolic k.2
  clean : CleanNames st
  unique : UniqueNames st
  chained : Chained st

theorem Neat.sound {st : SymbolTable} (h : Neat st) : Sound st where
  length := h.length
  names := by
    intro k hk
    by_cases h0 : k.1 = 0
    · exact Or.inl (keys_mem_iff.1 h.clean k hk h0)
    · exact Or.inr (h.named k hk h0).1
  clean := h.clean
  linked := h.chained.linked

theorem upper_legal {n : Str} (hn : LegalName n) : LegalName (toUpper n) := by
  have hup : ∀ c : UInt8, (isLetter (upperByte c) = isLetter c) ∧ (isDigit (upperByte c) = isDigit c) := by decide +kernel
  refine ⟨by simpa [toUpper] using hn.1, by simpa [toUpper] using hn.2.1, ?_, ?_⟩
  · intro c hc
    obtain ⟨d, hd, rfl⟩ := List.mem_map.1 hc
    rw [(hup d).1, (hup d).2]
    exact hn.2.2.1 d hd
  · have : nameBits (toUpper n) = nameBits n := by
      unfold nameBits toUpper
      rw [List.map_map]
      congr 1
      apply List.map_congr_left
      intro c _
      simp only [Function.comp, charBits]
      rw [(hup c).1, (hup c).2]
    rw [this]; exact hn.2.2.2

theorem hexNumeral_upper {s : Str} {v : Nat} (h : HexNumeral (toUpper s) v) : HexNumeral s v := by
  have hd : ∀ c : UInt8, digitValue (upperByte c) = digitValue c := by decide +kernel
  generalize e : toUpper s = u at h
  induction h generalizing s with
  | one h =>
    unfold toUpper at e
    obtain ⟨c, rfl, hc⟩ := List.map_eq_singleton_iff.1 e
    rw [← hc, hd] at h
    exact .one h
  | snoc _ h ih =>
    unfold toUpper at e
    obtain ⟨s1, s2, rfl, h1, h2⟩ := List.map_eq_append_iff.1 e
    obtain ⟨c, rfl, hc⟩ := List.map_eq_singleton_iff.1 h2
    rw [← hc, hd] at h
    exact .snoc (ih h1) h

theorem upper_symbolic {n : Str} (h : Symbolic n) : Symbolic (toUpper n) :=
  ⟨upper_legal h.1, fun f hf => h.2 f ⟨hf.1, hf.2.imp hexNumeral_upper hexNumeral_upper⟩⟩

theorem canonical_address (s : Symbol) : (canonical s).address = s.address := by
  unfold canonical; split
  · rename_i h; exact h.symm
  · rfl

theorem Neat.tidy {st : SymbolTable} (h : Neat st) : Tidy (st.map canonical) := by
  have get : ∀ (i : Nat) (s : Symbol), (st.map canonical)[i]? = some s → s.address ≠ 0 →
      ∃ x, st[i]? = some x ∧ x.address = s.address ∧ x.link = s.link ∧ s.name = toUpper x.name := by
    intro i s hi hs
    rw [List.getElem?_map] at hi
    cases hx : st[i]? with
    | none => rw [hx] at hi; simp at hi
    | some x =>
      rw [hx] at hi
      simp only [Option.map_some, Option.some.injEq] at hi
      have ha := canonical_address x
      rw [hi] at ha
      unfold canonical at hi
      rw [if_neg (by rw [← ha]; exact hs)] at hi
      subst hi
      exact ⟨x, rfl, rfl, rfl, rfl⟩
  refine ⟨by rw [List.length_map]; exact h.length, ?_, ?_, ?_, ?_, ?_⟩
  · intro s hs
    obtain ⟨x, hx, rfl⟩ := List.mem_map.1 hs
    unfold canonical
    split
    · exact Or.inl rfl
    · rename_i h0
      right
      have := h.named (x.address, x.name) (List.mem_map_of_mem hx) h0
      exact ⟨h0, upper_symbolic this, upper_upper _⟩
  · intro i j s t hi hj hs he
    obtain ⟨x, hx, hxa, _, hxn⟩ := get i s hi hs
    have hx0 : x.name ≠ [] := by
      have := h.named (x.address, x.name) (List.mem_map_of_mem (List.mem_of_getElem? hx)) (by rw [hxa]; exact hs)
      exact legal_ne_nil this.1
    by_cases ht : t.address = 0
    · rw [List.getElem?_map] at hj
      cases hy : st[j]? with
      | none => rw [hy] at hj; simp at hj
      | some y =>
        rw [hy] at hj
        simp only [Option.map_some, Option.some.injEq] at hj
        have ha := canonical_address y
        rw [hj, ht] at ha
        unfold canonical at hj
        rw [if_pos ha.symm] at hj
        subst hj
        rw [hxn] at he
        exact absurd (List.map_eq_nil_iff.1 he) hx0
    · obtain ⟨y, hy, _, _, hyn⟩ := get j t hj ht
      exact h.unique i j x y hx hy hx0 (by unfold SameName; rw [← hxn, ← hyn, he])
  · intro i s hi hs
    obtain ⟨x, hx, hxa, hxl, _⟩ := get i s hi hs
    rcases h.chained.linked i x hx (by rw [hxa]; exact hs) with hl | ⟨j, t, hl, _, ht, ht0, hh⟩
    · exact Or.inl (by rw [← hxl]; exact hl)
    · right
      refine ⟨j, canonical t, by rw [← hxl]; exact hl, by rw [List.getElem?_map, ht]; rfl, ?_, ?_⟩
      · rw [canonical_address]; exact ht0
      · rw [canonical_address, hh, hxa]
  · intro i i' s s' hi hi' hs hs' h1 h2
    obtain ⟨x, hx, hxa, hxl, _⟩ := get i s hi hs
    obtain ⟨x', hx', hxa', hxl', _⟩ := get i' s' hi' hs'
    exact h.chained.single i i' x x' hx hx' (by rw [hxa]; exact hs) (by rw [hxa']; exact hs') (by rw [hxl]; exact h1) (by rw [hxl, hxl']; exact h2)
  · obtain ⟨rank, hr⟩ := h.chained.acyclic
    refine ⟨rank, fun i j s hi hs hl => ?_⟩
    obtain ⟨x, hx, hxa, hxl, _⟩ := get i s hi hs
    exact hr i j x hx (by rw [hxa]; exact hs) (by rw [hxl]; exact hl)

theorem tidy_neat {st : SymbolTable} (h : Tidy st) : Neat st where
  length := h.length
  named := by
    intro k hk h0
    obtain ⟨s, hs, rfl⟩ := List.mem_map.1 hk
    rcases h.entries s hs with rfl | ⟨_, h2, _⟩
    · exact absurd rfl h0
    · exact h2
  clean := by
    intro s hs h0
    rcases h.entries s hs with rfl | ⟨h1, _⟩
    · rfl
    · exact absurd h0 h1
  unique := by
    intro i j s t hi hj hs hn
    rcases h.entries s (List.mem_of_getElem? hi) with rfl | ⟨h1, h2, h3⟩
    · exact absurd rfl hs
    · rcases h.entries t (List.mem_of_getElem? hj) with rfl | ⟨h1', h2', h3'⟩
      · exact absurd (sameName_nil.1 hn) hs
      · exact h.unique i j s t hi hj h1 (by rw [← h3, ← h3']; exact hn)
  chained := by
    refine ⟨?_, h.single, h.acyclic⟩
    obtain ⟨rank, hr⟩ := h.acyclic
    intro i s hi hs
    rcases h.links i s hi hs with hl | ⟨j, t, hl, ht, ht0, hh⟩
    · exact Or.inl hl
    · refine Or.inr ⟨j, t, hl, ?_, ht, ht0, hh⟩
      rintro rfl
      exact absurd (hr j j s hi hs hl) (Nat.lt_irrefl _)

theorem named_set {ks : List (UInt16 × Str)} (h : ∀ k ∈ ks, k.1 ≠ 0 → Symbolic k.2) (i : Nat)
    (e : UInt16 × Str) (he : e.1 ≠ 0 → Symbolic e.2) : ∀ k ∈ ks.set i e, k.1 ≠ 0 → Symbolic k.2 := by
  intro k hk
  rcases List.mem_or_eq_of_mem_set hk with hk | rfl
  · exact h k hk
  · exact he

/-- Unused entries do not link to the place where the name is found. -/
def NoDeadLink (st : SymbolTable) (name : Str) : Prop :=
  ∀ i, findName st name = some i → ∀ (j : Nat) (s : Symbol), st[j]? = some s → s.address = 0 → s.link ≠ (i : Int)

theorem neat_delete {st : SymbolTable} (h : Neat st) {name : Str} (hn : name ≠ []) (hs : NoDeadLink st name) :
    Neat (deleteSymbol st name).2 ∧
    ∀ i, findName st name = some i → ∀ (j : Nat) (s : Symbol),
      (deleteSymbol st name).2[j]? = some s → j ≠ i → s.link ≠ (i : Int) := by
  have hinv := (C32_invariants h.clean h.unique name hn 0).2
  cases hf : findName st name with
  | none =>
    have e : deleteSymbol st name = (false, st) := by unfold deleteSymbol; rw [hf]
    rw [e]; exact ⟨h, by simp⟩
  | some i =>
    obtain ⟨sym, hsym, e⟩ := deleteSymbol_some hf
    have hlive := found_live h.clean hn hf hsym
    have hl := chained_remove h.chained hsym hlive (hs i hf)
    refine ⟨⟨?_, ?_, hinv.1, hinv.2, ?_⟩, ?_⟩
    · rw [deleteSymbol_length]; exact h.length
    · rw [keys_delete hf]; exact named_set h.named _ _ (fun h => absurd rfl h)
    · rw [e]; exact hl.1
    · intro i' hi'
      cases hi'
      rw [e]; exact hl.2

theorem neat_add {st : SymbolTable} (h : Neat st) {name : Str} (hn : Symbolic name) {a : UInt16} (hs : NoDeadLink st name) :
    Neat (addSymbol st name a).2 := by
  have hn0 := legal_ne_nil hn.1
  have hinv := (C32_invariants h.clean h.unique name hn0 a).1
  refine ⟨by rw [addSymbol_length]; exact h.length, ?_, hinv.1, hinv.2, ?_⟩
  · rcases addSymbol_cases st name a with ⟨h0, e⟩ | ⟨h0, i, s, hi, hs, _, e⟩ |
      ⟨h0, i, s, hi, hs, _, e⟩ | ⟨h0, hnf, hf, e⟩ | ⟨h0, hnf, p, s, hp, hz, e⟩
    · rw [e]; exact h.named
    · rw [e, keys_set]
      refine named_set h.named _ _ fun _ => ?_
      exact h.named (s.address, s.name) (List.mem_map_of_mem (List.mem_of_getElem? hs)) (found_live h.clean hn0 hi hs)
    · rw [e, keys_insertAt, keys_delete hi, List.set_set]
      exact named_set h.named _ _ fun _ => hn
    · rw [e]; exact h.named
    · rw [e, keys_insertAt]; exact named_set h.named _ _ fun _ => hn
  · rcases addSymbol_cases st name a with ⟨h0, e⟩ | ⟨h0, i, s, hi, hsi, hh, e⟩ |
      ⟨h0, i, s, hi, hsi, hh, e⟩ | ⟨h0, hnf, hf, e⟩ | ⟨h0, hnf, p, s, hp, hz, e⟩
    · rw [e]; exact h.chained
    · rw [e]
      exact chained_update h.chained hsi (found_live h.clean hn0 hi hsi) h0 hh
    · rw [e]
      obtain ⟨hd, hd2⟩ := neat_delete h hn0 hs
      apply chained_insert hd.chained h0
      · rw [deleteSymbol_length]; exact getElem?_lt hsi
      · intro j s' hj hne _
        exact hd2 i hi j s' hj hne
    · rw [e]; exact h.chained
    · rw [e]
      apply chained_insert h.chained h0 (getElem?_lt hp)
      intro j s' hj hne hs0 hl
      rcases h.chained.linked j s' hj hs0 with hl' | ⟨k, t, hl', _, ht, ht0, _⟩
      · omega
      · have : k = p := by omega
        subst this
        rw [hp] at ht
        cases ht
        exact ht0 hz

/-- In a tidy table the unused entries link to the first. -/
theorem tidy_noDeadLink {st : SymbolTable} (h : Tidy st) {z name : Str} (hz : FirstIs st z) (hn : ¬ SameName name z) : NoDeadLink st name := by
  intro i hi j s hj h0 hl
  rcases h.entries s (List.mem_of_getElem? hj) with rfl | ⟨h1, _⟩
  · have : i = 0 := by simp only at hl; omega
    subst this
    obtain ⟨x, hx, _, hxz⟩ := hz
    obtain ⟨y, hy, hyn, _⟩ := findName_some hi
    rw [hx] at hy
    cases hy
    rw [hxz] at hyn
    exact hn (equalFold_iff.1 hyn)
  · exact h1 h0

/-! ## What names stand for -/

theorem byName_iff {st : SymbolTable} (hu : UniqueNames st) {n : Str} (hn : n ≠ []) {a : UInt16} (ha : a ≠ 0) :
    byName st n = a ↔ ∃ s ∈ st, SameName s.name n ∧ s.address = a := by
  cases hf : findName st n with
  | none =>
    have hno := findName_none hf
    constructor
    · intro h
      have : byName st n = 0 := by
        rw [byName_eq]
        apply lookup_zero
        intro x hx hxn
        obtain ⟨s, hs, rfl⟩ := List.mem_map.1 hx
        simp [hno s hs] at hxn
      exact absurd (h.symm.trans this) ha
    · rintro ⟨s, hs, h1, _⟩
      have := hno s hs
      rw [equalFold_false] at this
      exact absurd h1.symm this
  | some i =>
    obtain ⟨s, hs, h1, _⟩ := findName_some hf
    have h1 := equalFold_iff.1 h1
    rw [byName_found hf hs]
    constructor
    · intro h; exact ⟨s, List.mem_of_getElem? hs, h1.symm, h⟩
    · rintro ⟨t, ht, h2, h3⟩
      obtain ⟨j, hj, e⟩ := List.getElem_of_mem ht
      have hj' : st[j]? = some t := by rw [List.getElem?_eq_getElem hj, e]
      have hs0 : s.name ≠ [] := by
        intro e
        rw [e] at h1
        exact hn (sameName_nil.1 h1)
      have := hu i j s t hs hj' hs0 (h1.symm.trans h2.symm)
      subst this
      rw [hs] at hj'
      cases hj'
      exact h3

theorem addr_ne_zero (f : UInt8) : (0xDF00 + f.toUInt16 : UInt16) ≠ 0 := by
  intro h
  have := congrArg UInt16.toNat h
  rw [addrOf_toNat] at this
  simp at this

theorem denotes_iff {st : SymbolTable} (hu : UniqueNames st) {n : Str} (hn : n ≠ []) (f : UInt8) :
    Denotes st n f ↔ IsFileNumber f ∧ byName st n = 0xDF00 + f.toUInt16 := by
  unfold Denotes
  rw [byName_iff hu hn (addr_ne_zero f)]
  refine and_congr_right fun _ => exists_congr fun s => and_congr_right fun _ => and_congr_right fun _ => ?_
  rw [← addrOf_toNat, UInt16.toNat_inj]

theorem byName_canonical {st : SymbolTable} (hc : CleanNames st) {n : Str} (hn : n ≠ []) :
    byName (st.map canonical) n = byName st n := by
  induction st with
  | nil => rfl
  | cons s st ih =>
    have ih := ih (fun x hx => hc x (List.mem_cons_of_mem _ hx))
    rw [List.map_cons]
    unfold byName
    rw [ih]
    have hnil : equalFold n [] = false := by
      rw [equalFold_false]
      intro h
      exact hn (sameName_nil.1 h)
    by_cases h0 : s.address = 0
    · have e : s.name = [] := hc s List.mem_cons_self h0
      have e1 : (canonical s).name = [] := by unfold canonical; rw [if_pos h0]
      rw [e1, e, hnil, if_neg (by simp), if_neg (by simp)]
    · have e1 : (canonical s).name = toUpper s.name := by unfold canonical; rw [if_neg h0]
      have e2 : (canonical s).address = s.address := by unfold canonical; rw [if_neg h0]
      have : equalFold n (toUpper s.name) = equalFold n s.name := by
        unfold equalFold
        rw [upper_upper]
      rw [e1, e2, this]

theorem denotes_canonical {st : SymbolTable} (h : Neat st) {n : Str} (hn : n ≠ []) (f : UInt8) :
    Denotes (st.map canonical) n f ↔ Denotes st n f := by
  rw [denotes_iff (tidy_neat h.tidy).unique hn, denotes_iff h.unique hn, byName_canonical h.clean hn]

theorem fileForName_denotes {st : SymbolTable} (hu : UniqueNames st) {n : Str} (hn : Symbolic n) (f : UInt8) :
    fileForName st n = .ok f ↔ Denotes st n f := by
  have hn0 := legal_ne_nil hn.1
  rw [C34_resolves_iff]
  constructor
  · rintro (h | ⟨_, h1, x, hx, h2⟩)
    · exact absurd h (hn.2 f)
    · exact ⟨h1, x, List.mem_of_find?_eq_some hx, by simpa using List.find?_some hx, h2⟩
  · rintro ⟨h1, s, hs, h2, h3⟩
    right
    refine ⟨hn.2, h1, ?_⟩
    cases hx : st.find? (fun x => decide (SameName x.name n)) with
    | none =>
      have := List.find?_eq_none.1 hx s hs
      simp [h2] at this
    | some x =>
      refine ⟨x, rfl, ?_⟩
      have hxm := List.mem_of_find?_eq_some hx
      have hxn : SameName x.name n := by simpa using List.find?_some hx
      obtain ⟨i, hi, e⟩ := List.getElem_of_mem hs
      obtain ⟨j, hj, e'⟩ := List.getElem_of_mem hxm
      have hs0 : s.name ≠ [] := by
        intro e
        rw [e] at h2
        exact hn0 (sameName_nil.1 h2.symm)
      have := hu i j s x (by rw [List.getElem?_eq_getElem hi, e]) (by rw [List.getElem?_eq_getElem hj, e']) hs0 (h2.trans hxn.symm)
      subst this
      rw [← e', e]; exact h3

theorem denotes_add {st : SymbolTable} (h : Neat st) {name n : Str} (hn : n ≠ []) (hnm : Symbolic name) (hs : NoDeadLink st name) {f : UInt8}
    (hf : IsFileNumber f) (hok : (addSymbol st name (0xDF00 + f.toUInt16)).1 = .ok ()) (g : UInt8) :
    Denotes (addSymbol st name (0xDF00 + f.toUInt16)).2 n g ↔ if SameName n name then g = f else Denotes st n g := by
  have hN := neat_add h hnm (a := 0xDF00 + f.toUInt16) hs
  rw [denotes_iff hN.unique hn, denotes_iff h.unique hn]
  by_cases e : SameName n name
  · rw [if_pos e, byName_congr e, C32_add_self hok]
    constructor
    · rintro ⟨_, h2⟩
      have := congrArg UInt16.toNat h2
      rw [addrOf_toNat, addrOf_toNat] at this
      exact UInt8.toNat_inj.1 (by omega)
    · rintro rfl; exact ⟨hf, rfl⟩
  · rw [if_neg e, C32_add_other h.clean hn e]

theorem denotes_delete {st : SymbolTable} (h : Neat st) {name n : Str} (hn : n ≠ []) (hnm : name ≠ []) (hs : NoDeadLink st name) (g : UInt8) :
    Denotes (deleteSymbol st name).2 n g ↔ ¬ SameName n name ∧ Denotes st n g := by
  have hN := (neat_delete h hnm hs).1
  rw [denotes_iff hN.unique hn, denotes_iff h.unique hn]
  by_cases e : SameName n name
  · rw [byName_congr e, C32_delete_self h.unique hnm]
    constructor
    · rintro ⟨_, h2⟩
      exact absurd h2.symm (addr_ne_zero g)
    · exact fun h => absurd e h.1
  · rw [C32_delete_other hn e]
    exact ⟨fun h => ⟨e, h⟩, fun h => h.2⟩

/-- The first symbol stays first. -/
theorem first_keys {st st' : SymbolTable} {z : Str} (h : FirstIs st z) (hk : (keys st')[0]? = (keys st)[0]?) (hz : toUpper z = z) :
    FirstIs (st'.map canonical) z := by
  obtain ⟨s, hs, h0, hn⟩ := h
  rw [keys_getElem?, keys_getElem?, hs] at hk
  cases hx : st'[0]? with
  | none => rw [hx] at hk; simp at hk
  | some x =>
    rw [hx] at hk
    simp only [Option.map_some, Option.some.injEq, Prod.mk.injEq] at hk
    have hx0 : x.address ≠ 0 := by rw [hk.1]; exact h0
    refine ⟨canonical x, by rw [List.getElem?_map, hx]; rfl, by rw [canonical_address]; exact hx0, ?_⟩
    unfold canonical
    rw [if_neg hx0]
    show toUpper x.name = z
    rw [hk.2, hn, hz]

theorem first_found {st : SymbolTable} {z name : Str} (h : FirstIs st z) (hn : ¬ SameName name z) {i : Nat} (hi : findName st name = some i) : i ≠ 0 := by
  rintro rfl
  obtain ⟨x, hx, _, hxz⟩ := h
  obtain ⟨y, hy, hyn, _⟩ := findName_some hi
  rw [hx] at hy
  cases hy
  rw [hxz] at hyn
  exact hn (equalFold_iff.1 hyn)

theorem first_add {st : SymbolTable} {z name : Str} (h : FirstIs st z) (hz : toUpper z = z) (hn : ¬ SameName name z) (a : UInt16) :
    FirstIs ((addSymbol st name a).2.map canonical) z := by
  refine first_keys h ?_ hz
  rcases addSymbol_cases st name a with ⟨h0, e⟩ | ⟨h0, i, s, hi, hsi, hh, e⟩ |
    ⟨h0, i, s, hi, hsi, hh, e⟩ | ⟨h0, hnf, hf, e⟩ | ⟨h0, hnf, p, s, hp, hz, e⟩
  · rw [e]
  · rw [e, keys_set, List.getElem?_set_ne (first_found h hn hi)]
  · rw [e, keys_insertAt, keys_delete hi, List.set_set, List.getElem?_set_ne (first_found h hn hi)]
  · rw [e]
  · rw [e, keys_insertAt, List.getElem?_set_ne]
    rintro rfl
    obtain ⟨x, hx, hx0, _⟩ := h
    rw [hx] at hp
    cases hp
    exact hx0 hz

theorem first_delete {st : SymbolTable} {z name : Str} (h : FirstIs st z) (hz : toUpper z = z) (hn : ¬ SameName name z) :
    FirstIs ((deleteSymbol st name).2.map canonical) z := by
  refine first_keys h ?_ hz
  cases hf : findName st name with
  | none =>
    have e : deleteSymbol st name = (false, st) := by unfold deleteSymbol; rw [hf]
    rw [e]
  | some i => rw [keys_delete hf, List.getElem?_set_ne (first_found h hn hf)]

theorem first_upper {st : SymbolTable} (ht : Tidy st) {z : Str} (h : FirstIs st z) : toUpper z = z := by
  obtain ⟨s, hs, h0, rfl⟩ := h
  rcases ht.entries s (List.mem_of_getElem? hs) with rfl | ⟨_, _, h3⟩
  · exact absurd rfl h0
  · exact h3

end Verif.Supermon
