import Verif.Proofs.SupermonTable
import Verif.Props.SupermonOp

/-! # Lemmas about adding and deleting symbols -/

set_option autoImplicit false

namespace Verif.Supermon
open Disk Spec

/-! ## Names and addresses, without links -/

/-- Address and name of every entry. -/
def keys (st : SymbolTable) : List (UInt16 × Str) := st.map fun s => (s.address, s.name)

/-- The address of the first entry with the given name. -/
def lookup (ks : List (UInt16 × Str)) (n : Str) : UInt16 :=
  match ks.find? fun k => equalFold n k.2 with
  | some k => k.1
  | none => 0

theorem byName_eq (st : SymbolTable) (n : Str) : byName st n = lookup (keys st) n := by
  induction st with
  | nil => rfl
  | cons s rest ih =>
    unfold byName
    by_cases h : equalFold n s.name = true
    · rw [if_pos h]
      simp [keys, lookup, List.find?_cons, h]
    · rw [if_neg h, ih]
      simp [keys, lookup, List.find?_cons, h]

theorem lookup_set_hit {ks : List (UInt16 × Str)} {j : Nat} {e : UInt16 × Str} {n : Str}
    (hj : j < ks.length) (hn : equalFold n e.2 = true)
    (hk : ∀ k, k < j → ∀ x, ks[k]? = some x → equalFold n x.2 = false) :
    lookup (ks.set j e) n = e.1 := by
  induction ks generalizing j with
  | nil => simp at hj
  | cons x xs ih =>
    cases j with
    | zero => simp [lookup, List.find?_cons, hn]
    | succ j =>
      have h0 := hk 0 (by omega) x (by simp)
      have := ih (j := j) (by simpa using hj) (fun k hk' y hy => hk (k + 1) (by omega) y (by simpa using hy))
      simpa [lookup, List.find?_cons, h0] using this

theorem lookup_set_miss {ks : List (UInt16 × Str)} {j : Nat} {e : UInt16 × Str} {n : Str}
    (hn : equalFold n e.2 = false)
    (hk : ∀ x, ks[j]? = some x → equalFold n x.2 = false) :
    lookup (ks.set j e) n = lookup ks n := by
  induction ks generalizing j with
  | nil => simp
  | cons x xs ih =>
    cases j with
    | zero =>
      have := hk x (by simp)
      simp [lookup, List.find?_cons, hn, this]
    | succ j =>
      have := ih (j := j) (fun y hy => hk y (by simpa using hy))
      unfold lookup at this ⊢
      rw [List.set_cons_succ, List.find?_cons, List.find?_cons]
      cases equalFold n x.2
      · exact this
      · rfl

theorem lookup_zero {ks : List (UInt16 × Str)} {n : Str}
    (h : ∀ x ∈ ks, equalFold n x.2 = true → x.1 = 0) : lookup ks n = 0 := by
  unfold lookup
  split
  · rename_i k hk
    exact h k (List.mem_of_find?_eq_some hk) (by simpa using List.find?_some hk)
  · rfl

theorem keys_relink (i : Nat) (l : Int) (st : SymbolTable) (j : Nat) :
    keys (relink i l st j) = keys st := by
  induction st generalizing j with
  | nil => rfl
  | cons s rest ih =>
    have := ih (j + 1)
    unfold keys at this ⊢
    unfold relink
    split
    · simp [this]
    · split
      · simp
      · simp [this]

theorem keys_linkTail (h : UInt8) (p : Nat) (st : SymbolTable) : keys (linkTail h p st) = keys st := by
  induction st with
  | nil => rfl
  | cons s rest ih =>
    unfold keys at ih ⊢
    unfold linkTail
    split
    · simp
    · simp [ih]

theorem keys_set (st : SymbolTable) (j : Nat) (s : Symbol) :
    keys (st.set j s) = (keys st).set j (s.address, s.name) := by
  unfold keys; rw [List.map_set]

theorem keys_length (st : SymbolTable) : (keys st).length = st.length := by simp [keys]

theorem keys_getElem? (st : SymbolTable) (k : Nat) :
    (keys st)[k]? = st[k]?.map fun s => (s.address, s.name) := by simp [keys]

theorem keys_insertAt (st : SymbolTable) (n : Str) (a : UInt16) (p : Nat) :
    keys (insertAt st n a p) = (keys st).set p (a, n) := by
  unfold insertAt; rw [keys_set, keys_linkTail]

/-! ## Where the name is found -/

theorem findName_some {st : SymbolTable} {name : Str} {i : Nat} (h : findName st name = some i) :
    ∃ s, st[i]? = some s ∧ equalFold name s.name = true ∧
      ∀ k, k < i → ∀ x, st[k]? = some x → equalFold name x.name = false := by
  unfold findName at h
  rw [List.findIdx?_eq_some_iff_getElem] at h
  obtain ⟨hi, h1, h2⟩ := h
  refine ⟨st[i], List.getElem?_eq_getElem hi, h1, fun k hk x hx => ?_⟩
  have := h2 k hk
  rw [List.getElem?_eq_getElem (by omega)] at hx
  cases hx
  simpa using this

theorem findName_none {st : SymbolTable} {name : Str} (h : findName st name = none) :
    ∀ s ∈ st, equalFold name s.name = false := by
  unfold findName at h
  rw [List.findIdx?_eq_none_iff] at h
  exact h

theorem deleteSymbol_some {st : SymbolTable} {name : Str} {i : Nat} (h : findName st name = some i) :
    ∃ s, st[i]? = some s ∧
      deleteSymbol st name = (true, (relink i s.link st 0).set i ⟨0, [], s.link⟩) := by
  obtain ⟨s, hs, _⟩ := findName_some h
  refine ⟨s, hs, ?_⟩
  unfold deleteSymbol
  rw [h]
  simp only
  rw [hs]

theorem keys_delete {st : SymbolTable} {name : Str} {i : Nat} (h : findName st name = some i) :
    keys (deleteSymbol st name).2 = (keys st).set i (0, []) := by
  obtain ⟨s, _, e⟩ := deleteSymbol_some h
  rw [e, keys_set, keys_relink]

/-- The scan of AddSymbol in terms of the first match and the first free entry. -/
theorem addScan_spec (name : Str) (hash : UInt8) (st : SymbolTable) (j0 : Nat) (pos : Option Nat) :
    match addScan name hash st j0 pos with
    | .update j => ∃ k s, j = j0 + k ∧ st.findIdx? (fun s => equalFold name s.name) = some k ∧
        st[k]? = some s ∧ addrHash s.address = hash
    | .replace j => ∃ k s, j = j0 + k ∧ st.findIdx? (fun s => equalFold name s.name) = some k ∧
        st[k]? = some s ∧ addrHash s.address ≠ hash
    | .free p => st.findIdx? (fun s => equalFold name s.name) = none ∧
        match pos, p with
        | some q, p => p = some q
        | none, some p => ∃ k s, p = j0 + k ∧ st[k]? = some s ∧ s.address = 0
        | none, none => ∀ s ∈ st, s.address ≠ 0 := by
  induction st generalizing j0 pos with
  | nil =>
    unfold addScan
    cases pos <;> simp
  | cons s rest ih =>
    unfold addScan
    by_cases h1 : equalFold name s.name = true
    · rw [if_pos h1]
      by_cases h2 : addrHash s.address = hash
      · rw [if_pos h2]
        exact ⟨0, s, rfl, by simp [List.findIdx?_cons, h1], by simp, h2⟩
      · rw [if_neg h2]
        exact ⟨0, s, rfl, by simp [List.findIdx?_cons, h1], by simp, h2⟩
    · rw [if_neg h1]
      have hidx : (s :: rest).findIdx? (fun s => equalFold name s.name) =
          (rest.findIdx? (fun s => equalFold name s.name)).map (· + 1) := by
        rw [List.findIdx?_cons]; simp [h1]
      have shift : ∀ pos', 
          (match addScan name hash rest (j0 + 1) pos' with
          | .update j => ∃ k s', j = j0 + k ∧ (s :: rest).findIdx? (fun s => equalFold name s.name) = some k ∧
              (s :: rest)[k]? = some s' ∧ addrHash s'.address = hash
          | .replace j => ∃ k s', j = j0 + k ∧ (s :: rest).findIdx? (fun s => equalFold name s.name) = some k ∧
              (s :: rest)[k]? = some s' ∧ addrHash s'.address ≠ hash
          | .free p => (s :: rest).findIdx? (fun s => equalFold name s.name) = none ∧
            match pos', p with
            | some q, p => p = some q
            | none, some p => ∃ k s', p = j0 + 1 + k ∧ rest[k]? = some s' ∧ s'.address = 0
            | none, none => ∀ s ∈ rest, s.address ≠ 0) := by
        intro pos'
        have := ih (j0 + 1) pos'
        revert this
        cases addScan name hash rest (j0 + 1) pos' with
        | update j =>
          rintro ⟨k, s', e, h, h3, h4⟩
          exact ⟨k + 1, s', by omega, by rw [hidx, h]; rfl, by simpa using h3, h4⟩
        | replace j =>
          rintro ⟨k, s', e, h, h3, h4⟩
          exact ⟨k + 1, s', by omega, by rw [hidx, h]; rfl, by simpa using h3, h4⟩
        | free p =>
          rintro ⟨h, h3⟩
          exact ⟨by rw [hidx, h]; rfl, h3⟩
      by_cases h2 : pos = none ∧ s.address = 0
      · rw [if_pos h2]
        have := shift (some j0)
        revert this
        obtain ⟨rfl, hz⟩ := h2
        cases addScan name hash rest (j0 + 1) (some j0) with
        | update j => exact id
        | replace j => exact id
        | free p =>
          rintro ⟨h, h3⟩
          refine ⟨h, ?_⟩
          simp only at h3
          subst h3
          exact ⟨0, s, rfl, by simp, hz⟩
      · rw [if_neg h2]
        have := shift pos
        revert this
        cases addScan name hash rest (j0 + 1) pos with
        | update j => exact id
        | replace j => exact id
        | free p =>
          rintro ⟨h, h3⟩
          refine ⟨h, ?_⟩
          cases pos with
          | some q => exact h3
          | none =>
            cases p with
            | some p =>
              obtain ⟨k, s', e, h4, h5⟩ := h3
              exact ⟨k + 1, s', by omega, by simpa using h4, h5⟩
            | none =>
              intro x hx
              rcases List.mem_cons.1 hx with rfl | hx
              · exact fun hz => h2 ⟨rfl, hz⟩
              · exact h3 x hx

/-- What AddSymbol does, by cases. -/
theorem addSymbol_cases (st : SymbolTable) (name : Str) (a : UInt16) :
    (a = 0 ∧ addSymbol st name a = (.err .other, st)) ∨
    (a ≠ 0 ∧ ∃ i s, findName st name = some i ∧ st[i]? = some s ∧ symbolHash s.address = symbolHash a ∧
      addSymbol st name a = (.ok (), st.set i { s with address := a })) ∨
    (a ≠ 0 ∧ ∃ i s, findName st name = some i ∧ st[i]? = some s ∧ symbolHash s.address ≠ symbolHash a ∧
      addSymbol st name a = (.ok (), insertAt (deleteSymbol st name).2 name a i)) ∨
    (a ≠ 0 ∧ findName st name = none ∧ (∀ s ∈ st, s.address ≠ 0) ∧
      addSymbol st name a = (.err .other, st)) ∨
    (a ≠ 0 ∧ findName st name = none ∧ ∃ p s, st[p]? = some s ∧ s.address = 0 ∧
      addSymbol st name a = (.ok (), insertAt st name a p)) := by
  by_cases ha : a = 0
  · left; exact ⟨ha, by unfold addSymbol; rw [if_pos ha]⟩
  right
  have hs := addScan_spec name (addrHash a) st 0 none
  have hu : ∀ r, addScan name (addrHash a) st 0 none = r → addSymbol st name a =
    (match r with
    | .update j =>
      match st[j]? with
      | some s => (.ok (), st.set j { s with address := a })
      | none => (.panic, st)
    | .replace j => (.ok (), insertAt (deleteSymbol st name).2 name a j)
    | .free none => (.err .other, st)
    | .free (some pos) => (.ok (), insertAt st name a pos)) := by
    intro r hr
    unfold addSymbol
    rw [if_neg ha, hr]
    cases r with
    | free p => cases p <;> rfl
    | _ => rfl
  cases hr : addScan name (addrHash a) st 0 none with
  | update j =>
    rw [hr] at hs
    obtain ⟨k, s, e, h1, h2, h3⟩ := hs
    have : j = k := by omega
    subst this
    left
    refine ⟨ha, j, s, h1, h2, addrHash_inj.1 h3, ?_⟩
    rw [hu _ hr]
    simp only
    rw [h2]
  | replace j =>
    rw [hr] at hs
    obtain ⟨k, s, e, h1, h2, h3⟩ := hs
    have : j = k := by omega
    subst this
    right; left
    exact ⟨ha, j, s, h1, h2, fun h => h3 (addrHash_inj.2 h), hu _ hr⟩
  | free p =>
    rw [hr] at hs
    obtain ⟨h1, h2⟩ := hs
    cases p with
    | none => right; right; left; exact ⟨ha, h1, h2, hu _ hr⟩
    | some p =>
      obtain ⟨k, s, e, h3, h4⟩ := h2
      have : p = k := by omega
      subst this
      right; right; right
      exact ⟨ha, h1, p, s, h3, h4, hu _ hr⟩

theorem equalFold_iff {a b : Str} : equalFold a b = true ↔ SameName a b := by
  unfold equalFold SameName; simp

theorem equalFold_false {a b : Str} : equalFold a b = false ↔ ¬ SameName a b := by
  rw [← equalFold_iff]; simp

theorem SameName.symm {a b : Str} (h : SameName a b) : SameName b a := Eq.symm h
theorem SameName.trans {a b c : Str} (h : SameName a b) (h' : SameName b c) : SameName a c :=
  Eq.trans h h'
theorem SameName.refl (a : Str) : SameName a a := rfl

theorem sameName_nil {a : Str} : SameName a [] ↔ a = [] := by
  unfold SameName toUpper; simp

/-! ## Links -/

theorem relink_cases (i : Nat) (l : Int) (st : SymbolTable) (j0 : Nat) :
    (relink i l st j0 = st ∧ ∀ (k : Nat) (s : Symbol), st[k]? = some s → j0 + k ≠ i → s.link ≠ (i : Int)) ∨
    ∃ (k : Nat) (s : Symbol), st[k]? = some s ∧ j0 + k ≠ i ∧ s.link = (i : Int) ∧ relink i l st j0 = st.set k { s with link := l } := by
  induction st generalizing j0 with
  | nil => left; exact ⟨rfl, by simp⟩
  | cons s rest ih =>
    by_cases h : j0 ≠ i ∧ s.link = i
    · right
      refine ⟨0, s, by simp, by simpa using h.1, h.2, ?_⟩
      unfold relink
      rw [if_neg (fun e => h.1 e.symm), if_pos h.2]
      rfl
    · have e : relink i l (s :: rest) j0 = s :: relink i l rest (j0 + 1) := by
        conv_lhs => unfold relink
        by_cases h1 : i = j0
        · rw [if_pos h1]
        · rw [if_neg h1, if_neg (fun hl => h ⟨fun e => h1 e.symm, hl⟩)]
      rcases ih (j0 + 1) with ⟨h1, h2⟩ | ⟨k, t, h1, h2, h3, h4⟩
      · left
        refine ⟨by rw [e, h1], fun k t hk hne hl => ?_⟩
        cases k with
        | zero => simp at hk; subst hk; exact h ⟨by simpa using hne, hl⟩
        | succ k => exact h2 k t (by simpa using hk) (by omega) hl
      · right
        exact ⟨k + 1, t, by simpa using h1, by omega, h3, by rw [e, h4]; rfl⟩

theorem linkTail_cases (h : UInt8) (p : Nat) (st : SymbolTable) :
    linkTail h p st = st ∨
    ∃ (k : Nat) (s : Symbol), st[k]? = some s ∧ addrHash s.address = h ∧ s.link = -1 ∧
      linkTail h p st = st.set k { s with link := p } := by
  induction st with
  | nil => left; rfl
  | cons s rest ih =>
    unfold linkTail
    split
    · rename_i hc
      right
      exact ⟨0, s, by simp, hc.1, hc.2, rfl⟩
    · rcases ih with e | ⟨k, t, h1, h2, h3, h4⟩
      · left; rw [e]
      · right; exact ⟨k + 1, t, by simpa using h1, h2, h3, by rw [h4]; rfl⟩

/-- Live entries link nowhere or to another live entry of the same hash. -/
def Linked (st : SymbolTable) : Prop :=
  ∀ (i : Nat) (s : Symbol), st[i]? = some s → s.address ≠ 0 → s.link = -1 ∨
    ∃ (j : Nat) (t : Symbol), s.link = (j : Int) ∧ j ≠ i ∧ st[j]? = some t ∧ t.address ≠ 0 ∧
      symbolHash t.address = symbolHash s.address

theorem getElem?_set_cases {α : Type} {l : List α} {i k : Nat} {a x : α}
    (h : (l.set i a)[k]? = some x) : (k = i ∧ x = a) ∨ (k ≠ i ∧ l[k]? = some x) := by
  rw [List.getElem?_set] at h
  split at h
  · rename_i e
    split at h
    · left; exact ⟨e.symm, (Option.some.inj h).symm⟩
    · simp at h
  · rename_i e
    right; exact ⟨fun h' => e h'.symm, h⟩

theorem getElem?_lt {α : Type} {l : List α} {k : Nat} {x : α} (h : l[k]? = some x) : k < l.length := by
  by_contra hc
  rw [List.getElem?_eq_none (by omega)] at h
  simp at h

/-- Removing entry `i` keeps the links consistent. -/
theorem linked_remove {st : SymbolTable} {i : Nat} {sym : Symbol} (hL : Linked st)
    (hi : st[i]? = some sym) (hlive : sym.address ≠ 0)
    (hsafe : ∀ (j : Nat) (s : Symbol), st[j]? = some s → j ≠ i → s.link = (i : Int) →
      s.address ≠ 0 ∧ sym.link ≠ j ∧ ∀ (j' : Nat) (s' : Symbol), st[j']? = some s' → j' ≠ i → s'.link = (i : Int) → j' = j) :
    Linked ((relink i sym.link st 0).set i ⟨0, [], sym.link⟩) ∧
    ∀ (j : Nat) (s : Symbol), ((relink i sym.link st 0).set i ⟨0, [], sym.link⟩)[j]? = some s → j ≠ i → s.link ≠ (i : Int) := by
  have hself : sym.link ≠ i := by
    intro e
    rcases hL i sym hi hlive with h | ⟨j, t, h, hne, _⟩
    · omega
    · omega
  rcases relink_cases i sym.link st 0 with ⟨e, hno⟩ | ⟨p, sp, hp, hpi, hpl, e⟩
  · rw [e]
    have hno' : ∀ (k : Nat) (s : Symbol), st[k]? = some s → k ≠ i → s.link ≠ (i : Int) :=
      fun k s hk hne => hno k s hk (by omega)
    refine ⟨fun k s hk ha => ?_, fun j s hj hne => ?_⟩
    · rcases getElem?_set_cases hk with ⟨_, rfl⟩ | ⟨hki, hk⟩
      · simp at ha
      · rcases hL k s hk ha with h | ⟨j, t, h, hjk, ht, ht0, hh⟩
        · exact Or.inl h
        · right
          have hji : j ≠ i := fun e => hno' k s hk hki (by rw [h, e])
          exact ⟨j, t, h, hjk, by rw [List.getElem?_set_ne hji.symm]; exact ht, ht0, hh⟩
    · rcases getElem?_set_cases hj with ⟨h, _⟩ | ⟨_, hj⟩
      · exact absurd h hne
      · exact hno' j s hj hne
  · rw [e]
    have hpi' : p ≠ i := by omega
    obtain ⟨hpa, hpc, hpu⟩ := hsafe p sp hp hpi' hpl
    refine ⟨fun k s hk ha => ?_, fun j s hj hne => ?_⟩
    · rcases getElem?_set_cases hk with ⟨_, rfl⟩ | ⟨hki, hk⟩
      · simp at ha
      · have addr : ∀ (j : Nat) (t : Symbol), j ≠ i → st[j]? = some t → ∃ t',
            ((st.set p { sp with link := sym.link }).set i ⟨0, [], sym.link⟩)[j]? = some t' ∧
              t'.address = t.address := by
          intro j t hj ht
          rw [List.getElem?_set_ne hj.symm]
          by_cases hjp : j = p
          · subst hjp
            rw [hp] at ht
            cases ht
            exact ⟨_, List.getElem?_set_self (getElem?_lt hp), rfl⟩
          · exact ⟨t, by rw [List.getElem?_set_ne (Ne.symm hjp)]; exact ht, rfl⟩
        rcases getElem?_set_cases hk with ⟨rfl, rfl⟩ | ⟨hkp, hk⟩
        · -- the patched predecessor
          have hph : symbolHash sym.address = symbolHash sp.address := by
            rcases hL k sp hp hpa with h | ⟨j, t, h, _, ht, _, hh⟩
            · omega
            · have : j = i := by omega
              subst this
              rw [hi] at ht
              cases ht
              exact hh
          rcases hL i sym hi hlive with h | ⟨j, t, h, hji, ht, ht0, hh⟩
          · exact Or.inl h
          · right
            have hjk : j ≠ k := by rintro rfl; exact hpc h
            obtain ⟨t', h1, h2⟩ := addr j t hji ht
            exact ⟨j, t', h, hjk, h1, by rw [h2]; exact ht0, by
              show symbolHash t'.address = symbolHash sp.address
              rw [h2, hh, hph]⟩
        · rcases hL k s hk ha with h | ⟨j, t, h, hjk, ht, ht0, hh⟩
          · exact Or.inl h
          · right
            have hji : j ≠ i := fun e => hkp (hpu k s hk hki (by rw [h, e]))
            obtain ⟨t', h1, h2⟩ := addr j t hji ht
            exact ⟨j, t', h, hjk, h1, by rw [h2]; exact ht0, by rw [h2]; exact hh⟩
    · rcases getElem?_set_cases hj with ⟨h, _⟩ | ⟨_, hj⟩
      · exact absurd h hne
      · rcases getElem?_set_cases hj with ⟨_, rfl⟩ | ⟨hjp, hj⟩
        · exact hself
        · intro hl
          exact hjp (hpu j s hj hne hl)

/-- Inserting at an entry nobody links to keeps the links consistent. -/
theorem linked_insert {st : SymbolTable} {name : Str} {a : UInt16} {pos : Nat} (hL : Linked st)
    (ha : a ≠ 0) (hpos : pos < st.length)
    (hno : ∀ (j : Nat) (s : Symbol), st[j]? = some s → j ≠ pos → s.address ≠ 0 → s.link ≠ (pos : Int)) :
    Linked (insertAt st name a pos) := by
  unfold insertAt
  rcases linkTail_cases (addrHash a) pos st with e | ⟨q, sq, hq, hqh, hql, e⟩
  · rw [e]
    intro k s hk hs
    rcases getElem?_set_cases hk with ⟨rfl, rfl⟩ | ⟨hkp, hk⟩
    · exact Or.inl rfl
    · rcases hL k s hk hs with h | ⟨j, t, h, hjk, ht, ht0, hh⟩
      · exact Or.inl h
      · right
        have : j ≠ pos := fun e => hno k s hk hkp hs (by rw [h, e])
        exact ⟨j, t, h, hjk, by rw [List.getElem?_set_ne this.symm]; exact ht, ht0, hh⟩
  · rw [e]
    intro k s hk hs
    rcases getElem?_set_cases hk with ⟨rfl, rfl⟩ | ⟨hkp, hk⟩
    · exact Or.inl rfl
    · rcases getElem?_set_cases hk with ⟨rfl, rfl⟩ | ⟨hkq, hk⟩
      · right
        refine ⟨pos, ⟨a, name, -1⟩, rfl, Ne.symm hkp, ?_, ha, (addrHash_inj.1 hqh).symm⟩
        rw [List.getElem?_set_self (by rw [List.length_set]; exact hpos)]
      · rcases hL k s hk hs with h | ⟨j, t, h, hjk, ht, ht0, hh⟩
        · exact Or.inl h
        · right
          have hjp : j ≠ pos := fun e => hno k s hk hkp hs (by rw [h, e])
          by_cases hjq : j = q
          · subst hjq
            rw [hq] at ht
            cases ht
            refine ⟨j, { sq with link := pos }, h, hjk, ?_, ht0, hh⟩
            rw [List.getElem?_set_ne hjp.symm, List.getElem?_set_self (getElem?_lt hq)]
          · refine ⟨j, t, h, hjk, ?_, ht0, hh⟩
            rw [List.getElem?_set_ne hjp.symm, List.getElem?_set_ne (Ne.symm hjq)]
            exact ht

/-- Changing the address within the hash keeps the links consistent. -/
theorem linked_update {st : SymbolTable} {i : Nat} {sym : Symbol} {a : UInt16} (hL : Linked st)
    (hi : st[i]? = some sym) (hlive : sym.address ≠ 0) (ha : a ≠ 0)
    (hh : symbolHash sym.address = symbolHash a) : Linked (st.set i { sym with address := a }) := by
  intro k s hk hs
  have addr : ∀ (j : Nat) (t : Symbol), st[j]? = some t → t.address ≠ 0 → ∃ t', (st.set i { sym with address := a })[j]? = some t' ∧
      t'.address ≠ 0 ∧ symbolHash t'.address = symbolHash t.address := by
    intro j t ht ht0
    by_cases hj : j = i
    · subst hj
      rw [hi] at ht; cases ht
      exact ⟨_, List.getElem?_set_self (getElem?_lt hi), ha, hh.symm⟩
    · exact ⟨t, by rw [List.getElem?_set_ne (Ne.symm hj)]; exact ht, ht0, rfl⟩
  rcases getElem?_set_cases hk with ⟨rfl, rfl⟩ | ⟨hki, hk⟩
  · rcases hL k sym hi hlive with h | ⟨j, t, h, hjk, ht, ht0, hh'⟩
    · exact Or.inl h
    · right
      obtain ⟨t', h1, h2, h3⟩ := addr j t ht ht0
      exact ⟨j, t', h, hjk, h1, h2, by show _ = symbolHash a; rw [h3, hh', hh]⟩
  · rcases hL k s hk hs with h | ⟨j, t, h, hjk, ht, ht0, hh'⟩
    · exact Or.inl h
    · right
      obtain ⟨t', h1, h2, h3⟩ := addr j t ht ht0
      exact ⟨j, t', h, hjk, h1, h2, by rw [h3, hh']⟩

end Verif.Supermon
