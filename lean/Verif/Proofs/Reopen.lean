import Verif.Proofs.Cmd
import Verif.Props.SupermonSym

/-!
# Lemmas about opening a NakedOS disk again
-/

set_option autoImplicit false

namespace Verif.Supermon
open Disk Spec

theorem parseSymbol_ok {t1 t2 : Vector UInt8 0x1000} {i : Nat} {hi : i + 4 < 0x1000} :
    (∃ s, parseSymbol t1 t2 i hi = .ok s ∧ (s.link = -1 ∨ ∃ j : Nat, s.link = j ∧ j < 819)) ∨
      parseSymbol t1 t2 i hi = .err .other := by
  unfold parseSymbol
  simp only
  split
  · exact Or.inl ⟨_, rfl, Or.inr ⟨0, rfl, by omega⟩⟩
  · split
    · split
      · exact Or.inr rfl
      · rename_i h
        split
        · exact Or.inr rfl
        · refine Or.inl ⟨_, rfl, Or.inr ⟨_, rfl, ?_⟩⟩
          omega
    · exact Or.inl ⟨_, rfl, Or.inl rfl⟩

theorem parseSymbols_cases (t1 t2 : Vector UInt8 0x1000) (n : Nat) (hn : n ≤ 819) :
    (∃ st, parseSymbols t1 t2 n hn = .ok st ∧ st.length = n ∧ ∀ s ∈ st, s.link = -1 ∨ ∃ j : Nat, s.link = j ∧ j < 819) ∨
      parseSymbols t1 t2 n hn = .err .other := by
  induction n with
  | zero => exact Or.inl ⟨[], rfl, rfl, by simp⟩
  | succ n ih =>
    unfold parseSymbols
    rcases ih (by omega) with ⟨st, e, hl, hs⟩ | e
    · rw [e, Out.bind_ok]
      rcases parseSymbol_ok (t1 := t1) (t2 := t2) (i := 5 * n) (hi := by omega) with ⟨s, e', hs'⟩ | e'
      · rw [e', Out.bind_ok]
        refine Or.inl ⟨_, rfl, by simp [hl], ?_⟩
        intro x hx
        rcases List.mem_append.1 hx with hx | hx
        · exact hs x hx
        · simp only [List.mem_singleton] at hx; rw [hx]; exact hs'
      · rw [e']; exact Or.inr rfl
    · rw [e]; exact Or.inr rfl

theorem checkLink_cases {table : SymbolTable} (hl : table.length = 819) {i : Nat} {s : Symbol}
    (hs : s.link = -1 ∨ ∃ j : Nat, s.link = j ∧ j < 819) :
    checkLink table i s = .ok () ∨ checkLink table i s = .err .other := by
  unfold checkLink
  split
  · rename_i h
    split
    · exact Or.inr rfl
    · rcases hs with hs | ⟨j, hs, hj⟩
      · exact absurd hs h.2
      · rw [if_neg (by omega), hs]
        simp only [Int.toNat_natCast]
        rw [List.getElem?_eq_getElem (by omega)]
        simp only
        split
        · exact Or.inr rfl
        · exact Or.inl rfl
  · exact Or.inl rfl

theorem checkLinks_cases {table : SymbolTable} (hl : table.length = 819) (rest : SymbolTable) (i : Nat)
    (hs : ∀ s ∈ rest, s.link = -1 ∨ ∃ j : Nat, s.link = j ∧ j < 819) :
    checkLinks table rest i = .ok () ∨ checkLinks table rest i = .err .other := by
  induction rest generalizing i with
  | nil => exact Or.inl rfl
  | cons s rest ih =>
    unfold checkLinks
    rcases checkLink_cases hl (i := i) (hs s (by simp)) with e | e
    · rw [e, Out.bind_ok]; exact ih _ (fun x hx => hs x (by simp [hx]))
    · rw [e]; exact Or.inr rfl

/-- The table as a function of the bytes of files 3 and 4. -/
def tableOf (b3 b4 : Bytes) : Out SymbolTable :=
  if h1 : b3.length = 0x1000 then
    if h2 : b4.length = 0x1000 then do
      let table ← parseSymbols ⟨b3.toArray, by simpa using h1⟩ ⟨b4.toArray, by simpa using h2⟩ 819 (Nat.le_refl _)
      checkLinks table table 0
      .ok table
    else .err .other
  else .err .other

theorem readSymbolTable_eq {sm : SectorMap} {img : Bytes} (hi : img.length = 143360) :
    readSymbolTable sm img = tableOf (fileBytes (own sm) img 3) (fileBytes (own sm) img 4) := by
  unfold readSymbolTable tableOf
  rw [readFile_eq hi, readFile_eq hi]
  simp only [Out.bind_ok]

theorem tableOf_cases (b3 b4 : Bytes) : (∃ t, tableOf b3 b4 = .ok t) ∨ tableOf b3 b4 = .err .other := by
  unfold tableOf
  split
  · split
    · rename_i h1 h2
      rcases parseSymbols_cases ⟨b3.toArray, by simpa using h1⟩ ⟨b4.toArray, by simpa using h2⟩ 819 (Nat.le_refl _) with ⟨st, e, hl, hs⟩ | e
      · rw [e, Out.bind_ok]
        rcases checkLinks_cases hl st 0 hs with e' | e'
        · rw [e']; exact Or.inl ⟨st, rfl⟩
        · rw [e']; exact Or.inr rfl
      · rw [e]; exact Or.inr rfl
    · exact Or.inr rfl
  · exact Or.inr rfl

/-- The table an opened disk has. -/
def tableOn (sm : SectorMap) (img : Bytes) : Option SymbolTable :=
  match readSymbolTable sm img with
  | .ok t => some t
  | _ => none

theorem open_of_good {sm : SectorMap} {img : Bytes} (h : Good sm img) :
    openOperator img = .ok ⟨img, sm, tableOn sm img⟩ := by
  unfold openOperator tableOn
  rw [h.loaded, Out.bind_ok, (verify_ok_iff _).2 h.legal, Out.bind_ok]
  rcases tableOf_cases (fileBytes (own sm) img 3) (fileBytes (own sm) img 4) with ⟨t, e⟩ | e
  · rw [readSymbolTable_eq h.len, e]
  · rw [readSymbolTable_eq h.len, e]

/-- An operator as it is right after opening: its table is the one on the disk. -/
theorem opened_table {o : Operator} (h : Good o.sm o.data) (ho : openOperator o.data = .ok o) :
    o.st = tableOn o.sm o.data := by
  rw [open_of_good h] at ho
  generalize tableOn o.sm o.data = t at ho ⊢
  injection ho with ho
  rw [← ho]

theorem tableOn_congr {sm sm' : SectorMap} {img img' : Bytes} (h : Good sm img) (h' : Good sm' img')
    (h3 : fileBytes (own sm') img' 3 = fileBytes (own sm) img 3)
    (h4 : fileBytes (own sm') img' 4 = fileBytes (own sm) img 4) : tableOn sm' img' = tableOn sm img := by
  unfold tableOn
  rw [readSymbolTable_eq h.len, readSymbolTable_eq h'.len, h3, h4]

theorem upper_upper (n : Str) : toUpper (toUpper n) = toUpper n := by
  have hup : ∀ c : UInt8, upperByte (upperByte c) = upperByte c := by decide +kernel
  unfold toUpper
  rw [List.map_map]
  exact List.map_congr_left fun c _ => hup c

theorem fileForSymbol_cons (n : Str) (s : Symbol) (rest : SymbolTable) : fileForSymbol n (s :: rest) =
    if equalFold s.name n then
      if s.address > 0xDF00 ∧ s.address < 0xDFFE then some (s.address - 0xDF00).toUInt8 else none
    else fileForSymbol n rest := rfl

/-- Names resolve alike in a clean table and in what is read back of it. -/
theorem fileForSymbol_canonical {st : SymbolTable} (hc : CleanNames st) {n : Str} (hn : n ≠ []) :
    fileForSymbol n (st.map canonical) = fileForSymbol n st := by
  induction st with
  | nil => rfl
  | cons s st ih =>
    have ih := ih (fun x hx => hc x (List.mem_cons_of_mem _ hx))
    rw [List.map_cons]
    rw [fileForSymbol_cons, fileForSymbol_cons, ih]
    have hnil : equalFold [] n = false := by
      rw [equalFold_false]
      intro h
      exact hn (sameName_nil.1 h.symm)
    by_cases h0 : s.address = 0
    · have e : s.name = [] := hc s List.mem_cons_self h0
      have e1 : (canonical s).name = [] := by unfold canonical; rw [if_pos h0]
      rw [e1, e, hnil, if_neg (by simp), if_neg (by simp)]
    · have e1 : (canonical s).name = toUpper s.name := by unfold canonical; rw [if_neg h0]
      have e2 : (canonical s).address = s.address := by unfold canonical; rw [if_neg h0]
      have : equalFold (toUpper s.name) n = equalFold s.name n := by
        unfold equalFold
        rw [upper_upper]
      rw [e1, e2, this]

end Verif.Supermon
