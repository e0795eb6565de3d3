import Verif.Proofs.SupermonChain

/-!
# C30-C33, C35, C38: Super-Mon symbols
-/

set_option autoImplicit false
set_option maxRecDepth 20000

namespace Verif.Supermon
open Disk Spec

/-! ## C30 -/

/-- Decoding of six bytes as `ReadSymbolTable` does it: five bytes and an extra one. -/
def decodeSix (six : Vector UInt8 6) : Str :=
  decodeSymbol ⟨#[six[0], six[1], six[2], six[3], six[4]], rfl⟩ six[5]

/-- C30: every legal name is accepted and decodes to its upper-case form. -/
theorem C30_roundtrip {s : Str} (h : LegalName s) :
    ∃ six, encodeSymbol s = .ok six ∧ decodeSix six = toUpper s := by
  obtain ⟨six, e⟩ := legal_encode h
  refine ⟨six, e, ?_⟩
  have := decode_encode e
  rw [legal_filter h] at this
  exact this

/-- C30: the empty name is six zeros and decodes to the empty name. -/
theorem C30_empty : encodeSymbol [] = .ok (Vector.replicate 6 0) ∧
    decodeSix (Vector.replicate 6 0) = [] := by
  have e : encodeSymbol [] = .ok (Vector.replicate 6 0) := rfl
  exact ⟨e, decode_encode e⟩

/-- C30: exactly which names are accepted - the empty one and those of 3 to 9 characters whose
letters and digits fit in 48 bits. -/
theorem C30_accepts_iff (s : Str) :
    (encodeSymbol s).isOk = true ↔ s = [] ∨ (3 ≤ s.length ∧ s.length ≤ 9 ∧ nameBits s ≤ 48) := by
  by_cases hs : s = []
  · subst hs; simp [encodeSymbol]
  · rw [encodeSymbol_eq hs]
    split
    · rename_i h; simp [h]
    · rename_i h; simp [h, hs]

/-- C30: distinct legal names (up to case) have distinct encodings. -/
theorem C30_injective {s t : Str} {six : Vector UInt8 6} (hs : LegalName s) (ht : LegalName t)
    (h1 : encodeSymbol s = .ok six) (h2 : encodeSymbol t = .ok six) : SameName s t := by
  obtain ⟨a, e1, d1⟩ := C30_roundtrip hs
  obtain ⟨b, e2, d2⟩ := C30_roundtrip ht
  rw [h1] at e1; rw [h2] at e2
  cases e1; cases e2
  unfold SameName
  rw [← d1, ← d2]

/-- C30, the part about names with characters that cannot be stored: the code does *not* reject
them; an accepted name silently loses every character that is not a letter or digit. -/
theorem C30_silently_drops {s : Str} {six : Vector UInt8 6} (h : encodeSymbol s = .ok six) :
    decodeSix six = toUpper (s.filter fun c => isLetter c || isDigit c) := decode_encode h

/-- C30 fails for names with other characters: "A-BC" is accepted and decodes to "ABC". -/
theorem C30_violated : ¬ LegalName (str "A-BC") ∧
    ∃ six, encodeSymbol (str "A-BC") = .ok six ∧ decodeSix six = str "ABC" := by
  refine ⟨by decide +kernel, ?_⟩
  have : ∃ six, encodeSymbol (str "A-BC") = .ok six := by
    rw [encodeSymbol_eq (by decide), if_pos (by decide +kernel)]
    exact ⟨_, rfl⟩
  obtain ⟨six, e⟩ := this
  refine ⟨six, e, ?_⟩
  rw [C30_silently_drops e]
  decide +kernel

example : LegalName (str "Fhello9") ∧ ¬ LegalName (str "012345678") := by decide +kernel

/-! ## C31 -/

/-- C31: a well-formed table that was written is read back, names upper-cased and empty entries
canonical. -/
theorem C31_write_read {sm : SectorMap} {img : Bytes} (h : Good sm img) {st : SymbolTable}
    (hwf : WellFormed st) (hw : (writeSymbolTable sm img st).1 = .ok ()) :
    readSymbolTable (writeSymbolTable sm img st).2.1 (writeSymbolTable sm img st).2.2 =
      .ok (st.map canonical) := by
  have hr : ∀ s ∈ st, LinkRange s := by
    intro s hs ha
    obtain ⟨i, hi, e⟩ := List.getElem_of_mem hs
    rcases hwf.links i s (by rw [List.getElem?_eq_getElem hi, e]) ha with hl | ⟨j, t, hl, _, ht, _⟩
    · exact Or.inl hl
    · exact Or.inr ⟨j, hl, by have := getElem?_lt ht; have := hwf.length; omega⟩
  rw [read_write h hwf.length hr hw, (checkLinks_reread st).2 hwf.links]
  have : st.map reread = st.map canonical := by
    apply List.map_congr_left
    intro s hs
    unfold reread canonical
    split
    · rfl
    · congr 2
      rcases hwf.names s hs with e | e
      · rw [e]; rfl
      · exact legal_filter e
  rw [this]; rfl

/-- C31: reading back twice changes nothing more: a table that was read is written and read
unchanged. -/
theorem C31_read_stable {sm : SectorMap} {img : Bytes} (h : Good sm img) {st : SymbolTable}
    (hwf : WellFormed st)
    (hw : (writeSymbolTable sm img (st.map canonical)).1 = .ok ()) :
    readSymbolTable (writeSymbolTable sm img (st.map canonical)).2.1
      (writeSymbolTable sm img (st.map canonical)).2.2 = .ok (st.map canonical) := by
  have hup : ∀ c : UInt8, upperByte (upperByte c) = upperByte c ∧
      (isLetter (upperByte c) = isLetter c) ∧ (isDigit (upperByte c) = isDigit c) := by decide +kernel
  have hcan : ∀ s : Symbol, canonical (canonical s) = canonical s := by
    intro s
    unfold canonical
    by_cases h0 : s.address = 0
    · simp [h0]
    · rw [if_neg h0, if_neg h0]
      congr 1
      unfold toUpper
      rw [List.map_map]
      exact List.map_congr_left fun c _ => (hup c).1
  have hlegal : ∀ n : Str, LegalName n → LegalName (toUpper n) := by
    intro n hn
    refine ⟨by simpa [toUpper] using hn.1, by simpa [toUpper] using hn.2.1, ?_, ?_⟩
    · intro c hc
      obtain ⟨d, hd, rfl⟩ := List.mem_map.1 hc
      rw [(hup d).2.1, (hup d).2.2]
      exact hn.2.2.1 d hd
    · have : nameBits (toUpper n) = nameBits n := by
        unfold nameBits toUpper
        rw [List.map_map]
        congr 1
        apply List.map_congr_left
        intro c _
        simp only [Function.comp, charBits]
        rw [(hup c).2.1, (hup c).2.2]
      rw [this]; exact hn.2.2.2
  have haddr : ∀ s : Symbol, (canonical s).address = s.address := by
    intro s; unfold canonical; split
    · rename_i h; exact h.symm
    · rfl
  have hwf' : WellFormed (st.map canonical) := by
    refine ⟨by rw [List.length_map]; exact hwf.length, ?_, ?_⟩
    · intro s hs
      obtain ⟨t, ht, rfl⟩ := List.mem_map.1 hs
      unfold canonical
      split
      · exact Or.inl rfl
      · rcases hwf.names t ht with e | e
        · left; simp only; rw [e]; rfl
        · exact Or.inr (hlegal _ e)
    · intro i s hi
      rw [List.getElem?_map] at hi
      cases ht : st[i]? with
      | none => rw [ht] at hi; simp at hi
      | some t =>
        rw [ht] at hi
        simp only [Option.map_some, Option.some.injEq] at hi
        subst hi
        intro h0
        rw [haddr] at h0
        have e : (canonical t).link = t.link := by unfold canonical; rw [if_neg h0]
        rw [e]
        rcases hwf.links i t ht h0 with hl | ⟨j, u, hl, hj, hu, hh⟩
        · exact Or.inl hl
        · exact Or.inr ⟨j, canonical u, hl, hj, by rw [List.getElem?_map, hu]; rfl, by
            rw [haddr, haddr]; exact hh⟩
  have := C31_write_read h hwf' hw
  rw [this, List.map_map]
  refine congrArg Out.ok ?_
  apply List.map_congr_left
  intro s _
  exact hcan s

theorem write_succeeds {sm : SectorMap} {img : Bytes} (h : Good sm img) {st : SymbolTable}
    (hlen : st.length = 819) (hnames : ∀ s ∈ st, s.name = [] ∨ LegalName s.name)
    (h3 : 16 ≤ (ownedBy (own sm) 0xFF).length + (ownedBy (own sm) 3).length)
    (h4 : 32 ≤ (ownedBy (own sm) 0xFF).length + (ownedBy (own sm) 3).length +
      (ownedBy (own sm) 4).length) :
    (writeSymbolTable sm img st).1 = .ok () := by
  obtain ⟨⟨t1, t2⟩, ht⟩ := fillTables_ok (st := st) 0 (zeros 0x1000) (zeros 0x1000)
    (by omega) (by
      intro s hs
      rcases hnames s hs with e | e
      · rw [e]; exact ⟨_, rfl⟩
      · exact legal_encode e)
  obtain ⟨l1, l2⟩ := fillTables_length ht (zeros_length _) (zeros_length _)
  have n1 := ne_nil_of_length l1
  have n2 := ne_nil_of_length l2
  have fit1 : Fits sm 3 t1 := by unfold Fits; rw [l1]; omega
  have w1 := writeFile_ok (ow := true) h.len isFile3 n1 fit1 (Or.inl rfl)
  have k1 := keep_writeFile (c := t1) (ow := true) h isFile3 (by rw [w1]; simp)
  rw [w1] at k1
  have hfree := ownedBy_newMap_free (sm := sm) (f := 3) (c := t1) (by decide)
  rw [targets_length (by decide) fit1, l1] at hfree
  have fit2 : Fits (newMap sm 3 t1) 4 t2 := by
    unfold Fits
    rw [l2, ownedBy_newMap_other sm t1 (g := 4) (by decide) (by decide)]
    omega
  have w2 := writeFile_ok (ow := true) k1.good.len isFile4 n2 fit2 (Or.inl rfl)
  unfold writeSymbolTable
  rw [ht]
  simp only
  rw [w1]
  simp only
  rw [w2]

/-- C31: the write of a well-formed table succeeds whenever there is room for the two 16-sector
halves. -/
theorem C31_write_succeeds {sm : SectorMap} {img : Bytes} (h : Good sm img) {st : SymbolTable}
    (hwf : WellFormed st)
    (h3 : 16 ≤ (ownedBy (own sm) 0xFF).length + (ownedBy (own sm) 3).length)
    (h4 : 32 ≤ (ownedBy (own sm) 0xFF).length + (ownedBy (own sm) 3).length +
      (ownedBy (own sm) 4).length) :
    (writeSymbolTable sm img st).1 = .ok () := write_succeeds h hwf.length hwf.names h3 h4

/-- A table with one two-entry chain, entry 0 last, an empty entry in between. -/
def chainTable : SymbolTable :=
  ⟨1, str "AAA", -1⟩ :: ⟨0, [], 0⟩ :: ⟨0x100, str "BBB", 0⟩ :: List.replicate 816 Symbol.empty

theorem chainTable_get (i : Nat) (s : Symbol) (h : chainTable[i]? = some s) :
    (i = 0 ∧ s = ⟨1, str "AAA", -1⟩) ∨ (i = 2 ∧ s = ⟨0x100, str "BBB", 0⟩) ∨ s = Symbol.empty := by
  match i, h with
  | 0, h => left; exact ⟨rfl, (Option.some.inj h).symm⟩
  | 1, h => right; right; exact (Option.some.inj h).symm
  | 2, h => right; left; exact ⟨rfl, (Option.some.inj h).symm⟩
  | i + 3, h =>
    right; right
    unfold chainTable at h
    simp only [List.getElem?_cons_succ] at h
    have := List.mem_of_getElem? h
    exact (List.mem_replicate.1 this).2

theorem chainTable_wf : WellFormed chainTable where
  length := by unfold chainTable; simp only [List.length_cons, List.length_replicate]
  names := by
    intro s hs
    obtain ⟨i, hi, e⟩ := List.getElem_of_mem hs
    rcases chainTable_get i s (by rw [List.getElem?_eq_getElem hi, e]) with ⟨_, rfl⟩ | ⟨_, rfl⟩ | rfl
    · right; decide +kernel
    · right; decide +kernel
    · left; rfl
  links := by
    intro i s hi h0
    rcases chainTable_get i s hi with ⟨_, rfl⟩ | ⟨rfl, rfl⟩ | rfl
    · exact Or.inl rfl
    · right
      exact ⟨0, ⟨1, str "AAA", -1⟩, rfl, by omega, rfl, by decide +kernel⟩
    · exact absurd rfl h0

theorem fresh_good : Good freshMap freshImg := ⟨freshImg_length, freshMap_legal, freshImg_load⟩

theorem fresh_room (st : SymbolTable) (hwf : WellFormed st) :
    (writeSymbolTable freshMap freshImg st).1 = .ok () := by
  apply C31_write_succeeds fresh_good hwf
  · rw [freshMap_free]; omega
  · rw [freshMap_free]; omega

example : readSymbolTable (writeSymbolTable freshMap freshImg chainTable).2.1
    (writeSymbolTable freshMap freshImg chainTable).2.2 = .ok (chainTable.map canonical) :=
  C31_write_read fresh_good chainTable_wf (fresh_room _ chainTable_wf)

/-! ## C32 -/

/-- Entries without an address have no name (true of every table read from disk, and kept by
adding and deleting). -/
def CleanNames (st : SymbolTable) : Prop := ∀ s ∈ st, s.address = 0 → s.name = []

/-- No two entries have the same non-empty name. -/
def UniqueNames (st : SymbolTable) : Prop :=
  ∀ (i j : Nat) (s t : Symbol), st[i]? = some s → st[j]? = some t → s.name ≠ [] → SameName s.name t.name → i = j

/-- C32: after a successful AddSymbol the name resolves to the address. -/
theorem C32_add_self {st : SymbolTable} {name : Str} {a : UInt16}
    (h : (addSymbol st name a).1 = .ok ()) : byName (addSymbol st name a).2 name = a := by
  rw [byName_eq]
  rcases addSymbol_cases st name a with ⟨_, e⟩ | ⟨_, i, s, hi, hs, _, e⟩ | ⟨_, i, s, hi, hs, _, e⟩ |
    ⟨_, _, _, e⟩ | ⟨_, hn, p, s, hp, _, e⟩
  · rw [e] at h; simp at h
  · rw [e, keys_set]
    obtain ⟨s', hs', h1, h2⟩ := findName_some hi
    rw [hs] at hs'; cases hs'
    rw [lookup_set_hit (by rw [keys_length]; exact getElem?_lt hs) (by exact h1)]
    intro k hk x hx
    rw [keys_getElem?] at hx
    cases hy : st[k]? with
    | none => rw [hy] at hx; simp at hx
    | some y => rw [hy] at hx; simp at hx; subst hx; exact h2 k hk y hy
  · rw [e, keys_insertAt, keys_delete hi]
    obtain ⟨s', hs', h1, h2⟩ := findName_some hi
    rw [lookup_set_hit (by rw [List.length_set, keys_length]; exact getElem?_lt hs)
      (equalFold_iff.2 (SameName.refl _))]
    intro k hk x hx
    rw [List.getElem?_set_ne (by omega), keys_getElem?] at hx
    cases hy : st[k]? with
    | none => rw [hy] at hx; simp at hx
    | some y => rw [hy] at hx; simp at hx; subst hx; exact h2 k hk y hy
  · rw [e] at h; simp at h
  · rw [e, keys_insertAt]
    rw [lookup_set_hit (by rw [keys_length]; exact getElem?_lt hp)
      (equalFold_iff.2 (SameName.refl _))]
    intro k hk x hx
    rw [keys_getElem?] at hx
    cases hy : st[k]? with
    | none => rw [hy] at hx; simp at hx
    | some y =>
      rw [hy] at hx; simp at hx; subst hx
      exact findName_none hn y (List.mem_of_getElem? hy)

/-- C32: adding a name leaves how every other name resolves as it was. -/
theorem C32_add_other {st : SymbolTable} (hc : CleanNames st) {name n : Str} {a : UInt16}
    (hn0 : n ≠ []) (hne : ¬ SameName n name) :
    byName (addSymbol st name a).2 n = byName st n := by
  rw [byName_eq, byName_eq]
  have miss : ∀ {i : Nat} {s : Symbol}, findName st name = some i → st[i]? = some s →
      equalFold n s.name = false := by
    intro i s hi hs
    obtain ⟨s', hs', h1, _⟩ := findName_some hi
    rw [hs] at hs'; cases hs'
    rw [equalFold_false]
    exact fun h => hne (h.trans (equalFold_iff.1 h1).symm)
  rcases addSymbol_cases st name a with ⟨_, e⟩ | ⟨_, i, s, hi, hs, _, e⟩ | ⟨_, i, s, hi, hs, _, e⟩ |
    ⟨_, _, _, e⟩ | ⟨_, hn, p, s, hp, hz, e⟩
  · rw [e]
  · rw [e, keys_set]
    apply lookup_set_miss (miss hi hs)
    intro x hx
    rw [keys_getElem?, hs] at hx
    simp at hx; subst hx
    exact miss hi hs
  · rw [e, keys_insertAt, keys_delete hi]
    rw [List.set_set]
    apply lookup_set_miss (equalFold_false.2 hne)
    intro x hx
    rw [keys_getElem?, hs] at hx
    simp at hx; subst hx
    exact miss hi hs
  · rw [e]
  · rw [e, keys_insertAt]
    apply lookup_set_miss (equalFold_false.2 hne)
    intro x hx
    rw [keys_getElem?, hp] at hx
    simp at hx; subst hx
    simp only
    rw [hc s (List.mem_of_getElem? hp) hz, equalFold_false, sameName_nil]
    exact hn0

/-- C32: AddSymbol fails exactly for address 0, or a new name in a full table, and then changes
nothing. -/
theorem C32_add_fails_iff (st : SymbolTable) (name : Str) (a : UInt16) :
    ((addSymbol st name a).1 ≠ .ok () ↔
      a = 0 ∨ ((∀ s ∈ st, ¬ SameName name s.name) ∧ ∀ s ∈ st, s.address ≠ 0)) ∧
    ((addSymbol st name a).1 ≠ .ok () → (addSymbol st name a).2 = st) := by
  have found : ∀ {i : Nat} {s : Symbol}, findName st name = some i → st[i]? = some s →
      ¬ ∀ s ∈ st, ¬ SameName name s.name := by
    intro i s hi hs hall
    obtain ⟨s', hs', h1, _⟩ := findName_some hi
    exact hall s' (List.mem_of_getElem? hs') (equalFold_iff.1 h1)
  rcases addSymbol_cases st name a with ⟨h0, e⟩ | ⟨h0, i, s, hi, hs, _, e⟩ | ⟨h0, i, s, hi, hs, _, e⟩ |
    ⟨h0, hn, hf, e⟩ | ⟨h0, hn, p, s, hp, hz, e⟩
  · rw [e]; simp [h0]
  · rw [e]; simp only [ne_eq, not_true_eq_false, false_iff, false_imp_iff, and_true]
    rintro (h | ⟨h, _⟩)
    · exact h0 h
    · exact found hi hs h
  · rw [e]; simp only [ne_eq, not_true_eq_false, false_iff, false_imp_iff, and_true]
    rintro (h | ⟨h, _⟩)
    · exact h0 h
    · exact found hi hs h
  · rw [e]
    refine ⟨⟨fun _ => Or.inr ⟨fun s hs => equalFold_false.1 (findName_none hn s hs), hf⟩, by simp⟩,
      by simp⟩
  · rw [e]; simp only [ne_eq, not_true_eq_false, false_iff, false_imp_iff, and_true]
    rintro (h | ⟨_, h⟩)
    · exact h0 h
    · exact h s (List.mem_of_getElem? hp) hz

/-- C32: DeleteSymbol returns true exactly when some entry has the name, and otherwise changes
nothing. -/
theorem C32_delete_found (st : SymbolTable) (name : Str) :
    ((deleteSymbol st name).1 = true ↔ ∃ s ∈ st, SameName name s.name) ∧
    ((deleteSymbol st name).1 = false → (deleteSymbol st name).2 = st) := by
  cases h : findName st name with
  | none =>
    have hn := findName_none h
    have e : deleteSymbol st name = (false, st) := by unfold deleteSymbol; rw [h]
    rw [e]
    refine ⟨⟨by simp, ?_⟩, by simp⟩
    rintro ⟨s, hs, hsn⟩
    have := hn s hs
    rw [equalFold_false] at this
    exact absurd hsn this
  | some i =>
    obtain ⟨s, hs, e⟩ := deleteSymbol_some h
    obtain ⟨s', hs', h1, _⟩ := findName_some h
    rw [e]
    exact ⟨⟨fun _ => ⟨s', List.mem_of_getElem? hs', equalFold_iff.1 h1⟩, fun _ => rfl⟩, by simp⟩

/-- C32: after DeleteSymbol a name that was unique no longer resolves. -/
theorem C32_delete_self {st : SymbolTable} (hu : UniqueNames st) {name : Str} (hn : name ≠ []) :
    byName (deleteSymbol st name).2 name = 0 := by
  rw [byName_eq]
  cases h : findName st name with
  | none =>
    have e : deleteSymbol st name = (false, st) := by unfold deleteSymbol; rw [h]
    rw [e]
    apply lookup_zero
    intro x hx hxn
    obtain ⟨s, hs, rfl⟩ := List.mem_map.1 hx
    simp [findName_none h s hs] at hxn
  | some i =>
    obtain ⟨s', hs', h1, _⟩ := findName_some h
    rw [keys_delete h]
    apply lookup_zero
    intro x hx hxn
    obtain ⟨k, hk, e⟩ := List.getElem_of_mem hx
    have hk' : ((keys st).set i (0, []))[k]? = some x := by rw [List.getElem?_eq_getElem hk, e]
    rcases getElem?_set_cases hk' with ⟨_, rfl⟩ | ⟨hki, hk'⟩
    · rfl
    · rw [keys_getElem?] at hk'
      cases hy : st[k]? with
      | none => rw [hy] at hk'; simp at hk'
      | some y =>
        rw [hy] at hk'; simp at hk'; subst hk'
        simp only at hxn
        have h1' := equalFold_iff.1 h1
        have hs0 : s'.name ≠ [] := by
          intro e0; rw [e0, sameName_nil] at h1'; exact hn h1'
        have := hu i k s' y hs' hy hs0 (h1'.symm.trans (equalFold_iff.1 hxn))
        exact absurd this.symm hki

/-- C32: deleting a name leaves how every other name resolves as it was. -/
theorem C32_delete_other {st : SymbolTable} {name n : Str} (hn0 : n ≠ []) (hne : ¬ SameName n name) :
    byName (deleteSymbol st name).2 n = byName st n := by
  rw [byName_eq, byName_eq]
  cases h : findName st name with
  | none =>
    have e : deleteSymbol st name = (false, st) := by unfold deleteSymbol; rw [h]
    rw [e]
  | some i =>
    obtain ⟨s', hs', h1, _⟩ := findName_some h
    rw [keys_delete h]
    apply lookup_set_miss
    · rw [equalFold_false, sameName_nil]; exact hn0
    · intro x hx
      rw [keys_getElem?, hs'] at hx
      simp at hx; subst hx
      rw [equalFold_false]
      exact fun h' => hne (h'.trans (equalFold_iff.1 h1).symm)

theorem keys_mem_iff {st : SymbolTable} : CleanNames st ↔ ∀ k ∈ keys st, k.1 = 0 → k.2 = [] := by
  unfold CleanNames keys
  simp

theorem clean_set {ks : List (UInt16 × Str)} (h : ∀ k ∈ ks, k.1 = 0 → k.2 = []) (i : Nat)
    (e : UInt16 × Str) (he : e.1 = 0 → e.2 = []) : ∀ k ∈ ks.set i e, k.1 = 0 → k.2 = [] := by
  intro k hk
  rcases List.mem_or_eq_of_mem_set hk with h' | rfl
  · exact h k h'
  · exact he

theorem unique_iff {st : SymbolTable} : UniqueNames st ↔
    ∀ (i j : Nat) (s t : UInt16 × Str), (keys st)[i]? = some s → (keys st)[j]? = some t →
      s.2 ≠ [] → SameName s.2 t.2 → i = j := by
  constructor
  · intro h i j s t hs ht
    rw [keys_getElem?] at hs ht
    cases h1 : st[i]? with
    | none => rw [h1] at hs; simp at hs
    | some s' =>
      cases h2 : st[j]? with
      | none => rw [h2] at ht; simp at ht
      | some t' =>
        rw [h1] at hs; rw [h2] at ht
        simp at hs ht; subst hs; subst ht
        exact h i j s' t' h1 h2
  · intro h i j s t hs ht
    exact h i j _ _ (by rw [keys_getElem?, hs]; rfl) (by rw [keys_getElem?, ht]; rfl)

theorem unique_set {ks : List (UInt16 × Str)}
    (h : ∀ (i j : Nat) (s t : UInt16 × Str), ks[i]? = some s → ks[j]? = some t → s.2 ≠ [] →
      SameName s.2 t.2 → i = j) (p : Nat) (e : UInt16 × Str)
    (he : ∀ (j : Nat) (t : UInt16 × Str), j ≠ p → ks[j]? = some t → e.2 = [] ∨ ¬ SameName e.2 t.2) :
    ∀ (i j : Nat) (s t : UInt16 × Str), (ks.set p e)[i]? = some s → (ks.set p e)[j]? = some t →
      s.2 ≠ [] → SameName s.2 t.2 → i = j := by
  intro i j s t hs ht h0 hsn
  rcases getElem?_set_cases hs with ⟨e1, e2⟩ | ⟨hip, hs'⟩
  · rcases getElem?_set_cases ht with ⟨e3, e4⟩ | ⟨hjp, ht'⟩
    · omega
    · rw [e2] at h0 hsn
      rcases he j t hjp ht' with h1 | h1
      · exact absurd h1 h0
      · exact absurd hsn h1
  · rcases getElem?_set_cases ht with ⟨e3, e4⟩ | ⟨hjp, ht'⟩
    · rw [e4] at hsn
      rcases he i s hip hs' with h1 | h1
      · rw [h1, sameName_nil] at hsn; exact absurd hsn h0
      · exact absurd hsn.symm h1
    · exact h i j s t hs' ht' h0 hsn

/-- C32: both calls keep the table clean and its names unique. -/
theorem C32_invariants {st : SymbolTable} (hc : CleanNames st) (hu : UniqueNames st) (name : Str)
    (hn : name ≠ []) (a : UInt16) :
    (CleanNames (addSymbol st name a).2 ∧ UniqueNames (addSymbol st name a).2) ∧
    (CleanNames (deleteSymbol st name).2 ∧ UniqueNames (deleteSymbol st name).2) := by
  have hc' := keys_mem_iff.1 hc
  have hu' := unique_iff.1 hu
  constructor
  · rw [keys_mem_iff, unique_iff]
    rcases addSymbol_cases st name a with ⟨h0, e⟩ | ⟨h0, i, s, hi, hs, _, e⟩ |
      ⟨h0, i, s, hi, hs, _, e⟩ | ⟨h0, hnf, hf, e⟩ | ⟨h0, hnf, p, s, hp, hz, e⟩
    · rw [e]; exact ⟨hc', hu'⟩
    · rw [e, keys_set]
      refine ⟨clean_set hc' _ _ (fun h => absurd h h0), unique_set hu' _ _ ?_⟩
      intro j t hj ht
      by_cases hs0 : s.name = []
      · exact Or.inl hs0
      · right
        intro hsn
        exact hj (hu' i j (s.address, s.name) t (by rw [keys_getElem?, hs]; rfl) ht hs0 hsn).symm
    · rw [e, keys_insertAt, keys_delete hi, List.set_set]
      refine ⟨clean_set hc' _ _ (fun h => absurd h h0), unique_set hu' _ _ ?_⟩
      intro j t hj ht
      right
      intro hsn
      obtain ⟨s', hs', h1, _⟩ := findName_some hi
      have h1' := equalFold_iff.1 h1
      have hs0 : s'.name ≠ [] := by
        intro e0; rw [e0, sameName_nil] at h1'; exact hn h1'
      exact hj (hu' i j (s'.address, s'.name) t (by rw [keys_getElem?, hs']; rfl) ht hs0
        (h1'.symm.trans hsn)).symm
    · rw [e]; exact ⟨hc', hu'⟩
    · rw [e, keys_insertAt]
      refine ⟨clean_set hc' _ _ (fun h => absurd h h0), unique_set hu' _ _ ?_⟩
      intro j t hj ht
      right
      rw [keys_getElem?] at ht
      cases hy : st[j]? with
      | none => rw [hy] at ht; simp at ht
      | some y =>
        rw [hy] at ht; simp at ht; subst ht
        exact equalFold_false.1 (findName_none hnf y (List.mem_of_getElem? hy))
  · rw [keys_mem_iff, unique_iff]
    cases h : findName st name with
    | none =>
      have e : deleteSymbol st name = (false, st) := by unfold deleteSymbol; rw [h]
      rw [e]; exact ⟨hc', hu'⟩
    | some i =>
      rw [keys_delete h]
      exact ⟨clean_set hc' _ _ (fun _ => rfl), unique_set hu' _ _ (fun _ _ _ _ => Or.inl rfl)⟩

/-- One call on a table. -/
inductive SymOp where
  | add (name : Str) (address : UInt16)
  | delete (name : Str)

/-- The table after the call. -/
def SymOp.run (st : SymbolTable) : SymOp → SymbolTable
  | .add n a => (addSymbol st n a).2
  | .delete n => (deleteSymbol st n).2

/-- Specification: a case-insensitive map from names to addresses, 0 for "absent". -/
def SymOp.expect (σ : Str → UInt16) (added : Bool) : SymOp → Str → UInt16
  | .add n a => fun m => if SameName m n ∧ added = true then a else σ m
  | .delete n => fun m => if SameName m n then 0 else σ m

/-- Whether an addition succeeded. -/
def SymOp.added (st : SymbolTable) : SymOp → Bool
  | .add n a => (addSymbol st n a).1.isOk
  | .delete _ => false

def SymOp.name : SymOp → Str
  | .add n _ => n
  | .delete n => n

/-- A history on the table and on the specification. -/
def runSyms : SymbolTable → (Str → UInt16) → List SymOp → SymbolTable × (Str → UInt16)
  | st, σ, [] => (st, σ)
  | st, σ, op :: rest => runSyms (op.run st) (op.expect σ (op.added st)) rest

theorem byName_congr {st : SymbolTable} {m n : Str} (h : SameName m n) : byName st m = byName st n := by
  induction st with
  | nil => rfl
  | cons s rest ih =>
    unfold byName
    have : equalFold m s.name = equalFold n s.name := by
      unfold equalFold; rw [show toUpper m = toUpper n from h]
    rw [this, ih]

/-- C32: over every history of additions and deletions the table behaves as a case-insensitive
map. -/
theorem C32_history (st : SymbolTable) (hc : CleanNames st) (hu : UniqueNames st) (ops : List SymOp)
    (hops : ∀ op ∈ ops, op.name ≠ []) (m : Str) (hm : m ≠ []) :
    byName (runSyms st (byName st) ops).1 m = (runSyms st (byName st) ops).2 m := by
  have gen : ∀ (ops : List SymOp) (st : SymbolTable) (σ : Str → UInt16), CleanNames st → UniqueNames st →
      (∀ op ∈ ops, op.name ≠ []) → (∀ m, m ≠ [] → byName st m = σ m) →
      byName (runSyms st σ ops).1 m = (runSyms st σ ops).2 m := by
    intro ops
    induction ops with
    | nil => intro st σ _ _ _ hσ; exact hσ m hm
    | cons op rest ih =>
      intro st σ hc hu hops hσ
      unfold runSyms
      have hop := hops op (by simp)
      apply ih
      · cases op with
        | add n a => exact (C32_invariants hc hu n hop a).1.1
        | delete n => exact (C32_invariants hc hu n hop 0).2.1
      · cases op with
        | add n a => exact (C32_invariants hc hu n hop a).1.2
        | delete n => exact (C32_invariants hc hu n hop 0).2.2
      · exact fun p hp => hops p (by simp [hp])
      · intro k hk
        cases op with
        | add n a =>
          show byName (addSymbol st n a).2 k =
            if SameName k n ∧ (addSymbol st n a).1.isOk = true then a else σ k
          by_cases hs : SameName k n
          · by_cases hok : (addSymbol st n a).1 = .ok ()
            · rw [if_pos ⟨hs, by rw [hok]; rfl⟩, byName_congr hs, C32_add_self hok]
            · rw [((C32_add_fails_iff st n a).2 hok), if_neg, hσ k hk]
              rintro ⟨_, h⟩
              obtain ⟨u, hu⟩ := Out.isOk_iff.1 h
              exact hok hu
          · rw [if_neg (fun h => hs h.1), C32_add_other hc hk hs, hσ k hk]
        | delete n =>
          simp only [SymOp.run, SymOp.expect]
          by_cases hs : SameName k n
          · rw [if_pos hs, byName_congr hs, C32_delete_self hu (show n ≠ [] from hop)]
          · rw [if_neg hs, C32_delete_other hk hs, hσ k hk]
  exact gen ops st (byName st) hc hu hops (fun _ _ => rfl)

theorem chainTable_clean : CleanNames chainTable ∧ UniqueNames chainTable := by
  refine ⟨?_, ?_⟩
  · intro s hs h0
    obtain ⟨i, hi, e⟩ := List.getElem_of_mem hs
    rcases chainTable_get i s (by rw [List.getElem?_eq_getElem hi, e]) with ⟨_, rfl⟩ | ⟨_, rfl⟩ | rfl
    · exact absurd h0 (by decide)
    · exact absurd h0 (by decide)
    · rfl
  · intro i j s t hs ht h0 hsn
    rcases chainTable_get i s hs with ⟨rfl, rfl⟩ | ⟨rfl, rfl⟩ | rfl
    · rcases chainTable_get j t ht with ⟨rfl, rfl⟩ | ⟨rfl, rfl⟩ | rfl
      · rfl
      · exact absurd hsn (by decide +kernel)
      · exact absurd hsn (by decide +kernel)
    · rcases chainTable_get j t ht with ⟨rfl, rfl⟩ | ⟨rfl, rfl⟩ | rfl
      · exact absurd hsn (by decide +kernel)
      · rfl
      · exact absurd hsn (by decide +kernel)
    · exact absurd rfl h0

/-! ## C33 -/

/-- Deleting this name is safe: the entry found is live, and at most one other entry links to it,
which is live and is not the entry it links to. -/
def SafeDelete (st : SymbolTable) (name : Str) : Prop :=
  ∀ (i : Nat) (sym : Symbol), findName st name = some i → st[i]? = some sym → sym.address ≠ 0 ∧
    ∀ (j : Nat) (s : Symbol), st[j]? = some s → j ≠ i → s.link = (i : Int) →
      s.address ≠ 0 ∧ sym.link ≠ (j : Int) ∧
      ∀ (j' : Nat) (s' : Symbol), st[j']? = some s' → j' ≠ i → s'.link = (i : Int) → j' = j

/-- Histories whose deletions are safe. -/
inductive SymReach : SymbolTable → SymbolTable → Prop
  | refl (st : SymbolTable) : SymReach st st
  | add {st st' : SymbolTable} (name : Str) (a : UInt16) : SymReach st st' → LegalName name →
      (SafeDelete st' name ∨ symbolHash (byName st' name) = symbolHash a) →
      SymReach st (addSymbol st' name a).2
  | delete {st st' : SymbolTable} (name : Str) : SymReach st st' → SafeDelete st' name →
      SymReach st (deleteSymbol st' name).2

theorem legal_ne_nil {n : Str} (h : LegalName n) : n ≠ [] := by
  rintro rfl; have := h.1; simp at this

/-- Everything C33 needs of a table. -/
structure Sound (st : SymbolTable) : Prop where
  length : st.length = 819
  names : ∀ k ∈ keys st, k.2 = [] ∨ LegalName k.2
  clean : CleanNames st
  linked : Linked st

theorem Sound.wellFormed {st : SymbolTable} (h : Sound st) : WellFormed st where
  length := h.length
  names s hs := h.names (s.address, s.name) (List.mem_map_of_mem hs)
  links i s hi h0 := by
    rcases h.linked i s hi h0 with hl | ⟨j, t, hl, hj, ht, _, hh⟩
    · exact Or.inl hl
    · exact Or.inr ⟨j, t, hl, hj, ht, hh⟩

theorem names_set {ks : List (UInt16 × Str)} (h : ∀ k ∈ ks, k.2 = [] ∨ LegalName k.2) (i : Nat)
    (e : UInt16 × Str) (he : e.2 = [] ∨ LegalName e.2) : ∀ k ∈ ks.set i e, k.2 = [] ∨ LegalName k.2 := by
  intro k hk
  rcases List.mem_or_eq_of_mem_set hk with h' | rfl
  · exact h k h'
  · exact he

/-- The first entry with a non-empty name is live in a clean table. -/
theorem found_live {st : SymbolTable} (hc : CleanNames st) {name : Str} (hn : name ≠ []) {i : Nat}
    {s : Symbol} (hi : findName st name = some i) (hs : st[i]? = some s) : s.address ≠ 0 := by
  intro h0
  obtain ⟨s', hs', h1, _⟩ := findName_some hi
  rw [hs] at hs'; cases hs'
  have := hc s (List.mem_of_getElem? hs) h0
  rw [this, equalFold_iff, sameName_nil] at h1
  exact hn h1

theorem sound_delete {st : SymbolTable} (h : Sound st) {name : Str} (hs : SafeDelete st name) :
    Sound (deleteSymbol st name).2 ∧
    ∀ i, findName st name = some i → ∀ (j : Nat) (s : Symbol),
      (deleteSymbol st name).2[j]? = some s → j ≠ i → s.link ≠ (i : Int) := by
  cases hf : findName st name with
  | none =>
    have e : deleteSymbol st name = (false, st) := by unfold deleteSymbol; rw [hf]
    rw [e]; exact ⟨h, by simp⟩
  | some i =>
    obtain ⟨sym, hsym, e⟩ := deleteSymbol_some hf
    obtain ⟨hlive, hsafe⟩ := hs i sym hf hsym
    have hl := linked_remove h.linked hsym hlive hsafe
    have hk := keys_delete hf
    refine ⟨⟨?_, ?_, ?_, ?_⟩, ?_⟩
    · rw [deleteSymbol_length]; exact h.length
    · rw [hk]; exact names_set h.names _ _ (Or.inl rfl)
    · rw [keys_mem_iff, hk]; exact clean_set (keys_mem_iff.1 h.clean) _ _ (fun _ => rfl)
    · rw [e]; exact hl.1
    · intro i' hi'
      cases hi'
      rw [e]; exact hl.2

theorem byName_found {st : SymbolTable} {name : Str} {i : Nat} {s : Symbol}
    (hi : findName st name = some i) (hs : st[i]? = some s) : byName st name = s.address := by
  induction st generalizing i with
  | nil => simp at hs
  | cons x xs ih =>
    unfold byName
    unfold findName at hi
    rw [List.findIdx?_cons] at hi
    by_cases hx : equalFold name x.name = true
    · rw [if_pos hx] at hi ⊢
      cases hi
      simp at hs
      rw [hs]
    · rw [if_neg hx] at hi ⊢
      cases hf : xs.findIdx? (fun s => equalFold name s.name) with
      | none => rw [hf] at hi; simp at hi
      | some k =>
        rw [hf] at hi
        simp at hi
        subst hi
        exact ih hf (by simpa using hs)

theorem sound_add {st : SymbolTable} (h : Sound st) {name : Str} (hn : LegalName name) {a : UInt16}
    (hs : SafeDelete st name ∨ symbolHash (byName st name) = symbolHash a) :
    Sound (addSymbol st name a).2 := by
  have hn0 := legal_ne_nil hn
  refine ⟨by rw [addSymbol_length]; exact h.length, ?_, ?_, ?_⟩
  · rcases addSymbol_cases st name a with ⟨h0, e⟩ | ⟨h0, i, s, hi, hs, _, e⟩ |
      ⟨h0, i, s, hi, hs, _, e⟩ | ⟨h0, hnf, hf, e⟩ | ⟨h0, hnf, p, s, hp, hz, e⟩
    · rw [e]; exact h.names
    · rw [e, keys_set]
      exact names_set h.names _ _ (h.names (s.address, s.name) (List.mem_map_of_mem (List.mem_of_getElem? hs)))
    · rw [e, keys_insertAt, keys_delete hi, List.set_set]
      exact names_set h.names _ _ (Or.inr hn)
    · rw [e]; exact h.names
    · rw [e, keys_insertAt]; exact names_set h.names _ _ (Or.inr hn)
  · have hc' := keys_mem_iff.1 h.clean
    rw [keys_mem_iff]
    rcases addSymbol_cases st name a with ⟨h0, e⟩ | ⟨h0, i, s, hi, hs, _, e⟩ |
      ⟨h0, i, s, hi, hs, _, e⟩ | ⟨h0, hnf, hf, e⟩ | ⟨h0, hnf, p, s, hp, hz, e⟩
    · rw [e]; exact hc'
    · rw [e, keys_set]; exact clean_set hc' _ _ (fun h => absurd h h0)
    · rw [e, keys_insertAt, keys_delete hi, List.set_set]
      exact clean_set hc' _ _ (fun h => absurd h h0)
    · rw [e]; exact hc'
    · rw [e, keys_insertAt]; exact clean_set hc' _ _ (fun h => absurd h h0)
  · rcases addSymbol_cases st name a with ⟨h0, e⟩ | ⟨h0, i, s, hi, hsi, hh, e⟩ |
      ⟨h0, i, s, hi, hsi, hh, e⟩ | ⟨h0, hnf, hf, e⟩ | ⟨h0, hnf, p, s, hp, hz, e⟩
    · rw [e]; exact h.linked
    · rw [e]
      exact linked_update h.linked hsi (found_live h.clean hn0 hi hsi) h0 hh
    · rw [e]
      have hsafe : SafeDelete st name := by
        rcases hs with hs | hs
        · exact hs
        · rw [byName_found hi hsi] at hs
          exact absurd hs hh
      obtain ⟨hd, hd2⟩ := sound_delete h hsafe
      apply linked_insert hd.linked h0
      · rw [deleteSymbol_length]; exact getElem?_lt hsi
      · intro j s' hj hne _
        exact hd2 i hi j s' hj hne
    · rw [e]; exact h.linked
    · rw [e]
      apply linked_insert h.linked h0 (getElem?_lt hp)
      intro j s' hj hne hs0 hl
      rcases h.linked j s' hj hs0 with hl' | ⟨k, t, hl', _, ht, ht0, _⟩
      · omega
      · have : k = p := by omega
        subst this
        rw [hp] at ht
        cases ht
        exact ht0 hz

/-- C33, for histories whose deletions are safe (see `SafeDelete`) and tables whose live links go
to live entries: after any such history every link of a live entry is -1 or goes to another live
entry of the same hash, and writing the table and reading it again succeeds.  What is missing for
the full property is false of the code: see `C33_violated`. -/
theorem C33_chains_partial {st st' : SymbolTable} (h : Sound st) (hr : SymReach st st') :
    Sound st' ∧ ∀ {sm : SectorMap} {img : Bytes}, Good sm img →
      (writeSymbolTable sm img st').1 = .ok () →
      readSymbolTable (writeSymbolTable sm img st').2.1 (writeSymbolTable sm img st').2.2 =
        .ok (st'.map canonical) := by
  have hs : Sound st' := by
    induction hr with
    | refl => exact h
    | add name a _ hn hsafe ih => exact sound_add ih hn hsafe
    | delete name _ hsafe ih => exact (sound_delete ih hsafe).1
  exact ⟨hs, fun hg hw => C31_write_read hg hs.wellFormed hw⟩

/-- C33, with no condition at all on deletions when there are none: any history of additions of
names that are new or keep their hash. -/
theorem C33_add_new {st : SymbolTable} (h : Sound st) {name : Str} (hn : LegalName name) (a : UInt16)
    (hnew : ∀ s ∈ st, ¬ SameName name s.name) : Sound (addSymbol st name a).2 := by
  apply sound_add h hn (Or.inl _)
  intro i sym hi hs
  obtain ⟨s', hs', h1, _⟩ := findName_some hi
  exact absurd (equalFold_iff.1 h1) (hnew s' (List.mem_of_getElem? hs'))

theorem chainTable_sound : Sound chainTable where
  length := chainTable_wf.length
  names := by
    intro k hk
    obtain ⟨s, hs, rfl⟩ := List.mem_map.1 hk
    exact chainTable_wf.names s hs
  clean := chainTable_clean.1
  linked := by
    intro i s hi h0
    rcases chainTable_get i s hi with ⟨_, rfl⟩ | ⟨rfl, rfl⟩ | rfl
    · exact Or.inl rfl
    · right
      exact ⟨0, ⟨1, str "AAA", -1⟩, rfl, by omega, rfl, by decide, by decide +kernel⟩
    · exact absurd rfl h0

/-- C33 fails: `chainTable` is a well-formed table (reading accepts it, and it can be on disk),
but after deleting its first symbol the rewritten table can no longer be read: an unused entry,
which carries link 0, is patched instead of the symbol that links to the deleted one. -/
theorem C33_violated :
    WellFormed chainTable ∧ (deleteSymbol chainTable (str "AAA")).1 = true ∧
    (∀ {sm : SectorMap} {img : Bytes}, Good sm img →
      (writeSymbolTable sm img (deleteSymbol chainTable (str "AAA")).2).1 = .ok () →
      ∀ t, readSymbolTable (writeSymbolTable sm img (deleteSymbol chainTable (str "AAA")).2).2.1
        (writeSymbolTable sm img (deleteSymbol chainTable (str "AAA")).2).2.2 ≠ .ok t) ∧
    (writeSymbolTable freshMap freshImg (deleteSymbol chainTable (str "AAA")).2).1 = .ok () := by
  have e : deleteSymbol chainTable (str "AAA") =
      (true, ⟨0, [], -1⟩ :: ⟨0, [], -1⟩ :: ⟨0x100, str "BBB", 0⟩ :: List.replicate 816 Symbol.empty) := by
    have hf : findName chainTable (str "AAA") = some 0 := by
      unfold findName chainTable
      rw [List.findIdx?_cons, if_pos (by decide +kernel)]
    obtain ⟨s, hs, e⟩ := deleteSymbol_some hf
    cases hs
    rw [e]
    rfl
  have hnames : ∀ s ∈ (deleteSymbol chainTable (str "AAA")).2, s.name = [] ∨ LegalName s.name := by
    rw [e]
    intro s hs
    simp only [List.mem_cons] at hs
    rcases hs with rfl | rfl | rfl | hs
    · exact Or.inl rfl
    · exact Or.inl rfl
    · right; decide +kernel
    · rw [(List.mem_replicate.1 hs).2]; exact Or.inl rfl
  have hlen : (deleteSymbol chainTable (str "AAA")).2.length = 819 := by
    rw [deleteSymbol_length]; exact chainTable_wf.length
  refine ⟨chainTable_wf, by rw [e], ?_, write_succeeds fresh_good hlen hnames (by
    rw [freshMap_free]; omega) (by rw [freshMap_free]; omega)⟩
  rw [e]
  intro sm img hg hw t
  simp only at hw ⊢
  generalize hst : (⟨0, [], -1⟩ :: ⟨0, [], -1⟩ :: ⟨0x100, str "BBB", 0⟩ ::
    List.replicate 816 Symbol.empty : SymbolTable) = st at hw ⊢
  have hlen : st.length = 819 := by rw [← hst]; simp
  have hr : ∀ s ∈ st, LinkRange s := by
    intro s hs h0
    rw [← hst] at hs
    simp only [List.mem_cons] at hs
    rcases hs with rfl | rfl | rfl | hs
    · exact absurd rfl h0
    · exact absurd rfl h0
    · exact Or.inr ⟨0, rfl, by omega⟩
    · rw [(List.mem_replicate.1 hs).2] at h0; exact absurd rfl h0
  rw [read_write hg hlen hr hw]
  intro hc
  obtain ⟨u, hu, _⟩ := Out.bind_eq_ok.1 hc
  have := (checkLinks_reread st).1 hu 2 ⟨0x100, str "BBB", 0⟩ (by rw [← hst]; rfl) (by decide)
  rcases this with h | ⟨j, s, h, _, hs, hh⟩
  · simp at h
  · simp only at h
    have : j = 0 := by omega
    subst this
    rw [← hst] at hs
    cases hs
    exact absurd hh (by decide +kernel)

/-! ## C35 -/

/-- The parts of a name under which the file can be asked for: the name itself, or either side of
the colon. -/
inductive PartOf : Str → Str → Prop
  | plain {s : Str} : (0x3A : UInt8) ∉ s → PartOf s s
  | number {a b : Str} : (0x3A : UInt8) ∉ a → (0x3A : UInt8) ∉ b → PartOf (a ++ 0x3A :: b) a
  | symbol {a b : Str} : (0x3A : UInt8) ∉ a → (0x3A : UInt8) ∉ b → PartOf (a ++ 0x3A :: b) b

/-- What GetFile has to return for a put of `data`. -/
def Stored (o : Operator) (name : Str) (data : Bytes) : Prop :=
  ∃ fi, o.getFile name = .ok fi ∧ fi.data = padded data ∧
    fi.descriptor.length = (padded data).length ∧
    fi.descriptor.sectors = sectorsNeeded data.length ∧ fi.descriptor.type = filetypeBinary

theorem stored_of_bytes {o : Operator} (hi : o.data.length = 143360) {name : Str} {f : UInt8}
    (hn : fileForName o.table name = .ok f) {data : Bytes} (hd : data ≠ [])
    (hb : fileBytes (own o.sm) o.data f = padded data) : Stored o name data := by
  have hne : padded data ≠ [] := by
    intro e
    have := congrArg List.length e
    unfold padded at this
    rw [List.length_append] at this
    have h0 : data.length ≠ 0 := fun h => hd (List.eq_nil_of_length_eq_zero h)
    rw [List.length_nil] at this
    omega
  have hg := getFile_eq hi hn
  rw [if_neg (by rw [hb]; exact hne), hb] at hg
  refine ⟨_, hg, rfl, rfl, ?_, rfl⟩
  simp only
  rw [padded_length, sectorsNeeded_eq]
  omega

/-- What a successful write leaves in the file; with empty data it only succeeds on a full disk. -/
theorem writeFile_bytes {sm : SectorMap} {img : Bytes} (h : Good sm img) {f : UInt8} {data : Bytes} {ow : Bool} (hf : IsFileNumber f)
    (hw : (writeFile sm img f data ow).out = .ok ()) :
    fileBytes (own (writeFile sm img f data ow).sm) (writeFile sm img f data ow).img f = padded data ∧
    (ow = false → fileBytes (own sm) img f = []) := by
  by_cases hd : data = []
  · subst hd
    have hx : ow = true ∨ ownedBy (own sm) f = [] := by
      by_cases hx : ow = true ∨ ownedBy (own sm) f = []
      · exact hx
      · have hx' : ow = false ∧ ownedBy (own sm) f ≠ [] := by
          constructor
          · cases ow
            · rfl
            · exact absurd (Or.inl rfl) hx
          · exact fun e => hx (Or.inr e)
        rw [hx'.1, writeFile_exists (by simp [Fits]) hx'.2] at hw
        simp at hw
    rw [writeFile_empty h.len hx] at hw ⊢
    split at hw
    · rw [if_pos (by assumption)]
      refine ⟨?_, fun how => ?_⟩
      · dsimp only
        unfold fileBytes
        rw [ownedBy_deleteFile_self sm hf.2.2]
        rfl
      · unfold fileBytes
        rw [hx.resolve_left (by rw [how]; simp)]
        rfl
    · simp at hw
  · have hnp : (writeFile sm img f data ow).out ≠ .panic := by rw [hw]; simp
    have hk := keep_writeFile h hf hnp
    refine ⟨?_, fun how => ?_⟩
    · have := (C23_write_read h.len h.legal hf hd hw).1
      rw [readFile_eq hk.good.len] at this
      simpa using this
    · rcases ((C25_write_outcome ow h.len hf hd).2.2.1.1 hw).2 with hno | hc
      · unfold fileBytes
        rw [hno]; rfl
      · rw [how] at hc; simp at hc

theorem putNumbered_ok {o : Operator} (h : Good o.sm o.data) {f nf : UInt8} {sym : Str} {data : Bytes}
    {ow : Bool} (hf : IsFileNumber f)
    (hok : (o.putNumbered f nf sym data ow).out = .ok ()) :
    Good (o.putNumbered f nf sym data ow).op.sm (o.putNumbered f nf sym data ow).op.data ∧
    (((nf = f ∨ sym = []) ∧ (o.putNumbered f nf sym data ow).op.st = o.st ∧
      fileBytes (own (o.putNumbered f nf sym data ow).op.sm) (o.putNumbered f nf sym data ow).op.data f =
        padded data) ∨
     (nf ≠ f ∧ sym ≠ [] ∧ ∃ st, o.st = some st ∧
      (addSymbol st sym (0xDF00 + f.toUInt16)).1 = .ok () ∧
      (o.putNumbered f nf sym data ow).op.st = some (addSymbol st sym (0xDF00 + f.toUInt16)).2 ∧
      (f ≠ 3 ∧ f ≠ 4 →
        fileBytes (own (o.putNumbered f nf sym data ow).op.sm)
          (o.putNumbered f nf sym data ow).op.data f = padded data))) := by
  have hw : (writeFile o.sm o.data f data ow).out = .ok () := by
    unfold Operator.putNumbered at hok
    simp only at hok
    split at hok
    · assumption
    · exact hok
  have hnp : (writeFile o.sm o.data f data ow).out ≠ .panic := by rw [hw]; simp
  have hk := keep_writeFile h hf hnp
  refine ⟨(keep_putNumbered h hf hnp).good, ?_⟩
  have hb := (writeFile_bytes h hf hw).1
  by_cases hs : nf ≠ f ∧ sym ≠ []
  · right
    refine ⟨hs.1, hs.2, ?_⟩
    unfold Operator.putNumbered at hok ⊢
    simp only [hw, if_pos hs] at hok ⊢
    cases hst : o.st with
    | none => rw [hst] at hok; simp at hok
    | some st =>
      rw [hst] at hok
      simp only at hok ⊢
      refine ⟨st, rfl, ?_⟩
      rcases hadd : addSymbol st sym (0xDF00 + f.toUInt16) with ⟨out, st'⟩
      rw [hadd] at hok
      cases out with
      | ok u =>
        simp only at hok ⊢
        refine ⟨trivial, trivial, fun h34 => ?_⟩
        rw [(keep_writeSymbolTable hk.good st').bytes f hf (by
          rintro (e | e)
          · exact h34.1 e
          · exact h34.2 e)]
        exact hb
      | err k => simp at hok
      | panic => simp at hok
      | timeout => simp at hok
  · left
    refine ⟨?_, ?_⟩
    · by_cases h1 : nf = f
      · exact Or.inl h1
      · right
        by_cases h2 : sym = []
        · exact h2
        · exact absurd ⟨h1, h2⟩ hs
    · unfold Operator.putNumbered
      simp only [hw, if_neg hs]
      exact ⟨trivial, hb⟩

theorem fileForSymbol_byName {st : SymbolTable} {s : Str} {f : UInt8} (hf : IsFileNumber f)
    (h : byName st s = 0xDF00 + f.toUInt16) : fileForSymbol s st = some f := by
  induction st with
  | nil =>
    have := congrArg UInt16.toNat h
    rw [addrOf_toNat] at this
    simp [byName] at this
    omega
  | cons x xs ih =>
    unfold byName at h
    unfold fileForSymbol
    have hc : equalFold x.name s = equalFold s x.name := by
      by_cases hh : SameName x.name s
      · rw [equalFold_iff.2 hh, equalFold_iff.2 hh.symm]
      · rw [equalFold_false.2 hh, equalFold_false.2 (fun h' => hh h'.symm)]
    rw [hc]
    by_cases hx : equalFold s x.name = true
    · rw [if_pos hx] at h ⊢
      obtain ⟨a, b, c⟩ := (addr_sub (a := x.address) hf).2 (by rw [h, addrOf_toNat])
      rw [if_pos ⟨a, b⟩, c]
    · rw [if_neg hx] at h ⊢
      exact ih h

/-- How a successful put splits its name: the number of the file, and the symbol with the file it
named before. -/
theorem put_split {o : Operator} {fi : FileInfo} {ow : Bool} (hok : (o.putFile fi ow).out = .ok ()) :
    ∃ f nf sym, IsFileNumber f ∧ o.putFile fi ow = o.putNumbered f nf sym fi.data ow ∧
      ∀ part, PartOf fi.descriptor.name part → part ≠ [] →
        NumericName part f ∨ (part = sym ∧ parseAddressFilename part = 0 ∧
          (nf = f ↔ fileForName o.table part = .ok f)) := by
  unfold Operator.putFile at hok ⊢
  split at hok
  · simp at hok
  rename_i h1
  rw [if_neg h1]
  split at hok
  · simp at hok
  rename_i h2
  rw [if_neg h2]
  rcases filesForCompoundName_cases o.table fi.descriptor.name with ⟨⟨n, m, sym⟩, hc⟩ | hc
  · rw [hc] at hok ⊢
    simp only at hok ⊢
    split at hok
    · simp at hok
    rename_i h3
    rw [if_neg h3]
    split at hok
    · simp at hok
    rename_i h4
    rw [if_neg h4]
    by_cases h5 : (if n = 0 then firstFreeFile o.sm else n) = 0
    · rw [if_pos h5] at hok; simp at hok
    rw [if_neg h5]
    refine ⟨_, m, sym, ?_, rfl, ?_⟩
    · by_cases hn : n = 0
      · rw [if_pos hn] at h5 ⊢; exact firstFreeFile_file h5
      · rw [if_neg hn]; exact filesForCompoundName_file hc hn
    · intro part hp hp0
      generalize hname : fi.descriptor.name = name at hp hc
      cases hp with
      | plain hcol =>
        unfold filesForCompoundName at hc
        rw [splitColon_none hcol] at hc
        simp only at hc
        split at hc
        · rename_i hn
          cases hc
          left
          rw [if_neg hn]
          exact (parseAddressFilename_iff hn).1 rfl
        · rename_i hn
          have hn' : parseAddressFilename part = 0 := by simpa using hn
          split at hc
          · rename_i f' hf'
            cases hc
            right
            refine ⟨rfl, hn', ?_⟩
            rw [if_neg (fileForName_file hf').1, hf']
            simp
          · rename_i hno
            cases hc
            right
            refine ⟨rfl, hn', fun e => absurd e.symm h5, fun e => absurd e (hno _)⟩
      | number ha hb =>
        unfold filesForCompoundName at hc
        rw [splitColon_append ha, splitColon_none hb] at hc
        simp only at hc
        split at hc
        · simp at hc
        · rename_i hn
          split at hc
          · simp at hc
          · split at hc <;> cases hc <;> left <;> rw [if_neg hn] <;>
              exact (parseAddressFilename_iff hn).1 rfl
      | symbol ha hb =>
        unfold filesForCompoundName at hc
        rw [splitColon_append ha, splitColon_none hb] at hc
        simp only at hc
        split at hc
        · simp at hc
        · rename_i hn
          split at hc
          · simp at hc
          · rename_i hz
            have hz' : parseAddressFilename part = 0 := by simpa using hz
            split at hc
            · rename_i f' hf'
              cases hc
              right
              refine ⟨rfl, hz', ?_⟩
              rw [hf']
              simp
            · rename_i hno
              cases hc
              right
              refine ⟨rfl, hz', fun e => ?_, fun e => absurd e (hno _)⟩
              rw [if_neg hn] at e
              exact absurd e.symm hn
  · rw [hc] at hok; simp at hok

/-- C35: after a successful put of non-empty data under any name, GetFile under the name - or under
either side of the colon - returns the data padded to whole sectors, with matching length and
sector count, provided the file is not one of the two that hold the symbol table (3 and 4). -/
theorem C35_put_get {o : Operator} (h : Good o.sm o.data) {fi : FileInfo} {ow : Bool}
    (hd : fi.data ≠ []) (hok : (o.putFile fi ow).out = .ok ()) {part : Str}
    (hp : PartOf fi.descriptor.name part) (hp0 : part ≠ [])
    (h34 : fileForName (o.putFile fi ow).op.table part ≠ .ok 3 ∧
      fileForName (o.putFile fi ow).op.table part ≠ .ok 4) :
    Stored (o.putFile fi ow).op part fi.data := by
  obtain ⟨f, nf, sym, hf, e, hparts⟩ := put_split hok
  rw [e] at hok h34 ⊢
  obtain ⟨hg, hcase⟩ := putNumbered_ok h hf hok
  have hpart := hparts part hp hp0
  have hres : fileForName (o.putNumbered f nf sym fi.data ow).op.table part = .ok f := by
    rcases hpart with hnum | ⟨rfl, hz, hsame⟩
    · unfold fileForName
      rw [(parseAddressFilename_iff hf.1).2 hnum, if_pos hf.1]
    · rcases hcase with ⟨hor, hst, _⟩ | ⟨_, _, st, hst, hadd, hst', _⟩
      · rcases hor with hor | hor
        · unfold Operator.table
          rw [hst]
          exact hsame.1 hor
        · exact absurd hor hp0
      · unfold fileForName Operator.table
        rw [hz, hst', if_neg (by simp)]
        simp only [Option.getD_some]
        rw [fileForSymbol_byName hf (C32_add_self hadd)]
  have h3 : f ≠ 3 ∧ f ≠ 4 := by
    rw [hres] at h34
    exact ⟨fun e => h34.1 (by rw [e]), fun e => h34.2 (by rw [e])⟩
  apply stored_of_bytes hg.len hres hd
  rcases hcase with ⟨_, _, hb⟩ | ⟨_, _, st, _, _, _, hb⟩
  · exact hb
  · exact hb h3

/-- A put under a plain number goes to that file and touches no symbol. -/
theorem put_numeric {o : Operator} {fi : FileInfo} {ow : Bool} (hok : (o.putFile fi ow).out = .ok ()) {f : UInt8}
    (hn : NumericName fi.descriptor.name f) : o.putFile fi ow = o.putNumbered f 0 [] fi.data ow := by
  have hcol : (0x3A : UInt8) ∉ fi.descriptor.name := by
    have key : ∀ {s : Str} {v : Nat}, HexNumeral s v → (0x3A : UInt8) ∉ s := by
      intro s v hv
      have hdig : digitValue 0x3A = none := by decide +kernel
      induction hv with
      | one h => intro hm; simp at hm; subst hm; rw [hdig] at h; simp at h
      | snoc h1 h2 ih =>
        intro hm
        rcases List.mem_append.1 hm with hm | hm
        · exact ih hm
        · simp at hm; subst hm; rw [hdig] at h2; simp at h2
    rcases hn.2 with hv | hv
    · exact key hv
    · exact key hv
  have hparse := (parseAddressFilename_iff hn.1.1).2 hn
  unfold Operator.putFile at hok ⊢
  split at hok
  · simp at hok
  rename_i h1
  rw [if_neg h1]
  split at hok
  · simp at hok
  rename_i h2
  rw [if_neg h2]
  have : filesForCompoundName o.table fi.descriptor.name = .ok (f, 0, []) := by
    unfold filesForCompoundName
    rw [splitColon_none hcol]
    simp only
    rw [hparse, if_pos hn.1.1]
  rw [this]
  simp only [ne_eq, not_true_eq_false, false_and, if_false, if_neg hn.1.1]

/-- C35 for plain numbers, with no restriction on the number. -/
theorem C35_numeric {o : Operator} (h : Good o.sm o.data) {fi : FileInfo} {ow : Bool}
    (hd : fi.data ≠ []) (hok : (o.putFile fi ow).out = .ok ()) {f : UInt8}
    (hn : NumericName fi.descriptor.name f) : Stored (o.putFile fi ow).op fi.descriptor.name fi.data := by
  have e := put_numeric hok hn
  have hparse := (parseAddressFilename_iff hn.1.1).2 hn
  rw [e] at hok ⊢
  obtain ⟨hg, hcase⟩ := putNumbered_ok h hn.1 hok
  have hres : fileForName (o.putNumbered f 0 [] fi.data ow).op.table fi.descriptor.name = .ok f := by
    unfold fileForName
    rw [hparse, if_pos hn.1.1]
  apply stored_of_bytes hg.len hres hd
  rcases hcase with ⟨_, _, hb⟩ | ⟨_, hs, _⟩
  · exact hb
  · exact absurd rfl hs

/-- Sizes after writing the symbol table. -/
theorem writeSymbolTable_sizes {sm : SectorMap} {img : Bytes} (h : Good sm img) {st : SymbolTable}
    (hw : (writeSymbolTable sm img st).1 = .ok ()) :
    (ownedBy (own (writeSymbolTable sm img st).2.1) 3).length = 16 ∧
    (ownedBy (own (writeSymbolTable sm img st).2.1) 4).length = 16 ∧
    (ownedBy (own (writeSymbolTable sm img st).2.1) 0xFF).length + 32 =
      (ownedBy (own sm) 0xFF).length + (ownedBy (own sm) 3).length + (ownedBy (own sm) 4).length := by
  unfold writeSymbolTable at hw ⊢
  split at hw
  case h_2 => simp at hw
  case h_3 => simp at hw
  case h_4 => simp at hw
  rename_i t1 t2 ht
  obtain ⟨l1, l2⟩ := fillTables_length ht (zeros_length _) (zeros_length _)
  have n1 := ne_nil_of_length l1
  have n2 := ne_nil_of_length l2
  have r1 := writeFile_returns (sm := sm) true h.len isFile3 n1
  have k1 := keep_writeFile (c := t1) (ow := true) h isFile3 (by rintro e; rw [e] at r1; simp at r1)
  simp only at hw
  split at hw
  case h_2 => simp at hw
  case h_3 => simp at hw
  case h_4 => simp at hw
  rename_i u hu
  split at hw
  case h_2 => simp at hw
  case h_3 => simp at hw
  case h_4 => simp at hw
  rename_i u' hu'
  obtain ⟨f1, e1, _⟩ := writeFile_ok_inv h.len isFile3 n1 hu
  obtain ⟨f2, e2, _⟩ := writeFile_ok_inv k1.good.len isFile4 n2 hu'
  simp only [hu, hu']
  rw [e2]
  rw [e1] at f2 ⊢
  have a1 := ownedBy_newMap_free (sm := sm) (f := 3) (c := t1) (by decide)
  have a2 := ownedBy_newMap_free (sm := newMap sm 3 t1) (f := 4) (c := t2) (by decide)
  have b1 := targets_length (by decide) f1
  have b2 := targets_length (by decide) f2
  rw [ownedBy_newMap_self _ _ (by decide), b2, ownedBy_newMap_other _ _ (by decide) (by decide),
    ownedBy_newMap_self _ _ (by decide), b1]
  rw [ownedBy_newMap_other sm t1 (g := 4) (by decide) (by decide)] at a2
  rw [b1, l1] at a1
  rw [b2, l2] at a2
  rw [l1, l2]
  refine ⟨rfl, rfl, ?_⟩
  omega

/-! ## C38 -/

/-- C38: names without a colon.  A known symbol with its address and a number resolve as
documented, and anything else with a colon-free name is decided *the wrong way round*: the name is
returned exactly when it cannot be encoded as a symbol. -/
theorem C38_plain_partial (st : SymbolTable) {s : Str} (h0 : s ≠ []) (hc : (0x3A : UInt8) ∉ s) :
    (byName st s ≠ 0 → parseCompoundSymbol st s = .ok (0, byName st s, s)) ∧
    (∀ v, byName st s = 0 → HexNumeral s v → v ≤ 0xFFFF →
      parseCompoundSymbol st s = .ok (UInt16.ofNat v, 0, [])) ∧
    (byName st s = 0 → (∀ v, v ≤ 0xFFFF → ¬ HexNumeral s v) →
      parseCompoundSymbol st s =
        if (encodeSymbol s).isErr then .ok (0, 0, s) else .err .other) := by
  unfold parseCompoundSymbol
  rw [if_neg h0, splitColon_none hc]
  simp only
  refine ⟨fun h => by rw [if_pos h], fun v h hv hl => ?_, fun h hv => ?_⟩
  · rw [if_neg (by simpa using h), (parseHex16_iff s v).2 ⟨hv, hl⟩]
  · rw [if_neg (by simpa using h)]
    cases hp : parseHex16 s with
    | none => rfl
    | some v =>
      obtain ⟨h1, h2⟩ := (parseHex16_iff s v).1 hp
      exact absurd h1 (hv v h2)

/-- C38: compound names, which do behave as documented. -/
theorem C38_compound (st : SymbolTable) {a b : Str} (ha : (0x3A : UInt8) ∉ a)
    (hb : (0x3A : UInt8) ∉ b) :
    (∀ v, HexNumeral a v → v ≤ 0xFFFF → b ≠ [] → (encodeSymbol b).isErr = false →
      parseCompoundSymbol st (a ++ 0x3A :: b) = .ok (UInt16.ofNat v, byName st b, b)) ∧
    ((a = [] ∨ b = [] ∨ (∀ v, v ≤ 0xFFFF → ¬ HexNumeral a v) ∨ (encodeSymbol b).isErr = true) →
      parseCompoundSymbol st (a ++ 0x3A :: b) = .err .other) := by
  have e : splitColon (a ++ 0x3A :: b) = [a, b] := by
    rw [splitColon_append ha, splitColon_none hb]
  unfold parseCompoundSymbol
  rw [if_neg (by simp), e]
  simp only
  refine ⟨fun v hv hl h0 he => ?_, fun h => ?_⟩
  · have ha0 : a ≠ [] := by rintro rfl; exact hexNumeral_ne_nil hv rfl
    rw [if_neg ha0, if_neg h0, (parseHex16_iff a v).2 ⟨hv, hl⟩]
    simp [he]
  · split
    · rfl
    · rename_i ha0
      split
      · rfl
      · rename_i hb0
        rcases h with h | h | h | h
        · exact absurd h ha0
        · exact absurd h hb0
        · cases hp : parseHex16 a with
          | none => rfl
          | some v =>
            obtain ⟨h1, h2⟩ := (parseHex16_iff a v).1 hp
            exact absurd h1 (h v h2)
        · split
          · rfl
          · rw [if_pos h]

/-- C38: more than one colon is an error, and so is the empty name. -/
theorem C38_errors (st : SymbolTable) {s : Str} (h : s = [] ∨ 2 ≤ s.count 0x3A) :
    parseCompoundSymbol st s = .err .other := by
  unfold parseCompoundSymbol
  by_cases h0 : s = []
  · rw [if_pos h0]
  · rw [if_neg h0]
    have h2 : 2 ≤ s.count 0x3A := by
      rcases h with h | h
      · exact absurd h h0
      · exact h
    have hl := splitColon_length s
    split
    · rename_i e; rw [e] at hl; simp at hl; omega
    · rename_i e; rw [e] at hl; simp at hl; omega
    · rfl

/-- C38 fails: with no symbols, the legal name "FOO" is refused, and "X", too short to be a
symbol, is accepted. -/
theorem C38_violated : LegalName (str "FOO") ∧ parseCompoundSymbol [] (str "FOO") = .err .other ∧
    ¬ LegalName (str "X") ∧ parseCompoundSymbol [] (str "X") = .ok (0, 0, str "X") := by
  decide +kernel

end Verif.Supermon
