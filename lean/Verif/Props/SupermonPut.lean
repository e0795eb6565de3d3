import Verif.Props.SupermonSym

/-!
# C35: a concrete disk with a symbol table
-/

set_option autoImplicit false
set_option maxRecDepth 20000

namespace Verif.Supermon
open Disk Spec

attribute [local irreducible] chainTable

/-- A disk with a symbol table, as opened. -/
theorem tabled_open : openOperator (writeSymbolTable freshMap freshImg chainTable).2.2 =
    .ok ⟨(writeSymbolTable freshMap freshImg chainTable).2.2,
      (writeSymbolTable freshMap freshImg chainTable).2.1, some (chainTable.map canonical)⟩ := by
  have hw := fresh_room _ chainTable_wf
  have hk := keep_writeSymbolTable fresh_good chainTable
  unfold openOperator
  rw [hk.good.loaded, Out.bind_ok, (verify_ok_iff _).2 hk.good.legal, Out.bind_ok,
    C31_write_read fresh_good chainTable_wf hw]

theorem chainTable_canonical : chainTable.map canonical = chainTable := by
  conv_rhs => rw [← List.map_id chainTable]
  apply List.map_congr_left
  intro s hs
  obtain ⟨i, hi, e⟩ := List.getElem_of_mem hs
  rcases chainTable_get i s (by rw [List.getElem?_eq_getElem hi, e]) with ⟨_, rfl⟩ | ⟨_, rfl⟩ | rfl
  · decide +kernel
  · decide +kernel
  · decide +kernel

theorem tabled_split (name sym : Str) (f : UInt8) (hne : f ≠ 0)
    (hfc : filesForCompoundName chainTable name = .ok (f, 0, sym)) (henc : (encodeSymbol sym).isErr = false)
    (sm : SectorMap) (img : Bytes) (data : Bytes) (ow : Bool) :
    (⟨img, sm, some chainTable⟩ : Operator).putFile
      ⟨{ name := name, length := data.length, type := filetypeBinary }, data, 0⟩ ow =
    (⟨img, sm, some chainTable⟩ : Operator).putNumbered f 0 sym data ow := by
  unfold Operator.putFile
  rw [if_neg (by simp), if_neg (by simp)]
  simp only [Operator.table, Option.getD_some]
  rw [hfc]
  simp [henc, hne]

theorem chainTable_noFoo : ∀ s ∈ chainTable, ¬ SameName (str "FOO") s.name := by
  intro s hs
  obtain ⟨i, hi, e⟩ := List.getElem_of_mem hs
  rcases chainTable_get i s (by rw [List.getElem?_eq_getElem hi, e]) with ⟨_, rfl⟩ | ⟨_, rfl⟩ | rfl <;>
    decide +kernel

theorem chainTable_foo (p : Str) (f : UInt8) (hp : (0x3A : UInt8) ∉ p) (hf : parseAddressFilename p = f)
    (h0 : f ≠ 0) : filesForCompoundName chainTable (p ++ 0x3A :: str "FOO") = .ok (f, 0, str "FOO") := by
  unfold filesForCompoundName
  rw [splitColon_append hp, splitColon_none (by decide +kernel)]
  simp only
  rw [hf, if_neg h0, if_neg (by decide +kernel)]
  have : fileForName chainTable (str "FOO") = .err .fileNotFound := by
    rcases C34_resolution_total chainTable (str "FOO") with ⟨g, hg, _⟩ | h
    · rcases (C34_resolves_iff _ _ _).1 hg with hn | ⟨_, _, x, hx, _⟩
      · have h1 := (parseAddressFilename_iff hn.1.1).2 hn
        have h2 : parseAddressFilename (str "FOO") = 0 := by decide +kernel
        rw [h2] at h1
        exact absurd h1.symm hn.1.1
      · have h1 := List.find?_some hx
        have h2 := List.mem_of_find?_eq_some hx
        simp only [decide_eq_true_eq] at h1
        exact absurd h1.symm (chainTable_noFoo x h2)
    · exact h
  rw [this]

/-- A put under a new symbol succeeds when there is room. -/
theorem put_new_symbol {sm : SectorMap} {img : Bytes} (h : Good sm img) {st : SymbolTable} (hs : Sound st)
    {name : Str} (hn : LegalName name) (hnew : ∀ s ∈ st, ¬ SameName name s.name)
    (hfree : ∃ s ∈ st, s.address = 0) (hroom : 33 ≤ (ownedBy (own sm) 0xFF).length)
    (f : UInt8) (hf : IsFileNumber f) :
    ((⟨img, sm, some st⟩ : Operator).putNumbered f 0 name [1, 2, 3] true).out = .ok () := by
  have fit : Fits sm f [1, 2, 3] := by
    unfold Fits; simp only [List.length_cons, List.length_nil]; omega
  have hwr := writeFile_ok (ow := true) h.len hf (by simp) fit (Or.inl rfl)
  have hk2 := keep_writeFile (c := [1, 2, 3]) (ow := true) h hf (by rw [hwr]; simp)
  rw [hwr] at hk2
  simp only at hk2
  unfold Operator.putNumbered
  simp only
  rw [hwr]
  simp only
  rw [if_pos ⟨Ne.symm hf.1, legal_ne_nil hn⟩]
  have hadd := (C32_add_fails_iff st name (0xDF00 + f.toUInt16)).1
  have hok : (addSymbol st name (0xDF00 + f.toUInt16)).1 = .ok () := by
    by_contra hc
    rcases hadd.1 hc with h | ⟨_, h⟩
    · have := congrArg UInt16.toNat h
      rw [addrOf_toNat] at this
      simp at this
    · obtain ⟨s, hs, h0⟩ := hfree
      exact h s hs h0
  have hs' := C33_add_new hs hn (0xDF00 + f.toUInt16) hnew
  rcases he : addSymbol st name (0xDF00 + f.toUInt16) with ⟨o, st'⟩
  rw [he] at hok hs'
  simp only at hok
  subst hok
  simp only at hs' ⊢
  have hfr := ownedBy_newMap_free (sm := sm) (f := f) (c := [1, 2, 3]) hf.2.2
  rw [targets_length hf.2.2 fit] at hfr
  simp only [List.length_cons, List.length_nil] at hfr
  apply C31_write_succeeds hk2.good hs'.wellFormed <;> omega

theorem tabled_put_ok (f : UInt8) (hf : IsFileNumber f) :
    ((⟨(writeSymbolTable freshMap freshImg chainTable).2.2,
      (writeSymbolTable freshMap freshImg chainTable).2.1, some chainTable⟩ : Operator).putNumbered f 0
      (str "FOO") [1, 2, 3] true).out = .ok () := by
  obtain ⟨s3, s4, sf⟩ := writeSymbolTable_sizes fresh_good (fresh_room _ chainTable_wf)
  rw [freshMap_free, freshMap_file isFile3, freshMap_file isFile4] at sf
  simp only [List.length_nil] at sf
  exact put_new_symbol (keep_writeSymbolTable fresh_good chainTable).good chainTable_sound
    (by decide +kernel) chainTable_noFoo
    ⟨⟨0, [], 0⟩, List.mem_of_getElem? (i := 1) (by unfold chainTable; rfl), rfl⟩ (by omega) f hf

/-- A put under a number of a symbol table file with a new symbol leaves the table there. -/
theorem put_symbol_size {sm : SectorMap} {img : Bytes} (h : Good sm img) {st : SymbolTable} {name : Str}
    (hn : name ≠ [])
    (hok : ((⟨img, sm, some st⟩ : Operator).putNumbered 3 0 name [1, 2, 3] true).out = .ok ()) :
    (ownedBy (own ((⟨img, sm, some st⟩ : Operator).putNumbered 3 0 name [1, 2, 3] true).op.sm) 3).length =
      16 := by
  have hr := writeFile_returns (sm := sm) (img := img) (c := [1, 2, 3]) true h.len isFile3 (by simp)
  have hk2 := keep_writeFile (c := [1, 2, 3]) (ow := true) h isFile3
    (by rintro e; rw [e] at hr; simp at hr)
  unfold Operator.putNumbered at hok ⊢
  simp only at hok ⊢
  cases hw : (writeFile sm img 3 [1, 2, 3] true).out with
  | ok u =>
    rw [hw] at hok
    simp only at hok ⊢
    rw [if_pos ⟨by decide, hn⟩] at hok ⊢
    rcases hadd : addSymbol st name (0xDF00 + (3 : UInt8).toUInt16) with ⟨out, st'⟩
    rw [hadd] at hok
    cases out with
    | ok u =>
      simp only at hok ⊢
      exact (writeSymbolTable_sizes hk2.good hok).1
    | err k => simp at hok
    | panic => simp at hok
    | timeout => simp at hok
  | err k => rw [hw] at hok; simp at hok
  | panic => rw [hw] at hok; simp at hok
  | timeout => rw [hw] at hok; simp at hok

theorem fileBytes_length {img : Bytes} (hi : img.length = 143360) (m : Nat → UInt8) (f : UInt8) :
    (fileBytes m img f).length = 256 * (ownedBy m f).length := by
  unfold fileBytes
  have : ∀ n ∈ ownedBy m f, (sectorNo img n).length = 256 := by
    intro n hn
    have := List.mem_range.1 (List.mem_filter.1 hn).1
    apply sectorAt_length
    omega
  rw [List.length_flatMap, List.map_congr_left this, List.map_const']
  simp [Nat.mul_comm]

theorem not_stored {o : Operator} (hi : o.data.length = 143360)
    (h16 : (ownedBy (own o.sm) 3).length = 16) : ¬ Stored o (str "DF03") [1, 2, 3] := by
  rintro ⟨fi, hget, hdata, _⟩
  rw [getFile_eq hi (f := 3) (by
    unfold fileForName; rw [show parseAddressFilename (str "DF03") = 3 by decide +kernel, if_pos (by decide)])]
    at hget
  split at hget
  · simp at hget
  · cases hget
    simp only at hdata
    have := congrArg List.length hdata
    rw [fileBytes_length hi, h16] at this
    simp [padded] at this

/-- The example disk of C35: a put of "DF05:FOO" succeeds and can be read under "FOO". -/
example : ∃ o, openOperator (writeSymbolTable freshMap freshImg chainTable).2.2 = .ok o ∧
    (o.putFile ⟨{ name := str "DF05:FOO", length := 3, type := filetypeBinary }, [1, 2, 3], 0⟩ true).out =
      .ok () ∧ PartOf (str "DF05:FOO") (str "FOO") := by
  refine ⟨_, tabled_open, ?_, ?_⟩
  · rw [chainTable_canonical]
    have h5 : IsFileNumber 5 := by unfold IsFileNumber; decide
    have := tabled_split (str "DF05:FOO") (str "FOO") 5 (by decide)
      (chainTable_foo (str "DF05") 5 (by decide +kernel) (by decide +kernel) (by decide)) (by decide +kernel)
      (writeSymbolTable freshMap freshImg chainTable).2.1
      (writeSymbolTable freshMap freshImg chainTable).2.2 [1, 2, 3] true
    refine (congrArg (fun r => r.out) this).trans ?_
    exact tabled_put_ok 5 h5
  · exact PartOf.symbol (a := str "DF05") (b := str "FOO") (by decide +kernel) (by decide +kernel)

theorem put_df03 {sm : SectorMap} {img : Bytes} (h : Good sm img)
    (hok : ((⟨img, sm, some chainTable⟩ : Operator).putNumbered 3 0 (str "FOO") [1, 2, 3] true).out = .ok ()) :
    ∃ fi : FileInfo, fi.descriptor.name = str "DF03:FOO" ∧ fi.data = [1, 2, 3] ∧
    ((⟨img, sm, some chainTable⟩ : Operator).putFile fi true).out = .ok () ∧
    ¬ Stored ((⟨img, sm, some chainTable⟩ : Operator).putFile fi true).op (str "DF03") fi.data := by
  have e := tabled_split (str "DF03:FOO") (str "FOO") 3 (by decide)
    (chainTable_foo (str "DF03") 3 (by decide +kernel) (by decide +kernel) (by decide)) (by decide +kernel)
    sm img [1, 2, 3] true
  refine ⟨_, rfl, rfl, (congrArg (fun r => r.out) e).trans hok, ?_⟩
  rw [e]
  have hgood := (putNumbered_ok (o := ⟨img, sm, some chainTable⟩) h isFile3 hok).1
  exact not_stored hgood.len (put_symbol_size h (by decide +kernel) hok)

/-- C35 fails for the symbol table's own files: on a disk with a symbol table, a put of
"DF03:FOO" reports success, but what is then read under "DF03" is not what was put. -/
theorem C35_violated : ∃ o fi, openOperator (writeSymbolTable freshMap freshImg chainTable).2.2 = .ok o ∧
    fi.descriptor.name = str "DF03:FOO" ∧ fi.data = [1, 2, 3] ∧ (o.putFile fi true).out = .ok () ∧
    ¬ Stored (o.putFile fi true).op (str "DF03") fi.data := by
  obtain ⟨fi, h⟩ := put_df03 (keep_writeSymbolTable fresh_good chainTable).good (tabled_put_ok 3 isFile3)
  have ho := tabled_open
  rw [chainTable_canonical] at ho
  exact ⟨_, fi, ho, h⟩

end Verif.Supermon
