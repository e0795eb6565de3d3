import Verif.Props.SupermonPut

/-!
# C35 on the files of the symbol table

A put of "DF03:FOO" writes the file first and then the symbol table, which lives in files 3 and 4, over it.
-/

set_option autoImplicit false
set_option maxRecDepth 20000

namespace Verif.Supermon
open Disk Spec

/-- How a successful put splits its name depends on the name and the disk only. -/
theorem put_split_name (o : Operator) (name : Str) : ∃ f nf sym, ∀ fi ow, fi.descriptor.name = name → (o.putFile fi ow).out = .ok () →
    IsFileNumber f ∧ o.putFile fi ow = o.putNumbered f nf sym fi.data ow ∧
      ∀ part, PartOf name part → part ≠ [] →
        NumericName part f ∨ (part = sym ∧ parseAddressFilename part = 0 ∧ (nf = f ↔ fileForName o.table part = .ok f)) := by
  rcases filesForCompoundName_cases o.table name with ⟨⟨n, m, sym⟩, hc⟩ | hc
  · refine ⟨if n = 0 then firstFreeFile o.sm else n, m, sym, ?_⟩
    rintro fi ow rfl hok
    unfold Operator.putFile at hok ⊢
    split at hok
    · simp at hok
    rename_i h1
    rw [if_neg h1]
    split at hok
    · simp at hok
    rename_i h2
    rw [if_neg h2]
    rw [hc] at hok ⊢
    simp only at hok ⊢
    split at hok
    · simp at hok
    rename_i h3
    rw [if_neg h3]
    split at hok
    · simp at hok
    rename_i h4
    rw [if_neg h4]
    by_cases h5 : (if n = 0 then firstFreeFile o.sm else n) = 0
    · rw [if_pos h5] at hok; simp at hok
    rw [if_neg h5]
    refine ⟨?_, rfl, ?_⟩
    · by_cases hn : n = 0
      · rw [if_pos hn] at h5 ⊢; exact firstFreeFile_file h5
      · rw [if_neg hn]; exact filesForCompoundName_file hc hn
    · intro part hp hp0
      generalize hname : fi.descriptor.name = name at hp hc
      cases hp with
      | plain hcol =>
        unfold filesForCompoundName at hc
        rw [splitColon_none hcol] at hc
        simp only at hc
        split at hc
        · rename_i hn
          cases hc
          left
          rw [if_neg hn]
          exact (parseAddressFilename_iff hn).1 rfl
        · rename_i hn
          have hn' : parseAddressFilename part = 0 := by simpa using hn
          split at hc
          · rename_i f' hf'
            cases hc
            right
            refine ⟨rfl, hn', ?_⟩
            rw [if_neg (fileForName_file hf').1, hf']
            simp
          · rename_i hno
            cases hc
            right
            refine ⟨rfl, hn', fun e => absurd e.symm h5, fun e => absurd e (hno _)⟩
      | number ha hb =>
        unfold filesForCompoundName at hc
        rw [splitColon_append ha, splitColon_none hb] at hc
        simp only at hc
        split at hc
        · simp at hc
        · rename_i hn
          split at hc
          · simp at hc
          · split at hc <;> cases hc <;> left <;> rw [if_neg hn] <;>
              exact (parseAddressFilename_iff hn).1 rfl
      | symbol ha hb =>
        unfold filesForCompoundName at hc
        rw [splitColon_append ha, splitColon_none hb] at hc
        simp only at hc
        split at hc
        · simp at hc
        · rename_i hn
          split at hc
          · simp at hc
          · rename_i hz
            have hz' : parseAddressFilename part = 0 := by simpa using hz
            split at hc
            · rename_i f' hf'
              cases hc
              right
              refine ⟨rfl, hz', ?_⟩
              rw [hf']
              simp
            · rename_i hno
              cases hc
              right
              refine ⟨rfl, hz', fun e => ?_, fun e => absurd e (hno _)⟩
              rw [if_neg hn] at e
              exact absurd e.symm hn
  · refine ⟨0, 0, [], ?_⟩
    rintro fi ow rfl hok
    unfold Operator.putFile at hok
    split at hok
    · simp at hok
    split at hok
    · simp at hok
    rw [hc] at hok
    simp at hok

/-- What is in files 3 and 4 once a symbol table is written depends on the table only. -/
theorem writeSymbolTable_files {st : SymbolTable} {t1 t2 : Bytes} (ht : fillTables st 0 (zeros 0x1000) (zeros 0x1000) = .ok (t1, t2))
    {sm : SectorMap} {img : Bytes} (h : Good sm img) (hw : (writeSymbolTable sm img st).1 = .ok ()) :
    fileBytes (own (writeSymbolTable sm img st).2.1) (writeSymbolTable sm img st).2.2 3 = padded t1 ∧
    fileBytes (own (writeSymbolTable sm img st).2.1) (writeSymbolTable sm img st).2.2 4 = padded t2 := by
  unfold writeSymbolTable at hw ⊢
  rw [ht] at hw ⊢
  simp only at hw ⊢
  obtain ⟨l1, l2⟩ := fillTables_length ht (zeros_length _) (zeros_length _)
  have n1 := ne_nil_of_length l1
  have n2 := ne_nil_of_length l2
  have r1 := writeFile_returns (sm := sm) true h.len isFile3 n1
  have k1 := keep_writeFile (c := t1) (ow := true) h isFile3 (by rintro e; rw [e] at r1; simp at r1)
  cases h1 : (writeFile sm img 3 t1 true).out with
  | ok u =>
    rw [h1] at hw
    simp only at hw ⊢
    cases h2 : (writeFile (writeFile sm img 3 t1 true).sm (writeFile sm img 3 t1 true).img 4 t2 true).out with
    | ok u2 =>
      have k2 := keep_writeFile (c := t2) (ow := true) k1.good isFile4 (by rw [h2]; simp)
      simp only
      refine ⟨?_, (writeFile_bytes k1.good isFile4 h2).1⟩
      rw [k2.bytes 3 isFile3 (by decide)]
      exact (writeFile_bytes h isFile3 h1).1
    | err k => rw [h2] at hw; simp at hw
    | panic => rw [h2] at hw; simp at hw
    | timeout => rw [h2] at hw; simp at hw
  | err k => rw [h1] at hw; simp at hw
  | panic => rw [h1] at hw; simp at hw
  | timeout => rw [h1] at hw; simp at hw

/-- The table of the code, if it can be made, and 4096 bytes each. -/
theorem writeSymbolTable_filled {st : SymbolTable} {sm : SectorMap} {img : Bytes} (hw : (writeSymbolTable sm img st).1 = .ok ()) :
    ∃ t1 t2, fillTables st 0 (zeros 0x1000) (zeros 0x1000) = .ok (t1, t2) := by
  unfold writeSymbolTable at hw
  split at hw
  · exact ⟨_, _, by assumption⟩
  all_goals simp at hw

/-- A successful put under a new symbol ends with the symbol table. -/
theorem putNumbered_written {o : Operator} (h : Good o.sm o.data) {f nf : UInt8} {sym : Str} {data : Bytes} {ow : Bool} (hf : IsFileNumber f)
    (hs : nf ≠ f ∧ sym ≠ []) (hok : (o.putNumbered f nf sym data ow).out = .ok ()) :
    ∃ st, o.st = some st ∧ (addSymbol st sym (0xDF00 + f.toUInt16)).1 = .ok () ∧
      Good (writeFile o.sm o.data f data ow).sm (writeFile o.sm o.data f data ow).img ∧
      (writeSymbolTable (writeFile o.sm o.data f data ow).sm (writeFile o.sm o.data f data ow).img (addSymbol st sym (0xDF00 + f.toUInt16)).2).1 = .ok () ∧
      (o.putNumbered f nf sym data ow).op =
        ⟨(writeSymbolTable (writeFile o.sm o.data f data ow).sm (writeFile o.sm o.data f data ow).img (addSymbol st sym (0xDF00 + f.toUInt16)).2).2.2,
         (writeSymbolTable (writeFile o.sm o.data f data ow).sm (writeFile o.sm o.data f data ow).img (addSymbol st sym (0xDF00 + f.toUInt16)).2).2.1,
         some (addSymbol st sym (0xDF00 + f.toUInt16)).2⟩ := by
  have hw : (writeFile o.sm o.data f data ow).out = .ok () := by
    unfold Operator.putNumbered at hok
    simp only at hok
    split at hok
    · assumption
    · exact hok
  have hk := keep_writeFile h hf (by rw [hw]; simp)
  unfold Operator.putNumbered at hok ⊢
  simp only [hw, if_pos hs] at hok ⊢
  cases hst : o.st with
  | none => rw [hst] at hok; simp at hok
  | some st =>
    rw [hst] at hok
    simp only at hok ⊢
    refine ⟨st, rfl, ?_⟩
    rcases hadd : addSymbol st sym (0xDF00 + f.toUInt16) with ⟨out, st'⟩
    rw [hadd] at hok
    cases out with
    | ok u => exact ⟨rfl, hk.good, hok, rfl⟩
    | err k => simp at hok
    | panic => simp at hok
    | timeout => simp at hok

/-- C35, for every disk and every name: either whatever is put under the name is what is read afterwards, under the name or either side of
its colon; or the name gives a new symbol to file 3 or 4, and what is read afterwards is always the same 4096 bytes, whatever was put. -/
theorem C35_dichotomy {o : Operator} (h : Good o.sm o.data) {name part : Str} (hp : PartOf name part) (hp0 : part ≠ []) :
    (∀ fi ow, fi.descriptor.name = name → fi.data ≠ [] → (o.putFile fi ow).out = .ok () → Stored (o.putFile fi ow).op part fi.data) ∨
    (∃ f d, (f = 3 ∨ f = 4) ∧ d.length = 4096 ∧
      ∀ fi ow, fi.descriptor.name = name → fi.data ≠ [] → (o.putFile fi ow).out = .ok () →
        fileForName (o.putFile fi ow).op.table part = .ok f ∧ ∃ r, (o.putFile fi ow).op.getFile part = .ok r ∧ r.data = d) := by
  obtain ⟨f, nf, sym, hsplit⟩ := put_split_name o name
  by_cases hex : ∃ fi ow, fi.descriptor.name = name ∧ (o.putFile fi ow).out = .ok ()
  swap
  · exact Or.inl fun fi ow hn _ hok => absurd ⟨fi, ow, hn, hok⟩ hex
  by_cases hc : (nf ≠ f ∧ sym ≠ []) ∧ (f = 3 ∨ f = 4)
  · right
    obtain ⟨fi0, ow0, hn0, hok0⟩ := hex
    obtain ⟨hf, e0, hparts⟩ := hsplit fi0 ow0 hn0 hok0
    rw [e0] at hok0
    obtain ⟨st, hst, hw0⟩ : ∃ st, o.st = some st ∧ (writeSymbolTable (writeFile o.sm o.data f fi0.data ow0).sm (writeFile o.sm o.data f fi0.data ow0).img
        (addSymbol st sym (0xDF00 + f.toUInt16)).2).1 = .ok () := by
      obtain ⟨_, hr⟩ := putNumbered_written h hf hc.1 hok0
      exact ⟨_, hr.1, hr.2.2.2.1⟩
    obtain ⟨t1, t2, ht⟩ := writeSymbolTable_filled hw0
    obtain ⟨l1, l2⟩ := fillTables_length ht (zeros_length _) (zeros_length _)
    refine ⟨f, padded (if f = 3 then t1 else t2), hc.2, ?_, ?_⟩
    · rw [padded_length]
      split
      · rw [l1]
      · rw [l2]
    intro fi ow hn hd hok
    obtain ⟨_, e, _⟩ := hsplit fi ow hn hok
    rw [e] at hok ⊢
    obtain ⟨st', hst', hadd, hg, hw, hop⟩ := putNumbered_written h hf hc.1 hok
    rw [hst] at hst'
    cases hst'
    obtain ⟨b3, b4⟩ := writeSymbolTable_files ht hg hw
    have hres : fileForName (o.putNumbered f nf sym fi.data ow).op.table part = .ok f := by
      rcases hparts part hp hp0 with hnum | ⟨rfl, hz, _⟩
      · unfold fileForName
        rw [(parseAddressFilename_iff hf.1).2 hnum, if_pos hf.1]
      · unfold fileForName Operator.table
        rw [hop, hz, if_neg (by simp)]
        simp only [Option.getD_some]
        rw [fileForSymbol_byName hf (C32_add_self hadd)]
    have hgood := (putNumbered_ok h hf hok).1
    refine ⟨hres, ?_⟩
    have hb : fileBytes (own (o.putNumbered f nf sym fi.data ow).op.sm) (o.putNumbered f nf sym fi.data ow).op.data f = padded (if f = 3 then t1 else t2) := by
      rw [hop]
      rcases hc.2 with rfl | rfl
      · rw [if_pos rfl]; exact b3
      · rw [if_neg (by decide)]; exact b4
    have hst3 := stored_of_bytes hgood.len hres (data := if f = 3 then t1 else t2) (by
      split
      · exact ne_nil_of_length l1
      · exact ne_nil_of_length l2) hb
    obtain ⟨r, hr1, hr2, _⟩ := hst3
    exact ⟨r, hr1, hr2⟩
  · left
    intro fi ow hn hd hok
    obtain ⟨hf, e, hparts⟩ := hsplit fi ow hn hok
    subst hn
    by_cases h34 : f = 3 ∨ f = 4
    · rw [e] at hok ⊢
      obtain ⟨hg, hcase⟩ := putNumbered_ok h hf hok
      rcases hcase with ⟨hor, hst, hb⟩ | ⟨h1, h2, _⟩
      · refine stored_of_bytes hg.len ?_ hd hb
        rcases hparts part hp hp0 with hnum | ⟨rfl, hz, hsame⟩
        · unfold fileForName
          rw [(parseAddressFilename_iff hf.1).2 hnum, if_pos hf.1]
        · rcases hor with hor | hor
          · unfold Operator.table
            rw [hst]
            exact hsame.1 hor
          · exact absurd hor hp0
      · exact absurd ⟨⟨h1, h2⟩, h34⟩ hc
    · refine C35_put_get h hd hok hp hp0 ?_
      have hres : fileForName (o.putFile fi ow).op.table part = .ok f := by
        rw [e] at hok ⊢
        obtain ⟨hg, hcase⟩ := putNumbered_ok h hf hok
        rcases hparts part hp hp0 with hnum | ⟨rfl, hz, hsame⟩
        · unfold fileForName
          rw [(parseAddressFilename_iff hf.1).2 hnum, if_pos hf.1]
        · rcases hcase with ⟨hor, hst, _⟩ | ⟨_, _, st, hst, hadd, hst', _⟩
          · rcases hor with hor | hor
            · unfold Operator.table
              rw [hst]
              exact hsame.1 hor
            · exact absurd hor hp0
          · unfold fileForName Operator.table
            rw [hz, hst', if_neg (by simp)]
            simp only [Option.getD_some]
            rw [fileForSymbol_byName hf (C32_add_self hadd)]
      rw [hres]
      exact ⟨fun e' => h34 (Or.inl (by simpa using e')), fun e' => h34 (Or.inr (by simpa using e'))⟩

/-- Both cases occur: on the disk of C35_violated the second for "DF03:FOO". -/
example : ∃ (o : Operator) (f : UInt8) (d : Bytes), (f = 3 ∨ f = 4) ∧ d.length = 4096 ∧ (∃ fi : FileInfo, fi.descriptor.name = str "DF03:FOO" ∧ fi.data ≠ [] ∧ (o.putFile fi true).out = .ok ()) ∧
    ∀ (fi : FileInfo) ow, fi.descriptor.name = str "DF03:FOO" → fi.data ≠ [] → (o.putFile fi ow).out = .ok () →
      fileForName (o.putFile fi ow).op.table (str "DF03") = .ok f ∧ ∃ r, (o.putFile fi ow).op.getFile (str "DF03") = .ok r ∧ r.data = d := by
  obtain ⟨o, fi, ho, hn, hd, hok, hs⟩ := C35_violated
  have hd' : fi.data ≠ [] := by rw [hd]; simp
  have hi : (writeSymbolTable freshMap freshImg chainTable).2.2.length = 143360 := (keep_writeSymbolTable fresh_good chainTable).good.len
  obtain ⟨hg, _⟩ := open_good hi ho
  rcases C35_dichotomy hg (name := str "DF03:FOO") (part := str "DF03")
    (PartOf.number (a := str "DF03") (b := str "FOO") (by decide +kernel) (by decide +kernel)) (by decide +kernel) with h | ⟨f, d, h1, h2, h3⟩
  · exact absurd (h fi true hn hd' hok) hs
  · exact ⟨o, f, d, h1, h2, ⟨fi, hn, hd', hok⟩, h3⟩

/-- C35: only a binary file whose stated length is the length of its contents is put; anything else is refused, and nothing changes. -/
theorem C35_put_refuses (o : Operator) (fi : FileInfo) (ow : Bool)
    (h : fi.descriptor.type ≠ filetypeBinary ∨ fi.descriptor.length ≠ fi.data.length) :
    ∃ k, o.putFile fi ow = ⟨false, .err k, o⟩ := by
  unfold Operator.putFile
  by_cases h1 : fi.descriptor.type ≠ filetypeBinary
  · rw [if_pos h1]; exact ⟨_, rfl⟩
  · rw [if_neg h1, if_pos (h.resolve_left h1)]; exact ⟨_, rfl⟩

/-- Non-vacuity: a text file, and a file that is shorter than it says. -/
example : ∃ k, (⟨freshImg, freshMap, none⟩ : Operator).putFile ⟨{ name := str "DF05", length := 2, type := filetypeBinary }, [1], 0⟩ false =
    ⟨false, .err k, ⟨freshImg, freshMap, none⟩⟩ := C35_put_refuses _ _ _ (Or.inr (by decide))

end Verif.Supermon
