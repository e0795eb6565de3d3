import Verif.Spec.Failed
import Verif.Props.PutAny
import Verif.Props.Prodos
import Verif.Proofs.Fate

/-!
# C116: library calls that fail, and what they have done by then
-/

set_option autoImplicit false

namespace Verif.Supermon
open Disk Spec

theorem fillTables_not {st : SymbolTable} (i : Nat) (t1 t2 : Bytes) (h : i + st.length ≤ 819) (hn : ¬ ∀ s ∈ st, Storable s.name) :
    ∃ k, fillTables st i t1 t2 = .err k := by
  induction st generalizing i t1 t2 with
  | nil => simp at hn
  | cons s rest ih =>
    unfold fillTables
    simp only [List.length_cons] at h ⊢
    cases e : encodeSymbol s.name with
    | ok six =>
      rw [Out.bind_ok, if_neg (by omega)]
      refine ih _ _ _ (by omega) fun hc => hn fun x hx => ?_
      rcases List.mem_cons.1 hx with rfl | hx
      · exact storable_encode.2 ⟨six, e⟩
      · exact hc x hx
    | err k => exact ⟨k, rfl⟩
    | panic => by_cases e0 : s.name = []
               · rw [e0] at e; simp [encodeSymbol] at e
               · rw [encodeSymbol_eq e0] at e; split at e <;> simp at e
    | timeout => by_cases e0 : s.name = []
                 · rw [e0] at e; simp [encodeSymbol] at e
                 · rw [encodeSymbol_eq e0] at e; split at e <;> simp at e

theorem writeSymbolTable_not {sm : SectorMap} {img : Bytes} {st : SymbolTable} (hlen : st.length ≤ 819) (hn : ¬ ∀ s ∈ st, Storable s.name) :
    ∃ k, writeSymbolTable sm img st = (.err k, sm, img) := by
  obtain ⟨k, e⟩ := fillTables_not 0 (zeros 0x1000) (zeros 0x1000) (by omega) hn
  exact ⟨k, by unfold writeSymbolTable; rw [e]⟩

theorem opened_length {img : Bytes} {o : Operator} (hi : img.length = 143360) (h : openOperator img = .ok o) : o.table.length ≤ 819 := by
  obtain ⟨hg, hd⟩ := open_good hi h
  rw [← hd] at h
  unfold Operator.table
  rw [opened_table hg h]
  unfold tableOn
  rw [readSymbolTable_eq hg.len]
  split
  · rename_i t e
    unfold tableOf at e
    split at e
    · split at e
      · rename_i h1 h2
        rcases parseSymbols_cases ⟨(fileBytes (own o.sm) o.data 3).toArray, by simpa using h1⟩
          ⟨(fileBytes (own o.sm) o.data 4).toArray, by simpa using h2⟩ 819 (Nat.le_refl _) with ⟨st, e2, hl, _⟩ | e2
        · rw [e2, Out.bind_ok] at e
          obtain ⟨_, _, e⟩ := Out.bind_eq_ok.1 e
          rw [← Out.ok.inj e]
          exact Nat.le_of_eq hl
        · rw [e2] at e; simp at e
      · simp at e
    · simp at e
  · simp

/-- What a put with a known number has done if it fails. -/
theorem putNumbered_fails {o : Operator} (h : Good o.sm o.data) (ho : openOperator o.data = .ok o) {f nf : UInt8} {sym : Str} {data : Bytes}
    {ow : Bool} (hf : IsFileNumber f) (hd : data ≠ []) (hsym : Storable sym) (hlen : o.table.length ≤ 819) (hs : sym ≠ [] → o.st ≠ none)
    (hfail : (o.putNumbered f nf sym data ow).out ≠ .ok ()) :
    (∃ k, (o.putNumbered f nf sym data ow).out = .err k) ∧
    (((o.putNumbered f nf sym data ow).op = o ∧
        ¬ (sectorsNeeded data.length ≤ (ownedBy (own o.sm) 0xFF).length + (ownedBy (own o.sm) f).length ∧
          (ow = true ∨ ownedBy (own o.sm) f = []))) ∨
      (sectorsNeeded data.length ≤ (ownedBy (own o.sm) 0xFF).length + (ownedBy (own o.sm) f).length ∧
        (ow = true ∨ ownedBy (own o.sm) f = []) ∧ nf ≠ f ∧ sym ≠ [] ∧
        ∃ st, o.st = some st ∧ ¬ (PlaceFor st sym ∧ ∀ e ∈ st, Storable e.name) ∧
          (o.putNumbered f nf sym data ow).op.sm = newMap o.sm f data ∧
          (o.putNumbered f nf sym data ow).op.data = newImg o.sm f data o.data ∧
          ((PlaceFor st sym ∧ StandsFor (o.putNumbered f nf sym data ow).op.table sym f) ∨
            ¬ PlaceFor st sym ∧ (o.putNumbered f nf sym data ow).op.table = st))) := by
  have hiff := putNumbered_iff (nf := nf) (ow := ow) h ho hf hd hsym hlen
  obtain ⟨h1, h2, h3, h4, _⟩ := C25_write_outcome (sm := o.sm) (img := o.data) (f := f) (c := data) ow h.len hf hd
  by_cases hok : (writeFile o.sm o.data f data ow).out = .ok ()
  swap
  · obtain ⟨e1, e2⟩ := h4 hok
    have hwhy : ¬ (sectorsNeeded data.length ≤ (ownedBy (own o.sm) 0xFF).length + (ownedBy (own o.sm) f).length ∧
          (ow = true ∨ ownedBy (own o.sm) f = [])) := fun hc => hok (h3.2 ⟨hc.1, hc.2.symm⟩)
    have hout : ∃ k, (writeFile o.sm o.data f data ow).out = .err k := by
      by_cases hr : sectorsNeeded data.length ≤ (ownedBy (own o.sm) 0xFF).length + (ownedBy (own o.sm) f).length
      · refine ⟨_, h2.2 ⟨hr, fun hc => hwhy ⟨hr, Or.inr hc⟩, ?_⟩⟩
        cases ow with
        | false => rfl
        | true => exact absurd ⟨hr, Or.inl rfl⟩ hwhy
      · exact ⟨_, h1.2 (by omega)⟩
    obtain ⟨k, hk⟩ := hout
    have e : o.putNumbered f nf sym data ow = ⟨(writeFile o.sm o.data f data ow).existed, .err k, o⟩ := by
      unfold Operator.putNumbered
      simp only [hk, e1, e2]
    rw [e]
    exact ⟨⟨k, rfl⟩, Or.inl ⟨rfl, hwhy⟩⟩
  have hroom := h3.1 hok
  have hcond : nf ≠ f ∧ sym ≠ [] := by
    by_contra hc
    exact hfail (hiff.2 ⟨hroom.1, hroom.2.symm, fun k1 k2 => absurd ⟨k1, k2⟩ hc⟩)
  cases hst : o.st with
  | none => exact absurd hst (hs hcond.2)
  | some st =>
  have htab : o.table = st := by unfold Operator.table; rw [hst]; rfl
  have hz : ∀ s ∈ st, s.address = 0 → s.name = [] := by rw [← htab]; exact opened_unused ho
  have hno : ¬ (PlaceFor st sym ∧ ∀ e ∈ st, Storable e.name) := by
    intro hc
    exact hfail (hiff.2 ⟨hroom.1, hroom.2.symm, fun _ _ => ⟨st, hst, hc⟩⟩)
  obtain ⟨hfit, em, ei⟩ := writeFile_ok_inv h.len hf hd hok
  have hp := addSymbol_succeeds (st := st) (name := sym) (addr_ne_zero f)
  have hsa := storable_add (st := st) (a := 0xDF00 + f.toUInt16) hz hsym
  have hself := C32_add_self (st := st) (name := sym) (a := 0xDF00 + f.toUInt16)
  have hfl := C32_add_fails_iff st sym (0xDF00 + f.toUInt16)
  rw [htab] at hlen
  have hval : (0xDF00 + f.toUInt16 : UInt16).toNat = 0xDF00 + f.toNat := by
    have := f.toNat_lt
    simp
    omega
  rcases hy : addSymbol st sym (0xDF00 + f.toUInt16) with ⟨out, st'⟩
  rw [hy] at hp hsa hself hfl
  dsimp only at hp hsa hself hfl
  by_cases ho' : out = .ok ()
  · subst ho'
    obtain ⟨hl, hsa⟩ := hsa rfl
    have hpl := hp.1 rfl
    obtain ⟨k, ew⟩ := writeSymbolTable_not (sm := newMap o.sm f data) (img := newImg o.sm f data o.data) (st := st') (by omega)
      (fun hc => hno ⟨hpl, hsa.1 hc⟩)
    have e : o.putNumbered f nf sym data ow =
        ⟨(writeFile o.sm o.data f data ow).existed, .err k, ⟨newImg o.sm f data o.data, newMap o.sm f data, some st'⟩⟩ := by
      unfold Operator.putNumbered
      simp only [hok, hst, hy, em, ei, ew]
      rw [if_pos hcond]
    rw [e]
    refine ⟨⟨k, rfl⟩, Or.inr ⟨hroom.1, hroom.2.symm, hcond.1, hcond.2, st, rfl, hno, rfl, rfl, Or.inl ⟨hpl, ?_⟩⟩⟩
    refine standsFor_byName.2 ⟨hf, ?_⟩
    show (byName st' sym).toNat = _
    rw [hself rfl, hval]
  · have he := hfl.2 ho'
    have hnp : ¬ PlaceFor st sym := fun hc => ho' (hp.2 hc)
    have hk : ∃ k, out = .err k := by
      rcases addSymbol_cases st sym (0xDF00 + f.toUInt16) with ⟨h0, e⟩ | ⟨h0, i, s, hi, hsi, hh, e⟩ |
        ⟨h0, i, s, hi, hsi, hh, e⟩ | ⟨h0, hnf, hf, e⟩ | ⟨h0, hnf, p, s, hp, hzz, e⟩
      all_goals
        rw [hy] at e
        simp only [Prod.mk.injEq] at e
        first
        | exact ⟨_, e.1⟩
        | exact absurd e.1 ho'
    obtain ⟨k, rfl⟩ := hk
    subst he
    have e : o.putNumbered f nf sym data ow =
        ⟨(writeFile o.sm o.data f data ow).existed, .err k, ⟨newImg o.sm f data o.data, newMap o.sm f data, some st'⟩⟩ := by
      unfold Operator.putNumbered
      simp only [hok, hst, hy, em, ei]
      rw [if_pos hcond]
    rw [e]
    exact ⟨⟨k, rfl⟩, Or.inr ⟨hroom.1, hroom.2.symm, hcond.1, hcond.2, st', rfl, hno, rfl, rfl, Or.inr ⟨hnp, rfl⟩⟩⟩

/-- C116, NakedOS PutFile, exactly: a put of something that fails returns an error, and it has changed nothing at all, unless it came to a
halt half way.  Then the contents are stored in the image as if the call had succeeded, in place of what the file had, and every other
file is as before; the table in memory has the symbol if there was a place for it, though the image has not. -/
theorem C116_put_exact {img : Bytes} {o : Operator} (hl : img.length = 143360) (ho : openOperator img = .ok o) (fi : FileInfo) (ow : Bool)
    (hd : fi.data ≠ []) (hfail : (o.putFile fi ow).out ≠ .ok ()) :
    (∃ k, (o.putFile fi ow).out = .err k) ∧
    (((o.putFile fi ow).op = o ∧ ∀ st f sym, o.st = some st → fi.descriptor.type = filetypeBinary → fi.descriptor.length = fi.data.length →
        ¬ HalfPut img st fi.descriptor.name fi.data ow f sym) ∨
      ∃ st f sym, o.st = some st ∧ fi.descriptor.type = filetypeBinary ∧ fi.descriptor.length = fi.data.length ∧
        HalfPut img st fi.descriptor.name fi.data ow f sym ∧
        fileOnDisk (o.putFile fi ow).op.data f = padded fi.data ∧
        (∀ g, IsFileNumber g → g ≠ f → fileOnDisk (o.putFile fi ow).op.data g = fileOnDisk img g) ∧
        (StandsFor (o.putFile fi ow).op.table sym f ↔ PlaceFor st sym)) := by
  obtain ⟨hg, hdata⟩ := open_good hl ho
  have hlen := opened_length hl ho
  have hown : ∀ g, ownedBy (owner img) g = ownedBy (own o.sm) g := by
    intro g
    unfold ownedBy
    refine List.filter_congr fun n hn => ?_
    rw [← hdata, (loaded_iff (by rw [hdata]; omega) o.sm).1 hg.loaded n (List.mem_range.1 hn)]
  have hnil : ∀ g, fileOnDisk img g = [] ↔ ownedBy (own o.sm) g = [] := by
    intro g; rw [← hdata]; exact fileOnDisk_nil hg g
  rw [← hdata] at ho
  revert hfail
  unfold Operator.putFile
  by_cases ht : fi.descriptor.type = filetypeBinary
  swap
  · rw [if_pos ht]
    intro _
    exact ⟨⟨_, rfl⟩, Or.inl ⟨rfl, fun _ _ _ _ e => absurd e ht⟩⟩
  rw [if_neg (by simpa using ht)]
  by_cases hle : fi.descriptor.length = fi.data.length
  swap
  · rw [if_pos hle]
    intro _
    exact ⟨⟨_, rfl⟩, Or.inl ⟨rfl, fun _ _ _ _ _ e => absurd e hle⟩⟩
  rw [if_neg (by simpa using hle)]
  rcases compound_means (fileOnDisk img) o.table fi.descriptor.name with ⟨n, nf, sym, hc, hm, hs⟩ | ⟨hc, hm⟩
  swap
  · rw [hc]
    intro _
    refine ⟨⟨_, rfl⟩, Or.inl ⟨rfl, fun st f sym e _ _ hh => ?_⟩⟩
    have : o.table = st := by unfold Operator.table; rw [e]; rfl
    exact hm f sym (this ▸ hh.1)
  rw [hc]
  dsimp only
  by_cases c1 : sym ≠ [] ∧ o.st = none
  · rw [if_pos c1]
    intro _
    exact ⟨⟨_, rfl⟩, Or.inl ⟨rfl, fun st f sym e => by rw [c1.2] at e; simp at e⟩⟩
  rw [if_neg c1]
  by_cases c2 : sym ≠ [] ∧ (encodeSymbol sym).isErr = true
  · rw [if_pos c2]
    intro _
    refine ⟨⟨_, rfl⟩, Or.inl ⟨rfl, fun st f s e _ _ hh => ?_⟩⟩
    have htab : o.table = st := by unfold Operator.table; rw [e]; rfl
    obtain ⟨rfl, _⟩ := (hm f s).1 (htab ▸ hh.1)
    obtain ⟨six, e3⟩ := storable_encode.1 hh.2.2.2.2.1
    rw [e3] at c2
    simp [Out.isErr] at c2
  rw [if_neg c2]
  have hsym : Storable sym := by
    by_cases e : sym = []
    · exact Or.inl e
    · rw [storable_encode]
      cases hx : encodeSymbol sym with
      | ok six => exact ⟨six, rfl⟩
      | err k => rw [hx] at c2; exact absurd ⟨e, rfl⟩ c2
      | panic => rw [encodeSymbol_eq e] at hx; split at hx <;> simp at hx
      | timeout => rw [encodeSymbol_eq e] at hx; split at hx <;> simp at hx
  have hnum : ∀ f, (if n = 0 then FirstUnused (fileOnDisk img) f else f = n) ↔
      (if n = 0 then firstFreeFile o.sm else n) ≠ 0 ∧ f = if n = 0 then firstFreeFile o.sm else n := by
    intro f
    by_cases e : n = 0
    · rw [if_pos e, if_pos e, ← hdata]; exact firstUnused_iff hg f
    · rw [if_neg e, if_neg e]; exact ⟨fun h => ⟨e, h⟩, fun h => h.2⟩
  have hm' : ∀ f s, PutMeans (fileOnDisk img) o.table fi.descriptor.name f s ↔
      s = sym ∧ (if n = 0 then firstFreeFile o.sm else n) ≠ 0 ∧ f = if n = 0 then firstFreeFile o.sm else n := by
    intro f s; rw [hm, hnum]
  clear hm hnum
  have hisf : (if n = 0 then firstFreeFile o.sm else n) ≠ 0 → IsFileNumber (if n = 0 then firstFreeFile o.sm else n) := by
    intro e
    by_cases e0 : n = 0
    · rw [if_pos e0] at e ⊢; exact firstFreeFile_file e
    · rw [if_neg e0]; exact filesForCompoundName_file hc e0
  generalize (if n = 0 then firstFreeFile o.sm else n) = num at hm' hisf ⊢
  by_cases c3 : num = 0
  · rw [if_pos c3]
    intro _
    refine ⟨⟨_, rfl⟩, Or.inl ⟨rfl, fun st f s e _ _ hh => ?_⟩⟩
    have htab : o.table = st := by unfold Operator.table; rw [e]; rfl
    exact ((hm' f s).1 (htab ▸ hh.1)).2.1 c3
  rw [if_neg c3]
  intro hfail
  have hmean := (hm' num sym).2 ⟨rfl, c3, rfl⟩
  have hfn := hisf c3
  obtain ⟨hk, hrest⟩ := putNumbered_fails hg ho hfn hd hsym hlen (fun e1 e2 => c1 ⟨e1, e2⟩) hfail
  refine ⟨hk, ?_⟩
  rcases hrest with ⟨e, hwhy⟩ | ⟨r1, r2, r3, r4, st, r5, r6, r7, r8, r9⟩
  · refine Or.inl ⟨e, fun st f s hst _ _ hh => hwhy ?_⟩
    have htab : o.table = st := by unfold Operator.table; rw [hst]; rfl
    obtain ⟨rfl, _, rfl⟩ := (hm' f s).1 (htab ▸ hh.1)
    obtain ⟨_, q2, q3, _⟩ := hh
    rw [hown, hown] at q2
    rw [hnil] at q3
    exact ⟨q2, q3⟩
  · have htab : o.table = st := by unfold Operator.table; rw [r5]; rfl
    have hns : ¬ StandsFor st sym num := by
      intro hc
      exact r3 ((hs num hmean r4).2 (htab ▸ hc))
    have hfit : Fits o.sm num fi.data := by
      unfold Fits; rw [← sectorsNeeded_eq]; exact r1
    have hw := writeFile_ok (ow := ow) hg.len hfn hd hfit r2
    have hkp := keep_writeFile (c := fi.data) (ow := ow) hg hfn (by rw [hw]; simp)
    rw [hw] at hkp
    dsimp only at hkp
    refine Or.inr ⟨st, num, sym, r5, ht, hle, ⟨htab ▸ hmean, ?_, ?_, r4, hsym, hns, r6⟩, ?_, ?_, ?_⟩
    · rw [hown, hown]; exact r1
    · rw [hnil]; exact r2
    · rw [r8, ← hkp.good.onDisk]
      exact fileBytes_new_self hg.len hfn hfit hg.legal
    · intro g hgf hgne
      rw [r8, ← hkp.good.onDisk, hkp.bytes g hgf hgne, hg.onDisk, hdata]
    · rcases r9 with ⟨p1, p2⟩ | ⟨p1, p2⟩
      · exact ⟨fun _ => p1, fun _ => p2⟩
      · rw [p2]
        exact ⟨fun e => absurd e hns, fun e => absurd e p1⟩

/-- C116, NakedOS PutFile: on a disk all of whose symbols can be written again, and which has an unused entry in its table, a put that
fails changes nothing at all. -/
theorem C116_put_partial {img : Bytes} {o : Operator} (hl : img.length = 143360) (ho : openOperator img = .ok o) (fi : FileInfo) (ow : Bool)
    (hd : fi.data ≠ []) (hs : ∀ st, o.st = some st → (∃ e ∈ st, e.address = 0) ∧ ∀ e ∈ st, Storable e.name)
    (hfail : (o.putFile fi ow).out ≠ .ok ()) : (o.putFile fi ow).op = o := by
  obtain ⟨_, ⟨h, _⟩ | ⟨st, f, sym, h1, _, _, h2, _⟩⟩ := C116_put_exact hl ho fi ow hd hfail
  · exact h
  · obtain ⟨e1, e2⟩ := hs st h1
    exact absurd ⟨Or.inr e1, e2⟩ h2.2.2.2.2.2.2

/-- C116, NakedOS Delete, exactly: a delete that fails returns an error, and it has changed nothing at all, unless it came to a halt half
way.  Then the file is gone, in memory and in the image, and every other file is as before; the table in memory has lost the entry of
the name, though the image has not. -/
theorem C116_delete_exact {img : Bytes} {o : Operator} (hl : img.length = 143360) (ho : openOperator img = .ok o) (name : Str)
    (hfail : (o.delete name).out ≠ .ok ()) :
    (∃ k, (o.delete name).out = .err k) ∧
    (((o.delete name).op = o ∧ ∀ f, ¬ NameOf o.table name f) ∨
      ∃ f, HalfRemoved o.table name f ∧ fileOnDisk (o.delete name).op.data f = [] ∧
        (∀ g, IsFileNumber g → g ≠ f → fileOnDisk (o.delete name).op.data g = fileOnDisk img g) ∧
        (o.delete name).op.table = (deleteSymbol o.table name).2) := by
  obtain ⟨hg, hdata⟩ := open_good hl ho
  have hlen := opened_length hl ho
  rw [← hdata] at ho
  have hiff := delete_iff hg ho hlen (name := name)
  rcases fileForName_cases o.table name with ⟨f, hn⟩ | hn
  swap
  · rw [op_delete_err hn]
    refine ⟨⟨_, rfl⟩, Or.inl ⟨rfl, fun f hc => ?_⟩⟩
    rw [← nameOf_iff, hn] at hc
    simp at hc
  have hf := fileForName_file hn
  obtain ⟨hp, hk⟩ := keep_delete hg hf
  have hhalf : ∃ before s after, FirstOf o.table name before s after ∧ ∃ e ∈ before ++ after, ¬ Storable e.name := by
    by_contra hc
    refine hfail (hiff.2 ⟨f, (nameOf_iff f).1 hn, fun b s a h1 e he => ?_⟩)
    by_contra h2
    exact hc ⟨b, s, a, h1, e, he, h2⟩
  obtain ⟨b, s, a, h1, e, he, h2⟩ := id hhalf
  obtain ⟨d1, d2, d3⟩ := storable_delete h1
  cases hst : o.st with
  | none =>
    have := h1.1
    unfold Operator.table at this
    rw [hst] at this
    simp at this
  | some st =>
  have htab : o.table = st := by unfold Operator.table; rw [hst]; rfl
  have hhalf' : HalfRemoved o.table name f := ⟨(nameOf_iff f).1 hn, hhalf⟩
  have hn' := hn
  rw [htab] at d1 d2 d3 hlen
  obtain ⟨k, ew⟩ := writeSymbolTable_not (sm := deleteFile o.sm f) (img := put o.data 2512 (deleteFile o.sm f).toList)
    (st := (deleteSymbol st name).2) (by omega) (fun hc => h2 (d3.1 hc e he))
  rcases hy : deleteSymbol st name with ⟨bb, st'⟩
  rw [hy] at d1 ew
  dsimp only at d1 ew
  subst d1
  have e : o.delete name = ⟨decide ((sectorsForFile o.sm f).length > 0), .err k,
      ⟨put o.data 2512 (deleteFile o.sm f).toList, deleteFile o.sm f, some st'⟩⟩ := by
    unfold Operator.delete
    rw [hn]
    simp only [hp, hst, hy, ew]
  rw [e]
  refine ⟨⟨k, rfl⟩, Or.inr ⟨f, hhalf', ?_, ?_, ?_⟩⟩
  · rw [fileOnDisk_nil hk.good]
    exact ownedBy_deleteFile_self o.sm hf.2.2
  · intro g hgf hgne
    show fileOnDisk (put o.data 2512 (deleteFile o.sm f).toList) g = _
    rw [← hk.good.onDisk, hk.bytes g hgf hgne, hg.onDisk, hdata]
  · rw [htab, hy]; rfl

/-! ## WriteFile -/

/-- C116, WriteFile to the number of a file, of something: if it fails it changes nothing, neither in the map nor in the image. -/
theorem C116_write_file_partial {sm : SectorMap} {img : Bytes} {f : UInt8} {c : Bytes} (ow : Bool) (hi : img.length = 143360)
    (hf : IsFileNumber f) (hc : c ≠ []) (hfail : (writeFile sm img f c ow).out ≠ .ok ()) :
    (writeFile sm img f c ow).sm = sm ∧ (writeFile sm img f c ow).img = img :=
  (C25_write_outcome ow hi hf hc).2.2.2.1 hfail

theorem writeLoop_illegal {cts : Bytes} {need : Nat} (hc : 256 ≤ cts.length) {f : UInt8} (hf : ¬ IsFileNumber f) (ns : List Nat)
    (hn : ∀ n ∈ ns, n < 560) (sm : SectorMap) (img : Bytes) (himg : img.length = 143360) :
    (ns.find? (fun n => own sm n = 0xFF) = none ∧ writeLoop cts need f (ns.map ts) 0 sm img = (.ok (), sm, img)) ∨
    ∃ n, ns.find? (fun n => own sm n = 0xFF) = some n ∧
      writeLoop cts need f (ns.map ts) 0 sm img = (.err .other, sm, put img (256 * n) (slice cts 0 256)) := by
  induction ns with
  | nil => exact Or.inl ⟨rfl, rfl⟩
  | cons n ns ih =>
    have hn0 : n < 560 := hn n (by simp)
    have hns : ∀ m ∈ ns, m < 560 := fun m hm => hn m (by simp [hm])
    rw [List.map_cons, List.find?_cons]
    unfold writeLoop
    rw [fileForSector_ts sm hn0]
    by_cases hfr : own sm n = 0xFF
    · right
      refine ⟨n, by rw [decide_eq_true hfr], ?_⟩
      have hsl : (slice cts (0 * 256) 256).length = 256 := slice_length_of_le (by omega)
      rw [if_pos (by rw [hfr]; rfl), if_neg (by omega), writeSector_ts himg hn0 hsl]
      have hset : setFileForSector sm (ts n).1 (ts n).2 f = (.err .other, sm) := by
        unfold setFileForSector
        rw [dif_neg (by have := ts_fst hn0; omega), dif_neg (by have := ts_snd hn0; omega), if_pos]
        by_contra hc
        simp only [not_or] at hc
        exact hf ⟨hc.1, hc.2.2, hc.2.1⟩
      simp only [hset, Nat.zero_mul, Nat.mul_comm n]
    · rw [if_neg (by simpa [fileFree] using hfr), decide_eq_false hfr]
      exact ih hns

/-- C116, WriteFile to one of the three numbers that are none of a file (0 for illegal, FE for reserved and FF for free), of something: it
always fails.  It changes nothing if there is no room, or if it would need to overwrite and may not.  Otherwise it has, by the time it
fails, put the first 256 bytes over the first sector that is free or has this number; every other byte of the image is as before.  In
the map, in memory only, all sectors with this number are free. -/
theorem C116_write_file_illegal {sm : SectorMap} {img : Bytes} {f : UInt8} {c : Bytes} (ow : Bool) (hi : img.length = 143360)
    (hf : ¬ IsFileNumber f) (hc : c ≠ []) :
    let room := (ownedBy (own sm) 0xFF).length + (ownedBy (own sm) f).length
    let r := writeFile sm img f c ow
    (room < sectorsNeeded c.length ∧ r.out = .err .outOfSpace ∧ r.sm = sm ∧ r.img = img) ∨
    (sectorsNeeded c.length ≤ room ∧ ownedBy (own sm) f ≠ [] ∧ ow = false ∧ r.out = .err .fileExists ∧ r.sm = sm ∧ r.img = img) ∨
    (sectorsNeeded c.length ≤ room ∧ (ownedBy (own sm) f = [] ∨ ow = true) ∧ r.out = .err .other ∧
      (∀ n, n < 560 → own r.sm n = if own sm n = f then 0xFF else own sm n) ∧
      ∃ n, n < 560 ∧ (own sm n = f ∨ own sm n = 0xFF) ∧ (∀ m, m < n → own sm m ≠ f ∧ own sm m ≠ 0xFF) ∧
        r.img.length = img.length ∧ slice r.img (256 * n) 256 = (padded c).take 256 ∧
        ∀ i, i < 256 * n ∨ 256 * (n + 1) ≤ i → r.img[i]? = img[i]?) := by
  intro room r
  have hpos : 0 < c.length := List.length_pos_iff.2 hc
  by_cases hfit : Fits sm f c
  swap
  · left
    have e := writeFile_outOfSpace (img := img) (ow := ow) hfit
    show _ ∧ (writeFile sm img f c ow).out = _ ∧ (writeFile sm img f c ow).sm = _ ∧ (writeFile sm img f c ow).img = _
    rw [e]
    refine ⟨?_, rfl, rfl, rfl⟩
    unfold Fits at hfit
    rw [sectorsNeeded_eq]
    omega
  have hroom : sectorsNeeded c.length ≤ room := by
    unfold Fits at hfit
    rw [sectorsNeeded_eq]
    omega
  right
  by_cases hx : ow = true ∨ ownedBy (own sm) f = []
  swap
  · left
    simp only [not_or, Bool.not_eq_true] at hx
    have e := writeFile_exists (img := img) hfit hx.2
    show _ ∧ _ ∧ _ ∧ (writeFile sm img f c ow).out = _ ∧ (writeFile sm img f c ow).sm = _ ∧ (writeFile sm img f c ow).img = _
    rw [hx.1, e]
    exact ⟨hroom, hx.2, rfl, rfl, rfl, rfl⟩
  right
  have hneed : 256 ≤ (padded c).length := by rw [padded_length]; omega
  have e := writeFile_pre (img := img) hfit hx
  rw [allSectors_eq] at e
  have hfree : ∀ n, n < 560 → (own (deleteFile sm f) n = 0xFF ↔ own sm n = f ∨ own sm n = 0xFF) := by
    intro n hn
    rw [own_deleteFile sm f hn]
    by_cases h : own sm n = f
    · simp [h]
    · simp [h]
  rcases writeLoop_illegal (need := (c.length + 255) / 256) hneed hf (List.range 560) (fun n hn => List.mem_range.1 hn) (deleteFile sm f) img hi with
    ⟨hnone, _⟩ | ⟨n, hsome, ew⟩
  · exfalso
    have hnof : ∀ n, n < 560 → ¬ (own sm n = f ∨ own sm n = 0xFF) := by
      intro n hn hc
      have := List.find?_eq_none.1 hnone n (List.mem_range.2 hn)
      exact this (decide_eq_true ((hfree n hn).2 hc))
    have z : ∀ g, (g = f ∨ g = 0xFF) → ownedBy (own sm) g = [] := by
      intro g hg
      rw [ownedBy, List.filter_eq_nil_iff]
      intro n hn hc
      have hc : own sm n = g := by simpa using hc
      refine hnof n (List.mem_range.1 hn) ?_
      rw [hc]
      exact hg
    unfold Fits at hfit
    rw [z 0xFF (Or.inr rfl), z f (Or.inl rfl)] at hfit
    simp at hfit
    omega
  · rw [ew] at e
    have hmem := List.mem_of_find?_eq_some hsome
    have hn : n < 560 := List.mem_range.1 hmem
    have hsl : (slice (padded c) 0 256).length = 256 := slice_length_of_le (by omega)
    show _ ∧ _ ∧ (writeFile sm img f c ow).out = _ ∧ (∀ n, n < 560 → own (writeFile sm img f c ow).sm n = _) ∧ ∃ n, _ ∧ _ ∧ _ ∧
      (writeFile sm img f c ow).img.length = _ ∧ slice (writeFile sm img f c ow).img _ _ = _ ∧ ∀ i, _ → (writeFile sm img f c ow).img[i]? = _
    rw [e]
    refine ⟨hroom, hx.symm, rfl, fun n hn => own_deleteFile sm f hn, n, hn, ?_, ?_, ?_, ?_, ?_⟩
    · exact (hfree n hn).1 (by simpa using List.find?_some hsome)
    · intro m hm
      have h1 := List.find?_range_eq_some.1 hsome
      have h2 := h1.2.2 m hm
      have h2 : ¬ own (deleteFile sm f) m = 0xFF := by simpa using h2
      have h3 := fun hc => h2 ((hfree m (by omega)).2 hc)
      exact ⟨fun hc => h3 (Or.inl hc), fun hc => h3 (Or.inr hc)⟩
    · exact put_length (by rw [hsl]; omega)
    · have := slice_put_same (l := img) (off := 256 * n) (d := slice (padded c) 0 256) (by rw [hsl]; omega)
      rw [hsl] at this
      rw [this]
      unfold slice
      rw [List.drop_zero]
    · intro i hi'
      show (put img (256 * n) (slice (padded c) 0 256))[i]? = _
      rw [getElem?_put (by omega), hsl]
      by_cases h1 : i < 256 * n
      · rw [if_pos h1]
      · rw [if_neg h1, if_neg (by omega)]

/-- C116, NakedOS Delete: on a disk all of whose symbols can be written again, a delete that fails changes nothing at all. -/
theorem C116_delete_partial {img : Bytes} {o : Operator} (hl : img.length = 143360) (ho : openOperator img = .ok o) (name : Str)
    (hs : ∀ e ∈ o.table, Storable e.name) (hfail : (o.delete name).out ≠ .ok ()) : (o.delete name).op = o := by
  obtain ⟨_, ⟨h, _⟩ | ⟨f, ⟨_, b, s, a, h1, e, he, h2⟩, _⟩⟩ := C116_delete_exact hl ho name hfail
  · exact h
  · refine absurd (hs e ?_) h2
    rw [h1.1]
    rcases List.mem_append.1 he with he | he
    · exact List.mem_append_left _ he
    · exact List.mem_append_right _ (List.mem_cons_of_mem _ he)

end Verif.Supermon
