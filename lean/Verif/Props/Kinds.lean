import Verif.Spec.Kinds
import Verif.Props.Failed
import Verif.Props.PutEmpty

/-!
# C117: the kind of an error tells its reason
-/

set_option autoImplicit false

namespace Verif.Supermon
open Disk Spec

/-! ## Errors of one kind -/

theorem encodeLoop_other : ∀ (l : Str) (v i : Nat) (k : ErrKind), encodeLoop l v i = .err k → k = .other := by
  intro l
  induction l with
  | nil => intro v i k h; simp [encodeLoop] at h
  | cons c l ih =>
    intro v i k h
    unfold encodeLoop at h
    split at h
    · simp only [Out.err.injEq] at h; exact h.symm
    · exact ih _ _ _ h

theorem encodeSymbol_other {name : Str} {k : ErrKind} (h : encodeSymbol name = .err k) : k = .other := by
  unfold encodeSymbol at h
  split at h
  · simp at h
  · split at h
    · simp only [Out.err.injEq] at h; exact h.symm
    · split at h
      · simp only [Out.err.injEq] at h; exact h.symm
      · cases e : encodeLoop (toUpper name).reverse 0 0 with
        | ok v => rw [e] at h; simp at h
        | err k' => rw [e] at h; simp at h; rw [← h]; exact encodeLoop_other _ _ _ _ e
        | panic => rw [e] at h; simp at h
        | timeout => rw [e] at h; simp at h

theorem fillTables_other : ∀ (st : SymbolTable) (i : Nat) (a b : Bytes) (k : ErrKind), fillTables st i a b = .err k → k = .other := by
  intro st
  induction st with
  | nil => intro i a b k h; simp [fillTables] at h
  | cons s st ih =>
    intro i a b k h
    unfold fillTables at h
    cases e : encodeSymbol s.name with
    | ok six =>
      rw [e] at h
      simp only [Out.bind_ok] at h
      split at h
      · simp at h
      · exact ih _ _ _ _ h
    | err k' => rw [e] at h; simp at h; rw [← h]; exact encodeSymbol_other e
    | panic => rw [e] at h; simp at h
    | timeout => rw [e] at h; simp at h

theorem writeSymbolTable_other {sm : SectorMap} {img : Bytes} {st : SymbolTable} {k : ErrKind}
    (h : (writeSymbolTable sm img st).1 = .err k) : k = .other := by
  unfold writeSymbolTable at h
  cases e : fillTables st 0 (zeros 0x1000) (zeros 0x1000) with
  | ok p =>
    rw [e] at h
    simp only at h
    split at h
    · split at h <;> simp at h
      exact h.symm
    all_goals simp at h
    exact h.symm
  | err k' => rw [e] at h; simp at h; rw [← h]; exact fillTables_other _ _ _ _ _ e
  | panic => rw [e] at h; simp at h
  | timeout => rw [e] at h; simp at h

theorem addSymbol_other {st : SymbolTable} {name : Str} {a : UInt16} {k : ErrKind} (h : (addSymbol st name a).1 = .err k) : k = .other := by
  unfold addSymbol at h
  split at h
  · simp at h; exact h.symm
  · split at h
    · split at h <;> simp at h
    · simp at h
    · simp at h; exact h.symm
    · simp at h

theorem putNumbered_kind {o : Operator} {f nf : UInt8} {sym : Str} {data : Bytes} {ow : Bool} {k : ErrKind} (hk : k ≠ .other) :
    (o.putNumbered f nf sym data ow).out = .err k ↔ (writeFile o.sm o.data f data ow).out = .err k := by
  unfold Operator.putNumbered
  cases e : (writeFile o.sm o.data f data ow).out with
  | ok u =>
    simp only [e, reduceCtorEq, iff_false]
    intro h
    split at h
    · split at h
      · rename_i st hst
        rcases hx : addSymbol st sym (0xDF00 + f.toUInt16) with ⟨r, st'⟩
        rw [hx] at h
        cases r with
        | ok _ => exact hk (writeSymbolTable_other h)
        | err k' =>
          simp only [Out.err.injEq] at h
          exact hk (addSymbol_other (st := st) (name := sym) (a := 0xDF00 + f.toUInt16) (k := k) (by rw [hx, ← h]))
        | panic => simp at h
        | timeout => simp at h
      · simp at h; exact hk h.symm
    · simp at h
  | err k' => simp only [e]
  | panic => simp only [e]
  | timeout => simp only [e]

/-- The kinds of errors of WriteFile, whatever is written. -/
theorem writeFile_kinds {sm : SectorMap} {img : Bytes} {f : UInt8} {c : Bytes} (ow : Bool) (hi : img.length = 143360) (hf : IsFileNumber f) :
    ((writeFile sm img f c ow).out = .err .outOfSpace ↔
      (ownedBy (own sm) 0xFF).length + (ownedBy (own sm) f).length < sectorsNeeded c.length) ∧
    ((writeFile sm img f c ow).out = .err .fileExists ↔
      sectorsNeeded c.length ≤ (ownedBy (own sm) 0xFF).length + (ownedBy (own sm) f).length ∧ ownedBy (own sm) f ≠ [] ∧ ow = false) ∧
    (writeFile sm img f c ow).out ≠ .err .fileNotFound := by
  by_cases hc : c = []
  swap
  · obtain ⟨w1, w2, _, _, w5, _⟩ := C25_write_outcome (sm := sm) (img := img) (f := f) (c := c) ow hi hf hc
    refine ⟨w1, w2, fun h => ?_⟩
    rcases w5 with e | e | e <;> rw [e] at h <;> simp at h
  subst hc
  have h0 : sectorsNeeded ([] : Bytes).length = 0 := by decide
  rw [h0]
  by_cases hx : ow = true ∨ ownedBy (own sm) f = []
  · have hno : ∀ k, (writeFile sm img f [] ow).out ≠ .err k := by
      intro k
      rw [writeFile_empty hi hx]
      split <;> simp
    refine ⟨⟨fun h => absurd h (hno _), fun h => by omega⟩, ⟨fun h => absurd h (hno _), fun h => ?_⟩, hno _⟩
    rcases hx with e | e
    · rw [h.2.2] at e; simp at e
    · exact absurd e h.2.1
  · rw [not_or] at hx
    have how : ow = false := by simpa using hx.1
    subst how
    rw [writeFile_exists (by simp [Fits]) hx.2]
    refine ⟨by simp, ?_, by simp⟩
    simp [hx.2]

/-! ## PutFile -/

/-- C117, NakedOS PutFile: the error says that there is no room exactly if what is asked for can be asked of this disk and takes
more sectors than there are; and that the file exists exactly if there is room, the file is there and may not be overwritten.  It never
says that a file is not found. -/
theorem C117_put_partial {img : Bytes} {o : Operator} (hl : img.length = 143360) (ho : openOperator img = .ok o) (fi : FileInfo) (ow : Bool)
    (ht : fi.descriptor.type = filetypeBinary) (hlen : fi.descriptor.length = fi.data.length) :
    ((o.putFile fi ow).out = .err .outOfSpace ↔ ∃ f sym, AsksToPut (fileOnDisk img) o.st fi.descriptor.name f sym ∧
      roomFor img f < sectorsNeeded fi.data.length) ∧
    ((o.putFile fi ow).out = .err .fileExists ↔ ∃ f sym, AsksToPut (fileOnDisk img) o.st fi.descriptor.name f sym ∧
      sectorsNeeded fi.data.length ≤ roomFor img f ∧ fileOnDisk img f ≠ [] ∧ ow = false) ∧
    (o.putFile fi ow).out ≠ .err .fileNotFound := by
  obtain ⟨hg, hdata⟩ := open_good hl ho
  have hown : ∀ g, ownedBy (owner img) g = ownedBy (own o.sm) g := by
    intro g
    unfold ownedBy
    refine List.filter_congr fun n hn => ?_
    rw [← hdata, (loaded_iff (by rw [hdata]; omega) o.sm).1 hg.loaded n (List.mem_range.1 hn)]
  have hnil : ∀ g, fileOnDisk img g = [] ↔ ownedBy (own o.sm) g = [] := by
    intro g; rw [← hdata]; exact fileOnDisk_nil hg g
  have hroom : ∀ g, roomFor img g = (ownedBy (own o.sm) 0xFF).length + (ownedBy (own o.sm) g).length := by
    intro g; unfold roomFor; rw [hown, hown]
  have htab : o.st.getD [] = o.table := rfl
  unfold AsksToPut
  simp only [htab]
  unfold Operator.putFile
  rw [if_neg (by simpa using ht), if_neg (by simpa using hlen)]
  have none_asked : ∀ {r : Operator.Res}, r.out = .err .other →
      (∀ f sym, PutMeans (fileOnDisk img) o.table fi.descriptor.name f sym → ¬ (sym ≠ [] → o.st ≠ none ∧ Storable sym)) →
      (r.out = .err .outOfSpace ↔ ∃ f sym, (PutMeans (fileOnDisk img) o.table fi.descriptor.name f sym ∧ (sym ≠ [] → o.st ≠ none ∧ Storable sym)) ∧
        roomFor img f < sectorsNeeded fi.data.length) ∧
      (r.out = .err .fileExists ↔ ∃ f sym, (PutMeans (fileOnDisk img) o.table fi.descriptor.name f sym ∧ (sym ≠ [] → o.st ≠ none ∧ Storable sym)) ∧
        sectorsNeeded fi.data.length ≤ roomFor img f ∧ fileOnDisk img f ≠ [] ∧ ow = false) ∧
      r.out ≠ .err .fileNotFound := by
    intro r hr hno
    rw [hr]
    refine ⟨⟨fun h => by simp at h, ?_⟩, ⟨fun h => by simp at h, ?_⟩, by simp⟩
    · rintro ⟨f, sym, ⟨h1, h2⟩, _⟩; exact absurd h2 (hno f sym h1)
    · rintro ⟨f, sym, ⟨h1, h2⟩, _⟩; exact absurd h2 (hno f sym h1)
  rcases compound_means (fileOnDisk img) o.table fi.descriptor.name with ⟨n, nf, sym, hc, hm, hs⟩ | ⟨hc, hm⟩
  swap
  · rw [hc]
    exact none_asked rfl fun f sym h => absurd h (hm f sym)
  rw [hc]
  dsimp only
  by_cases c1 : sym ≠ [] ∧ o.st = none
  · rw [if_pos c1]
    refine none_asked rfl fun f s h1 h2 => ?_
    obtain ⟨rfl, _⟩ := (hm f s).1 h1
    exact (h2 c1.1).1 c1.2
  rw [if_neg c1]
  by_cases c2 : sym ≠ [] ∧ (encodeSymbol sym).isErr = true
  · rw [if_pos c2]
    refine none_asked rfl fun f s h1 h2 => ?_
    obtain ⟨rfl, _⟩ := (hm f s).1 h1
    obtain ⟨six, e3⟩ := storable_encode.1 (h2 c2.1).2
    rw [e3] at c2
    simp [Out.isErr] at c2
  rw [if_neg c2]
  have hsym : Storable sym := by
    by_cases e : sym = []
    · exact Or.inl e
    · rw [storable_encode]
      cases hx : encodeSymbol sym with
      | ok six => exact ⟨six, rfl⟩
      | err k => rw [hx] at c2; exact absurd ⟨e, rfl⟩ c2
      | panic => rw [encodeSymbol_eq e] at hx; split at hx <;> simp at hx
      | timeout => rw [encodeSymbol_eq e] at hx; split at hx <;> simp at hx
  have hnum : ∀ f, (if n = 0 then FirstUnused (fileOnDisk img) f else f = n) ↔
      (if n = 0 then firstFreeFile o.sm else n) ≠ 0 ∧ f = if n = 0 then firstFreeFile o.sm else n := by
    intro f
    by_cases e : n = 0
    · rw [if_pos e, if_pos e, ← hdata]; exact firstUnused_iff hg f
    · rw [if_neg e, if_neg e]; exact ⟨fun h => ⟨e, h⟩, fun h => h.2⟩
  have hm' : ∀ f s, PutMeans (fileOnDisk img) o.table fi.descriptor.name f s ↔
      s = sym ∧ (if n = 0 then firstFreeFile o.sm else n) ≠ 0 ∧ f = if n = 0 then firstFreeFile o.sm else n := by
    intro f s; rw [hm, hnum]
  have hisf : (if n = 0 then firstFreeFile o.sm else n) ≠ 0 → IsFileNumber (if n = 0 then firstFreeFile o.sm else n) := by
    intro e
    by_cases e0 : n = 0
    · rw [if_pos e0] at e ⊢; exact firstFreeFile_file e
    · rw [if_neg e0]; exact filesForCompoundName_file hc e0
  generalize (if n = 0 then firstFreeFile o.sm else n) = num at hm' hisf ⊢
  by_cases c3 : num = 0
  · rw [if_pos c3]
    exact none_asked rfl fun f s h1 _ => absurd c3 ((hm' f s).1 h1).2.1
  rw [if_neg c3]
  have hok : sym ≠ [] → o.st ≠ none ∧ Storable sym := fun h => ⟨fun h2 => c1 ⟨h, h2⟩, hsym⟩
  obtain ⟨w1, w2, w3⟩ := writeFile_kinds (sm := o.sm) (img := o.data) (f := num) (c := fi.data) ow hg.len (hisf c3)
  have p1 := putNumbered_kind (o := o) (f := num) (nf := nf) (sym := sym) (data := fi.data) (ow := ow) (k := .outOfSpace) (by simp)
  have p2 := putNumbered_kind (o := o) (f := num) (nf := nf) (sym := sym) (data := fi.data) (ow := ow) (k := .fileExists) (by simp)
  have p3 := putNumbered_kind (o := o) (f := num) (nf := nf) (sym := sym) (data := fi.data) (ow := ow) (k := .fileNotFound) (by simp)
  rw [p1, p2, w1, w2, ← hroom]
  refine ⟨⟨fun h => ⟨num, sym, ⟨(hm' num sym).2 ⟨rfl, c3, rfl⟩, hok⟩, h⟩, ?_⟩,
    ⟨fun h => ⟨num, sym, ⟨(hm' num sym).2 ⟨rfl, c3, rfl⟩, hok⟩, h.1, fun e => h.2.1 ((hnil num).1 e), h.2.2⟩, ?_⟩, ?_⟩
  · rintro ⟨f, s, ⟨h1, _⟩, h⟩
    obtain ⟨rfl, _, rfl⟩ := (hm' f s).1 h1
    exact h
  · rintro ⟨f, s, ⟨h1, _⟩, h⟩
    obtain ⟨rfl, _, rfl⟩ := (hm' f s).1 h1
    exact ⟨h.1, fun e => h.2.1 ((hnil f).2 e), h.2.2⟩
  · exact fun hc => w3 (p3.1 hc)

/-- C117, NakedOS PutFile of something else: what is not a binary file, or is said to be of another length than it is, gives an ordinary
error, whatever the disk. -/
theorem C117_put_other (o : Operator) (fi : FileInfo) (ow : Bool)
    (h : fi.descriptor.type ≠ filetypeBinary ∨ fi.descriptor.length ≠ fi.data.length) : (o.putFile fi ow).out = .err .other := by
  unfold Operator.putFile
  by_cases ht : fi.descriptor.type ≠ filetypeBinary
  · rw [if_pos ht]
  · rw [if_neg ht, if_pos (h.resolve_left ht)]

theorem putNumbered_empty_timeout {o : Operator} (h : Good o.sm o.data) (hst : o.table.length ≤ 819) {f nf : UInt8} {sym : Str} {ow : Bool}
    (hf : IsFileNumber f) : (o.putNumbered f nf sym [] ow).out ≠ .timeout := by
  have hw : (writeFile o.sm o.data f [] ow).out ≠ .timeout := by
    by_cases hx : ow = true ∨ ownedBy (own o.sm) f = []
    · rw [writeFile_empty h.len hx]; split <;> simp
    · rw [not_or] at hx
      have how : ow = false := by simpa using hx.1
      subst how
      rw [writeFile_exists (by simp [Fits]) hx.2]
      simp
  have hk := keep_writeFile (c := []) (ow := ow) h hf
  unfold Operator.putNumbered
  simp only
  split
  · rename_i e
    have hk := hk (by rw [e]; simp)
    split
    · split
      · rename_i st hs
        have ha := addSymbol_returns st sym (0xDF00 + f.toUInt16)
        have hl := addSymbol_length st sym (0xDF00 + f.toUInt16)
        have : st.length ≤ 819 := by rw [Operator.table, hs] at hst; exact hst
        split
        · rename_i st' he
          rw [he] at hl
          rcases writeSymbolTable_returns hk.good (st := st') (by simp only at hl; omega) with e | e
            <;> rw [e] <;> simp
        · rename_i e' st' he
          rw [he] at ha
          simp only at ha
          rcases ha with e | e <;> simp only [e] <;> simp
      · simp
    · simp
  · exact hw

/-- C37, exactly: PutFile crashes exactly if there is nothing to put, as a binary file, where it can be asked for, is allowed, and finds a
sector that is free or becomes free.  In all other cases it returns. -/
theorem C37_exact {img : Bytes} {o : Operator} (hl : img.length = 143360) (ho : openOperator img = .ok o) (fi : FileInfo) (ow : Bool) :
    ((o.putFile fi ow).out.returns = false ↔ (o.putFile fi ow).out = .panic) ∧
    ((o.putFile fi ow).out = .panic ↔ fi.descriptor.type = filetypeBinary ∧ fi.descriptor.length = 0 ∧ fi.data = [] ∧
      ∃ f sym, AsksToPut (fileOnDisk img) o.st fi.descriptor.name f sym ∧ (ow = true ∨ fileOnDisk img f = []) ∧ 0 < roomFor img f) := by
  obtain ⟨hg, hdata⟩ := open_good hl ho
  subst hdata
  have hlen := opened_length hl ho
  have hown : ∀ g, ownedBy (owner o.data) g = ownedBy (own o.sm) g := by
    intro g
    unfold ownedBy
    refine List.filter_congr fun n hn => ?_
    rw [(loaded_iff (by omega) o.sm).1 hg.loaded n (List.mem_range.1 hn)]
  by_cases hty : fi.descriptor.type ≠ filetypeBinary ∨ fi.descriptor.length ≠ fi.data.length
  · rw [C117_put_other o fi ow hty]
    refine ⟨by simp, ⟨fun h => by simp at h, ?_⟩⟩
    rintro ⟨h1, h2, h3, _⟩
    rcases hty with e | e
    · exact absurd h1 e
    · rw [h2, h3] at e; exact absurd rfl e
  rw [not_or, not_not, not_not] at hty
  by_cases hd : fi.data = []
  swap
  · have hr := C37_put_returns_partial hg hlen fi hd ow
    refine ⟨⟨fun h => by rw [hr] at h; simp at h, fun h => by rw [h] at hr; simp at hr⟩, fun h => by rw [h] at hr; simp at hr, ?_⟩
    rintro ⟨_, _, h, _⟩
    exact absurd h hd
  have hfi : o.putFile fi ow = o.putFile ⟨{ name := fi.descriptor.name, length := ([] : Bytes).length, type := filetypeBinary }, [], 0⟩ ow := by
    unfold Operator.putFile
    simp only [hty.1, hty.2, hd]
  rw [hfi]
  have hto : (o.putFile ⟨{ name := fi.descriptor.name, length := ([] : Bytes).length, type := filetypeBinary }, [], 0⟩ ow).out ≠ .timeout := by
    rw [ne_eq, putFile_reaches hg (by simp)]
    rintro ⟨f, sym, nf, _, hf, _, _, h⟩
    exact putNumbered_empty_timeout hg hlen hf h
  refine ⟨?_, ?_⟩
  · cases e : (o.putFile ⟨{ name := fi.descriptor.name, length := ([] : Bytes).length, type := filetypeBinary }, [], 0⟩ ow).out with
    | ok _ => simp
    | err _ => simp
    | panic => simp
    | timeout => exact absurd e hto
  rw [putFile_reaches hg (by simp)]
  have hl0 : fi.descriptor.length = 0 := by rw [hty.2, hd]; rfl
  have hroom : ∀ g, 0 < roomFor o.data g ↔ ownedBy (own o.sm) g ≠ [] ∨ ownedBy (own o.sm) 0xFF ≠ [] := by
    intro g
    unfold roomFor
    rw [hown, hown, ← List.length_pos_iff, ← List.length_pos_iff]
    omega
  constructor
  · rintro ⟨f, sym, nf, h1, h2, h3, h4, h5⟩
    have h6 := (putNumbered_empty hg ho hlen h2 h3).2.1 h5
    refine ⟨hty.1, hl0, hd, f, sym, ⟨h1, fun e => ⟨?_, h3⟩⟩, ?_, (hroom f).2 h6.2⟩
    · obtain ⟨st, e1, _⟩ := h4 e
      rw [e1]; simp
    · rw [fileOnDisk_nil hg]; exact h6.1
  · rintro ⟨_, _, _, f, sym, ⟨h1, h2⟩, h3, h4⟩
    have hsym : Storable sym := by
      by_cases e : sym = []
      · exact Or.inl e
      · exact (h2 e).2
    have hf : IsFileNumber f := putMeans_file h1
    rw [fileOnDisk_nil hg] at h3
    have h5 := fun nf => (putNumbered_empty (nf := nf) hg ho hlen hf hsym).2.2 ⟨h3, (hroom f).1 h4⟩
    by_cases e : ∃ st, o.st = some st ∧ StandsFor st sym f
    · obtain ⟨st, e1, e2⟩ := e
      exact ⟨f, sym, f, h1, hf, hsym, fun _ => ⟨st, e1, by simp [e2]⟩, h5 f⟩
    · refine ⟨f, sym, 0, h1, hf, hsym, fun k => ?_, h5 0⟩
      obtain ⟨st, hst⟩ := Option.ne_none_iff_exists'.1 (h2 k).1
      exact ⟨st, hst, fun h0 => absurd h0.symm hf.1, fun h0 => absurd ⟨st, hst, h0⟩ e⟩

/-! ## GetFile and Delete -/

/-- C117, NakedOS GetFile, exactly: it succeeds if the name is that of a file which is there; the error says that the file is not found
exactly if the name is that of no file number; and for a file number without a file the error is an ordinary one. -/
theorem C117_get_exact {img : Bytes} {o : Operator} (hl : img.length = 143360) (ho : openOperator img = .ok o) (name : Str) :
    ((∃ fi, o.getFile name = .ok fi) ↔ ∃ f, NameOf o.table name f ∧ fileOnDisk img f ≠ []) ∧
    (o.getFile name = .err .fileNotFound ↔ ∀ f, ¬ NameOf o.table name f) ∧
    (o.getFile name = .err .other ↔ ∃ f, NameOf o.table name f ∧ fileOnDisk img f = []) := by
  obtain ⟨hg, hdata⟩ := open_good hl ho
  rcases fileForName_cases o.table name with ⟨f, hn⟩ | hn
  · have h1 := (nameOf_iff f).1 hn
    have hu : ∀ g, NameOf o.table name g → g = f := by
      intro g h
      rw [← nameOf_iff, hn] at h
      cases h; rfl
    have e := getFile_eq hg.len hn
    rw [hg.onDisk, hdata] at e
    rw [e]
    by_cases h0 : fileOnDisk img f = []
    · rw [if_pos h0]
      refine ⟨⟨fun h => by simp at h, ?_⟩, ⟨fun h => by simp at h, fun h => absurd h1 (h f)⟩, fun _ => ⟨f, h1, h0⟩, fun _ => rfl⟩
      rintro ⟨g, h2, h3⟩
      rw [hu g h2] at h3
      exact absurd h0 h3
    · rw [if_neg h0]
      refine ⟨⟨fun _ => ⟨f, h1, h0⟩, fun _ => ⟨_, rfl⟩⟩, ⟨fun h => by simp at h, fun h => absurd h1 (h f)⟩, fun h => by simp at h, ?_⟩
      rintro ⟨g, h2, h3⟩
      rw [hu g h2] at h3
      exact absurd h3 h0
  · have hno : ∀ f, ¬ NameOf o.table name f := by
      intro f h
      rw [← nameOf_iff, hn] at h
      simp at h
    have e : o.getFile name = .err .fileNotFound := by unfold Operator.getFile; rw [hn]; rfl
    rw [e]
    refine ⟨⟨fun h => by simp at h, ?_⟩, ⟨fun _ => hno, fun _ => rfl⟩, fun h => by simp at h, ?_⟩
    · rintro ⟨f, h, _⟩; exact absurd h (hno f)
    · rintro ⟨f, h, _⟩; exact absurd h (hno f)

/-- C117, NakedOS Delete, exactly: the error says that the file is not found exactly if the name is that of no file number; the other
errors are ordinary ones. -/
theorem C117_delete_partial {img : Bytes} {o : Operator} (hl : img.length = 143360) (ho : openOperator img = .ok o) (name : Str) :
    ((o.delete name).out = .err .fileNotFound ↔ ∀ f, ¬ NameOf o.table name f) ∧
    ((o.delete name).out = .err .other ↔ ∃ f, HalfRemoved o.table name f) ∧
    ((o.delete name).out = .ok () ∨ (o.delete name).out = .err .fileNotFound ∨ (o.delete name).out = .err .other) := by
  obtain ⟨hg, hdata⟩ := open_good hl ho
  rcases fileForName_cases o.table name with ⟨f, hn⟩ | hn
  · have h1 := (nameOf_iff f).1 hn
    obtain ⟨hp, hk⟩ := keep_delete hg (fileForName_file hn)
    have hkind : ∀ k, (o.delete name).out = .err k → k = .other := by
      intro k h
      unfold Operator.delete at h
      rw [hn] at h
      simp only [hp] at h
      split at h
      · split at h
        · exact writeSymbolTable_other h
        · simp at h
      · simp at h
    have hiff := delete_iff hg (by rw [hdata]; exact ho) (opened_length hl ho) (name := name)
    have hhalf : (o.delete name).out ≠ .ok () ↔ ∃ f, HalfRemoved o.table name f := by
      rw [Ne, hiff]
      constructor
      · intro h
        by_contra hc
        refine h ⟨f, h1, fun b s a h2 e he => ?_⟩
        by_contra h3
        exact hc ⟨f, h1, b, s, a, h2, e, he, h3⟩
      · rintro ⟨_, _, b, s, a, h2, e, he, h3⟩ ⟨_, _, h4⟩
        exact h3 (h4 b s a h2 e he)
    have hcase : (o.delete name).out = .ok () ∨ (o.delete name).out = .err .other := by
      by_cases h : (o.delete name).out = .ok ()
      · exact Or.inl h
      · obtain ⟨⟨k, h2⟩, _⟩ := C116_delete_exact hl ho name h
        rw [hkind k h2] at h2
        exact Or.inr h2
    refine ⟨⟨fun h => ?_, fun h => absurd h1 (h f)⟩, ⟨fun h => hhalf.1 (by rw [h]; simp), fun h => ?_⟩, hcase.imp_right Or.inr⟩
    · have := hkind _ h; simp at this
    · exact hcase.resolve_left (hhalf.2 h)
  · have hno : ∀ f, ¬ NameOf o.table name f := by
      intro f h
      rw [← nameOf_iff, hn] at h
      simp at h
    rw [op_delete_err hn]
    refine ⟨⟨fun _ => hno, fun _ => rfl⟩, ⟨fun h => by simp at h, ?_⟩, Or.inr (Or.inl rfl)⟩
    rintro ⟨f, h, _⟩
    exact absurd h (hno f)

end Verif.Supermon

namespace Verif.Dos3
open Disk Spec

theorem readSector_other {img : Bytes} {t s : UInt8} {k : ErrKind} (h : readSector img t s = .err k) : k = .other := by
  unfold readSector at h
  simp only at h
  split at h
  · simp only [Out.err.injEq] at h; exact h.symm
  · simp at h

theorem catalogLoop_other (img : Bytes) (a b : UInt8) : ∀ (n : Nat) (t s : UInt8) (seen : List TrackSector) (l : List CatalogSector) (k : ErrKind),
    catalogLoop img a b n t s seen l = .err k → k = .other := by
  intro n
  induction n with
  | zero => intro t s seen l k h; simp [catalogLoop] at h
  | succ n ih =>
    intro t s seen l k h
    unfold catalogLoop at h
    split at h
    · split at h
      · simp only [Out.err.injEq] at h; exact h.symm
      split at h
      · simp only [Out.err.injEq] at h; exact h.symm
      split at h
      · simp only [Out.err.injEq] at h; exact h.symm
      cases e : unmarshalCatalogSector img t s with
      | ok cs => rw [e] at h; exact ih _ _ _ _ _ h
      | err k' =>
        rw [e] at h
        simp only [Out.err.injEq] at h
        rw [← h]
        unfold unmarshalCatalogSector at e
        cases e1 : readSector img t s with
        | ok x =>
          rw [e1] at e
          simp only [Out.bind_ok] at e
          cases e2 : CatalogSector.fromSector {} x with
          | ok y => rw [e2] at e; simp at e
          | err k2 =>
            rw [e2] at e
            simp at e
            rw [← e]
            unfold CatalogSector.fromSector at e2
            split at e2
            · simp only [Out.err.injEq] at e2; exact e2.symm
            · simp at e2
          | panic => rw [e2] at e; simp at e
          | timeout => rw [e2] at e; simp at e
        | err k2 => rw [e1] at e; simp at e; rw [← e]; exact readSector_other e1
        | panic => rw [e1] at e; simp at e
        | timeout => rw [e1] at e; simp at e
      | panic => rw [e] at h; simp at h
      | timeout => rw [e] at h; simp at h
    · simp at h

theorem readCatalog_other {img : Bytes} {k : ErrKind} (h : readCatalog img = .err k) : k = .other := by
  unfold readCatalog readCatalogFuel readCatalogSectors at h
  cases e : unmarshalVTOC img vtocTrack vtocSector with
  | ok v =>
    rw [e] at h
    simp only [Out.bind_ok] at h
    cases e1 : v.validate with
    | ok u =>
      rw [e1] at h
      simp only at h
      cases e2 : catalogLoop img v.numTracks v.numSectors 561 v.catalogTrack v.catalogSector [] [] with
      | ok l => rw [e2] at h; simp at h
      | err k2 => rw [e2] at h; simp at h; rw [← h]; exact catalogLoop_other _ _ _ _ _ _ _ _ _ e2
      | panic => rw [e2] at h; simp at h
      | timeout => rw [e2] at h; simp at h
    | err k' => rw [e1] at h; simp at h; exact h.symm
    | panic => rw [e1] at h; simp at h
    | timeout => rw [e1] at h; simp at h
  | err k' =>
    rw [e] at h
    simp at h
    rw [← h]
    unfold unmarshalVTOC at e
    cases e1 : readSector img vtocTrack vtocSector with
    | ok x =>
      rw [e1] at e
      simp only [Out.bind_ok] at e
      cases e2 : VTOC.fromSector {} x with
      | ok y => rw [e2] at e; simp at e
      | err k2 =>
        rw [e2] at e
        simp at e
        rw [← e]
        unfold VTOC.fromSector at e2
        split at e2
        · simp only [Out.err.injEq] at e2; exact e2.symm
        · simp at e2
      | panic => rw [e2] at e; simp at e
      | timeout => rw [e2] at e; simp at e
    | err k2 => rw [e1] at e; simp at e; rw [← e]; exact readSector_other e1
    | panic => rw [e1] at e; simp at e
    | timeout => rw [e1] at e; simp at e
  | panic => rw [e] at h; simp at h
  | timeout => rw [e] at h; simp at h

theorem tslLoop_other (img : Bytes) : ∀ (n : Nat) (t s : UInt8) (seen : List TrackSector) (l : List TrackSectorList) (k : ErrKind),
    tslLoop img n t s seen l = .err k → k = .other := by
  intro n
  induction n with
  | zero => intro t s seen l k h; simp [tslLoop] at h
  | succ n ih =>
    intro t s seen l k h
    unfold tslLoop at h
    split at h
    · split at h
      · simp only [Out.err.injEq] at h; exact h.symm
      cases e : unmarshalTSL img t s with
      | ok cs => rw [e] at h; exact ih _ _ _ _ _ h
      | err k' =>
        rw [e] at h
        simp only [Out.err.injEq] at h
        rw [← h]
        unfold unmarshalTSL at e
        cases e1 : readSector img t s with
        | ok x =>
          rw [e1] at e
          simp only [Out.bind_ok] at e
          cases e2 : TrackSectorList.fromSector {} x with
          | ok y => rw [e2] at e; simp at e
          | err k2 =>
            rw [e2] at e
            simp at e
            rw [← e]
            unfold TrackSectorList.fromSector at e2
            split at e2
            · simp only [Out.err.injEq] at e2; exact e2.symm
            · simp at e2
          | panic => rw [e2] at e; simp at e
          | timeout => rw [e2] at e; simp at e
        | err k2 => rw [e1] at e; simp at e; rw [← e]; exact readSector_other e1
        | panic => rw [e1] at e; simp at e
        | timeout => rw [e1] at e; simp at e
      | panic => rw [e] at h; simp at h
      | timeout => rw [e] at h; simp at h
    · simp at h

theorem appendSectors_other (img : Bytes) : ∀ (l : List TrackSector) (d : Bytes) (k : ErrKind), appendSectors img l d = .err k → k = .other := by
  intro l
  induction l with
  | nil => intro d k h; simp [appendSectors] at h
  | cons ts l ih =>
    intro d k h
    unfold appendSectors at h
    split at h
    · exact ih _ _ h
    · cases e : readSector img ts.track ts.sector with
      | ok x => rw [e] at h; exact ih _ _ h
      | err k' => rw [e] at h; simp only [Out.err.injEq] at h; rw [← h]; exact readSector_other e
      | panic => rw [e] at h; simp at h
      | timeout => rw [e] at h; simp at h

theorem appendLists_other (img : Bytes) : ∀ (l : List TrackSectorList) (d : Bytes) (k : ErrKind), appendLists img l d = .err k → k = .other := by
  intro l
  induction l with
  | nil => intro d k h; simp [appendLists] at h
  | cons t l ih =>
    intro d k h
    unfold appendLists at h
    simp only at h
    generalize (if l = [] then lastEntry t.trackSectors.toList 121 0 else 121) = m at h
    cases e : appendSectors img (t.trackSectors.toList.take (m + 1)) d with
    | ok x => rw [e] at h; exact ih _ _ h
    | err k' => rw [e] at h; simp only [Out.err.injEq] at h; rw [← h]; exact appendSectors_other _ _ _ _ e
    | panic => rw [e] at h; simp at h
    | timeout => rw [e] at h; simp at h

/-- The errors of a sequence of two steps are those of the steps. -/
theorem bind_other {α β : Type} {x : Out α} {f : α → Out β} {k : ErrKind} (h : (x >>= f) = .err k) (hx : ∀ k, x = .err k → k = .other)
    (hf : ∀ a k, x = .ok a → f a = .err k → k = .other) : k = .other := by
  cases x with
  | ok a => exact hf a k rfl h
  | err k' => exact hx k (by simpa using h)
  | panic => cases h
  | timeout => cases h

theorem sized_no_err {s : Slice} {k : ErrKind} : Operator.sized s ≠ .err k := by
  unfold Operator.sized Operator.reslice
  intro h
  split at h
  · simp only at h
    split at h
    · simp at h
    · rename_i e
      split at e <;> simp at e
    · simp at h
    · simp at h
  · simp at h

/-- C117 fails for DOS 3.3: whatever the reason, the errors of all operations are ordinary ones. -/
theorem C117_dos_exact (o : Operator) (k : ErrKind) :
    (∀ subdir, o.catalog subdir = .err k → k = .other) ∧ (∀ name, o.getFile name = .err k → k = .other) ∧
    (∀ name, o.delete name = .err .other) ∧ ∀ fi ow, o.putFile fi ow = .err .other := by
  refine ⟨fun subdir h => ?_, fun name h => ?_, fun _ => rfl, fun _ _ => rfl⟩
  · unfold Operator.catalog at h
    exact bind_other h (fun _ => readCatalog_other) fun a k _ h => by simp at h
  · unfold Operator.getFile at h
    refine bind_other h (fun k h => ?_) fun fd k _ h => ?_
    · unfold Operator.fileForFilename at h
      refine bind_other h (fun _ => readCatalog_other) fun a k _ h => ?_
      simp only at h
      split at h
      · simp at h
      · simp only [Out.err.injEq] at h; exact h.symm
    · simp only at h
      refine bind_other h (fun k h => ?_) fun s k _ h => ?_
      · unfold contents contentsFuel at h
        refine bind_other h (fun k h => tslLoop_other _ _ _ _ _ _ _ h) fun l k _ h => ?_
        refine bind_other h (fun k h => appendLists_other _ _ _ _ h) fun d k _ h => ?_
        simp at h
      · split at h
        · refine bind_other h (fun k h => ?_) fun d k _ h => by simp at h
          unfold Operator.trimZeros at h
          split at h <;> simp at h
        · split at h
          · refine bind_other h (fun k h => ?_) fun d k _ h => ?_
            · split at h
              · split at h <;> simp at h
              · simp at h
            · exact bind_other h (fun k h => absurd h sized_no_err) fun d k _ h => by simp at h
          · simp only [Out.err.injEq] at h; exact h.symm

/-- C117 fails for DOS 3.3: the error for a file that is not in the catalog is an ordinary one, on every disk whose catalog can be read. -/
theorem C117_violated_dos {o : Operator} {fds deleted : List FileDesc} (h : readCatalog o.data = .ok (fds, deleted)) {name : Str}
    (hno : ∀ fd ∈ fds, fd.filenameString ≠ name) : o.getFile name = .err .other := by
  unfold Operator.getFile Operator.fileForFilename
  rw [h]
  simp only [Out.bind_ok]
  rw [List.find?_eq_none.2 (by intro fd hfd; simpa using hno fd hfd)]
  rfl

end Verif.Dos3
