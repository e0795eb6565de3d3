import Verif.Proofs.SupermonName

/-!
# C26-C29, C34, C36, C37, C39: the NakedOS operator over histories, names and catalog
-/

set_option autoImplicit false

namespace Verif.Supermon
open Disk Spec

/-! ## What each call can change -/

theorem keep_op_delete {o : Operator} (h : Good o.sm o.data) {name : Str} {f : UInt8}
    (hn : fileForName o.table name = .ok f) :
    Keep (fun g => g = f ∨ g = 3 ∨ g = 4) o.sm o.data (o.delete name).op.sm (o.delete name).op.data := by
  have hf := fileForName_file hn
  obtain ⟨hp, hk⟩ := keep_delete h hf
  unfold Operator.delete
  rw [hn]
  simp only [hp]
  split
  · split
    · exact hk.trans (keep_writeSymbolTable hk.good _)
    · exact hk.mono (fun g hg => Or.inl hg)
  · exact hk.mono (fun g hg => Or.inl hg)

theorem op_delete_err {o : Operator} {name : Str} {k : ErrKind}
    (hn : fileForName o.table name = .err k) : o.delete name = ⟨false, .err k, o⟩ := by
  unfold Operator.delete
  rw [hn]

theorem keep_putNumbered {o : Operator} (h : Good o.sm o.data) {f nf : UInt8} {sym : Str}
    {data : Bytes} {ow : Bool} (hf : IsFileNumber f)
    (hp : (writeFile o.sm o.data f data ow).out ≠ .panic) :
    Keep (fun g => g = f ∨ g = 3 ∨ g = 4) o.sm o.data (o.putNumbered f nf sym data ow).op.sm
      (o.putNumbered f nf sym data ow).op.data := by
  have hk := keep_writeFile h hf hp
  have hk' : Keep (fun g => g = f ∨ g = 3 ∨ g = 4) o.sm o.data (writeFile o.sm o.data f data ow).sm
    (writeFile o.sm o.data f data ow).img := hk.mono (fun g hg => Or.inl hg)
  unfold Operator.putNumbered
  simp only
  split
  · split
    · split
      · split
        · exact hk.trans (keep_writeSymbolTable hk.good _)
        · exact hk'
      · exact hk'
    · exact hk'
  · exact hk'

theorem putNumbered_panic {o : Operator} {f nf : UInt8} {sym : Str} {data : Bytes} {ow : Bool}
    (hp : (writeFile o.sm o.data f data ow).out = .panic) :
    (o.putNumbered f nf sym data ow).out = .panic := by
  unfold Operator.putNumbered
  simp only [hp]

/-- The file number a put goes to, once the name and type checks are passed. -/
theorem putFile_cases (o : Operator) (fi : FileInfo) (ow : Bool) :
    (∃ k, o.putFile fi ow = ⟨false, .err k, o⟩) ∨
    ∃ f nf sym, IsFileNumber f ∧ o.putFile fi ow = o.putNumbered f nf sym fi.data ow ∧
      (sym ≠ [] → o.st ≠ none ∧ (encodeSymbol sym).isErr = false) := by
  unfold Operator.putFile
  split
  · exact Or.inl ⟨_, rfl⟩
  · split
    · exact Or.inl ⟨_, rfl⟩
    · rcases filesForCompoundName_cases o.table fi.descriptor.name with ⟨⟨n, m, sym⟩, hc⟩ | hc
      · rw [hc]
        simp only
        split
        · exact Or.inl ⟨_, rfl⟩
        · rename_i h1
          split
          · exact Or.inl ⟨_, rfl⟩
          · rename_i h2
            have hsym : sym ≠ [] → o.st ≠ none ∧ (encodeSymbol sym).isErr = false := by
              intro hs
              exact ⟨fun e => h1 ⟨hs, e⟩, by
                cases he : (encodeSymbol sym).isErr
                · rfl
                · exact absurd ⟨hs, he⟩ h2⟩
            by_cases hn : n = 0
            · rw [if_pos hn]
              by_cases h0 : firstFreeFile o.sm = 0
              · rw [if_pos h0]; exact Or.inl ⟨_, rfl⟩
              · rw [if_neg h0]
                exact Or.inr ⟨_, m, sym, firstFreeFile_file h0, rfl, hsym⟩
            · rw [if_neg hn, if_neg hn]
              exact Or.inr ⟨_, m, sym, filesForCompoundName_file hc hn, rfl, hsym⟩
      · rw [hc]; exact Or.inl ⟨_, rfl⟩

theorem keep_op_put {o : Operator} (h : Good o.sm o.data) {fi : FileInfo} {ow : Bool}
    (hp : (o.putFile fi ow).out ≠ .panic) :
    ∃ f, Keep (fun g => g = f ∨ g = 3 ∨ g = 4) o.sm o.data (o.putFile fi ow).op.sm
      (o.putFile fi ow).op.data := by
  rcases putFile_cases o fi ow with ⟨k, e⟩ | ⟨f, nf, sym, hf, e, _⟩
  · rw [e]; exact ⟨0, Keep.refl h⟩
  · rw [e] at hp ⊢
    exact ⟨f, keep_putNumbered h hf (fun hc => hp (putNumbered_panic hc))⟩

theorem good_op_delete {o : Operator} (h : Good o.sm o.data) (name : Str) :
    Good (o.delete name).op.sm (o.delete name).op.data ∧
      ∀ i, i < 0x9D0 → (o.delete name).op.data[i]? = o.data[i]? := by
  rcases fileForName_cases o.table name with ⟨f, hn⟩ | hn
  · exact ⟨(keep_op_delete h hn).good, (keep_op_delete h hn).sys⟩
  · rw [op_delete_err hn]; exact ⟨h, fun _ _ => rfl⟩

theorem open_good {img : Bytes} {o : Operator} (hi : img.length = 143360)
    (h : openOperator img = .ok o) : Good o.sm o.data ∧ o.data = img := by
  unfold openOperator at h
  obtain ⟨sm, hs, h⟩ := Out.bind_eq_ok.1 h
  obtain ⟨u, hv, h⟩ := Out.bind_eq_ok.1 h
  have hlegal := (verify_ok_iff sm).1 hv
  split at h <;> simp at h <;> subst h <;> exact ⟨⟨hi, hlegal, hs⟩, rfl⟩

/-! ## C26 -/

/-- C26: on an opened disk, after every Delete and every PutFile that returns, the map loaded
from the image bytes is exactly the map in memory. -/
theorem C26_operator_persisted {o : Operator} (hi : o.data.length = 143360)
    (hm : LegalMap (own o.sm)) (hl : loadSectorMap o.data = .ok o.sm) :
    (∀ name, loadSectorMap (o.delete name).op.data = .ok (o.delete name).op.sm) ∧
    (∀ fi ow, (o.putFile fi ow).out ≠ .panic →
      loadSectorMap (o.putFile fi ow).op.data = .ok (o.putFile fi ow).op.sm) := by
  have h : Good o.sm o.data := ⟨hi, hm, hl⟩
  refine ⟨fun name => (good_op_delete h name).1.loaded, fun fi ow hp => ?_⟩
  obtain ⟨f, hk⟩ := keep_op_put h hp
  exact hk.good.loaded

/-! ## C27 -/

/-- States of an operator after some finite history of calls that returned (GetFile and Catalog
do not change the operator). -/
inductive Reach : Operator → Operator → Prop
  | refl (o : Operator) : Reach o o
  | put {o o' : Operator} (fi : FileInfo) (ow : Bool) : Reach o o' →
      (o'.putFile fi ow).out ≠ .panic → Reach o (o'.putFile fi ow).op
  | delete {o o' : Operator} (name : Str) : Reach o o' → Reach o (o'.delete name).op

theorem reach_good {o o' : Operator} (h : Reach o o') (hg : Good o.sm o.data) :
    Good o'.sm o'.data ∧ ∀ i, i < 0x9D0 → o'.data[i]? = o.data[i]? := by
  induction h with
  | refl => exact ⟨hg, fun _ _ => rfl⟩
  | put fi ow _ hp ih =>
    obtain ⟨f, hk⟩ := keep_op_put ih.1 hp
    exact ⟨hk.good, fun i hi => (hk.sys i hi).trans (ih.2 i hi)⟩
  | delete name _ ih =>
    have := good_op_delete ih.1 name
    exact ⟨this.1, fun i hi => (this.2 i hi).trans (ih.2 i hi)⟩

theorem good_nakedOS {sm : SectorMap} {img : Bytes} (h : Good sm img) : NakedOS img := by
  refine ⟨h.len, ?_⟩
  have e := (loaded_iff (by have := h.len; omega) sm).1 h.loaded
  refine ⟨fun n hn => ?_, fun n hn => ?_⟩
  · rw [← e n (by omega)]; exact h.legal.1 n hn
  · rw [← e n hn]; exact h.legal.2 n hn

/-- C27: over every history on an opened floppy image the disk stays a NakedOS disk - both the map
in memory and the one on the image stay legal - and the system bytes (track 0 sectors 0-8 and
sector 9 below the map) never change. -/
theorem C27_history_invariant {img : Bytes} {o o' : Operator} (hi : img.length = 143360)
    (ho : openOperator img = .ok o) (h : Reach o o') :
    NakedOS o'.data ∧ LegalMap (own o'.sm) ∧ verify o'.sm = .ok () ∧
    (∀ n, n < 560 → own o'.sm n = owner o'.data n) ∧
    (∀ i, i < 0x9D0 → o'.data[i]? = img[i]?) := by
  obtain ⟨hg, rfl⟩ := open_good hi ho
  obtain ⟨h1, h2⟩ := reach_good h hg
  exact ⟨good_nakedOS h1, h1.legal, (verify_ok_iff _).2 h1.legal,
    (loaded_iff (by have := h1.len; omega) _).1 h1.loaded, h2⟩

theorem freshMap_fileBytes {f : UInt8} (hf : IsFileNumber f) (img : Bytes) :
    fileBytes (own freshMap) img f = [] := by
  unfold fileBytes
  rw [freshMap_file hf]; rfl

theorem freshImg_open : openOperator freshImg = .ok ⟨freshImg, freshMap, none⟩ := by
  unfold openOperator
  rw [freshImg_load, Out.bind_ok, (verify_ok_iff _).2 freshMap_legal, Out.bind_ok]
  unfold readSymbolTable
  rw [readFile_eq freshImg_length, freshMap_fileBytes isFile3]
  simp

/-- A put that succeeds on the fresh disk. -/
theorem fresh_put (f : UInt8) (hf : IsFileNumber f) :
    ((⟨freshImg, freshMap, none⟩ : Operator).putFile
      ⟨{ name := dfName f, length := 3, type := filetypeBinary }, [1, 2, 3], 0⟩ false).out = .ok () := by
  unfold Operator.putFile
  rw [if_neg (by simp), if_neg (by simp)]
  rw [filesForCompoundName_dfName hf]
  simp only [ne_eq, not_true_eq_false, false_and, if_false, hf.1]
  unfold Operator.putNumbered
  simp only [ne_eq, not_true_eq_false, and_false, if_false]
  rw [writeFile_ok freshImg_length hf (by simp) (fresh_fits _ (by simp)) (Or.inr (freshMap_file hf))]

/-! ## GetFile -/

theorem getFile_eq {o : Operator} (hi : o.data.length = 143360) {name : Str} {f : UInt8}
    (hn : fileForName o.table name = .ok f) :
    o.getFile name =
      if fileBytes (own o.sm) o.data f = [] then .err .other
      else .ok (FileInfo.mk
        { name := nameForFile f o.table
          sectors := (fileBytes (own o.sm) o.data f).length / 256
          length := (fileBytes (own o.sm) o.data f).length
          locked := false
          type := filetypeBinary }
        (fileBytes (own o.sm) o.data f)
        (if f = 1 then 0x1800 else 0)) := by
  unfold Operator.getFile
  rw [hn, Out.bind_ok, readFile_eq hi]
  simp only [List.length_eq_zero_iff]

theorem ownedBy_congr {m m' : Nat → UInt8} (f : UInt8) (h : ∀ n, n < 560 → m n = m' n) :
    ownedBy m f = ownedBy m' f := by
  unfold ownedBy
  apply List.filter_congr
  intro n hn
  rw [h n (List.mem_range.1 hn)]

theorem Good.onDisk {sm : SectorMap} {img : Bytes} (h : Good sm img) (f : UInt8) :
    fileBytes (own sm) img f = fileOnDisk img f :=
  fileBytes_congr img f ((loaded_iff (by have := h.len; omega) sm).1 h.loaded)

/-! ## C28 -/

/-- Calls by DFxx name. -/
inductive DfOp where
  | put (f : UInt8) (data : Bytes) (overwrite : Bool)
  | delete (f : UInt8)
  | get (f : UInt8)

/-- The `FileInfo` the put command builds for a DFxx name (any start address). -/
def dfInfo (f : UInt8) (data : Bytes) : FileInfo :=
  ⟨{ name := dfName f, length := data.length, type := filetypeBinary }, data, 0⟩

/-- The state after one call, and whether it succeeded. -/
def DfOp.run (o : Operator) : DfOp → Operator × Bool
  | .put f data ow => ((o.putFile (dfInfo f data) ow).op, (o.putFile (dfInfo f data) ow).out.isOk)
  | .delete f => ((o.delete (dfName f)).op, (o.delete (dfName f)).out.isOk)
  | .get f => (o, (o.getFile (dfName f)).isOk)

/-- Specification: contents by file number after one call; `[]` means "no such file".
Only a successful put and any delete have an effect, and only on their own file. -/
def DfOp.expect (σ : UInt8 → Bytes) (succeeded : Bool) : DfOp → UInt8 → Bytes
  | .put f data _ => fun g => if g = f ∧ succeeded = true then padded data else σ g
  | .delete f => fun g => if g = f then [] else σ g
  | .get _ => σ

/-- A whole history: the real operator and the specification side by side. -/
def runHist : Operator → (UInt8 → Bytes) → List DfOp → Operator × (UInt8 → Bytes)
  | o, σ, [] => (o, σ)
  | o, σ, op :: rest => runHist (op.run o).1 (op.expect σ (op.run o).2) rest

/-- Legal file numbers, and puts of non-empty data (empty data can crash, see C37). -/
def DfOp.Ok : DfOp → Prop
  | .put f data _ => IsFileNumber f ∧ data ≠ []
  | .delete f => IsFileNumber f
  | .get f => IsFileNumber f

theorem putFile_df (o : Operator) {f : UInt8} (hf : IsFileNumber f) (data : Bytes) (ow : Bool) :
    o.putFile (dfInfo f data) ow =
      ⟨(writeFile o.sm o.data f data ow).existed, (writeFile o.sm o.data f data ow).out,
        ⟨(writeFile o.sm o.data f data ow).img, (writeFile o.sm o.data f data ow).sm, o.st⟩⟩ := by
  unfold Operator.putFile dfInfo
  rw [if_neg (by simp), if_neg (by simp)]
  rw [filesForCompoundName_dfName hf]
  simp only [ne_eq, not_true_eq_false, false_and, if_false, hf.1]
  unfold Operator.putNumbered
  simp only [ne_eq, not_true_eq_false, and_false, if_false]
  split <;> simp_all

example : ∃ o o', openOperator freshImg = .ok o ∧ Reach o o' ∧ ownedBy (own o'.sm) 5 ≠ [] := by
  have hF : IsFileNumber 5 := by unfold IsFileNumber; decide
  refine ⟨_, _, freshImg_open, Reach.put (dfInfo 5 [1, 2, 3]) false (Reach.refl _) ?_, ?_⟩
  · have := fresh_put 5 hF
    rw [show dfInfo 5 [1, 2, 3] = ⟨{ name := dfName 5, length := 3, type := filetypeBinary },
      [1, 2, 3], 0⟩ from rfl, this]; simp
  · rw [putFile_df _ hF]
    rw [writeFile_ok freshImg_length hF (by simp) (fresh_fits _ (by simp)) (Or.inr (freshMap_file hF))]
    rw [ownedBy_newMap_self _ _ (by decide)]
    have := targets_length (sm := freshMap) (f := 5) (c := [1, 2, 3]) (by decide)
      (fresh_fits _ (by simp))
    intro e
    rw [e] at this
    simp at this

/-- No symbol of the table is called like a file number. -/
def NoDfSymbol (st : SymbolTable) : Prop := ∀ s ∈ st, ∀ g, IsFileNumber g → ¬ SameName (dfName g) s.name

theorem deleteSymbol_none {st : SymbolTable} {name : Str}
    (h : ∀ s ∈ st, ¬ SameName name s.name) : deleteSymbol st name = (false, st) := by
  unfold deleteSymbol
  have : findName st name = none := by
    unfold findName
    rw [List.findIdx?_eq_none_iff]
    intro s hs
    have := h s hs
    unfold SameName at this
    simpa [equalFold] using this
  rw [this]

theorem delete_df {o : Operator} (h : Good o.sm o.data) {f : UInt8} (hf : IsFileNumber f) :
    fileBytes (own (o.delete (dfName f)).op.sm) (o.delete (dfName f)).op.data f = [] ∨ f = 3 ∨ f = 4 := by
  by_cases h3 : f = 3 ∨ f = 4
  · exact Or.inr h3
  · left
    obtain ⟨hp, hk⟩ := keep_delete h hf
    have h0 : ∀ d, fileBytes (own (deleteFile o.sm f)) d f = [] := by
      intro d
      unfold fileBytes
      rw [ownedBy_deleteFile_self o.sm hf.2.2]; rfl
    unfold Operator.delete
    rw [fileForName_dfName hf]
    simp only [hp]
    split
    · split
      · rw [(keep_writeSymbolTable hk.good _).bytes f hf h3]; exact h0 _
      · exact h0 _
    · exact h0 _

theorem delete_df_noSymbol {o : Operator} (h : Good o.sm o.data) {f : UInt8} (hf : IsFileNumber f)
    (hs : NoDfSymbol o.table) :
    (o.delete (dfName f)).op = ⟨put o.data 2512 (deleteFile o.sm f).toList, deleteFile o.sm f, o.st⟩ := by
  obtain ⟨hp, hk⟩ := keep_delete h hf
  unfold Operator.delete
  rw [fileForName_dfName hf]
  simp only [hp]
  cases hst : o.st with
  | none => rfl
  | some st =>
    simp only
    have : deleteSymbol st (dfName f) = (false, st) := by
      apply deleteSymbol_none
      intro s hs'
      apply hs s _ f hf
      rw [Operator.table, hst]; exact hs'
    rw [this]

/-- One step of the refinement for one file. -/
theorem df_step {o : Operator} (h : Good o.sm o.data) (op : DfOp) (hop : op.Ok) {g : UInt8}
    (hg : IsFileNumber g) (hside : (g ≠ 3 ∧ g ≠ 4) ∨ NoDfSymbol o.table) (σ : UInt8 → Bytes)
    (hσ : σ g = fileBytes (own o.sm) o.data g) :
    Good (op.run o).1.sm (op.run o).1.data ∧
    ((g ≠ 3 ∧ g ≠ 4) ∨ NoDfSymbol (op.run o).1.table) ∧
    op.expect σ (op.run o).2 g = fileBytes (own (op.run o).1.sm) (op.run o).1.data g := by
  cases op with
  | get f => exact ⟨h, hside, hσ⟩
  | put f data ow =>
    obtain ⟨hf, hd⟩ := hop
    have hr := writeFile_returns (sm := o.sm) ow h.len hf hd
    have hnp : (writeFile o.sm o.data f data ow).out ≠ .panic := by
      intro e; rw [e] at hr; simp at hr
    have hk := keep_writeFile h hf hnp
    simp only [DfOp.run, DfOp.expect, putFile_df o hf data ow]
    refine ⟨hk.good, hside, ?_⟩
    by_cases hgf : g = f
    · subst hgf
      have hc := C25_write_outcome (sm := o.sm) ow h.len hf hd
      by_cases hok : (writeFile o.sm o.data g data ow).out = .ok ()
      · rw [hok]
        simp only [Out.isOk_ok, and_self, if_true]
        have := (C23_write_read h.len h.legal hf hd hok).1
        rw [readFile_eq hk.good.len] at this
        simpa using this.symm
      · have hu := hc.2.2.2.1 hok
        rw [hu.1, hu.2, hσ.symm]
        rw [if_neg]
        rintro ⟨_, hisok⟩
        obtain ⟨u, hu⟩ := Out.isOk_iff.1 hisok
        exact hok hu
    · rw [if_neg (fun hc => hgf hc.1), hσ]
      exact (hk.bytes g hg hgf).symm
  | delete f =>
    have hf : IsFileNumber f := hop
    simp only [DfOp.run, DfOp.expect]
    have hk := keep_op_delete h (fileForName_dfName hf o.table)
    rcases hside with hs | hs
    · refine ⟨hk.good, Or.inl hs, ?_⟩
      by_cases hgf : g = f
      · subst hgf
        rw [if_pos rfl]
        rcases delete_df h hf with e | e
        · exact e.symm
        · rcases e with e | e
          · exact absurd e hs.1
          · exact absurd e hs.2
      · rw [if_neg hgf, hσ]
        refine (hk.bytes g hg ?_).symm
        rintro (e | e | e)
        · exact hgf e
        · exact hs.1 e
        · exact hs.2 e
    · have hkd := (keep_delete h hf).2
      rw [delete_df_noSymbol h hf hs]
      refine ⟨hkd.good, Or.inr hs, ?_⟩
      by_cases hgf : g = f
      · subst hgf
        rw [if_pos rfl]
        unfold fileBytes
        simp only
        rw [ownedBy_deleteFile_self o.sm hf.2.2]; rfl
      · rw [if_neg hgf, hσ]
        exact (hkd.bytes g hg hgf).symm

theorem df_hist {o : Operator} (h : Good o.sm o.data) (hist : List DfOp) (hop : ∀ op ∈ hist, op.Ok)
    {g : UInt8} (hg : IsFileNumber g) (hside : (g ≠ 3 ∧ g ≠ 4) ∨ NoDfSymbol o.table)
    (σ : UInt8 → Bytes) (hσ : σ g = fileBytes (own o.sm) o.data g) :
    Good (runHist o σ hist).1.sm (runHist o σ hist).1.data ∧
    (runHist o σ hist).2 g =
      fileBytes (own (runHist o σ hist).1.sm) (runHist o σ hist).1.data g := by
  induction hist generalizing o σ with
  | nil => exact ⟨h, hσ⟩
  | cons op rest ih =>
    obtain ⟨h1, h2, h3⟩ := df_step h op (hop op (by simp)) hg hside σ hσ
    exact ih h1 (fun p hp => hop p (by simp [hp])) h2 _ h3

/-- C28: after every finite history of puts, deletes and gets by DFxx name on an opened disk, what
GetFile returns for a file number is exactly what the specification says: the zero-padded data of
the last successful put not followed by a delete, or the original contents if untouched, whatever
happened to other files; no file gives an error.

The side condition: a Delete("DFxx") also removes a *symbol* that happens to be called "DFxx",
which rewrites the symbol table files 3 and 4.  So the claim is for all files other than 3 and 4,
and for 3 and 4 too if the disk has no such symbol. -/
theorem C28_history_refinement {img : Bytes} {o : Operator} (hi : img.length = 143360)
    (ho : openOperator img = .ok o) (hist : List DfOp) (hop : ∀ op ∈ hist, op.Ok)
    {g : UInt8} (hg : IsFileNumber g) (hside : (g ≠ 3 ∧ g ≠ 4) ∨ NoDfSymbol o.table) :
    let r := runHist o (fileOnDisk img) hist
    (r.2 g = [] → r.1.getFile (dfName g) = .err .other) ∧
    (r.2 g ≠ [] → ∃ fi, r.1.getFile (dfName g) = .ok fi ∧ fi.data = r.2 g) := by
  intro r
  obtain ⟨hgood, rfl⟩ := open_good hi ho
  obtain ⟨h1, h2⟩ := df_hist hgood hist hop hg hside (fileOnDisk o.data) (hgood.onDisk g).symm
  have e := getFile_eq h1.len (fileForName_dfName hg r.1.table)
  rw [← h2] at e
  refine ⟨fun h0 => ?_, fun h0 => ?_⟩
  · rw [e, if_pos h0]
  · rw [e, if_neg h0]
    exact ⟨_, rfl, rfl⟩

/-- The specification really is "last successful put": after a successful put of `data` to `f`
and any later calls that do not put to or delete `f`, the specified contents are `padded data`. -/
theorem C28_expect_last_put (o : Operator) (σ : UInt8 → Bytes) (f : UInt8) (data : Bytes) (ow : Bool)
    (rest : List DfOp)
    (hput : (DfOp.run o (.put f data ow)).2 = true)
    (hrest : ∀ op ∈ rest, (∀ d w, op ≠ .put f d w) ∧ op ≠ .delete f) :
    (runHist o σ (.put f data ow :: rest)).2 f = padded data := by
  have gen : ∀ (rest : List DfOp) (o : Operator) (σ : UInt8 → Bytes),
      (∀ op ∈ rest, (∀ d w, op ≠ .put f d w) ∧ op ≠ .delete f) → (runHist o σ rest).2 f = σ f := by
    intro rest
    induction rest with
    | nil => intros; rfl
    | cons op rest ih =>
      intro o σ h
      unfold runHist
      rw [ih _ _ (fun p hp => h p (by simp [hp]))]
      have hop := h op (by simp)
      cases op with
      | get g => rfl
      | put g d w =>
        have : f ≠ g := by rintro rfl; exact hop.1 d w rfl
        simp [DfOp.expect, this]
      | delete g =>
        have : f ≠ g := by rintro rfl; exact hop.2 rfl
        simp [DfOp.expect, this]
  unfold runHist
  rw [gen rest _ _ hrest, hput]
  simp [DfOp.expect]

example : ((runHist ⟨freshImg, freshMap, none⟩ (fileOnDisk freshImg)
    [.put 5 [1, 2, 3] false, .get 7, .delete 7]).1.getFile (dfName 5)).isOk = true := by
  have hF : IsFileNumber 5 := by unfold IsFileNumber; decide
  have hF7 : IsFileNumber 7 := by unfold IsFileNumber; decide
  have hput : (DfOp.run ⟨freshImg, freshMap, none⟩ (.put 5 [1, 2, 3] false)).2 = true := by
    have := fresh_put 5 hF
    simp only [DfOp.run]
    show ((⟨freshImg, freshMap, none⟩ : Operator).putFile (dfInfo 5 [1, 2, 3]) false).out.isOk = true
    rw [show dfInfo 5 [1, 2, 3] = ⟨{ name := dfName 5, length := 3, type := filetypeBinary },
      [1, 2, 3], 0⟩ from rfl, this]; rfl
  have h := C28_history_refinement freshImg_length freshImg_open
    [.put 5 [1, 2, 3] false, .get 7, .delete 7]
    (by
      intro op hop
      simp only [List.mem_cons, List.not_mem_nil, or_false] at hop
      rcases hop with rfl | rfl | rfl
      · exact ⟨hF, by simp⟩
      · exact hF7
      · exact hF7) hF (Or.inl ⟨by decide, by decide⟩)
  have h2 := C28_expect_last_put ⟨freshImg, freshMap, none⟩ (fileOnDisk freshImg) 5 [1, 2, 3] false
    [.get 7, .delete 7] hput (by
      intro op hop
      simp only [List.mem_cons, List.not_mem_nil, or_false] at hop
      rcases hop with rfl | rfl <;> simp)
  obtain ⟨fi, hfi, _⟩ := h.2 (by rw [h2]; exact ne_nil_of_length (n := 255) (by rw [padded_length]; rfl))
  rw [hfi]; rfl

/-! ## C29 -/

/-- C29: deleting a name that resolves to file `f` reports whether `f` had sectors.  Then `f` has
no sectors, the sectors of every other file and their contents are unchanged, and nothing else -
except that, when the name is also the name of a symbol, the symbol table files 3 and 4 are
rewritten (so the claim for `f` itself needs `f` not to be 3 or 4 in that case). -/
theorem C29_delete {o : Operator} (h : Good o.sm o.data) {name : Str} {f : UInt8}
    (hn : fileForName o.table name = .ok f) :
    ((o.delete name).existed = true ↔ ownedBy (own o.sm) f ≠ []) ∧
    (((f ≠ 3 ∧ f ≠ 4) ∨ ∀ s ∈ o.table, ¬ SameName name s.name) →
      sectorsForFile (o.delete name).op.sm f = []) ∧
    (∀ g, IsFileNumber g → g ≠ f →
      ((g ≠ 3 ∧ g ≠ 4) ∨ ∀ s ∈ o.table, ¬ SameName name s.name) →
      sectorsForFile (o.delete name).op.sm g = sectorsForFile o.sm g ∧
      readFile (o.delete name).op.sm (o.delete name).op.data g = readFile o.sm o.data g) := by
  have hf := fileForName_file hn
  have hk := keep_op_delete h hn
  obtain ⟨hp, hkd⟩ := keep_delete h hf
  have hns : (∀ s ∈ o.table, ¬ SameName name s.name) →
      (o.delete name).op = ⟨put o.data 2512 (deleteFile o.sm f).toList, deleteFile o.sm f, o.st⟩ := by
    intro hs
    unfold Operator.delete
    rw [hn]
    simp only [hp]
    cases hst : o.st with
    | none => rfl
    | some st =>
      simp only
      rw [deleteSymbol_none (st := st) (name := name)
        (fun s hs' => hs s (by rw [Operator.table, hst]; exact hs'))]
  refine ⟨?_, ?_, ?_⟩
  · have : (o.delete name).existed = decide ((sectorsForFile o.sm f).length > 0) := by
      unfold Operator.delete
      rw [hn]
      simp only [hp]
      split
      · split <;> rfl
      · rfl
    rw [this, sectorsForFile_eq, List.length_map]
    simp [List.length_pos_iff]
  · rintro (hs | hs)
    · have e : ownedBy (own (o.delete name).op.sm) f = [] := by
        unfold Operator.delete
        rw [hn]
        simp only [hp]
        split
        · split
          · rw [(keep_writeSymbolTable hkd.good _).sect f hf (by rintro (e | e); exact hs.1 e; exact hs.2 e)]
            exact ownedBy_deleteFile_self o.sm hf.2.2
          · exact ownedBy_deleteFile_self o.sm hf.2.2
        · exact ownedBy_deleteFile_self o.sm hf.2.2
      rw [sectorsForFile_eq, e]; rfl
    · rw [hns hs, sectorsForFile_eq, ownedBy_deleteFile_self o.sm hf.2.2]; rfl
  · intro g hg hne hs
    rcases hs with hs | hs
    · have hT : ¬ (g = f ∨ g = 3 ∨ g = 4) := by
        rintro (e | e | e)
        · exact hne e
        · exact hs.1 e
        · exact hs.2 e
      rw [sectorsForFile_eq, sectorsForFile_eq, hk.sect g hg hT, readFile_eq hk.good.len,
        readFile_eq h.len, hk.bytes g hg hT]
      exact ⟨rfl, rfl⟩
    · rw [hns hs, sectorsForFile_eq, sectorsForFile_eq, hkd.sect g hg hne,
        readFile_eq hkd.good.len, readFile_eq h.len, hkd.bytes g hg hne]
      exact ⟨rfl, rfl⟩

/-- C29: when the deleted name is not the name of a symbol, every former sector of the file is
free afterwards, the free count grows by exactly the file's size, and no data sector of the image
is touched at all. -/
theorem C29_delete_frees {o : Operator} (h : Good o.sm o.data) {name : Str} {f : UInt8}
    (hn : fileForName o.table name = .ok f) (hs : ∀ s ∈ o.table, ¬ SameName name s.name) :
    (∀ n, n ∈ ownedBy (own o.sm) f → own (o.delete name).op.sm n = 0xFF) ∧
    freeSectors (o.delete name).op.sm = freeSectors o.sm + (ownedBy (own o.sm) f).length ∧
    (∀ i, i < 0x9D0 ∨ 0xC00 ≤ i → (o.delete name).op.data[i]? = o.data[i]?) ∧
    (o.delete name).out = .ok () := by
  have hf := fileForName_file hn
  obtain ⟨hp, hkd⟩ := keep_delete h hf
  have e : o.delete name = ⟨decide ((sectorsForFile o.sm f).length > 0), .ok (),
      ⟨put o.data 2512 (deleteFile o.sm f).toList, deleteFile o.sm f, o.st⟩⟩ := by
    unfold Operator.delete
    rw [hn]
    simp only [hp]
    cases hst : o.st with
    | none => rfl
    | some st =>
      simp only
      rw [deleteSymbol_none (st := st) (name := name)
        (fun s hs' => hs s (by rw [Operator.table, hst]; exact hs'))]
  rw [e]
  refine ⟨?_, ?_, ?_, rfl⟩
  · intro n hn'
    obtain ⟨h1, h2⟩ := mem_ownedBy.1 hn'
    simp only
    rw [own_deleteFile _ _ h1, if_pos h2]
  · simp only
    rw [freeSectors_eq, freeSectors_eq, ownedBy_deleteFile_free _ hf.2.2]
  · intro i hi
    simp only
    have := h.len
    rw [getElem?_put (by omega)]
    have : (deleteFile o.sm f).toList.length = 560 := by simp
    split
    · rfl
    · rw [if_neg (by omega)]

/-- C29: a name that resolves to nothing is a file-not-found error and changes nothing. -/
theorem C29_delete_unknown {o : Operator} {name : Str} {k : ErrKind}
    (hn : fileForName o.table name = .err k) :
    k = .fileNotFound ∧ o.delete name = ⟨false, .err .fileNotFound, o⟩ := by
  rcases fileForName_cases o.table name with ⟨f, e⟩ | e
  · rw [e] at hn; simp at hn
  · rw [e] at hn
    simp only [Out.err.injEq] at hn
    subst hn
    exact ⟨rfl, op_delete_err e⟩

example : (∀ s ∈ (⟨freshImg, freshMap, none⟩ : Operator).table, ¬ SameName (dfName 5) s.name) ∧
    fileForName (⟨freshImg, freshMap, none⟩ : Operator).table (dfName 5) = .ok 5 ∧
    Good freshMap freshImg :=
  ⟨by simp [Operator.table], fileForName_dfName (by unfold IsFileNumber; decide) _,
    ⟨freshImg_length, freshMap_legal, freshImg_load⟩⟩

/-! ## C34 -/

/-- C34: the printed name of a file number resolves to that number under every symbol table. -/
theorem C34_dfname_resolves (st : SymbolTable) {f : UInt8} (hf : IsFileNumber f) :
    fileForName st (dfName f) = .ok f := fileForName_dfName hf st

/-- C34: different file numbers have different printed names. -/
theorem C34_dfname_injective {f g : UInt8} (h : dfName f = dfName g) : f = g := by
  have e : ∀ f : UInt8, UInt8.ofNat ((hexDigits.findIdx (· = (dfName f).getD 2 0)) * 16 +
      (hexDigits.findIdx (· = (dfName f).getD 3 0))) = f := by decide +kernel
  rw [← e f, ← e g, h]

/-- C34: a name resolves to `f` exactly when it is a number naming `f`, or is not a file number
and the first symbol with that name has address `0xDF00 + f`, `f` in 1..0xFD. -/
theorem C34_resolves_iff (st : SymbolTable) (s : Str) (f : UInt8) :
    fileForName st s = .ok f ↔
      NumericName s f ∨
      ((∀ g, ¬ NumericName s g) ∧ IsFileNumber f ∧
        ∃ x, st.find? (fun x => decide (SameName x.name s)) = some x ∧
          x.address.toNat = 0xDF00 + f.toNat) := by
  have hfold : (fun x : Symbol => equalFold x.name s) = (fun x => decide (SameName x.name s)) := rfl
  unfold fileForName
  by_cases h0 : parseAddressFilename s = 0
  · rw [if_neg (by simpa using h0)]
    have hno := (parse_zero_iff s).1 h0
    rw [fileForSymbol_eq, hfold]
    constructor
    · intro h
      right
      refine ⟨hno, ?_⟩
      cases hx : st.find? (fun x => decide (SameName x.name s)) with
      | none => rw [hx] at h; simp at h
      | some x =>
        rw [hx] at h
        simp only at h
        split at h
        · rename_i heq
          split at heq
          · rename_i hr
            simp only [Option.some.injEq] at heq
            simp only [Out.ok.injEq] at h
            subst h
            have hF : IsFileNumber (x.address - 0xDF00).toUInt8 := by
              have := fileForSymbol_file (s := x.name) (st := [x]) (f := (x.address - 0xDF00).toUInt8)
                (by unfold fileForSymbol; simp [equalFold, hr])
              exact this
            rw [heq] at hF
            exact ⟨hF, x, rfl, (addr_sub hF).1 ⟨hr.1, hr.2, heq⟩⟩
          · simp at heq
        · simp at h
    · rintro (h | ⟨_, hF, x, hx, ha⟩)
      · exact absurd h (hno f)
      · rw [hx]
        simp only
        obtain ⟨a, b, c⟩ := (addr_sub hF).2 ha
        rw [if_pos ⟨a, b⟩, c]
  · rw [if_pos h0]
    constructor
    · intro h
      simp only [Out.ok.injEq] at h
      left
      rw [← h]
      exact (parseAddressFilename_iff h0).1 rfl
    · rintro (h | ⟨h, _⟩)
      · rw [(parseAddressFilename_iff h.1.1).2 h]
      · exact absurd ((parseAddressFilename_iff h0).1 rfl) (h _)

/-- C34: resolution gives a file number 1..0xFD or a file-not-found error, nothing else. -/
theorem C34_resolution_total (st : SymbolTable) (s : Str) :
    (∃ f, fileForName st s = .ok f ∧ IsFileNumber f) ∨ fileForName st s = .err .fileNotFound := by
  rcases fileForName_cases st s with ⟨f, h⟩ | h
  · exact Or.inl ⟨f, h, fileForName_file h⟩
  · exact Or.inr h

/-- C34: a numeral names at most one file. -/
theorem C34_numeric_unique {s : Str} {f g : UInt8} (h1 : NumericName s f) (h2 : NumericName s g) :
    f = g := numericName_unique h1 h2

example : NumericName (str "df3a") 0x3A ∧ NumericName (str "3A") 0x3A ∧
    ∀ f, ¬ NumericName (str "FHELLO") f := by
  refine ⟨(parseAddressFilename_iff (by decide)).1 (by decide +kernel),
    (parseAddressFilename_iff (by decide)).1 (by decide +kernel),
    (parse_zero_iff _).1 (by decide +kernel)⟩

/-! ## C36 -/

/-- The catalog entry the specification expects for file `f` with `l` sectors. -/
def expectedEntry (st : SymbolTable) (l : Nat) (f : UInt8) : Descriptor :=
  { name := match st.find? (fun s => decide (s.address.toNat = 0xDF00 + f.toNat)) with
      | some s => s.name
      | none => dfName f
    fullname := match st.find? (fun s => decide (s.address.toNat = 0xDF00 + f.toNat)) with
      | some s => dfName f ++ str ":" ++ s.name
      | none => dfName f
    sectors := l
    length := 256 * l
    type := filetypeBinary }

theorem symbolsForAddress_head (st : SymbolTable) (a : UInt16) :
    (symbolsForAddress st a).head? = st.find? (fun s => decide (s.address.toNat = a.toNat)) := by
  unfold symbolsForAddress
  rw [List.head?_filter]
  congr 1
  funext s
  by_cases h : s.address = a
  · simp [h]
  · have : s.address.toNat ≠ a.toNat := fun e => h (UInt16.toNat_inj.1 e)
    simp [h, this]

theorem nameForFile_eq (f : UInt8) (st : SymbolTable) :
    nameForFile f st = match st.find? (fun s => decide (s.address.toNat = 0xDF00 + f.toNat)) with
      | some s => s.name
      | none => dfName f := by
  have h := symbolsForAddress_head st (0xDF00 + f.toUInt16)
  rw [addrOf_toNat] at h
  unfold nameForFile
  rw [← h, dfName_eq]
  cases symbolsForAddress st (0xDF00 + f.toUInt16) <;> rfl

theorem fullnameForFile_eq (f : UInt8) (st : SymbolTable) :
    fullnameForFile f st = match st.find? (fun s => decide (s.address.toNat = 0xDF00 + f.toNat)) with
      | some s => dfName f ++ str ":" ++ s.name
      | none => dfName f := by
  have h := symbolsForAddress_head st (0xDF00 + f.toUInt16)
  rw [addrOf_toNat] at h
  unfold fullnameForFile
  rw [← h, dfName_eq]
  cases symbolsForAddress st (0xDF00 + f.toUInt16) <;> rfl

/-- C36: the catalog lists exactly the file numbers 1..0xFD owning a sector, in increasing order,
each with its exact size, its DFxx full name and the first symbol for its address as its name. -/
theorem C36_catalog (o : Operator) :
    o.catalog =
      (((List.range 256).map UInt8.ofNat).filter
        (fun f => decide (f ≠ 0 ∧ f ≠ 0xFE ∧ f ≠ 0xFF ∧ ownedBy (own o.sm) f ≠ []))).map
        (fun f => expectedEntry o.table (ownedBy (own o.sm) f).length f) := by
  have e : allFiles = ((List.range 256).map UInt8.ofNat).filter
      (fun f => decide (f ≠ 0 ∧ f ≠ 0xFE ∧ f ≠ 0xFF)) := by decide +kernel
  have e2 : ((List.range 256).map UInt8.ofNat).filter
        (fun f => decide (f ≠ 0 ∧ f ≠ 0xFE ∧ f ≠ 0xFF ∧ ownedBy (own o.sm) f ≠ [])) =
      allFiles.filter (fun f => decide (ownedBy (own o.sm) f ≠ [])) := by
    rw [e, List.filter_filter]
    apply List.filter_congr
    intro f _
    by_cases h : ownedBy (own o.sm) f = [] <;> simp [h]
  rw [e2]
  unfold Operator.catalog
  have gen : ∀ l : List UInt8, (∀ f ∈ l, IsFileNumber f) →
      (l.filterMap fun file =>
        let l := (sectorsByFile o.sm file).length
        if l = 0 then none
        else some { name := nameForFile file o.table
                    fullname := fullnameForFile file o.table
                    sectors := (l : Int)
                    length := (l : Int) * 256
                    locked := false
                    type := filetypeBinary : Descriptor}) =
      (l.filter (fun f => decide (ownedBy (own o.sm) f ≠ []))).map
        (fun f => expectedEntry o.table (ownedBy (own o.sm) f).length f) := by
    intro l
    induction l with
    | nil => intro _; rfl
    | cons f fs ih =>
      intro hl
      have hf := hl f (by simp)
      rw [List.filterMap_cons, List.filter_cons, ih (fun g hg => hl g (by simp [hg]))]
      simp only [(C22_by_file o.sm f).1 hf, sectorsForFile_eq, List.length_map]
      by_cases h0 : ownedBy (own o.sm) f = []
      · simp [h0]
      · have hne : (ownedBy (own o.sm) f).length ≠ 0 := by simpa using h0
        rw [if_neg hne, if_pos (by simpa using h0), List.map_cons]
        simp only [List.cons.injEq, and_true]
        unfold expectedEntry
        rw [nameForFile_eq, fullnameForFile_eq, Int.mul_comm]
  exact gen allFiles (fun f hf => mem_allFiles.1 hf)

/-- C36: free and reserved space is never listed - every entry is the DFxx entry of some file. -/
theorem C36_no_system_entries (o : Operator) {d : Descriptor} (h : d ∈ o.catalog) :
    ∃ f, IsFileNumber f ∧ ownedBy (own o.sm) f ≠ [] ∧
      d = expectedEntry o.table (ownedBy (own o.sm) f).length f ∧ 0 < d.sectors := by
  rw [C36_catalog] at h
  obtain ⟨f, hf, rfl⟩ := List.mem_map.1 h
  have hf' := (List.mem_filter.1 hf).2
  simp only [decide_eq_true_eq] at hf'
  refine ⟨f, ⟨hf'.1, hf'.2.1, hf'.2.2.1⟩, hf'.2.2.2, rfl, ?_⟩
  have : 0 < (ownedBy (own o.sm) f).length := List.length_pos_iff.2 hf'.2.2.2
  simp only [expectedEntry]; omega

example : (⟨freshImg, freshMap, none⟩ : Operator).catalog = [] := by
  rw [C36_catalog]
  have : ((List.range 256).map UInt8.ofNat).filter
        (fun f => decide (f ≠ 0 ∧ f ≠ 0xFE ∧ f ≠ 0xFF ∧ ownedBy (own freshMap) f ≠ [])) = [] := by
    rw [List.filter_eq_nil_iff]
    intro f _
    simp only [decide_eq_true_eq]
    rintro ⟨h1, h2, h3, h4⟩
    exact h4 (freshMap_file ⟨h1, h2, h3⟩)
  rw [this]; rfl

/-! ## C37 -/

theorem relink_length (i : Nat) (l : Int) (st : SymbolTable) (j : Nat) :
    (relink i l st j).length = st.length := by
  induction st generalizing j with
  | nil => rfl
  | cons s rest ih => unfold relink; split <;> (try split) <;> simp [ih]

theorem deleteSymbol_length (st : SymbolTable) (name : Str) :
    (deleteSymbol st name).2.length = st.length := by
  unfold deleteSymbol
  split
  · rfl
  · split
    · rfl
    · simp [relink_length]

theorem linkTail_length (h : UInt8) (p : Nat) (st : SymbolTable) :
    (linkTail h p st).length = st.length := by
  induction st with
  | nil => rfl
  | cons s rest ih => unfold linkTail; split <;> simp [ih]

theorem insertAt_length (st : SymbolTable) (n : Str) (a : UInt16) (p : Nat) :
    (insertAt st n a p).length = st.length := by simp [insertAt, linkTail_length]

theorem addScan_bound (name : Str) (h : UInt8) (st : SymbolTable) (j : Nat) (pos : Option Nat) :
    match addScan name h st j pos with
    | .update k => j ≤ k ∧ k < j + st.length
    | .replace k => j ≤ k ∧ k < j + st.length
    | .free (some p) => pos = some p ∨ (j ≤ p ∧ p < j + st.length)
    | .free none => True := by
  induction st generalizing j pos with
  | nil =>
    unfold addScan
    cases pos <;> simp
  | cons s rest ih =>
    unfold addScan
    by_cases h1 : equalFold name s.name = true
    · rw [if_pos h1]
      by_cases h2 : addrHash s.address = h
      · rw [if_pos h2]; simp
      · rw [if_neg h2]; simp
    · rw [if_neg h1]
      by_cases h2 : pos = none ∧ s.address = 0
      · rw [if_pos h2]
        have := ih (j + 1) (some j)
        revert this
        cases addScan name h rest (j + 1) (some j) with
        | update k => simp; omega
        | replace k => simp; omega
        | free p => cases p <;> simp; omega
      · rw [if_neg h2]
        have := ih (j + 1) pos
        revert this
        cases addScan name h rest (j + 1) pos with
        | update k => simp; omega
        | replace k => simp; omega
        | free p =>
          cases p
          · simp
          · simp only [List.length_cons]
            rintro (h | h)
            · exact Or.inl h
            · exact Or.inr (by omega)

theorem addSymbol_length (st : SymbolTable) (n : Str) (a : UInt16) :
    (addSymbol st n a).2.length = st.length := by
  unfold addSymbol
  split
  · rfl
  · split
    · split <;> simp
    · simp [insertAt_length, deleteSymbol_length]
    · rfl
    · simp [insertAt_length]

theorem addSymbol_returns (st : SymbolTable) (n : Str) (a : UInt16) :
    (addSymbol st n a).1 = .ok () ∨ (addSymbol st n a).1 = .err .other := by
  unfold addSymbol
  split
  · exact Or.inr rfl
  · have hb := addScan_bound n (addrHash a) st 0 none
    split
    · rename_i j hj
      rw [hj] at hb
      simp only at hb
      rw [List.getElem?_eq_getElem (by omega)]
      exact Or.inl rfl
    · exact Or.inl rfl
    · exact Or.inr rfl
    · exact Or.inl rfl

theorem putNumbered_returns {o : Operator} (h : Good o.sm o.data) (hst : o.table.length ≤ 819)
    {f nf : UInt8} {sym : Str} {data : Bytes} {ow : Bool} (hf : IsFileNumber f) (hd : data ≠ []) :
    (o.putNumbered f nf sym data ow).out.returns = true := by
  have hr := writeFile_returns (sm := o.sm) ow h.len hf hd
  have hk := keep_writeFile (c := data) (ow := ow) h hf (by intro e; rw [e] at hr; simp at hr)
  unfold Operator.putNumbered
  simp only
  split
  · split
    · split
      · rename_i st hs
        have ha := addSymbol_returns st sym (0xDF00 + f.toUInt16)
        have hl := addSymbol_length st sym (0xDF00 + f.toUInt16)
        have : st.length ≤ 819 := by rw [Operator.table, hs] at hst; exact hst
        split
        · rename_i st' he
          rw [he] at hl
          rcases writeSymbolTable_returns hk.good (st := st') (by simp only at hl; omega) with e | e
            <;> rw [e] <;> rfl
        · rename_i e' st' he
          rw [he] at ha
          simp only at ha
          rcases ha with e | e <;> simp only [e] <;> rfl
      · rfl
    · rfl
  · exact hr

/-- C37, except for empty data: on an opened disk PutFile returns (success or error) for every
FileInfo with non-empty data.  What is missing for the full property is false of the code, see
`C37_violated_empty_data`. -/
theorem C37_put_returns_partial {o : Operator} (h : Good o.sm o.data) (hst : o.table.length ≤ 819)
    (fi : FileInfo) (hd : fi.data ≠ []) (ow : Bool) : (o.putFile fi ow).out.returns = true := by
  rcases putFile_cases o fi ow with ⟨k, e⟩ | ⟨f, nf, sym, hf, e, _⟩
  · rw [e]; rfl
  · rw [e]; exact putNumbered_returns h hst hf hd

/-- C37 fails: putting an empty file as DFxx on a disk with a free sector panics whenever the
file is new or may be overwritten. -/
theorem C37_violated_empty_data {o : Operator} (h : Good o.sm o.data) {f : UInt8}
    (hf : IsFileNumber f) {ow : Bool} (hx : ow = true ∨ ownedBy (own o.sm) f = [])
    (hfree : ownedBy (own o.sm) 0xFF ≠ []) :
    (o.putFile (dfInfo f []) ow).out = .panic := by
  rw [putFile_df o hf, writeFile_empty h.len hx, if_neg]
  intro e
  have := ownedBy_deleteFile_free o.sm hf.2.2
  rw [e] at this
  have h0 : 0 < (ownedBy (own o.sm) 0xFF).length := List.length_pos_iff.2 hfree
  simp at this
  omega

theorem C37_violated_fresh :
    ((⟨freshImg, freshMap, none⟩ : Operator).putFile (dfInfo 5 []) false).out = .panic := by
  have hF : IsFileNumber 5 := by unfold IsFileNumber; decide
  have hfree : ownedBy (own freshMap) 0xFF ≠ [] := by
    intro e
    have := freshMap_free
    rw [e] at this
    exact absurd this (by simp)
  exact C37_violated_empty_data (o := ⟨freshImg, freshMap, none⟩)
    ⟨freshImg_length, freshMap_legal, freshImg_load⟩ hF (Or.inr (freshMap_file hF)) hfree

/-! ## C39 -/

/-- C39: a name without a colon: a number gives that number alone; otherwise the file the name
resolves to, twice, with the name; otherwise just the name. -/
theorem C39_plain (st : SymbolTable) {s : Str} (hs : (0x3A : UInt8) ∉ s) :
    (∀ f, NumericName s f → filesForCompoundName st s = .ok (f, 0, [])) ∧
    ((∀ f, ¬ NumericName s f) → ∀ f, fileForName st s = .ok f →
      filesForCompoundName st s = .ok (f, f, s)) ∧
    ((∀ f, ¬ NumericName s f) → fileForName st s = .err .fileNotFound →
      filesForCompoundName st s = .ok (0, 0, s)) := by
  have e : splitColon s = [s] := splitColon_none hs
  unfold filesForCompoundName
  rw [e]
  simp only
  refine ⟨?_, ?_, ?_⟩
  · intro f hf
    rw [(parseAddressFilename_iff hf.1.1).2 hf, if_pos hf.1.1]
  · intro h f hf
    rw [(parse_zero_iff s).2 h, if_neg (by simp), hf]
  · intro h hf
    rw [(parse_zero_iff s).2 h, if_neg (by simp), hf]

/-- C39: `number:name` gives the number, the name's current file (0 if none) and the name; a bad
number before the colon or a number after it is an error. -/
theorem C39_compound (st : SymbolTable) {a b : Str} (ha : (0x3A : UInt8) ∉ a)
    (hb : (0x3A : UInt8) ∉ b) :
    (∀ f, NumericName a f → (∀ g, ¬ NumericName b g) →
      (∀ g, fileForName st b = .ok g → filesForCompoundName st (a ++ 0x3A :: b) = .ok (f, g, b)) ∧
      (fileForName st b = .err .fileNotFound →
        filesForCompoundName st (a ++ 0x3A :: b) = .ok (f, 0, b))) ∧
    ((∀ f, ¬ NumericName a f) → filesForCompoundName st (a ++ 0x3A :: b) = .err .other) ∧
    ((∃ g, NumericName b g) → filesForCompoundName st (a ++ 0x3A :: b) = .err .other) := by
  have e : splitColon (a ++ 0x3A :: b) = [a, b] := by
    rw [splitColon_append ha, splitColon_none hb]
  unfold filesForCompoundName
  rw [e]
  simp only
  refine ⟨?_, ?_, ?_⟩
  · intro f hf hg
    rw [(parseAddressFilename_iff hf.1.1).2 hf, if_neg hf.1.1, (parse_zero_iff b).2 hg,
      if_neg (by simp)]
    refine ⟨?_, ?_⟩
    · intro g h; rw [h]
    · intro h; rw [h]
  · intro h
    rw [(parse_zero_iff a).2 h, if_pos rfl]
  · rintro ⟨g, hg⟩
    rw [(parseAddressFilename_iff hg.1.1).2 hg]
    split
    · rfl
    · rw [if_pos hg.1.1]

/-- C39: more than one colon is an error. -/
theorem C39_many_colons (st : SymbolTable) {s : Str} (h : 2 ≤ s.count 0x3A) :
    filesForCompoundName st s = .err .other := by
  unfold filesForCompoundName
  have hl := splitColon_length s
  split
  · rename_i e; rw [e] at hl; simp at hl; omega
  · rename_i e; rw [e] at hl; simp at hl; omega
  · rfl

/-- C39: every string falls under one of the three cases. -/
theorem C39_exhaustive (s : Str) :
    (0x3A : UInt8) ∉ s ∨ (∃ a b, (0x3A : UInt8) ∉ a ∧ (0x3A : UInt8) ∉ b ∧ s = a ++ 0x3A :: b) ∨
      2 ≤ s.count 0x3A := by
  by_cases h : (0x3A : UInt8) ∈ s
  · right
    obtain ⟨a, b, rfl, ha⟩ := List.eq_append_cons_of_mem h
    by_cases hb : (0x3A : UInt8) ∈ b
    · right
      have := List.count_pos_iff.2 hb
      rw [List.count_append, List.count_cons_self]; omega
    · left
      exact ⟨a, b, ha, hb, rfl⟩
  · exact Or.inl h

example : filesForCompoundName [] (str "DF12:FHELLO") = .ok (0x12, 0, str "FHELLO") := by
  have h := C39_compound [] (a := str "DF12") (b := str "FHELLO") (by decide +kernel) (by decide +kernel)
  exact (h.1 0x12 ((parseAddressFilename_iff (by decide)).1 (by decide +kernel))
    ((parse_zero_iff _).1 (by decide +kernel))).2 (by decide +kernel)

end Verif.Supermon
