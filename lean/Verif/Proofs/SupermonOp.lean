import Verif.Props.SupermonMap

/-! # Lemmas about the NakedOS operator: which parts of the disk an operation can change -/

set_option autoImplicit false

namespace Verif.Supermon
open Disk Spec

/-- A floppy image together with a legal map that is the one recorded on it. -/
structure Good (sm : SectorMap) (img : Bytes) : Prop where
  len : img.length = 143360
  legal : LegalMap (own sm)
  loaded : loadSectorMap img = .ok sm

/-- `(sm', img')` is good again and differs from `(sm, img)` only in files of `T`. -/
structure Keep (T : UInt8 → Prop) (sm : SectorMap) (img : Bytes) (sm' : SectorMap) (img' : Bytes) :
    Prop where
  good : Good sm' img'
  sys : ∀ i, i < 0x9D0 → img'[i]? = img[i]?
  sect : ∀ g, IsFileNumber g → ¬ T g → ownedBy (own sm') g = ownedBy (own sm) g
  bytes : ∀ g, IsFileNumber g → ¬ T g → fileBytes (own sm') img' g = fileBytes (own sm) img g
  fixed : ownedBy (own sm') 0xFE = ownedBy (own sm) 0xFE

theorem Keep.refl {T : UInt8 → Prop} {sm : SectorMap} {img : Bytes} (h : Good sm img) :
    Keep T sm img sm img := ⟨h, fun _ _ => rfl, fun _ _ _ => rfl, fun _ _ _ => rfl, rfl⟩

theorem Keep.trans {T U : UInt8 → Prop} {sm sm' sm'' : SectorMap} {img img' img'' : Bytes}
    (h1 : Keep T sm img sm' img') (h2 : Keep U sm' img' sm'' img'') :
    Keep (fun g => T g ∨ U g) sm img sm'' img'' where
  good := h2.good
  sys i hi := (h2.sys i hi).trans (h1.sys i hi)
  sect g hg ht := (h2.sect g hg (fun h => ht (Or.inr h))).trans (h1.sect g hg (fun h => ht (Or.inl h)))
  bytes g hg ht :=
    (h2.bytes g hg (fun h => ht (Or.inr h))).trans (h1.bytes g hg (fun h => ht (Or.inl h)))
  fixed := h2.fixed.trans h1.fixed

theorem Keep.mono {T U : UInt8 → Prop} {sm sm' : SectorMap} {img img' : Bytes}
    (h : Keep T sm img sm' img') (htu : ∀ g, T g → U g) : Keep U sm img sm' img' where
  good := h.good
  sys := h.sys
  sect g hg hu := h.sect g hg (fun ht => hu (htu g ht))
  bytes g hg hu := h.bytes g hg (fun ht => hu (htu g ht))
  fixed := h.fixed

theorem fileNumber_ge12 {sm : SectorMap} (hm : LegalMap (own sm)) {g : UInt8}
    (hg : IsFileNumber g) {n : Nat} (hn : n ∈ ownedBy (own sm) g) : 12 ≤ n := by
  apply Classical.byContradiction
  intro hc
  have := hm.1 n (by omega)
  rw [(mem_ownedBy.1 hn).2] at this
  exact hg.2.1 this

/-- Deleting a file and persisting the map. -/
theorem keep_delete {sm : SectorMap} {img : Bytes} {f : UInt8} (h : Good sm img)
    (hf : IsFileNumber f) :
    persist (deleteFile sm f) img = (.ok (), put img 2512 (deleteFile sm f).toList) ∧
    Keep (· = f) sm img (deleteFile sm f) (put img 2512 (deleteFile sm f).toList) := by
  have hl : (put img 2512 (deleteFile sm f).toList).length = 143360 := by
    rw [put_length (by simp; have := h.len; omega), h.len]
  have h3 : 3072 ≤ img.length := by have := h.len; omega
  refine ⟨persist_eq h3 _, ⟨hl, legal_deleteFile hf h.legal, loaded_put h3 _⟩, ?_, ?_, ?_,
    ownedBy_deleteFile_other sm (Ne.symm hf.2.1) (by decide)⟩
  · intro i hi
    rw [getElem?_put (by omega), if_pos (by omega)]
  · intro g hg hne
    exact ownedBy_deleteFile_other sm hne hg.2.2
  · intro g hg hne
    unfold fileBytes
    rw [ownedBy_deleteFile_other sm hne hg.2.2]
    apply List.flatMap_congr
    intro n hn
    exact sectorNo_put h3 _ (Or.inr (fileNumber_ge12 h.legal hg hn))

/-- A write that does not panic. -/
theorem keep_writeFile {sm : SectorMap} {img : Bytes} {f : UInt8} (h : Good sm img)
    (hf : IsFileNumber f) {c : Bytes} {ow : Bool} (hp : (writeFile sm img f c ow).out ≠ .panic) :
    Keep (· = f) sm img (writeFile sm img f c ow).sm (writeFile sm img f c ow).img := by
  by_cases hfit : Fits sm f c
  · by_cases hx : ow = true ∨ ownedBy (own sm) f = []
    · by_cases hc : c = []
      · subst hc
        rw [writeFile_empty h.len hx] at hp ⊢
        split at hp
        · rename_i h0
          rw [if_pos h0]
          exact (keep_delete h hf).2
        · simp at hp
      · rw [writeFile_ok h.len hf hc hfit hx]
        have hl := newImg_length (sm := sm) (c := c) h.len hf.2.2 hfit
        refine ⟨⟨hl, legal_newMap hf h.legal, load_newImg h.len hf.2.2 hfit⟩, ?_, ?_, ?_,
          ownedBy_newMap_other sm c (Ne.symm hf.2.1) (by decide)⟩
        · intro i hi
          apply getElem?_newImg_other h.len hf.2.2 hfit
          · intro hc
            have := targets_ge hf h.legal hc
            omega
          · omega
        · intro g hg hne
          exact ownedBy_newMap_other sm c hne hg.2.2
        · intro g hg hne
          exact fileBytes_new_other h.len hf hfit h.legal hg hne
    · simp only [not_or, Bool.not_eq_true] at hx
      obtain ⟨rfl, he⟩ := hx
      rw [writeFile_exists hfit he]
      exact Keep.refl h
  · rw [writeFile_outOfSpace hfit]
    exact Keep.refl h

/-- A write of non-empty contents never panics. -/
theorem writeFile_returns {sm : SectorMap} {img : Bytes} {f : UInt8} {c : Bytes} (ow : Bool)
    (hi : img.length = 143360) (hf : IsFileNumber f) (hc : c ≠ []) :
    (writeFile sm img f c ow).out.returns = true := by
  have h := (C25_write_outcome (sm := sm) ow hi hf hc).2.2.2.2.1
  rcases h with h | h | h <;> rw [h] <;> rfl

theorem isFile3 : IsFileNumber 3 := by unfold IsFileNumber; decide
theorem isFile4 : IsFileNumber 4 := by unfold IsFileNumber; decide

/-! ## Symbol table writing -/

theorem fillTables_length {st : SymbolTable} {i : Nat} {t1 t2 u1 u2 : Bytes}
    (h : fillTables st i t1 t2 = .ok (u1, u2)) (h1 : t1.length = 0x1000) (h2 : t2.length = 0x1000) :
    u1.length = 0x1000 ∧ u2.length = 0x1000 := by
  induction st generalizing i t1 t2 with
  | nil =>
    simp only [fillTables, Out.ok.injEq, Prod.mk.injEq] at h
    obtain ⟨rfl, rfl⟩ := h
    exact ⟨h1, h2⟩
  | cons s rest ih =>
    unfold fillTables at h
    obtain ⟨six, _, h⟩ := Out.bind_eq_ok.1 h
    simp only at h
    split at h
    · simp at h
    · apply ih h
      · rw [put_length (by simp; omega), h1]
      · rw [put_length (by simp; omega), h2]

theorem encodeLoop_cases (n : Str) (v b : Nat) :
    (∃ w, encodeLoop n v b = .ok w) ∨ encodeLoop n v b = .err .other := by
  induction n generalizing v b with
  | nil => exact Or.inl ⟨v, rfl⟩
  | cons ch rest ih =>
    unfold encodeLoop
    split
    · exact Or.inr rfl
    · exact ih _ _

theorem encodeSymbol_cases (n : Str) :
    (∃ w, encodeSymbol n = .ok w) ∨ encodeSymbol n = .err .other := by
  unfold encodeSymbol
  split
  · exact Or.inl ⟨_, rfl⟩
  · split
    · exact Or.inr rfl
    · split
      · exact Or.inr rfl
      · rcases encodeLoop_cases (toUpper n).reverse 0 0 with ⟨w, h⟩ | h
        · rw [h]; exact Or.inl ⟨_, rfl⟩
        · rw [h]; exact Or.inr rfl

theorem fillTables_cases (st : SymbolTable) (i : Nat) (t1 t2 : Bytes) (h : i + st.length ≤ 819) :
    (∃ u, fillTables st i t1 t2 = .ok u) ∨ fillTables st i t1 t2 = .err .other := by
  induction st generalizing i t1 t2 with
  | nil => exact Or.inl ⟨_, rfl⟩
  | cons s rest ih =>
    unfold fillTables
    rcases encodeSymbol_cases s.name with ⟨w, hw⟩ | hw
    · rw [hw]
      simp only [Out.bind_ok]
      rw [List.length_cons] at h
      rw [if_neg (by omega)]
      exact ih _ _ _ (by omega)
    · rw [hw]; exact Or.inr rfl

theorem ne_nil_of_length {c : Bytes} {n : Nat} (h : c.length = n + 1) : c ≠ [] := by
  rintro rfl; simp at h

/-- Writing the symbol table changes nothing but files 3 and 4. -/
theorem keep_writeSymbolTable {sm : SectorMap} {img : Bytes} (h : Good sm img) (st : SymbolTable) :
    Keep (fun g => g = 3 ∨ g = 4) sm img (writeSymbolTable sm img st).2.1
      (writeSymbolTable sm img st).2.2 := by
  unfold writeSymbolTable
  split
  · rename_i t1 t2 ht
    obtain ⟨l1, l2⟩ := fillTables_length ht (zeros_length _) (zeros_length _)
    have n1 := ne_nil_of_length l1
    have n2 := ne_nil_of_length l2
    have r1 := writeFile_returns (sm := sm) true h.len isFile3 n1
    have k1 := keep_writeFile (c := t1) (ow := true) h isFile3 (by rintro e; rw [e] at r1; simp at r1)
    have r2 := writeFile_returns (sm := (writeFile sm img 3 t1 true).sm)
      (img := (writeFile sm img 3 t1 true).img) true k1.good.len isFile4 n2
    have k2 := keep_writeFile (c := t2) (ow := true) k1.good isFile4
      (by rintro e; rw [e] at r2; simp at r2)
    have k12 := k1.trans k2
    simp only
    split
    · split
      · exact k12
      · exact k12
      · exact k12
      · exact k12
    · exact k1.mono (fun g hg => Or.inl hg)
    · exact k1.mono (fun g hg => Or.inl hg)
    · exact k1.mono (fun g hg => Or.inl hg)
  all_goals exact Keep.refl h

theorem writeSymbolTable_returns {sm : SectorMap} {img : Bytes} (h : Good sm img)
    {st : SymbolTable} (hl : st.length ≤ 819) :
    (writeSymbolTable sm img st).1 = .ok () ∨ (writeSymbolTable sm img st).1 = .err .other := by
  unfold writeSymbolTable
  rcases fillTables_cases st 0 (zeros 0x1000) (zeros 0x1000) (by omega) with ⟨⟨t1, t2⟩, ht⟩ | ht
  · rw [ht]
    simp only
    obtain ⟨l1, l2⟩ := fillTables_length ht (zeros_length _) (zeros_length _)
    have n1 := ne_nil_of_length l1
    have n2 := ne_nil_of_length l2
    have r1 := writeFile_returns (sm := sm) true h.len isFile3 n1
    have k1 := keep_writeFile (c := t1) (ow := true) h isFile3 (by rintro e; rw [e] at r1; simp at r1)
    have r2 := writeFile_returns (sm := (writeFile sm img 3 t1 true).sm)
      (img := (writeFile sm img 3 t1 true).img) true k1.good.len isFile4 n2
    split
    · split
      · exact Or.inl rfl
      · exact Or.inr rfl
      · rename_i e; rw [e] at r2; simp at r2
      · rename_i e; rw [e] at r2; simp at r2
    · exact Or.inr rfl
    · rename_i e; rw [e] at r1; simp at r1
    · rename_i e; rw [e] at r1; simp at r1
  · rw [ht]; exact Or.inr rfl

/-! ## Names -/

theorem parseAddressFilename_file {s : Str} (h : parseAddressFilename s ≠ 0) :
    IsFileNumber (parseAddressFilename s) := by
  unfold parseAddressFilename at h ⊢
  split
  · rename_i a ha
    rw [ha] at h
    simp only at h
    have key : ∀ k, k < 0xFE → k ≠ 0 → IsFileNumber (UInt8.ofNat k) := by
      intro k hk h0
      have e : (UInt8.ofNat k).toNat = k := by simp; omega
      refine ⟨?_, ?_, ?_⟩ <;> intro hc <;> rw [hc] at e <;> simp at e <;> omega
    split
    · exact key _ (by omega) (by omega)
    · split
      · exact key _ (by omega) (by omega)
      · rename_i h1 h2; rw [if_neg h1, if_neg h2] at h; exact absurd rfl h
  · rename_i ha; rw [ha] at h; exact absurd rfl h

theorem fileForSymbol_file {s : Str} {st : SymbolTable} {f : UInt8}
    (h : fileForSymbol s st = some f) : IsFileNumber f := by
  induction st with
  | nil => simp [fileForSymbol] at h
  | cons x xs ih =>
    unfold fileForSymbol at h
    split at h
    · split at h
      · rename_i hc
        simp only [Option.some.injEq] at h
        subst h
        obtain ⟨h1, h2⟩ := hc
        have h1' : 0xDF00 < x.address.toNat := h1
        have h2' : x.address.toNat < 0xDFFE := h2
        have e : ((x.address - 0xDF00).toUInt8).toNat = x.address.toNat - 0xDF00 := by
          rw [UInt16.toNat_toUInt8, UInt16.toNat_sub_of_le _ _ (by
            show (0xDF00 : UInt16).toNat ≤ x.address.toNat
            simp; omega)]
          simp; omega
        refine ⟨?_, ?_, ?_⟩ <;> intro hc <;> rw [hc] at e <;> simp at e <;> omega
      · simp at h
    · exact ih h

theorem fileForName_file {st : SymbolTable} {s : Str} {f : UInt8} (h : fileForName st s = .ok f) :
    IsFileNumber f := by
  unfold fileForName at h
  split at h
  · rename_i h0
    simp only [Out.ok.injEq] at h
    subst h
    exact parseAddressFilename_file h0
  · split at h
    · rename_i e
      simp only [Out.ok.injEq] at h
      subst h
      exact fileForSymbol_file e
    · simp at h

theorem fileForName_cases (st : SymbolTable) (s : Str) :
    (∃ f, fileForName st s = .ok f) ∨ fileForName st s = .err .fileNotFound := by
  unfold fileForName
  split
  · exact Or.inl ⟨_, rfl⟩
  · split
    · exact Or.inl ⟨_, rfl⟩
    · exact Or.inr rfl

theorem firstFreeFileLoop_mem {sm : SectorMap} {l : List UInt8} (h : firstFreeFileLoop sm l ≠ 0) :
    firstFreeFileLoop sm l ∈ l ∧ ownedBy (own sm) (firstFreeFileLoop sm l) = [] := by
  induction l with
  | nil => simp [firstFreeFileLoop] at h
  | cons a l ih =>
    unfold firstFreeFileLoop at h ⊢
    split
    · rename_i h0
      rw [sectorsForFile_eq, List.length_map] at h0
      exact ⟨by simp, List.eq_nil_of_length_eq_zero h0⟩
    · rename_i h0
      rw [if_neg h0] at h
      exact ⟨by simp [(ih h).1], (ih h).2⟩

theorem firstFreeFile_file {sm : SectorMap} (h : firstFreeFile sm ≠ 0) :
    IsFileNumber (firstFreeFile sm) := mem_allFiles.1 (firstFreeFileLoop_mem h).1

theorem filesForCompoundName_file {st : SymbolTable} {s : Str} {n m : UInt8} {sym : Str}
    (h : filesForCompoundName st s = .ok (n, m, sym)) (hn : n ≠ 0) : IsFileNumber n := by
  unfold filesForCompoundName at h
  split at h
  · simp only at h
    split at h
    · rename_i h0
      simp only [Out.ok.injEq, Prod.mk.injEq] at h
      obtain ⟨rfl, _⟩ := h
      exact parseAddressFilename_file h0
    · split at h
      · rename_i e
        simp only [Out.ok.injEq, Prod.mk.injEq] at h
        obtain ⟨rfl, _⟩ := h
        exact fileForName_file e
      · simp only [Out.ok.injEq, Prod.mk.injEq] at h
        exact absurd h.1.symm hn
  · simp only at h
    split at h
    · simp at h
    · rename_i h0
      split at h
      · simp at h
      · split at h
        · simp only [Out.ok.injEq, Prod.mk.injEq] at h
          obtain ⟨rfl, _⟩ := h
          exact parseAddressFilename_file h0
        · simp only [Out.ok.injEq, Prod.mk.injEq] at h
          obtain ⟨rfl, _⟩ := h
          exact parseAddressFilename_file h0
  · simp at h

theorem filesForCompoundName_cases (st : SymbolTable) (s : Str) :
    (∃ x, filesForCompoundName st s = .ok x) ∨ filesForCompoundName st s = .err .other := by
  unfold filesForCompoundName
  split
  · simp only
    split
    · exact Or.inl ⟨_, rfl⟩
    · split <;> exact Or.inl ⟨_, rfl⟩
  · simp only
    split
    · exact Or.inr rfl
    · split
      · exact Or.inr rfl
      · split <;> exact Or.inl ⟨_, rfl⟩
  · exact Or.inr rfl

end Verif.Supermon
