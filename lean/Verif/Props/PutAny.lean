import Verif.Spec.PutRm
import Verif.Props.PutIff
import Verif.Props.RmIff
import Verif.Props.ListNames
import Verif.Props.Crash
import Verif.Props.Copy

/-!
# C91 and C94 on every NakedOS disk: when put and rm succeed
-/

set_option autoImplicit false

namespace Verif.Supermon
open Disk Spec

/-! ## Tables that can be written -/

theorem storable_encode {n : Str} : Storable n ↔ ∃ six, encodeSymbol n = .ok six := by
  unfold Storable
  rw [← C30_accepts_iff]
  cases encodeSymbol n <;> simp [Out.isOk]

theorem toUpper_length (a : Str) : (toUpper a).length = a.length := by unfold toUpper; simp

theorem charBits_upper : ∀ c : UInt8, charBits (upperByte c) = charBits c := by decide +kernel

theorem nameBits_upper (a : Str) : nameBits (toUpper a) = nameBits a := by
  unfold nameBits toUpper
  rw [List.map_map]
  congr 1
  exact List.map_congr_left fun c _ => charBits_upper c

theorem storable_same {a b : Str} (h : SameName a b) : Storable a ↔ Storable b := by
  have h' : toUpper a = toUpper b := h
  have hl : a.length = b.length := by rw [← toUpper_length a, h', toUpper_length]
  have hb : nameBits a = nameBits b := by rw [← nameBits_upper a, h', nameBits_upper]
  have he : a = [] ↔ b = [] := by rw [← List.length_eq_zero_iff, hl, List.length_eq_zero_iff]
  unfold Storable
  rw [hl, hb, he]

/-- Where there is room for the two halves of a table, writing it succeeds exactly if all names can be stored. -/
theorem writeSymbolTable_iff {sm : SectorMap} {img : Bytes} (h : Good sm img) {st : SymbolTable} (hlen : st.length ≤ 819)
    (h3 : 16 ≤ (ownedBy (own sm) 0xFF).length + (ownedBy (own sm) 3).length)
    (h4 : 32 ≤ (ownedBy (own sm) 0xFF).length + (ownedBy (own sm) 3).length + (ownedBy (own sm) 4).length) :
    (writeSymbolTable sm img st).1 = .ok () ↔ ∀ s ∈ st, Storable s.name := by
  constructor
  · intro hok s hs
    unfold writeSymbolTable at hok
    split at hok
    · rename_i t1 t2 ht
      obtain ⟨k, hk, e⟩ := List.getElem_of_mem hs
      obtain ⟨six, e1, _⟩ := (fillTables_spec ht (zeros_length _) (zeros_length _)).2 k s (by rw [List.getElem?_eq_getElem hk, e])
      exact storable_encode.2 ⟨six, e1⟩
    all_goals simp at hok
  · intro hnames
    obtain ⟨⟨t1, t2⟩, ht⟩ := fillTables_ok (st := st) 0 (zeros 0x1000) (zeros 0x1000)
      (by omega) (fun s hs => storable_encode.1 (hnames s hs))
    obtain ⟨l1, l2⟩ := fillTables_length ht (zeros_length _) (zeros_length _)
    have n1 := ne_nil_of_length l1
    have n2 := ne_nil_of_length l2
    have fit1 : Fits sm 3 t1 := by unfold Fits; rw [l1]; omega
    have w1 := writeFile_ok (ow := true) h.len isFile3 n1 fit1 (Or.inl rfl)
    have k1 := keep_writeFile (c := t1) (ow := true) h isFile3 (by rw [w1]; simp)
    rw [w1] at k1
    have hfree := ownedBy_newMap_free (sm := sm) (f := 3) (c := t1) (by decide)
    rw [targets_length (by decide) fit1, l1] at hfree
    have fit2 : Fits (newMap sm 3 t1) 4 t2 := by
      unfold Fits
      rw [l2, ownedBy_newMap_other sm t1 (g := 4) (by decide) (by decide)]
      omega
    have w2 := writeFile_ok (ow := true) k1.good.len isFile4 n2 fit2 (Or.inl rfl)
    unfold writeSymbolTable
    rw [ht]
    simp only
    rw [w1]
    simp only
    rw [w2]

theorem storable_keys {st : SymbolTable} : (∀ s ∈ st, Storable s.name) ↔ ∀ k ∈ keys st, Storable k.2 := by
  unfold keys
  simp

theorem storable_set {l : List (UInt16 × Str)} {i : Nat} {x y : UInt16 × Str} (hx : l[i]? = some x) (h : Storable x.2 ↔ Storable y.2) :
    (∀ k ∈ l.set i y, Storable k.2) ↔ ∀ k ∈ l, Storable k.2 := by
  obtain ⟨hi, e⟩ := List.getElem?_eq_some_iff.1 hx
  constructor
  · intro hall k hk
    obtain ⟨j, hj, ej⟩ := List.getElem_of_mem hk
    by_cases hij : i = j
    · subst hij
      have := hall y (List.mem_of_getElem? (by rw [List.getElem?_set_self hi]))
      rw [← ej, e]
      exact h.2 this
    · exact hall k (List.mem_of_getElem? (i := j) (by rw [List.getElem?_set_ne hij, List.getElem?_eq_getElem hj, ej]))
  · intro hall k hk
    rcases List.mem_or_eq_of_mem_set hk with hk | rfl
    · exact hall k hk
    · exact h.1 (hall x (List.mem_of_getElem? hx))

/-- Adding a name that can be stored to a table without leftovers in its unused entries keeps it as storable as it was. -/
theorem storable_add {st : SymbolTable} (hz : ∀ s ∈ st, s.address = 0 → s.name = []) {name : Str} {a : UInt16} (hn : Storable name)
    (hok : (addSymbol st name a).1 = .ok ()) :
    (addSymbol st name a).2.length = st.length ∧
    ((∀ s ∈ (addSymbol st name a).2, Storable s.name) ↔ ∀ s ∈ st, Storable s.name) := by
  have hnil : Storable [] := Or.inl rfl
  rw [← keys_length, ← keys_length st, storable_keys, storable_keys]
  rcases addSymbol_cases st name a with ⟨h0, e⟩ | ⟨h0, i, s, hi, hsi, hh, e⟩ |
    ⟨h0, i, s, hi, hsi, hh, e⟩ | ⟨h0, hnf, hf, e⟩ | ⟨h0, hnf, p, s, hp, hzz, e⟩
  · rw [e] at hok; simp at hok
  · rw [e]
    have hk : (keys st)[i]? = some (s.address, s.name) := by rw [keys_getElem?, hsi]; rfl
    dsimp only
    rw [keys_set, List.length_set]
    exact ⟨rfl, storable_set hk Iff.rfl⟩
  · rw [e]
    have hk : (keys st)[i]? = some (s.address, s.name) := by rw [keys_getElem?, hsi]; rfl
    dsimp only
    rw [keys_insertAt, keys_delete hi, List.set_set, List.length_set]
    refine ⟨rfl, storable_set hk ?_⟩
    obtain ⟨s', hs', hq, _⟩ := findName_some hi
    rw [hsi] at hs'
    cases hs'
    exact storable_same (equalFold_iff.1 hq).symm
  · rw [e] at hok; simp at hok
  · rw [e]
    have hk : (keys st)[p]? = some (s.address, s.name) := by rw [keys_getElem?, hp]; rfl
    dsimp only
    rw [keys_insertAt, List.length_set]
    refine ⟨rfl, storable_set hk ?_⟩
    dsimp only
    rw [hz s (List.mem_of_getElem? hp) hzz]
    exact ⟨fun _ => hn, fun _ => hnil⟩

theorem firstOf_find {st : SymbolTable} {n : Str} {x : Symbol} :
    st.find? (fun x => decide (SameName x.name n)) = some x ↔ ∃ before after, FirstOf st n before x after := by
  rw [List.find?_eq_some_iff_append]
  unfold FirstOf
  constructor
  · rintro ⟨h1, as, bs, h2, h3⟩
    exact ⟨as, bs, h2, by simpa using h1, fun t ht => by simpa using h3 t ht⟩
  · rintro ⟨as, bs, h2, h1, h3⟩
    exact ⟨by simpa using h1, as, bs, h2, fun t ht => by simpa using h3 t ht⟩

theorem firstOf_unique {st : SymbolTable} {n : Str} {b b' a a' : SymbolTable} {s s' : Symbol} (h : FirstOf st n b s a) (h' : FirstOf st n b' s' a') :
    b = b' ∧ s = s' ∧ a = a' := by
  obtain ⟨h1, h2, h3⟩ := h
  obtain ⟨k1, k2, k3⟩ := h'
  rw [h1] at k1
  clear h1
  induction b generalizing b' with
  | nil =>
    cases b' with
    | nil => simp at k1; exact ⟨rfl, k1.1, k1.2⟩
    | cons x b' =>
      simp only [List.nil_append, List.cons_append, List.cons.injEq] at k1
      exact absurd (k1.1 ▸ h2) (k3 x (by simp))
  | cons y b ih =>
    cases b' with
    | nil =>
      simp only [List.nil_append, List.cons_append, List.cons.injEq] at k1
      exact absurd (k1.1 ▸ k2) (h3 y (by simp))
    | cons x b' =>
      simp only [List.cons_append, List.cons.injEq] at k1
      obtain ⟨e1, e2, e3⟩ := ih (fun t ht => h3 t (by simp [ht])) k1.2 (fun t ht => k3 t (by simp [ht]))
      exact ⟨by rw [k1.1, e1], e2, e3⟩

theorem findName_first {st : SymbolTable} {n : Str} {b a : SymbolTable} {s : Symbol} (h : FirstOf st n b s a) : findName st n = some b.length := by
  obtain ⟨h1, h2, h3⟩ := h
  unfold findName
  rw [List.findIdx?_eq_some_iff_getElem, h1]
  refine ⟨by simp, ?_, ?_⟩
  · simp only [List.getElem_append_right (Nat.le_refl _), Nat.sub_self, List.getElem_cons_zero]
    exact equalFold_iff.2 h2.symm
  · intro j hj
    rw [List.getElem_append_left hj]
    have := h3 b[j] (List.getElem_mem hj)
    simp only [Bool.not_eq_true]
    exact equalFold_false.2 fun e => this e.symm

/-- What is left to be stored after a symbol is deleted. -/
theorem storable_delete {st : SymbolTable} {n : Str} {b a : SymbolTable} {s : Symbol} (h : FirstOf st n b s a) :
    (deleteSymbol st n).1 = true ∧ (deleteSymbol st n).2.length = st.length ∧
    ((∀ x ∈ (deleteSymbol st n).2, Storable x.name) ↔ ∀ x ∈ b ++ a, Storable x.name) := by
  have hf := findName_first h
  obtain ⟨s', hs', e⟩ := deleteSymbol_some hf
  refine ⟨by rw [e], by rw [← keys_length, keys_delete hf, List.length_set, keys_length], ?_⟩
  rw [storable_keys, keys_delete hf, h.1]
  unfold keys
  rw [List.map_append, List.map_cons, List.set_append_right _ _ (by simp)]
  simp only [List.length_map, Nat.sub_self, List.set_cons_zero, List.mem_append, List.mem_cons, List.mem_map]
  constructor
  · rintro hall x (hx | hx)
    · exact hall (x.address, x.name) (Or.inl ⟨x, hx, rfl⟩)
    · exact hall (x.address, x.name) (Or.inr (Or.inr ⟨x, hx, rfl⟩))
  · rintro hall k (⟨x, hx, rfl⟩ | rfl | ⟨x, hx, rfl⟩)
    · exact hall x (Or.inl hx)
    · exact Or.inl rfl
    · exact hall x (Or.inr hx)

/-! ## What is read from a disk -/

theorem parseSymbols_unused {a b : Vector UInt8 0x1000} : ∀ (n : Nat) (h : n ≤ 819) {st : SymbolTable}, parseSymbols a b n h = .ok st →
    ∀ s ∈ st, s.address = 0 → s.name = [] := by
  intro n
  induction n with
  | zero =>
    intro h st e s hs
    simp only [parseSymbols, Out.ok.injEq] at e
    subst e
    simp at hs
  | succ n ih =>
    intro h st e s hs
    unfold parseSymbols at e
    obtain ⟨table, e1, e⟩ := Out.bind_eq_ok.1 e
    obtain ⟨sym, e2, e⟩ := Out.bind_eq_ok.1 e
    simp only [Out.ok.injEq] at e
    subst e
    rcases List.mem_append.1 hs with hs | hs
    · exact ih _ e1 s hs
    · rw [List.mem_singleton] at hs
      subst hs
      unfold parseSymbol at e2
      simp only at e2
      split at e2
      · cases e2; intro _; rfl
      · rename_i hne
        split at e2
        · split at e2
          · simp at e2
          · split at e2
            · simp at e2
            · cases e2; intro h0; exact absurd h0 hne
        · cases e2; intro h0; exact absurd h0 hne

/-- Unused entries of a table read from a disk have no name. -/
theorem opened_unused {img : Bytes} {o : Operator} (h : openOperator img = .ok o) : ∀ s ∈ o.table, s.address = 0 → s.name = [] := by
  unfold openOperator at h
  obtain ⟨sm, _, h⟩ := Out.bind_eq_ok.1 h
  obtain ⟨_, _, h⟩ := Out.bind_eq_ok.1 h
  cases hr : readSymbolTable sm img with
  | ok st =>
    rw [hr] at h
    cases h
    show ∀ s ∈ st, _
    unfold readSymbolTable at hr
    obtain ⟨t1, _, hr⟩ := Out.bind_eq_ok.1 hr
    split at hr
    · obtain ⟨t2, _, hr⟩ := Out.bind_eq_ok.1 hr
      split at hr
      · obtain ⟨table, hp, hr⟩ := Out.bind_eq_ok.1 hr
        obtain ⟨_, _, hr⟩ := Out.bind_eq_ok.1 hr
        cases hr
        exact parseSymbols_unused _ _ hp
      · simp at hr
    · simp at hr
  | err k => rw [hr] at h; cases h; intro s hs; simp [Operator.table] at hs
  | panic => rw [hr] at h; simp at h
  | timeout => rw [hr] at h; simp at h

theorem standsFor_iff {st : SymbolTable} {n : Str} (hn : ∀ g, ¬ NumericName n g) (f : UInt8) :
    fileForName st n = .ok f ↔ StandsFor st n f := by
  rw [C34_resolves_iff]
  unfold StandsFor
  constructor
  · rintro (h | ⟨_, h1, x, hx, h2⟩)
    · exact absurd h (hn f)
    · obtain ⟨b, a, h3⟩ := firstOf_find.1 hx
      exact ⟨h1, b, x, a, h3, h2⟩
  · rintro ⟨h1, b, x, a, h3, h2⟩
    exact Or.inr ⟨hn, h1, x, firstOf_find.2 ⟨b, a, h3⟩, h2⟩

theorem nameOf_iff {st : SymbolTable} {n : Str} (f : UInt8) : fileForName st n = .ok f ↔ NameOf st n f := by
  unfold NameOf
  by_cases hn : ∃ g, NumericName n g
  · rw [C34_resolves_iff]
    obtain ⟨g, hg⟩ := hn
    exact ⟨fun h => h.elim Or.inl fun h => absurd hg (h.1 g), fun h => h.elim Or.inl fun h => absurd hg (h.1 g)⟩
  · have hn' : ∀ g, ¬ NumericName n g := fun g h => hn ⟨g, h⟩
    rw [standsFor_iff hn']
    exact ⟨fun h => Or.inr ⟨hn', h⟩, fun h => h.elim (fun h => absurd h (hn' f)) (·.2)⟩

/-! ## The first unused file -/

theorem firstFree_least {sm : SectorMap} : ∀ l : List UInt8, l.Pairwise (fun a b => a.toNat < b.toNat) → (∀ x ∈ l, x ≠ 0) →
    firstFreeFileLoop sm l ≠ 0 → ∀ g ∈ l, g.toNat < (firstFreeFileLoop sm l).toNat → ownedBy (own sm) g ≠ [] := by
  intro l
  induction l with
  | nil => intro _ _ h; simp [firstFreeFileLoop] at h
  | cons x l ih =>
    intro hp h0 hne g hg hlt
    obtain ⟨hx, hp⟩ := List.pairwise_cons.1 hp
    unfold firstFreeFileLoop at hne hlt
    split at hne
    · rename_i h1
      rw [if_pos h1] at hlt
      rcases List.mem_cons.1 hg with rfl | hg
      · omega
      · have := hx g hg; omega
    · rename_i h1
      rw [if_neg h1] at hlt
      rcases List.mem_cons.1 hg with rfl | hg
      · rw [sectorsForFile_eq, List.length_map] at h1
        intro e
        rw [e] at h1
        simp at h1
      · exact ih hp (fun y hy => h0 y (by simp [hy])) hne g hg hlt

theorem allFiles_sorted : allFiles.Pairwise (fun a b => a.toNat < b.toNat) := by decide +kernel

theorem firstUnused_iff {sm : SectorMap} {img : Bytes} (h : Good sm img) (f : UInt8) :
    FirstUnused (fileOnDisk img) f ↔ firstFreeFile sm ≠ 0 ∧ f = firstFreeFile sm := by
  have key : firstFreeFile sm ≠ 0 → FirstUnused (fileOnDisk img) (firstFreeFile sm) := by
    intro hne
    refine ⟨firstFreeFile_file hne, (fileOnDisk_nil h _).2 (firstFreeFileLoop_mem hne).2, fun g hg hlt => ?_⟩
    rw [ne_eq, fileOnDisk_nil h]
    exact firstFree_least allFiles allFiles_sorted (fun x hx => (mem_allFiles.1 hx).1) hne g (mem_allFiles.2 hg) hlt
  constructor
  · rintro ⟨h1, h2, h3⟩
    have hne := firstFreeFile_ne h1 ((fileOnDisk_nil h f).1 h2)
    obtain ⟨k1, k2, k3⟩ := key hne
    refine ⟨hne, UInt8.toNat_inj.1 ?_⟩
    rcases Nat.lt_trichotomy f.toNat (firstFreeFile sm).toNat with hlt | heq | hgt
    · exact absurd h2 (k3 f h1 hlt)
    · exact heq
    · exact absurd k2 (h3 _ k1 hgt)
  · rintro ⟨hne, rfl⟩
    exact key hne

/-! ## Names given to put -/

/-- The name is understood as `PutMeans` says. -/
theorem compound_means (m : Files) (st : SymbolTable) (name : Str) :
    (∃ n nf sym, filesForCompoundName st name = .ok (n, nf, sym) ∧
      (∀ f s, PutMeans m st name f s ↔ s = sym ∧ if n = 0 then FirstUnused m f else f = n) ∧
      ∀ f, PutMeans m st name f sym → sym ≠ [] → (nf = f ↔ StandsFor st sym f)) ∨
    (filesForCompoundName st name = .err .other ∧ ∀ f s, ¬ PutMeans m st name f s) := by
  have hnof : ∀ {s : Str}, (∀ g, ¬ NumericName s g) → fileForName st s = .err .fileNotFound → ∀ g, ¬ StandsFor st s g := by
    intro s hs he g hg
    have := (standsFor_iff hs g).2 hg
    rw [he] at this
    cases this
  have huniq : ∀ {s : Str} {f g : UInt8}, (∀ g, ¬ NumericName s g) → fileForName st s = .ok f → (StandsFor st s g ↔ f = g) := by
    intro s f g hs he
    rw [← standsFor_iff hs g, he]
    exact ⟨fun h => by cases h; rfl, fun h => by rw [h]⟩
  rcases C39_exhaustive name with hcol | ⟨a, b, ha, hb, rfl⟩ | hmany
  · left
    have hno3 : ∀ {f s}, ¬ ∃ a, name = a ++ 0x3A :: s ∧ NumericName a f ∧ (0x3A : UInt8) ∉ s ∧ ∀ g, ¬ NumericName s g := by
      rintro f s ⟨a, e, _⟩
      rw [e] at hcol
      simp at hcol
    by_cases hg : ∃ g, NumericName name g
    · obtain ⟨g, hg⟩ := hg
      refine ⟨g, 0, [], (C39_plain st hcol).1 g hg, fun f s => ?_, fun f _ hc => absurd rfl hc⟩
      rw [if_neg hg.1.1]
      constructor
      · rintro (⟨h1, h2⟩ | ⟨_, h2, _⟩ | h3)
        · exact ⟨h2, C34_numeric_unique h1 hg⟩
        · exact absurd hg (h2 g)
        · exact absurd h3 hno3
      · rintro ⟨rfl, rfl⟩
        exact Or.inl ⟨hg, rfl⟩
    · have hg' : ∀ g, ¬ NumericName name g := fun g h => hg ⟨g, h⟩
      rcases C34_resolution_total st name with ⟨g, hres, hgf⟩ | hres
      · refine ⟨g, g, name, (C39_plain st hcol).2.1 hg' g hres, fun f s => ?_, fun f _ _ => (huniq hg' hres).symm⟩
        rw [if_neg hgf.1]
        constructor
        · rintro (⟨h1, _⟩ | ⟨_, _, h1, h2 | ⟨h2, _⟩⟩ | h3)
          · exact absurd h1 (hg' f)
          · exact ⟨h1, ((huniq hg' hres).1 h2).symm⟩
          · exact absurd ((huniq hg' hres).2 rfl) (h2 g)
          · exact absurd h3 hno3
        · rintro ⟨rfl, rfl⟩
          exact Or.inr (Or.inl ⟨hcol, hg', rfl, Or.inl ((huniq hg' hres).2 rfl)⟩)
      · have hn := hnof hg' hres
        have key : ∀ f s, PutMeans m st name f s ↔ s = name ∧ FirstUnused m f := by
          intro f s
          constructor
          · rintro (⟨h1, _⟩ | ⟨_, _, h1, h2 | ⟨_, h2⟩⟩ | h3)
            · exact absurd h1 (hg' f)
            · exact absurd h2 (hn f)
            · exact ⟨h1, h2⟩
            · exact absurd h3 hno3
          · rintro ⟨rfl, h2⟩
            exact Or.inr (Or.inl ⟨hcol, hg', rfl, Or.inr ⟨hn, h2⟩⟩)
        refine ⟨0, 0, name, (C39_plain st hcol).2.2 hg' hres, fun f s => ?_, fun f hf _ => ?_⟩
        · rw [if_pos rfl]; exact key f s
        · have := ((key f name).1 hf).2.1.1
          exact ⟨fun e => absurd e.symm this, fun e => absurd e (hn f)⟩
  · obtain ⟨C1, C2, C3⟩ := C39_compound st ha hb
    have hnum : ∀ g, ¬ NumericName (a ++ 0x3A :: b) g := by
      intro g hg
      have := numeric_no_colon hg
      simp at this
    have hthird : ∀ {f s}, PutMeans m st (a ++ 0x3A :: b) f s ↔ s = b ∧ NumericName a f ∧ ∀ g, ¬ NumericName b g := by
      intro f s
      constructor
      · rintro (⟨h1, _⟩ | ⟨h1, _⟩ | ⟨a', e, h1, h2, h3⟩)
        · exact absurd h1 (hnum f)
        · simp at h1
        · obtain ⟨rfl, rfl⟩ := Cmd.first_colon ha (numeric_no_colon h1) e
          exact ⟨rfl, h1, h3⟩
      · rintro ⟨rfl, h1, h2⟩
        exact Or.inr (Or.inr ⟨a, rfl, h1, hb, h2⟩)
    by_cases hg : ∃ g, NumericName b g
    · right
      refine ⟨C3 hg, fun f s h => ?_⟩
      obtain ⟨g, hg⟩ := hg
      exact (hthird.1 h).2.2 g hg
    have hg' : ∀ g, ¬ NumericName b g := fun g h => hg ⟨g, h⟩
    by_cases hn : ∃ f, NumericName a f
    · obtain ⟨n, hn⟩ := hn
      left
      have key : ∀ f s, PutMeans m st (a ++ 0x3A :: b) f s ↔ s = b ∧ if n = 0 then FirstUnused m f else f = n := by
        intro f s
        rw [hthird, if_neg hn.1.1]
        exact ⟨fun h => ⟨h.1, C34_numeric_unique h.2.1 hn⟩, fun h => ⟨h.1, h.2 ▸ hn, hg'⟩⟩
      rcases C34_resolution_total st b with ⟨g, hres, hgf⟩ | hres
      · exact ⟨n, g, b, (C1 n hn hg').1 g hres, key, fun f _ _ => (huniq hg' hres).symm⟩
      · refine ⟨n, 0, b, (C1 n hn hg').2 hres, key, fun f hf _ => ?_⟩
        have h2 := ((key f b).1 hf).2
        rw [if_neg hn.1.1] at h2
        exact ⟨fun e => absurd (e.trans h2).symm hn.1.1, fun e => absurd e (hnof hg' hres f)⟩
    · right
      refine ⟨C2 fun f h => hn ⟨f, h⟩, fun f s h => hn ⟨f, (hthird.1 h).2.1⟩⟩
  · right
    refine ⟨C39_many_colons st hmany, ?_⟩
    rintro f s (⟨h1, _⟩ | ⟨h1, _⟩ | ⟨a', e, h1, h2, _⟩)
    · have := List.count_eq_zero.2 (numeric_no_colon h1)
      omega
    · have := List.count_eq_zero.2 h1
      omega
    · rw [e, List.count_append, List.count_cons_self, List.count_eq_zero.2 (numeric_no_colon h1), List.count_eq_zero.2 h2] at hmany
      omega

theorem putNumbered_iff {o : Operator} (h : Good o.sm o.data) (ho : openOperator o.data = .ok o) {f nf : UInt8} {sym : Str} {data : Bytes}
    {ow : Bool} (hf : IsFileNumber f) (hd : data ≠ []) (hsym : Storable sym) (hlen : o.table.length ≤ 819) :
    (o.putNumbered f nf sym data ow).out = .ok () ↔
      sectorsNeeded data.length ≤ (ownedBy (own o.sm) 0xFF).length + (ownedBy (own o.sm) f).length ∧
      (ow = true ∨ ownedBy (own o.sm) f = []) ∧
      (nf ≠ f → sym ≠ [] → ∃ st, o.st = some st ∧ PlaceFor st sym ∧ ∀ e ∈ st, Storable e.name) := by
  have hout := (C25_write_outcome (sm := o.sm) (img := o.data) (f := f) (c := data) ow h.len hf hd).2.2.1
  by_cases hok : (writeFile o.sm o.data f data ow).out = .ok ()
  swap
  · constructor
    · intro hc
      unfold Operator.putNumbered at hc
      simp only at hc
      split at hc
      · rename_i e; exact absurd e hok
      · exact absurd hc hok
    · rintro ⟨h1, h2, _⟩
      exact absurd (hout.2 ⟨h1, h2.symm⟩) hok
  have hroom := hout.1 hok
  have hrest : (o.putNumbered f nf sym data ow).out = .ok () ↔
      (nf ≠ f → sym ≠ [] → ∃ st, o.st = some st ∧ PlaceFor st sym ∧ ∀ e ∈ st, Storable e.name) := by
    unfold Operator.putNumbered
    simp only
    rw [hok]
    dsimp only
    by_cases hc : nf ≠ f ∧ sym ≠ []
    · rw [if_pos hc]
      cases hst : o.st with
      | none =>
        dsimp only
        constructor
        · intro e; simp at e
        · intro e
          obtain ⟨st, e, _⟩ := e hc.1 hc.2
          simp at e
      | some st =>
        dsimp only
        have htab : o.table = st := by unfold Operator.table; rw [hst]; rfl
        rw [htab] at hlen
        have hz : ∀ s ∈ st, s.address = 0 → s.name = [] := by rw [← htab]; exact opened_unused ho
        obtain ⟨s3, s4⟩ := table_sizes h ho hst
        obtain ⟨hfit, em, ei⟩ := writeFile_ok_inv h.len hf hd hok
        have hk := keep_writeFile (c := data) (ow := ow) h hf (by rw [hok]; simp)
        have hg := hk.good
        rw [em, ei] at hg ⊢
        have hp := addSymbol_succeeds (st := st) (name := sym) (addr_ne_zero f)
        have hs := storable_add (st := st) (a := 0xDF00 + f.toUInt16) hz hsym
        rcases hy : addSymbol st sym (0xDF00 + f.toUInt16) with ⟨out, st'⟩
        rw [hy] at hp hs
        dsimp only at hp hs
        by_cases ho' : out = .ok ()
        · subst ho'
          obtain ⟨hl, hs⟩ := hs rfl
          have hff : f ≠ 0xFF := hf.2.2
          have hfree := ownedBy_newMap_free (sm := o.sm) (f := f) (c := data) hff
          have hself := ownedBy_newMap_self o.sm data hff
          have hother : ∀ g, g ≠ f → g ≠ 0xFF → ownedBy (own (newMap o.sm f data)) g = ownedBy (own o.sm) g :=
            fun g => ownedBy_newMap_other o.sm data
          have hw := writeSymbolTable_iff hg (st := st') (by omega) (by
            by_cases e3 : f = 3
            · subst e3; rw [hself]; omega
            · rw [hother 3 (fun h => e3 h.symm) (by decide), s3]; omega) (by
            by_cases e3 : f = 3
            · subst e3; rw [hself, hother 4 (by decide) (by decide), s4]; omega
            · rw [hother 3 (fun h => e3 h.symm) (by decide), s3]
              by_cases e4 : f = 4
              · subst e4; rw [hself]; omega
              · rw [hother 4 (fun h => e4 h.symm) (by decide), s4]; omega)
          dsimp only
          rw [hw, hs]
          constructor
          · intro e _ _; exact ⟨st, rfl, hp.1 rfl, e⟩
          · intro e
            obtain ⟨st', e1, _, e2⟩ := e hc.1 hc.2
            cases e1
            exact e2
        · constructor
          · intro e
            cases out with
            | ok _ => exact absurd rfl ho'
            | err k => simp at e
            | panic => simp at e
            | timeout => simp at e
          · intro e
            obtain ⟨st', e1, e2, _⟩ := e hc.1 hc.2
            cases e1
            exact absurd (hp.2 e2) ho'
    · rw [if_neg hc]
      simp only [true_iff]
      intro h1 h2
      exact absurd ⟨h1, h2⟩ hc
  rw [hrest]
  exact ⟨fun e => ⟨hroom.1, hroom.2.symm, e⟩, fun e => e.2.2⟩

/-- When the operator's put succeeds, on any disk. -/
theorem putFile_iff {o : Operator} (h : Good o.sm o.data) (ho : openOperator o.data = .ok o) (hlen : o.table.length ≤ 819)
    {name : Str} {data : Bytes} {ow : Bool} {a : UInt16} (hd : data ≠ []) :
    (o.putFile ⟨{ name := name, length := data.length, type := filetypeBinary }, data, a⟩ ow).out = .ok () ↔
      ∃ f sym, PutMeans (fileOnDisk o.data) o.table name f sym ∧
        sectorsNeeded data.length ≤ (ownedBy (own o.sm) 0xFF).length + (ownedBy (own o.sm) f).length ∧
        (ow = true ∨ ownedBy (own o.sm) f = []) ∧
        (sym ≠ [] → ∃ st, o.st = some st ∧ Storable sym ∧ (StandsFor st sym f ∨ PlaceFor st sym ∧ ∀ e ∈ st, Storable e.name)) := by
  unfold Operator.putFile
  rw [if_neg (by simp), if_neg (by simp)]
  dsimp only
  rcases compound_means (fileOnDisk o.data) o.table name with ⟨n, nf, sym, hc, hm, hs⟩ | ⟨hc, hm⟩
  swap
  · rw [hc]
    constructor
    · intro e; simp at e
    · rintro ⟨f, sym, e, _⟩; exact absurd e (hm f sym)
  rw [hc]
  dsimp only
  by_cases c1 : sym ≠ [] ∧ o.st = none
  · rw [if_pos c1]
    constructor
    · intro e; simp at e
    · rintro ⟨f, s, e1, _, _, e2⟩
      obtain ⟨rfl, _⟩ := (hm f s).1 e1
      obtain ⟨st, e3, _⟩ := e2 c1.1
      rw [c1.2] at e3
      simp at e3
  rw [if_neg c1]
  by_cases c2 : sym ≠ [] ∧ (encodeSymbol sym).isErr = true
  · rw [if_pos c2]
    constructor
    · intro e; simp at e
    · rintro ⟨f, s, e1, _, _, e2⟩
      obtain ⟨rfl, _⟩ := (hm f s).1 e1
      obtain ⟨st, _, e3, _⟩ := e2 c2.1
      obtain ⟨six, e3⟩ := storable_encode.1 e3
      rw [e3] at c2
      simp [Out.isErr] at c2
  rw [if_neg c2]
  have hsym : Storable sym := by
    by_cases e : sym = []
    · exact Or.inl e
    · rw [storable_encode]
      have := C30_accepts_iff sym
      cases hx : encodeSymbol sym with
      | ok six => exact ⟨six, rfl⟩
      | err k => rw [hx] at c2; exact absurd ⟨e, rfl⟩ c2
      | panic => rw [encodeSymbol_eq e] at hx; split at hx <;> simp at hx
      | timeout => rw [encodeSymbol_eq e] at hx; split at hx <;> simp at hx
  have hst : sym ≠ [] → ∃ st, o.st = some st ∧ o.table = st := by
    intro e
    cases h1 : o.st with
    | none => exact absurd ⟨e, h1⟩ c1
    | some st => exact ⟨st, rfl, by unfold Operator.table; rw [h1]; rfl⟩
  -- the number
  have hnum : ∀ f, (if n = 0 then FirstUnused (fileOnDisk o.data) f else f = n) ↔
      (if n = 0 then firstFreeFile o.sm else n) ≠ 0 ∧ f = if n = 0 then firstFreeFile o.sm else n := by
    intro f
    by_cases e : n = 0
    · rw [if_pos e, if_pos e]; exact firstUnused_iff h f
    · rw [if_neg e, if_neg e]; exact ⟨fun h => ⟨e, h⟩, fun h => h.2⟩
  have hm' : ∀ f s, PutMeans (fileOnDisk o.data) o.table name f s ↔
      s = sym ∧ (if n = 0 then firstFreeFile o.sm else n) ≠ 0 ∧ f = if n = 0 then firstFreeFile o.sm else n := by
    intro f s; rw [hm, hnum]
  clear hm hnum
  have hisf : (if n = 0 then firstFreeFile o.sm else n) ≠ 0 → IsFileNumber (if n = 0 then firstFreeFile o.sm else n) := by
    intro e
    by_cases e0 : n = 0
    · rw [if_pos e0] at e ⊢; exact firstFreeFile_file e
    · rw [if_neg e0]; exact filesForCompoundName_file hc e0
  generalize (if n = 0 then firstFreeFile o.sm else n) = num at hm' hisf ⊢
  by_cases c3 : num = 0
  · rw [if_pos c3]
    constructor
    · intro e; simp at e
    · rintro ⟨f, s, e1, _⟩
      exact absurd c3 ((hm' f s).1 e1).2.1
  rw [if_neg c3, putNumbered_iff h ho (hisf c3) hd hsym hlen]
  have hmean := (hm' num sym).2 ⟨rfl, c3, rfl⟩
  constructor
  · rintro ⟨h1, h2, h3⟩
    refine ⟨num, sym, hmean, h1, h2, fun e => ?_⟩
    obtain ⟨st, e1, e2⟩ := hst e
    refine ⟨st, e1, hsym, ?_⟩
    by_cases e3 : nf = num
    · left; rw [← e2]; exact (hs num hmean e).1 e3
    · right
      obtain ⟨st', k1, k2⟩ := h3 e3 e
      rw [e1] at k1
      cases k1
      exact k2
  · rintro ⟨f, s, e1, h1, h2, h3⟩
    obtain ⟨rfl, _, rfl⟩ := (hm' f s).1 e1
    refine ⟨h1, h2, fun k1 k2 => ?_⟩
    obtain ⟨st, k3, _, k4 | k4⟩ := h3 k2
    · obtain ⟨st', e1, e2⟩ := hst k2
      rw [k3] at e1
      cases e1
      rw [← e2] at k4
      exact absurd ((hs f hmean k2).2 k4) k1
    · exact ⟨st, k3, k4⟩

/-- When the operator's delete succeeds, on any disk. -/
theorem delete_iff {o : Operator} (h : Good o.sm o.data) (ho : openOperator o.data = .ok o) (hlen : o.table.length ≤ 819) {name : Str} :
    (o.delete name).out = .ok () ↔ ∃ f, NameOf o.table name f ∧
      ∀ before s after, FirstOf o.table name before s after → ∀ e ∈ before ++ after, Storable e.name := by
  rcases fileForName_cases o.table name with ⟨f, hn⟩ | hn
  swap
  · rw [op_delete_err hn]
    constructor
    · intro e; simp at e
    · rintro ⟨f, e, _⟩
      rw [← nameOf_iff, hn] at e
      simp at e
  have hf := fileForName_file hn
  obtain ⟨hp, hk⟩ := keep_delete h hf
  have key : (o.delete name).out = .ok () ↔
      ∀ before s after, FirstOf o.table name before s after → ∀ e ∈ before ++ after, Storable e.name := by
    unfold Operator.delete
    rw [hn]
    simp only [hp]
    cases hst : o.st with
    | none =>
      simp only [true_iff]
      rintro b s a ⟨e, _⟩
      unfold Operator.table at e
      rw [hst] at e
      simp at e
    | some st =>
      have htab : o.table = st := by unfold Operator.table; rw [hst]; rfl
      rw [htab] at hlen
      rw [htab]
      dsimp only
      cases hx : st.find? (fun x => decide (SameName x.name name)) with
      | none =>
        have hnone : ∀ s ∈ st, ¬ SameName name s.name := by
          intro s hs e
          have := List.find?_eq_none.1 hx s hs
          exact this (decide_eq_true e.symm)
        rw [deleteSymbol_none hnone]
        simp only [true_iff]
        rintro b s a ⟨e, e2, _⟩
        exact absurd e2.symm (hnone s (by rw [e]; simp))
      | some x =>
        obtain ⟨b, a, hfo⟩ := firstOf_find.1 hx
        obtain ⟨d1, d2, d3⟩ := storable_delete hfo
        obtain ⟨s3, s4⟩ := table_sizes h ho hst
        have hff : f ≠ 0xFF := hf.2.2
        have hfree := ownedBy_deleteFile_free o.sm hff
        have hself := ownedBy_deleteFile_self o.sm hff
        have hother : ∀ g, g ≠ f → g ≠ 0xFF → ownedBy (own (deleteFile o.sm f)) g = ownedBy (own o.sm) g :=
          fun g => ownedBy_deleteFile_other o.sm
        have hw := writeSymbolTable_iff hk.good (st := (deleteSymbol st name).2) (by omega) (by
            by_cases e3 : f = 3
            · subst e3; rw [hself, hfree, s3]; omega
            · rw [hother 3 (fun h => e3 h.symm) (by decide), s3]; omega) (by
            by_cases e3 : f = 3
            · subst e3; rw [hself, hfree, hother 4 (by decide) (by decide), s3, s4]; simp
            · rw [hother 3 (fun h => e3 h.symm) (by decide), s3]
              by_cases e4 : f = 4
              · subst e4; rw [hself, hfree, s4]; simp
              · rw [hother 4 (fun h => e4 h.symm) (by decide), s4]; omega)
        rcases hy : deleteSymbol st name with ⟨bb, st'⟩
        rw [hy] at d1 d3 hw
        dsimp only at d1 d3 hw
        subst d1
        dsimp only
        rw [hw, d3]
        constructor
        · rintro hall b' s' a' h'
          obtain ⟨rfl, rfl, rfl⟩ := firstOf_unique hfo h'
          exact hall
        · intro hall
          exact hall b x a hfo
  rw [key]
  exact ⟨fun e => ⟨f, (nameOf_iff f).1 hn, e⟩, fun ⟨_, _, e⟩ => e⟩

end Verif.Supermon

namespace Verif.Cmd
open Disk Spec

theorem put_ok_iff {env : Env} {w : World} {image order system : Str} {o : Supermon.Operator} {ord : DiskOrder}
    (hi : image ≠ str "-") (ho : Finds env w image order system (.nakedos o) ord) {source ty name : Str} {data : Bytes}
    (hdata : given w source = some data) {ow : Bool} {a : UInt16} :
    (run env (.put order system ty ow a image name source) w).1 = .ok () ↔
      Types.filetypeForName ty = .ok filetypeBinary ∧
      (o.putFile ⟨{ name := name, length := data.length, type := filetypeBinary }, data, a⟩ ow).out = .ok () := by
  obtain ⟨raw, hg, hopen⟩ := ho
  unfold given at hg
  rw [if_neg hi] at hg hopen
  have hnk := open_naked hopen
  constructor
  · intro h
    obtain ⟨raw', o', ord', data', ft, new, h1, h2, h3, h4, h5, h6, h7⟩ := put_inv_type hi h
    rw [hg] at h1
    cases h1
    rw [hopen] at h2
    cases h2
    rw [hdata] at h3
    cases h3
    have hft := (Supermon.putFile_checks h4).1
    dsimp only at hft
    subst hft
    exact ⟨h7, h4⟩
  · rintro ⟨hft, hput⟩
    change (putCmd env World.writeOutput order system ty ow a image name source w).1 = _
    unfold putCmd
    rw [if_neg (fun h => hi h.1), bind_run (a := (.nakedos o, ord)) (w' := w) (by rw [openDisk_eq hi hg, hopen])]
    dsimp only
    rw [bind_run (a := data) (w' := afterReading w source) (contentsOf_eq_given hdata)]
    rw [bind_run (a := filetypeBinary) (w' := afterReading w source) (by unfold lift; rw [hft])]
    generalize hfi : (⟨{ name := name, length := data.length, type := filetypeBinary }, data, a⟩ : FileInfo) = fi at hput ⊢
    obtain ⟨_, hk⟩ := Supermon.keep_op_put hnk.good (fi := fi) (ow := ow) (by rw [hput]; simp)
    have e : AnyOp.putFile (.nakedos o) fi ow = (.ok (o.putFile fi ow).existed, .nakedos (o.putFile fi ow).op) := by
      unfold AnyOp.putFile
      dsimp only
      rw [hput]
    rw [e]
    dsimp only
    rw [bind_run (m := lift (.ok (o.putFile fi ow).existed)) (a := (o.putFile fi ow).existed) (w' := afterReading w source) rfl]
    unfold writeDisk writeBackVia
    rw [writeBack_naked hk.good.len hnk.order]
    dsimp only
    unfold World.writeOutput
    rw [if_neg hi, if_neg (by simp)]

/-- C91, on every NakedOS disk, with any symbol table or none: `put` of something succeeds exactly if the file type is binary, the name says
where to put it, there is room, nothing is replaced without permission, and, if a symbol is given, the disk has a table that can be read, the
symbol can be stored, and it stands for the file already, or the table has a place for it and all its names can be stored again. -/
theorem C91_put {env : Env} {w : World} {image order system : Str} {o : Supermon.Operator} {ord : DiskOrder}
    (hi : image ≠ str "-") (ho : Finds env w image order system (.nakedos o) ord) {source ty name : Str} {data : Bytes}
    (hdata : given w source = some data) (hd : data ≠ []) {ow : Bool} {a : UInt16} :
    (run env (.put order system ty ow a image name source) w).1 = .ok () ↔
      Types.filetypeForName ty = .ok filetypeBinary ∧
      ∃ f sym, PutMeans (fileOnDisk o.data) o.table name f sym ∧
        sectorsNeeded data.length ≤ (ownedBy (owner o.data) 0xFF).length + (ownedBy (owner o.data) f).length ∧
        (ow = true ∨ fileOnDisk o.data f = []) ∧
        (sym ≠ [] → ∃ st, o.st = some st ∧ Storable sym ∧ (StandsFor st sym f ∨ PlaceFor st sym ∧ ∀ e ∈ st, Storable e.name)) := by
  obtain ⟨hgood, hlen⟩ := finds_naked ho
  have hop : Supermon.openOperator o.data = .ok o := by
    obtain ⟨raw, _, hopen⟩ := id ho
    have hnk := open_naked hopen
    rw [hnk.data]; exact hnk.opened
  have hown : ∀ g, ownedBy (owner o.data) g = ownedBy (own o.sm) g := by
    intro g
    unfold ownedBy
    apply List.filter_congr
    intro n hn
    rw [(Supermon.loaded_iff (by have := hgood.len; omega) o.sm).1 hgood.loaded n (List.mem_range.1 hn)]
  rw [put_ok_iff hi ho hdata, Supermon.putFile_iff hgood hop hlen hd]
  refine and_congr_right fun _ => exists_congr fun f => exists_congr fun sym => and_congr_right fun _ => ?_
  rw [hown, hown, Supermon.fileOnDisk_nil hgood]

/-- C94, on every NakedOS disk, with any symbol table or none: `rm` succeeds exactly if the name is that of a file, the file is there or
`--missingok` was given, and, if the name is in the symbol table, all other names of the table can be stored again. -/
theorem C94_rm {env : Env} {w : World} {image order system : Str} {o : Supermon.Operator} {ord : DiskOrder}
    (hi : image ≠ str "-") (ho : Finds env w image order system (.nakedos o) ord) {name : Str} {m : Bool} :
    (run env (.rm order system m image name) w).1 = .ok () ↔
      ∃ f, NameOf o.table name f ∧ (fileOnDisk o.data f ≠ [] ∨ m = true) ∧
        ∀ before s after, FirstOf o.table name before s after → ∀ e ∈ before ++ after, Storable e.name := by
  obtain ⟨hgood, hlen⟩ := finds_naked ho
  obtain ⟨raw, _, hopen⟩ := id ho
  have hnk := open_naked hopen
  have hop : Supermon.openOperator o.data = .ok o := by rw [hnk.data]; exact hnk.opened
  have hiff := Supermon.delete_iff hgood hop hlen (name := name)
  change (rm env World.writeOutput order system m image name w).1 = _ ↔ _
  unfold rm
  rw [bind_run (openDisk_finds ho)]
  dsimp only
  by_cases hout : (o.delete name).out = .ok ()
  · obtain ⟨f, hn, hex, _⟩ := Supermon.delete_split hgood hout
    have hn' := (Supermon.nameOf_iff f).1 hn
    obtain ⟨_, _, hrest⟩ := hiff.1 hout
    have hg2 := (Supermon.good_op_delete hgood name).1
    have e : AnyOp.delete (.nakedos o) name = (.ok (o.delete name).existed, .nakedos (o.delete name).op) := by
      unfold AnyOp.delete
      dsimp only
      rw [hout]
    rw [e]
    dsimp only
    rw [bind_run (m := lift (.ok (o.delete name).existed)) (a := (o.delete name).existed) (w' := afterReading w image) rfl]
    have hthere : (∃ f, NameOf o.table name f ∧ (fileOnDisk o.data f ≠ [] ∨ m = true) ∧
        ∀ before s after, FirstOf o.table name before s after → ∀ e ∈ before ++ after, Storable e.name) ↔
        (ownedBy (own o.sm) f ≠ [] ∨ m = true) := by
      constructor
      · rintro ⟨g, h1, h2, _⟩
        have := (Supermon.nameOf_iff g).2 h1
        rw [hn] at this
        cases this
        rw [ne_eq, Supermon.fileOnDisk_nil hgood] at h2
        exact h2
      · intro h2
        refine ⟨f, hn', ?_, hrest⟩
        rw [ne_eq, Supermon.fileOnDisk_nil hgood]
        exact h2
    rw [hthere, hex]
    by_cases hc : ownedBy (own o.sm) f ≠ [] ∨ m = true
    · rw [if_neg (by
        rintro ⟨ha, hb⟩
        rcases hc with hc | hc
        · simp [hc] at ha
        · rw [hc] at hb; simp at hb)]
      unfold writeDisk writeBackVia
      rw [writeBack_naked hg2.len hnk.order]
      dsimp only
      unfold World.writeOutput
      rw [if_neg hi, if_neg (by simp)]
      simp only [true_iff]
      exact hc
    · rw [if_pos (by
        rw [not_or] at hc
        refine ⟨by simpa using hc.1, by simpa using hc.2⟩)]
      constructor
      · intro e; simp [lift] at e
      · intro e; exact absurd e hc
  · constructor
    · intro hc
      exfalso
      have e : ∀ b, (AnyOp.delete (.nakedos o) name).1 ≠ .ok b := by
        intro b hb
        unfold AnyOp.delete at hb
        dsimp only at hb
        split at hb
        · rename_i hx; exact hout hx
        all_goals simp at hb
      generalize hx : AnyOp.delete (.nakedos o) name = x at hc e
      obtain ⟨r, op'⟩ := x
      dsimp only at hc e
      cases r with
      | ok b => exact e b rfl
      | err k => rw [bind_err (m := lift (.err k)) rfl] at hc; simp at hc
      | panic => simp [lift, bind, Act.bind] at hc
      | timeout => simp [lift, bind, Act.bind] at hc
    · rintro ⟨f, h1, _, h3⟩
      exact absurd (hiff.2 ⟨f, h1, h3⟩) hout

/-- Non-vacuity of C91 and C94 where a name or a table is not in order, or the table itself is touched: on one disk with a symbol table, a `put`
under the symbol "AAA", which stands for no file, succeeds; one under "XY", which is too short, is refused; one on file 3, half of the
symbol table, is refused without and done with `--overwrite`; and `rm` of file 3 succeeds. -/
theorem any_witness (env : Env) : ∃ w,
    (run env (.put (str "do") (str "nakedos") (str "B") false 0 (str "a.do") (str "AAA") (str "x")) w).1 = .ok () ∧
    (run env (.put (str "do") (str "nakedos") (str "B") false 0 (str "a.do") (str "XY") (str "x")) w).1 ≠ .ok () ∧
    (run env (.put (str "do") (str "nakedos") (str "B") false 0 (str "a.do") (str "3") (str "x")) w).1 ≠ .ok () ∧
    (run env (.put (str "do") (str "nakedos") (str "B") true 0 (str "a.do") (str "3") (str "x")) w).1 = .ok () ∧
    (run env (.rm (str "do") (str "nakedos") false (str "a.do") (str "3")) w).1 = .ok () := by
  obtain ⟨img, sm, hg, ho, hroom, h5⟩ := tabled5
  have hi : str "a.do" ≠ str "-" := by decide +kernel
  obtain ⟨hfi, _⟩ := copy_disk env hg ho hroom h5 (d := [1]) (by simp) (by simp) (str "B")
  have hgx : given (copyWorld img [1]) (str "x") = some [1] := by
    unfold given; rw [if_neg (by decide +kernel), copyWorld_x]
  have hown : ∀ g, ownedBy (owner img) g = ownedBy (own sm) g := by
    intro g
    unfold ownedBy
    apply List.filter_congr
    intro n hn
    rw [(Supermon.loaded_iff (by have := hg.len; omega) sm).1 hg.loaded n (List.mem_range.1 hn)]
  obtain ⟨s3, _⟩ := Supermon.table_sizes (o := ⟨img, sm, some Supermon.chainTable⟩) hg ho rfl
  have h3 : fileOnDisk img 3 ≠ [] := by
    rw [ne_eq, Supermon.fileOnDisk_nil hg]
    intro e
    rw [e] at s3
    simp at s3
  have hty : Types.filetypeForName (str "B") = .ok filetypeBinary := by decide +kernel
  have hneed : sectorsNeeded ([1] : Bytes).length = 1 := by decide
  have hnum : NumericName (str "3") 3 := (Supermon.parseAddressFilename_iff (by decide)).1 (by decide +kernel)
  have nonum : ∀ {s : Str}, Supermon.parseAddressFilename s = 0 → ∀ g, ¬ NumericName s g := fun h => (Supermon.parse_zero_iff _).1 h
  have htab : (Supermon.Operator.mk img sm (some Supermon.chainTable)).table = Supermon.chainTable := rfl
  have hall : ∀ e ∈ Supermon.chainTable, Storable e.name := by decide +kernel
  have put := fun (name : Str) (ow : Bool) =>
    C91_put hi hfi (name := name) (ty := str "B") hgx (by simp) (ow := ow) (a := 0)
  refine ⟨copyWorld img [1], ?_, ?_, ?_, ?_, ?_⟩
  · rw [put]
    have hne := Supermon.firstFreeFile_ne numeric5.1 h5
    have hfu := (Supermon.firstUnused_iff hg _).2 ⟨hne, rfl⟩
    refine ⟨hty, Supermon.firstFreeFile sm, str "AAA", Or.inr (Or.inl ⟨by decide +kernel, nonum (by decide +kernel), rfl, Or.inr ⟨?_, hfu⟩⟩), ?_,
      Or.inr hfu.2.1, fun _ => ⟨_, rfl, by decide +kernel, Or.inr ⟨Or.inl ⟨⟨1, str "AAA", -1⟩, by unfold Supermon.chainTable; exact List.mem_cons_self, rfl⟩, hall⟩⟩⟩
    · rintro g ⟨_, b, s, a, hf, hs⟩
      have := Supermon.firstOf_unique hf (b' := []) (s' := ⟨1, str "AAA", -1⟩) (a' := Supermon.chainTable.tail)
        ⟨by rw [htab, Supermon.chainTable]; rfl, rfl, by simp⟩
      rw [this.2.1] at hs
      simp at hs
      omega
    · rw [hown, hown, hneed]; omega
  · rw [ne_eq, put]
    rintro ⟨_, f, sym, hm, _, _, hs⟩
    have : sym = str "XY" := by
      rcases hm with ⟨h, _⟩ | ⟨_, _, h, _⟩ | ⟨a, e, _⟩
      · exact absurd h (nonum (by decide +kernel) f)
      · exact h
      · exfalso
        have : (0x3A : UInt8) ∈ str "XY" := by rw [e]; simp
        revert this
        decide +kernel
    subst this
    obtain ⟨_, _, h, _⟩ := hs (by decide +kernel)
    revert h
    decide +kernel
  · rw [ne_eq, put]
    rintro ⟨_, f, sym, hm, _, hx, _⟩
    have : f = 3 := by
      rcases hm with ⟨h, _⟩ | ⟨_, h, _⟩ | ⟨a, e, _⟩
      · exact Supermon.C34_numeric_unique h hnum
      · exact absurd hnum (h 3)
      · exfalso
        have : (0x3A : UInt8) ∈ str "3" := by rw [e]; simp
        revert this
        decide +kernel
    subst this
    rcases hx with hx | hx
    · simp at hx
    · exact h3 hx
  · rw [put]
    refine ⟨hty, 3, [], Or.inl ⟨hnum, rfl⟩, ?_, Or.inl rfl, fun h => absurd rfl h⟩
    rw [hown, hown, hneed]; omega
  · rw [C94_rm hi hfi]
    refine ⟨3, Or.inl hnum, Or.inl h3, fun b s a hf e he => hall e ?_⟩
    rw [← htab, hf.1]
    rcases List.mem_append.1 he with h | h
    · simp [h]
    · simp [h]

end Verif.Cmd
