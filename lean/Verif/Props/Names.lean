import Verif.Proofs.Tidy
import Verif.Props.History

/-!
# C83: names and files in histories of commands on one image
-/

set_option autoImplicit false

namespace Verif.Supermon
open Disk Spec

/-- The three ways in which a name says where a put goes. -/
theorem put_kinds {o : Operator} {fi : FileInfo} {ow : Bool} (hok : (o.putFile fi ow).out = .ok ()) :
    ∃ f nf sym, IsFileNumber f ∧ o.putFile fi ow = o.putNumbered f nf sym fi.data ow ∧
      ((NumericName fi.descriptor.name f ∧ sym = []) ∨
       ((0x3A : UInt8) ∉ fi.descriptor.name ∧ (∀ g, ¬ NumericName fi.descriptor.name g) ∧ sym = fi.descriptor.name ∧
        ((fileForName o.table fi.descriptor.name = .ok f ∧ nf = f) ∨
         (fileForName o.table fi.descriptor.name = .err .fileNotFound ∧ nf = 0 ∧ ownedBy (own o.sm) f = []))) ∨
       ∃ a b, fi.descriptor.name = a ++ 0x3A :: b ∧ (0x3A : UInt8) ∉ a ∧ (0x3A : UInt8) ∉ b ∧ NumericName a f ∧
        (∀ g, ¬ NumericName b g) ∧ sym = b ∧
        (fileForName o.table b = .ok nf ∨ (fileForName o.table b = .err .fileNotFound ∧ nf = 0))) := by
  unfold Operator.putFile at hok ⊢
  split at hok
  · simp at hok
  rename_i h1
  rw [if_neg h1]
  split at hok
  · simp at hok
  rename_i h2
  rw [if_neg h2]
  rcases filesForCompoundName_cases o.table fi.descriptor.name with ⟨⟨n, m, sym⟩, hc⟩ | hc
  · rw [hc] at hok ⊢
    simp only at hok ⊢
    split at hok
    · simp at hok
    rename_i h3
    rw [if_neg h3]
    split at hok
    · simp at hok
    rename_i h4
    rw [if_neg h4]
    by_cases h5 : (if n = 0 then firstFreeFile o.sm else n) = 0
    · rw [if_pos h5] at hok; simp at hok
    rw [if_neg h5]
    refine ⟨_, m, sym, ?_, rfl, ?_⟩
    · by_cases hn : n = 0
      · rw [if_pos hn] at h5 ⊢; exact firstFreeFile_file h5
      · rw [if_neg hn]; exact filesForCompoundName_file hc hn
    · rcases C39_exhaustive fi.descriptor.name with hcol | ⟨a, b, ha, hb, e⟩ | hmany
      · by_cases hg : ∃ g, NumericName fi.descriptor.name g
        · obtain ⟨g, hg⟩ := hg
          rw [(C39_plain o.table hcol).1 g hg] at hc
          cases hc
          left
          rw [if_neg hg.1.1]
          exact ⟨hg, rfl⟩
        · have hg' : ∀ g, ¬ NumericName fi.descriptor.name g := fun g h => hg ⟨g, h⟩
          right; left
          rcases C34_resolution_total o.table fi.descriptor.name with ⟨f, hf, hff⟩ | hf
          · rw [(C39_plain o.table hcol).2.1 hg' f hf] at hc
            cases hc
            rw [if_neg hff.1]
            exact ⟨hcol, hg', rfl, Or.inl ⟨hf, rfl⟩⟩
          · rw [(C39_plain o.table hcol).2.2 hg' hf] at hc
            cases hc
            rw [if_pos rfl] at h5 ⊢
            exact ⟨hcol, hg', rfl, Or.inr ⟨hf, rfl, (firstFreeFileLoop_mem h5).2⟩⟩
      · rw [e] at hc
        obtain ⟨C1, C2, C3⟩ := C39_compound o.table ha hb
        by_cases hg : ∃ g, NumericName b g
        · rw [C3 hg] at hc; simp at hc
        have hg' : ∀ g, ¬ NumericName b g := fun g h => hg ⟨g, h⟩
        by_cases hn : ∃ f, NumericName a f
        swap
        · rw [C2 (fun f h => hn ⟨f, h⟩)] at hc; simp at hc
        obtain ⟨f, hf⟩ := hn
        right; right
        refine ⟨a, b, e, ha, hb, ?_⟩
        rcases C34_resolution_total o.table b with ⟨g, hfg, _⟩ | hfg
        · rw [(C1 f hf hg').1 g hfg] at hc
          cases hc
          rw [if_neg hf.1.1]
          exact ⟨hf, hg', rfl, Or.inl hfg⟩
        · rw [(C1 f hf hg').2 hfg] at hc
          cases hc
          rw [if_neg hf.1.1]
          exact ⟨hf, hg', rfl, Or.inr ⟨hfg, rfl⟩⟩
      · rw [C39_many_colons o.table hmany] at hc
        simp at hc
  · rw [hc] at hok
    simp at hok

/-- The symbol table found after a put: as it was if no symbol was to be written, and otherwise with the symbol added. -/
theorem table_putNumbered {o : Operator} (h : Good o.sm o.data) (ho : openOperator o.data = .ok o) {f nf : UInt8} {sym : Str} {data : Bytes}
    {ow : Bool} (hf : IsFileNumber f) (h3 : f ≠ 3) (h4 : f ≠ 4) {st : SymbolTable} (hst : o.st = some st)
    (hok : (o.putNumbered f nf sym data ow).out = .ok ()) :
    Keep (fun g => g = f ∨ g = 3 ∨ g = 4) o.sm o.data (o.putNumbered f nf sym data ow).op.sm (o.putNumbered f nf sym data ow).op.data ∧
    fileBytes (own (o.putNumbered f nf sym data ow).op.sm) (o.putNumbered f nf sym data ow).op.data f = padded data ∧
    (ow = false → fileBytes (own o.sm) o.data f = []) ∧
    ((nf = f ∨ sym = []) → tableOn (o.putNumbered f nf sym data ow).op.sm (o.putNumbered f nf sym data ow).op.data = some st) ∧
    (nf ≠ f → sym ≠ [] → (addSymbol st sym (0xDF00 + f.toUInt16)).1 = .ok () ∧
      (WellFormed (addSymbol st sym (0xDF00 + f.toUInt16)).2 →
        tableOn (o.putNumbered f nf sym data ow).op.sm (o.putNumbered f nf sym data ow).op.data =
          some ((addSymbol st sym (0xDF00 + f.toUInt16)).2.map canonical))) := by
  have hw : (writeFile o.sm o.data f data ow).out = .ok () := by
    unfold Operator.putNumbered at hok
    simp only at hok
    split at hok
    · assumption
    · exact hok
  have hnp : (writeFile o.sm o.data f data ow).out ≠ .panic := by rw [hw]; simp
  have hkeep := keep_putNumbered (nf := nf) (sym := sym) h hf hnp
  obtain ⟨_, hcase⟩ := putNumbered_ok h hf hok
  refine ⟨hkeep, ?_, ?_, ?_, ?_⟩
  · rcases hcase with ⟨_, _, hb⟩ | ⟨_, _, st, _, _, _, hb⟩
    · exact hb
    · exact hb ⟨h3, h4⟩
  · exact (writeFile_bytes h hf hw).2
  · intro hor
    have hk : Keep (· = f) o.sm o.data (o.putNumbered f nf sym data ow).op.sm (o.putNumbered f nf sym data ow).op.data := by
      have hk := keep_writeFile h hf hnp
      unfold Operator.putNumbered
      simp only
      split
      · rw [if_neg (fun h => hor.elim h.1 h.2)]
        exact hk
      · exact hk
    rw [tableOn_congr h hk.good (hk.bytes 3 isFile3 (fun h => h3 h.symm)) (hk.bytes 4 isFile4 (fun h => h4 h.symm)),
      ← opened_table h ho, hst]
  · intro hnf hs0
    rcases hcase with ⟨hor, _, _⟩ | ⟨_, _, st', hst', hadd, _, _⟩
    · exact absurd hor (by simp [hnf, hs0])
    rw [hst] at hst'
    cases hst'
    refine ⟨hadd, fun hwf => ?_⟩
    have hk := keep_writeFile h hf hnp
    unfold tableOn
    have hread : readSymbolTable (o.putNumbered f nf sym data ow).op.sm (o.putNumbered f nf sym data ow).op.data =
        .ok ((addSymbol st sym (0xDF00 + f.toUInt16)).2.map canonical) := by
      unfold Operator.putNumbered at hok ⊢
      simp only [hw, if_pos (And.intro hnf hs0), hst] at hok ⊢
      rcases hx : addSymbol st sym (0xDF00 + f.toUInt16) with ⟨out, st'⟩
      rw [hx] at hadd hwf hok
      simp only at hadd hwf
      subst hadd
      simp only at hok ⊢
      exact C31_write_read hk.good hwf hok
    rw [hread]

theorem knows_same {st : SymbolTable} {z : Str} {t : Names} (h : Knows st z t) {k n : Str} (hk : Symbolic k) (hn : Symbolic n)
    (e : SameName k n) : t k = t n := by
  have hu := (tidy_neat h.1).unique
  have : ∀ f, t k = some f ↔ t n = some f := by
    intro f
    rw [h.2.2 k hk, h.2.2 n hn, denotes_iff hu (legal_ne_nil hk.1), denotes_iff hu (legal_ne_nil hn.1), byName_congr e]
  exact Option.ext this

theorem knows_name {st : SymbolTable} {z : Str} {t : Names} (h : Knows st z t) {n : Str} (hn : Symbolic n) :
    (∀ f, fileForName st n = .ok f ↔ t n = some f) ∧ (fileForName st n = .err .fileNotFound ↔ t n = none) := by
  have h1 : ∀ f, fileForName st n = .ok f ↔ t n = some f := by
    intro f
    rw [h.2.2 n hn, fileForName_denotes (tidy_neat h.1).unique hn]
  refine ⟨h1, ?_⟩
  rcases C34_resolution_total st n with ⟨f, hf, _⟩ | hf
  · rw [hf, (h1 f).1 hf]; simp
  · rw [hf]
    simp only [true_iff]
    cases e : t n with
    | none => rfl
    | some f =>
      have := (h1 f).2 e
      rw [hf] at this
      cases this

theorem knows_add {st : SymbolTable} {z : Str} {t : Names} (h : Knows st z t) {n : Str} (hn : Symbolic n) (hz : ¬ SameName n z) {f : UInt8}
    (hf : IsFileNumber f) (hok : (addSymbol st n (0xDF00 + f.toUInt16)).1 = .ok ()) :
    WellFormed (addSymbol st n (0xDF00 + f.toUInt16)).2 ∧
    Knows ((addSymbol st n (0xDF00 + f.toUInt16)).2.map canonical) z (fun k => if SameName k n then some f else t k) := by
  have hN := tidy_neat h.1
  have hd := tidy_noDeadLink h.1 h.2.1 hz
  have hN' := neat_add hN hn (a := 0xDF00 + f.toUInt16) hd
  refine ⟨hN'.sound.wellFormed, hN'.tidy, first_add h.2.1 (first_upper h.1 h.2.1) hz _, ?_⟩
  intro k hk g
  have hk0 := legal_ne_nil hk.1
  rw [denotes_canonical hN' hk0, denotes_add hN hk0 hn hd hf hok]
  dsimp only
  split
  · simp only [Option.some.injEq]; exact eq_comm
  · exact h.2.2 k hk g

theorem knows_delete {st : SymbolTable} {z : Str} {t : Names} (h : Knows st z t) {n : Str} (hn : Symbolic n) (hz : ¬ SameName n z) :
    WellFormed (deleteSymbol st n).2 ∧
    Knows ((deleteSymbol st n).2.map canonical) z (fun k => if SameName k n then none else t k) := by
  have hN := tidy_neat h.1
  have hd := tidy_noDeadLink h.1 h.2.1 hz
  have hn0 := legal_ne_nil hn.1
  have hN' := (neat_delete hN hn0 hd).1
  refine ⟨hN'.sound.wellFormed, hN'.tidy, first_delete h.2.1 (first_upper h.1 h.2.1) hz, ?_⟩
  intro k hk g
  have hk0 := legal_ne_nil hk.1
  rw [denotes_canonical hN' hk0, denotes_delete hN hk0 hn0 hd]
  dsimp only
  split
  · rename_i e; simp [e]
  · rename_i e
    simp only [e, not_false_eq_true, true_and]
    exact h.2.2 k hk g

theorem knows_congr {st : SymbolTable} {z : Str} {t t' : Names} (h : Knows st z t) (e : ∀ n, Symbolic n → t' n = t n) : Knows st z t' :=
  ⟨h.1, h.2.1, fun n hn f => by rw [e n hn]; exact h.2.2 n hn f⟩

/-- When the table has been read, its files are there. -/
theorem table_files {o : Operator} (h : Good o.sm o.data) (ho : openOperator o.data = .ok o) {st : SymbolTable} (hst : o.st = some st) :
    ownedBy (own o.sm) 3 ≠ [] ∧ ownedBy (own o.sm) 4 ≠ [] := by
  have := opened_table h ho
  rw [hst] at this
  unfold tableOn at this
  rw [readSymbolTable_eq h.len] at this
  unfold tableOf at this
  have h1 : (fileBytes (own o.sm) o.data 3).length = 0x1000 := by
    by_contra hc
    rw [dif_neg hc] at this
    simp at this
  rw [dif_pos h1] at this
  have h2 : (fileBytes (own o.sm) o.data 4).length = 0x1000 := by
    by_contra hc
    rw [dif_neg hc] at this
    simp at this
  rw [fileBytes_length h.len] at h1 h2
  constructor <;> intro hc
  · rw [hc] at h1; simp at h1
  · rw [hc] at h2; simp at h2

theorem symbolic_no_colon {n : Str} (h : Symbolic n) : (0x3A : UInt8) ∉ n := by
  intro hc
  have := h.1.2.2.1 _ hc
  revert this
  decide

theorem fileOnDisk_nil {sm : SectorMap} {img : Bytes} (h : Good sm img) (g : UInt8) : fileOnDisk img g = [] ↔ ownedBy (own sm) g = [] := by
  rw [← h.onDisk, ← List.length_eq_zero_iff, fileBytes_length h.len, ← List.length_eq_zero_iff]
  omega

/-- What `put` may be given as a name, see `Careful`. -/
def PutName (z : Str) (t : Names) (name : Str) : Prop :=
  (∃ f, NumericName name f ∧ f ≠ 3 ∧ f ≠ 4) ∨
  (Symbolic name ∧ t name ≠ some 3 ∧ t name ≠ some 4 ∧ (SameName name z → t name ≠ none)) ∨
  ∃ a b f, name = a ++ 0x3A :: b ∧ NumericName a f ∧ f ≠ 3 ∧ f ≠ 4 ∧ Symbolic b ∧ (SameName b z → t b = some f)

theorem numeric_no_colon {n : Str} {f : UInt8} (h : NumericName n f) : (0x3A : UInt8) ∉ n :=
  h.2.elim Cmd.hexNumeral_no_colon Cmd.hexNumeral_no_colon

theorem put_names_how {o : Operator} (h : Good o.sm o.data) (ho : openOperator o.data = .ok o) {st : SymbolTable} (hst : o.st = some st)
    {z : Str} {t : Names} (hk : Knows st z t) {fi : FileInfo} {ow : Bool} (hname : PutName z t fi.descriptor.name)
    (hok : (o.putFile fi ow).out = .ok ()) :
    ∃ f sym o2 st2, Ordinary f ∧ PutTo (fileOnDisk o.data) t fi.descriptor.name f sym ∧
      (ow = false → fileOnDisk o.data f = []) ∧
      openOperator (o.putFile fi ow).op.data = .ok o2 ∧ Good o2.sm o2.data ∧ o2.data = (o.putFile fi ow).op.data ∧
      (∀ g, Ordinary g → fileOnDisk o2.data g = if g = f then padded fi.data else fileOnDisk o.data g) ∧
      o2.st = some st2 ∧ Knows st2 z (Change.names t (.put f fi.data sym)) ∧
      o2.sm = (o.putFile fi ow).op.sm ∧ (∃ nf s, o.putFile fi ow = o.putNumbered f nf s fi.data ow) ∧
      ((∀ n, Symbolic n → Change.names t (.put f fi.data sym) n = t n) ∨
        ∃ s, sym = some s ∧ (addSymbol st s (0xDF00 + f.toUInt16)).1 = .ok ()) := by
  obtain ⟨f, nf, sym, hf, e, hkind⟩ := put_kinds hok
  have htab : o.table = st := by unfold Operator.table; rw [hst]; rfl
  rw [htab] at hkind
  generalize fi.descriptor.name = name at hname hkind
  obtain ⟨tf3, tf4⟩ := table_files h ho hst
  -- which file and which symbol
  have key : f ≠ 3 ∧ f ≠ 4 ∧ ∃ s, PutTo (fileOnDisk o.data) t name f s ∧
      (((nf = f ∨ sym = []) ∧ ∀ n, Symbolic n → Change.names t (.put f fi.data s) n = t n) ∨
       (nf ≠ f ∧ Symbolic sym ∧ ¬ SameName sym z ∧ s = some sym)) := by
    rcases hkind with ⟨hn, hs⟩ | ⟨hc, hn, hs, hr⟩ | ⟨a, b, hab, ha, hb, hn, hnb, hs, hr⟩
    · -- a number
      have hc := numeric_no_colon hn
      have : f ≠ 3 ∧ f ≠ 4 := by
        rcases hname with ⟨g, hg, h3, h4⟩ | ⟨hs', _⟩ | ⟨a, b, _, hab, _⟩
        · rw [C34_numeric_unique hn hg]; exact ⟨h3, h4⟩
        · exact absurd hn (hs'.2 f)
        · rw [hab] at hc; simp at hc
      exact ⟨this.1, this.2, none, Or.inl ⟨hn, rfl⟩, Or.inl ⟨Or.inr hs, fun _ _ => rfl⟩⟩
    · -- a symbol
      rcases hname with ⟨g, hg, _⟩ | ⟨hsy, h3, h4, hz⟩ | ⟨a, b, _, hab, _⟩
      · exact absurd hg (hn g)
      swap
      · rw [hab] at hc; simp at hc
      obtain ⟨hk1, hk2⟩ := knows_name hk hsy
      rcases hr with ⟨hr, hnf⟩ | ⟨hr, hnf, hfree⟩
      · have htn := (hk1 f).1 hr
        refine ⟨fun e => h3 (by rw [htn, e]), fun e => h4 (by rw [htn, e]), some name, Or.inr (Or.inl ⟨hsy, rfl, Or.inl htn⟩), Or.inl ⟨Or.inl hnf, ?_⟩⟩
        intro n hsn
        show (if SameName n name then some f else t n) = t n
        split
        · rename_i e; rw [knows_same hk hsn hsy e, htn]
        · rfl
      · have htn := hk2.1 hr
        refine ⟨?_, ?_, some name, Or.inr (Or.inl ⟨hsy, rfl, Or.inr ⟨htn, (fileOnDisk_nil h f).2 hfree⟩⟩), Or.inr ⟨?_, ?_, ?_, by rw [hs]⟩⟩
        · rintro rfl; exact tf3 hfree
        · rintro rfl; exact tf4 hfree
        · rw [hnf]; exact hf.1.symm
        · rw [hs]; exact hsy
        · rw [hs]; exact fun e => hz e htn
    · -- a number and a symbol
      rcases hname with ⟨g, hg, _⟩ | ⟨hsy, _⟩ | ⟨a', b', f', hab', hn', h3, h4, hsy, hz⟩
      · have := numeric_no_colon hg
        rw [hab] at this; simp at this
      · have := symbolic_no_colon hsy
        rw [hab] at this; simp at this
      obtain ⟨rfl, rfl⟩ := Cmd.first_colon ha (numeric_no_colon hn') (hab.symm.trans hab')
      have hff := C34_numeric_unique hn hn'
      subst hff
      obtain ⟨hk1, hk2⟩ := knows_name hk hsy
      refine ⟨h3, h4, some b, Or.inr (Or.inr ⟨a, b, hab, hn, hsy, rfl⟩), ?_⟩
      by_cases hnf : nf = f
      · left
        refine ⟨Or.inl hnf, fun n hsn => ?_⟩
        have htb : t b = some f := by
          rcases hr with hr | ⟨_, h0⟩
          · rw [← hnf]; exact (hk1 nf).1 hr
          · exact absurd (hnf.symm.trans h0) hf.1
        show (if SameName n b then some f else t n) = t n
        split
        · rename_i e; rw [knows_same hk hsn hsy e, htb]
        · rfl
      · right
        refine ⟨hnf, by rw [hs]; exact hsy, ?_, by rw [hs]⟩
        rw [hs]
        intro e
        have htb := hz e
        have := (hk1 f).2 htb
        rcases hr with hr | ⟨hr, _⟩
        · rw [this] at hr; cases hr; exact hnf rfl
        · rw [this] at hr; cases hr
  obtain ⟨h3, h4, s, hto, hcase⟩ := key
  rw [e] at hok ⊢
  obtain ⟨K, hb, how, T1, T2⟩ := table_putNumbered h ho hf h3 h4 hst hok
  have hg2 := K.good
  have hfiles : ∀ g, Ordinary g → fileOnDisk (o.putNumbered f nf sym fi.data ow).op.data g =
      if g = f then padded fi.data else fileOnDisk o.data g := by
    intro g hg
    rw [← hg2.onDisk]
    split
    · rename_i e; rw [e]; exact hb
    · rename_i e
      rw [← h.onDisk]
      exact K.bytes g hg.1 (by simp [e, hg.2.1, hg.2.2])
  have how' : ow = false → fileOnDisk o.data f = [] := fun hw => by rw [← h.onDisk]; exact how hw
  rcases hcase with ⟨hor, hsame⟩ | ⟨hnf, hsy, hz, rfl⟩
  · exact ⟨f, s, _, st, ⟨hf, h3, h4⟩, hto, how', open_of_good hg2, hg2, rfl, hfiles, T1 hor, knows_congr hk hsame, rfl, ⟨nf, sym, rfl⟩, Or.inl hsame⟩
  · obtain ⟨hadd, T3⟩ := T2 hnf (legal_ne_nil hsy.1)
    obtain ⟨hwf, hk'⟩ := knows_add hk hsy hz hf hadd
    exact ⟨f, some sym, _, _, ⟨hf, h3, h4⟩, hto, how', open_of_good hg2, hg2, rfl, hfiles, T3 hwf, hk', rfl, ⟨nf, sym, rfl⟩, Or.inr ⟨_, rfl, hadd⟩⟩

theorem put_names {o : Operator} (h : Good o.sm o.data) (ho : openOperator o.data = .ok o) {st : SymbolTable} (hst : o.st = some st)
    {z : Str} {t : Names} (hk : Knows st z t) {fi : FileInfo} {ow : Bool} (hname : PutName z t fi.descriptor.name)
    (hok : (o.putFile fi ow).out = .ok ()) :
    ∃ f sym o2 st2, Ordinary f ∧ PutTo (fileOnDisk o.data) t fi.descriptor.name f sym ∧
      (ow = false → fileOnDisk o.data f = []) ∧
      openOperator (o.putFile fi ow).op.data = .ok o2 ∧ Good o2.sm o2.data ∧ o2.data = (o.putFile fi ow).op.data ∧
      (∀ g, Ordinary g → fileOnDisk o2.data g = if g = f then padded fi.data else fileOnDisk o.data g) ∧
      o2.st = some st2 ∧ Knows st2 z (Change.names t (.put f fi.data sym)) := by
  obtain ⟨f, sym, o2, st2, h1, h2, h3, h4, h5, h6, h7, h8, h9, _⟩ := put_names_how h ho hst hk hname hok
  exact ⟨f, sym, o2, st2, h1, h2, h3, h4, h5, h6, h7, h8, h9⟩

theorem hexNumeral_toUpper {s : Str} {v : Nat} (h : HexNumeral s v) : HexNumeral (toUpper s) v := by
  have hd : ∀ c : UInt8, digitValue (upperByte c) = digitValue c := by decide +kernel
  induction h with
  | one h =>
    unfold toUpper
    refine .one ?_
    rw [hd]; exact h
  | snoc _ h ih =>
    unfold toUpper at ih ⊢
    rw [List.map_append]
    refine .snoc ih ?_
    rw [hd]; exact h

theorem numeric_noSymbol {st : SymbolTable} (h : Tidy st) {n : Str} {f : UInt8} (hn : NumericName n f) : NoSymbol st n := by
  have up : ∀ v, ∀ s : Str, SameName n s → HexNumeral n v → HexNumeral s v := by
    intro v s hs hv
    apply hexNumeral_upper
    rw [← show toUpper n = toUpper s from hs]
    exact hexNumeral_toUpper hv
  intro s hs hsn
  rcases h.entries s hs with rfl | ⟨_, h2, _⟩
  · exact hn.2.elim (fun h => hexNumeral_ne_nil (up _ _ hsn h) rfl) (fun h => hexNumeral_ne_nil (up _ _ hsn h) rfl)
  · exact h2.2 f ⟨hn.1, hn.2.imp (up _ _ hsn) (up _ _ hsn)⟩

theorem delete_names {o : Operator} (h : Good o.sm o.data) (ho : openOperator o.data = .ok o) {st : SymbolTable} (hst : o.st = some st)
    {z : Str} {t : Names} (hk : Knows st z t) {name : Str}
    (hname : (∃ f, NumericName name f ∧ f ≠ 3 ∧ f ≠ 4) ∨ (Symbolic name ∧ ¬ SameName name z ∧ t name ≠ some 3 ∧ t name ≠ some 4))
    (hok : (o.delete name).out = .ok ()) :
    ∃ f sym o2 st2, Ordinary f ∧ ((NumericName name f ∧ sym = none) ∨ (Symbolic name ∧ sym = some name ∧ t name = some f)) ∧
      ((o.delete name).existed = true ↔ fileOnDisk o.data f ≠ []) ∧
      openOperator (o.delete name).op.data = .ok o2 ∧ Good o2.sm o2.data ∧ o2.data = (o.delete name).op.data ∧
      (∀ g, Ordinary g → fileOnDisk o2.data g = if g = f then [] else fileOnDisk o.data g) ∧
      o2.st = some st2 ∧ Knows st2 z (Change.names t (.rm f sym)) := by
  have htab : o.table = st := by unfold Operator.table; rw [hst]; rfl
  obtain ⟨o', f, g1, g2, g3, g4, g5, g6, g7, g8, _⟩ := reopen_delete h ho hok
  have hf := fileForName_file g4
  rw [htab] at g4 g6 g7 g8
  have hwhich : f ≠ 3 ∧ f ≠ 4 ∧ ((NumericName name f ∧ NoSymbol st name) ∨
      (Symbolic name ∧ ¬ SameName name z ∧ t name = some f)) := by
    rcases hname with ⟨g, hg, h3, h4⟩ | ⟨hsy, hz, h3, h4⟩
    · have := Cmd.fileForName_numeric g4 hg
      subst this
      exact ⟨h3, h4, Or.inl ⟨hg, numeric_noSymbol hk.1 hg⟩⟩
    · have htn := ((knows_name hk hsy).1 f).1 g4
      exact ⟨fun e => h3 (by rw [htn, e]), fun e => h4 (by rw [htn, e]), Or.inr ⟨hsy, hz, htn⟩⟩
  obtain ⟨h3, h4, hwhich⟩ := hwhich
  have hfiles : ∀ g, Ordinary g → fileOnDisk o'.data g = if g = f then [] else fileOnDisk o.data g := by
    intro g hg
    split
    · rename_i e; rw [e]; exact g6 (Or.inl ⟨h3, h4⟩)
    · rename_i e; exact g7 g hg.1 e (Or.inl ⟨hg.2.1, hg.2.2⟩)
  rcases hwhich with ⟨hn, hno⟩ | ⟨hsy, hz, htn⟩
  · exact ⟨f, none, o', st, ⟨hf, h3, h4⟩, Or.inl ⟨hn, rfl⟩, g5, g1, g2, g3, hfiles, by rw [g8 h3 h4 hno, hst], hk⟩
  · obtain ⟨hwf, hk'⟩ := knows_delete hk hsy hz
    refine ⟨f, some name, o', _, ⟨hf, h3, h4⟩, Or.inr ⟨hsy, rfl, htn⟩, g5, g1, g2, g3, hfiles, ?_, hk'⟩
    obtain ⟨f', hn', _, hcase⟩ := delete_split h hok
    rw [htab] at hn' hcase
    have : f' = f := by rw [g4] at hn'; cases hn'; rfl
    subst this
    rcases hcase with ⟨hno, _⟩ | ⟨st', hst', _, hw, e⟩
    · obtain ⟨_, s, hs, hsn, _⟩ := (hk.2.2 name hsy f').1 htn
      exact absurd hsn.symm (hno s hs)
    rw [hst] at hst'
    cases hst'
    have hread := C31_write_read (keep_delete h hf).2.good hwf hw
    have hg2 := (good_op_delete h name).1
    have ho' := open_of_good hg2
    rw [g1] at ho'
    cases ho'
    dsimp only
    unfold tableOn
    rw [e]
    dsimp only
    rw [hread]

end Verif.Supermon

namespace Verif.Cmd
open Disk Spec

/-- `ch` is what the command `c`, run in `w` with the files `m` and the names `t` on the image, is expected to have done. -/
inductive Does (env : Env) (image : Str) (w : World) (m : Files) (t : Names) : Command → Change → Prop
  | failed {c : Command} : (run env c w).1 ≠ .ok () → Does env image w m t c .nothing
  | elsewhere {c : Command} : target c ≠ some image → Does env image w m t c .nothing
  | put {order : DiskOrder} {system ty : Str} {ow : Bool} {a : UInt16} {name source : Str} {f : UInt8} {data : Bytes} {sym : Option Str} :
      (run env (.put order system ty ow a image name source) w).1 = .ok () →
      given w source = some data → Ordinary f → PutTo m t name f sym → (ow = false → m f = []) →
      Does env image w m t (.put order system ty ow a image name source) (.put f data sym)
  | rm {order : DiskOrder} {system : Str} {missingOk : Bool} {name : Str} {f : UInt8} {sym : Option Str} :
      (run env (.rm order system missingOk image name) w).1 = .ok () → Ordinary f →
      (NumericName name f ∧ sym = none) ∨ (Symbolic name ∧ sym = some name ∧ t name = some f) →
      (missingOk = false → m f ≠ []) → Does env image w m t (.rm order system missingOk image name) (.rm f sym)
  | mkhello {order : DiskOrder} {name : Str} {a s : UInt16} {f : UInt8} :
      (run env (.mkhello order image name a s) w).1 = .ok () →
      (∀ part g, Supermon.PartOf name part → NumericName part g → f = g) → (Symbolic name → t name = some f) →
      Does env image w m t (.mkhello order image name a s)
        (.put 1 (helloBytes f a (UInt16.ofNat (startOf a s))) (some (str "FHELLO")))

/-- The changes of a session, one for each command. -/
inductive Changes (env : Env) (image : Str) : Files → Names → List (World × Command) → List Change → Prop
  | done {m : Files} {t : Names} : Changes env image m t [] []
  | step {m : Files} {t : Names} {w : World} {c : Command} {ch : Change} {l : List (World × Command)} {chs : List Change} :
      Does env image w m t c ch → Changes env image (ch.files m) (ch.names t) l chs → Changes env image m t ((w, c) :: l) (ch :: chs)

theorem names_operator {env : Env} {raw : Bytes} {image order system : Str} {ord : DiskOrder} {o o' : Supermon.Operator}
    (h : openImage raw image order system (factories env) = .ok (.nakedos o, ord))
    (h' : openImage raw image ord (str "nakedos") (factories env) = .ok (.nakedos o', ord)) : o = o' := by
  have h1 := (open_naked h).opened
  rw [(open_naked h').opened] at h1
  cases h1
  rfl

/-- A change to the names that leaves those of `z` and of the table's files as careful commands need them. -/
def Within (z : Str) (t0 t : Names) : Prop :=
  (∀ n, Symbolic n → t n = some 3 → t0 n = some 3) ∧ (∀ n, Symbolic n → t n = some 4 → t0 n = some 4) ∧
  ∀ n, Symbolic n → SameName n z → t n = t0 n

theorem careful_now {image z : Str} {t0 t : Names} (hw : Within z t0 t) {c : Command} (h : Careful image z t0 c) : Careful image z t c := by
  obtain ⟨w3, w4, wz⟩ := hw
  have hfh : Symbolic (str "FHELLO") := by
    refine ⟨by decide +kernel, fun f hf => ?_⟩
    have := (Supermon.parseAddressFilename_iff hf.1.1).2 hf
    rw [show Supermon.parseAddressFilename (str "FHELLO") = 0 by decide +kernel] at this
    exact hf.1.1 this.symm
  cases c with
  | put order system t ow a i name source =>
    intro hi
    rcases h hi with h | ⟨h1, h2, h3, h4⟩ | ⟨a, b, f, h1, h2, h3, h4, h5, h6⟩
    · exact Or.inl h
    · exact Or.inr (Or.inl ⟨h1, fun e => h2 (w3 _ h1 e), fun e => h3 (w4 _ h1 e), fun e => by rw [wz _ h1 e]; exact h4 e⟩)
    · exact Or.inr (Or.inr ⟨a, b, f, h1, h2, h3, h4, h5, fun e => by rw [wz _ h5 e]; exact h6 e⟩)
  | rm order system mo i name =>
    intro hi
    rcases h hi with h | ⟨h1, h2, h3, h4⟩
    · exact Or.inl h
    · exact Or.inr ⟨h1, h2, fun e => h3 (w3 _ h1 e), fun e => h4 (w4 _ h1 e)⟩
  | mkhello order i name a s =>
    intro hi e
    rw [wz _ hfh e]
    exact h hi e
  | _ => trivial

theorem within_put {z : Str} {t0 t : Names} (hw : Within z t0 t) {f : UInt8} {data : Bytes} {sym : Option Str} (hf : Ordinary f)
    (hs : ∀ s, sym = some s → ∀ n, Symbolic n → SameName n s → SameName n z → t n = some f) :
    Within z t0 (Change.names t (.put f data sym)) := by
  obtain ⟨w3, w4, wz⟩ := hw
  cases sym with
  | none => exact ⟨w3, w4, wz⟩
  | some s =>
    refine ⟨fun n hn e => ?_, fun n hn e => ?_, fun n hn e => ?_⟩
    · change (if SameName n s then some f else t n) = _ at e
      split at e
      · cases e; exact absurd rfl hf.2.1
      · exact w3 n hn e
    · change (if SameName n s then some f else t n) = _ at e
      split at e
      · cases e; exact absurd rfl hf.2.2
      · exact w4 n hn e
    · show (if SameName n s then some f else t n) = _
      split
      · rename_i e'
        rw [← wz n hn e, hs s rfl n hn e' e]
      · exact wz n hn e

theorem within_rm {z : Str} {t0 t : Names} (hw : Within z t0 t) {f : UInt8} {sym : Option Str}
    (hs : ∀ s, sym = some s → ¬ SameName s z) : Within z t0 (Change.names t (.rm f sym)) := by
  obtain ⟨w3, w4, wz⟩ := hw
  cases sym with
  | none => exact ⟨w3, w4, wz⟩
  | some s =>
    refine ⟨fun n hn e => ?_, fun n hn e => ?_, fun n hn e => ?_⟩
    · change (if SameName n s then none else t n) = _ at e
      split at e
      · cases e
      · exact w3 n hn e
    · change (if SameName n s then none else t n) = _ at e
      split at e
      · cases e
      · exact w4 n hn e
    · show (if SameName n s then none else t n) = _
      split
      · rename_i e'
        exact absurd (e'.symm.trans e) (hs s rfl)
      · exact wz n hn e

theorem putTo_congr {m m' : Files} {t : Names} {name : Str} {f : UInt8} {sym : Option Str} (e : m f = m' f) (h : PutTo m t name f sym) :
    PutTo m' t name f sym := by
  rcases h with h | ⟨h1, h2, h3⟩ | h
  · exact Or.inl h
  · exact Or.inr (Or.inl ⟨h1, h2, h3.imp id fun h => ⟨h.1, by rw [← e]; exact h.2⟩⟩)
  · exact Or.inr (Or.inr h)

/-- A put that is careful leaves the symbol `z` as it was. -/
theorem putTo_first {m : Files} {z : Str} {t : Names} {st : Supermon.SymbolTable} (hk : Knows st z t) {name : Str} {f : UInt8} {sym : Option Str}
    (hn : Supermon.PutName z t name) (h : PutTo m t name f sym) :
    ∀ s, sym = some s → ∀ n, Symbolic n → SameName n s → SameName n z → t n = some f := by
  rintro s rfl n hsn e ez
  rcases h with ⟨_, h⟩ | ⟨h1, h2, h3⟩ | ⟨a, b, h1, h2, h3, h4⟩
  · cases h
  · cases h2
    rw [Supermon.knows_same hk hsn h1 e]
    rcases h3 with h3 | ⟨h3, _⟩
    · exact h3
    · rcases hn with ⟨g, hg, _⟩ | ⟨_, _, _, hz⟩ | ⟨a, b, _, hab, _⟩
      · exact absurd hg (h1.2 g)
      · exact absurd h3 (hz (e.symm.trans ez))
      · have := Supermon.symbolic_no_colon h1
        rw [hab] at this; simp at this
  · cases h4
    rw [Supermon.knows_same hk hsn h3 e]
    rcases hn with ⟨g, hg, _⟩ | ⟨hs, _⟩ | ⟨a', b', f', hab, hf', _, _, _, hz⟩
    · have := Supermon.numeric_no_colon hg
      rw [h1] at this; simp at this
    · have := Supermon.symbolic_no_colon hs
      rw [h1] at this; simp at this
    · obtain ⟨rfl, rfl⟩ := first_colon (Supermon.numeric_no_colon h2) (Supermon.numeric_no_colon hf') (h1.symm.trans hab)
      have := Supermon.C34_numeric_unique h2 hf'
      subst this
      exact hz (e.symm.trans ez)

theorem does_one {env : Env} {image : Str} {w : World} {ord : DiskOrder} {m : Files} {z : Str} {t0 t : Names} {c : Command} (hi : image ≠ str "-")
    (ha : Agrees image ord c) (hw : Within z t0 t) (hc : Careful image z t0 c) (h : HasFiles w image ord m) (hn : HasNames env w image ord z t) :
    ∃ ch, Does env image w m t c ch ∧ Within z t0 (ch.names t) ∧ HasFiles (run env c w).2 image ord (ch.files m) ∧
      HasNames env (run env c w).2 image ord z (ch.names t) := by
  have same : (run env c w).2.files image = w.files image → HasFiles (run env c w).2 image ord m ∧ HasNames env (run env c w).2 image ord z t := by
    rintro e
    obtain ⟨raw, img, h1, h2⟩ := h
    obtain ⟨raw', o, st, h1', h2'⟩ := hn
    exact ⟨⟨raw, img, e.trans h1, h2⟩, ⟨raw', o, st, e.trans h1', h2'⟩⟩
  by_cases hok : (run env c w).1 = .ok ()
  swap
  · exact ⟨.nothing, .failed hok, hw, same (congrFun (C59_failure_changes_nothing env c w hok).1 image)⟩
  by_cases ht : target c = some image
  swap
  · exact ⟨.nothing, .elsewhere ht, hw, same (C59_other_files_untouched env c w image ht)⟩
  have hc' := careful_now hw hc
  -- a put through the operator
  have viaPut : ∀ {order system : Str} {raw new : Bytes} {o : Supermon.Operator} {ord' : DiskOrder} {fi : FileInfo} {ow : Bool},
      CandidateOrders order (toLower (pathExt image)) [ord] → w.files image = some raw →
      openImage raw image order system (factories env) = .ok (.nakedos o, ord') →
      Supermon.PutName z t fi.descriptor.name → (o.putFile fi ow).out = .ok () →
      writeBackBytes (AnyOp.nakedos (o.putFile fi ow).op) ord' = .ok new → (run env c w).2.files image = some new →
      ∃ f sym, Ordinary f ∧ PutTo m t fi.descriptor.name f sym ∧ (ow = false → m f = []) ∧
        Within z t0 (Change.names t (.put f fi.data sym)) ∧ HasFiles (run env c w).2 image ord (Change.files m (.put f fi.data sym)) ∧
        HasNames env (run env c w).2 image ord z (Change.names t (.put f fi.data sym)) := by
    intro order system raw new o ord' fi ow hca h1 h2 hname h3 h4 h5
    have := open_order hca h2
    subst this
    have hnk := open_naked h2
    have hm := hasFiles_view h h1 hnk
    obtain ⟨raw', o', st, h1', h2', hst, hk⟩ := hn
    rw [h1] at h1'
    cases h1'
    have := names_operator h2 h2'
    subst this
    have hop := hnk.opened
    rw [← hnk.data] at hop
    obtain ⟨f, sym, o2, st2, hf, hto, how, g1, g2, g3, g4, g5, g6⟩ := Supermon.put_names hnk.good hop hst hk hname h3
    have hl : (o.putFile fi ow).op.data.length = 143360 := by rw [← g3]; exact g2.len
    obtain ⟨hbl, hv⟩ := written_view hl hnk.order h4
    rw [← hv] at g1
    have hopen := open_explicit (env := env) hbl hnk.order g1 image
    refine ⟨f, sym, hf, putTo_congr (hm f hf) hto, fun e => by rw [← hm f hf]; exact how e, within_put hw hf (putTo_first hk hname hto), ?_,
      ⟨new, o2, st2, h5, hopen, g5, g6⟩⟩
    refine hasFiles_of h5 (open_naked hopen) fun g hg => ?_
    rw [g4 g hg]
    show _ = if g = f then _ else _
    rw [hm g hg]
  cases c with
  | put order system ty ow a i name source =>
    cases ht
    obtain ⟨raw, o, ord', data, ft, new, h1, h2, h3, h4, h5, h6⟩ := put_inv hi hok
    obtain ⟨f, sym, hf, hto, how, g1, g2, g3⟩ := viaPut (fi := ⟨{ name := name, length := data.length, type := ft }, data, a⟩) (ha rfl) h1 h2 (hc' rfl) h4 h5 h6
    exact ⟨.put f data sym, .put hok h3 hf hto how, g1, g2, g3⟩
  | rm order system mo i name =>
    cases ht
    obtain ⟨raw, o, ord', new, h1, h2, h3, h4, h5, h6⟩ := rm_inv hi hok
    have := open_order (ha rfl) h2
    subst this
    have hnk := open_naked h2
    have hm := hasFiles_view h h1 hnk
    obtain ⟨raw', o', st, h1', h2', hst, hk⟩ := hn
    rw [h1] at h1'
    cases h1'
    have := names_operator h2 h2'
    subst this
    have hop := hnk.opened
    rw [← hnk.data] at hop
    obtain ⟨f, sym, o2, st2, hf, hto, hex, g1, g2, g3, g4, g5, g6⟩ := Supermon.delete_names hnk.good hop hst hk (hc' rfl) h3
    have hl : (o.delete name).op.data.length = 143360 := by rw [← g3]; exact g2.len
    obtain ⟨hbl, hv⟩ := written_view hl hnk.order h5
    rw [← hv] at g1
    have hopen := open_explicit (env := env) hbl hnk.order g1 image
    refine ⟨.rm f sym, .rm hok hf hto ?_, within_rm hw ?_, ?_, ⟨new, o2, st2, h6, hopen, g5, g6⟩⟩
    · intro hmo
      rw [← hm f hf]
      rcases h4 with h4 | h4
      · exact hex.1 h4
      · rw [hmo] at h4; simp at h4
    · rintro s rfl
      rcases hto with ⟨_, e⟩ | ⟨hs, e, _⟩
      · cases e
      · cases e
        rcases hc' rfl with ⟨g, hg, _⟩ | ⟨_, hz, _⟩
        · exact absurd hg (hs.2 g)
        · exact hz
    · refine hasFiles_of h6 (open_naked hopen) fun g hg => ?_
      rw [g4 g hg]
      show _ = if g = f then _ else _
      rw [hm g hg]
  | mkhello order i name a s =>
    cases ht
    obtain ⟨ha1, _, raw, o, ord', f, new, h1, h2, hask, h4, h5, h6⟩ := mkhello_inv hi hok
    have hsplit : str "DF01:FHELLO" = str "DF01" ++ 0x3A :: str "FHELLO" := by decide +kernel
    have hn1 : NumericName (str "DF01") 1 := (Supermon.parseAddressFilename_iff (by decide)).1 (by decide +kernel)
    have hfh : Symbolic (str "FHELLO") := by
      refine ⟨by decide +kernel, fun f hf => ?_⟩
      have := (Supermon.parseAddressFilename_iff hf.1.1).2 hf
      rw [show Supermon.parseAddressFilename (str "FHELLO") = 0 by decide +kernel] at this
      exact hf.1.1 this.symm
    have hpn : Supermon.PutName z t (str "DF01:FHELLO") :=
      Or.inr (Or.inr ⟨_, _, 1, hsplit, hn1, by decide, by decide, hfh, hc' rfl⟩)
    have hsym : Symbolic name → t name = some f := by
      intro hsy
      have hord := open_order (ha rfl) h2
      subst hord
      obtain ⟨raw', o', st, h1', h2', hst, hk⟩ := hn
      rw [h1] at h1'
      cases h1'
      have := names_operator h2 h2'
      subst this
      have htab : o.table = st := by unfold Supermon.Operator.table; rw [hst]; rfl
      rw [htab] at hask
      rcases hask with ⟨_, hask⟩ | ⟨a, b, e, _⟩
      · exact ((Supermon.knows_name hk hsy).1 f).1 hask
      · have := Supermon.symbolic_no_colon hsy
        rw [e] at this; simp at this
    have he : helloProgram f a (effectiveStart a s) = helloBytes f a (UInt16.ofNat (startOf a s)) := by
      rw [helloProgram_eq f ha1]
      congr 1
      apply UInt16.toNat_inj.1
      rw [effectiveStart_toNat, UInt16.toNat_ofNat']
      have : startOf a s < 65536 := by rw [← effectiveStart_toNat]; exact UInt16.toNat_lt _
      omega
    obtain ⟨f1, sym, hf1, hto, _, g1, g2, g3⟩ := viaPut (ha rfl) h1 h2 hpn h4 h5 h6
    have hfs : f1 = 1 ∧ sym = some (str "FHELLO") := by
      dsimp only at hto
      rw [hsplit] at hto
      rcases hto with ⟨h, _⟩ | ⟨h, _⟩ | ⟨a', b', e, h, _, hs⟩
      · have := Supermon.numeric_no_colon h; simp at this
      · have := Supermon.symbolic_no_colon h; simp at this
      · obtain ⟨rfl, rfl⟩ := first_colon (Supermon.numeric_no_colon hn1) (Supermon.numeric_no_colon h) e
        exact ⟨Supermon.C34_numeric_unique h hn1, hs⟩
    obtain ⟨rfl, rfl⟩ := hfs
    dsimp only at g1 g2 g3
    rw [he] at g1 g2 g3
    exact ⟨_, .mkhello hok (fun part g hp hg => asksFor_number hask hp hg) hsym, g1, g2, g3⟩
  | reorder o n ow i j => exact absurd ht ha
  | mksd o i b a s => exact absurd ht ha
  | ls _ _ _ _ _ => cases ht
  | filetypes _ => cases ht
  | dump _ _ _ _ => cases ht
  | decode _ _ _ => cases ht

theorem does_all {env : Env} {image : Str} {ord : DiskOrder} {w w' : World} {l : List (World × Command)} (hi : image ≠ str "-")
    (hs : Session env image w l w') {m : Files} {z : Str} {t0 t : Names} (ha : ∀ p ∈ l, Agrees image ord p.2 ∧ Careful image z t0 p.2)
    (hw : Within z t0 t) (h : HasFiles w image ord m) (hn : HasNames env w image ord z t) :
    ∃ chs, Changes env image m t l chs ∧ HasFiles w' image ord (chs.foldl Change.files m) ∧
      HasNames env w' image ord z (chs.foldl Change.names t) := by
  have move : ∀ {w1 w2 : World} {m t}, w2.files image = w1.files image → HasFiles w1 image ord m → HasNames env w1 image ord z t →
      HasFiles w2 image ord m ∧ HasNames env w2 image ord z t := by
    rintro w1 w2 m t e ⟨raw, img, h1, h2⟩ ⟨raw', o, st, h1', h2'⟩
    exact ⟨⟨raw, img, e.trans h1, h2⟩, ⟨raw', o, st, e.trans h1', h2'⟩⟩
  induction hs generalizing m t with
  | done e =>
    obtain ⟨a, b⟩ := move e h hn
    exact ⟨[], .done, a, b⟩
  | @step w w1 w' c l e _ ih =>
    obtain ⟨a, b⟩ := move e h hn
    obtain ⟨ch, h1, h2, h3, h4⟩ := does_one (env := env) hi (ha (w1, c) (by simp)).1 hw (ha (w1, c) (by simp)).2 a b
    obtain ⟨chs, h5, h6, h7⟩ := ih (fun p hp => ha p (by simp [hp])) h2 h3 h4
    exact ⟨ch :: chs, .step h1 h5, h6, h7⟩

/-- C83: every session of careful commands on an image does to its files and names what its commands, one after the other, are asked to do:
`put` replaces the file named, and the symbol in the name stands for it from then on; `rm` removes the file, and the symbol if it was given one;
and nothing else changes, neither a file nor what any other symbol stands for.  The symbol table stays in order.  Missing: commands that change
the symbol of the table's first entry, see C33, or the table's own files. -/
theorem C83_session_partial {env : Env} {image : Str} {ord : DiskOrder} {w w' : World} {l : List (World × Command)} (hi : image ≠ str "-")
    (hs : Session env image w l w') {m : Files} {z : Str} {t : Names} (ha : ∀ p ∈ l, Agrees image ord p.2 ∧ Careful image z t p.2)
    (h : HasFiles w image ord m) (hn : HasNames env w image ord z t) :
    ∃ chs, Changes env image m t l chs ∧ HasFiles w' image ord (chs.foldl Change.files m) ∧
      HasNames env w' image ord z (chs.foldl Change.names t) :=
  does_all hi hs ha ⟨fun _ _ h => h, fun _ _ h => h, fun _ _ _ => rfl⟩ h hn

/-- C83: `dump` of a symbol prints the file it stands for, and is an error if it stands for none. -/
theorem C83_dump {env : Env} {image : Str} {ord : DiskOrder} {w : World} {m : Files} {z : Str} {t : Names} (hi : image ≠ str "-")
    (h : HasFiles w image ord m) (hn : HasNames env w image ord z t) {n : Str} (hsy : Symbolic n) :
    (∀ f, t n = some f → Ordinary f → m f ≠ [] → Dumps env w ord (str "nakedos") image n (m f)) ∧
    (∀ f, t n = some f → Ordinary f → m f = [] → DumpFails env w ord (str "nakedos") image n) ∧
    (t n = none → DumpFails env w ord (str "nakedos") image n) := by
  obtain ⟨raw, o, st, h1, h2, hst, hk⟩ := hn
  have hnk := open_naked h2
  have hm := hasFiles_view h h1 hnk
  have hfi : Finds env w image ord (str "nakedos") (.nakedos o) ord :=
    ⟨raw, by unfold given; rw [if_neg hi, h1], by rw [if_neg hi]; exact h2⟩
  have htab : o.table = st := by unfold Supermon.Operator.table; rw [hst]; rfl
  obtain ⟨d1, d2, d3, _⟩ := C72_dump_nakedos hfi n
  rw [htab] at d1 d2 d3
  obtain ⟨k1, k2⟩ := Supermon.knows_name hk hsy
  refine ⟨?_, ?_, ?_⟩
  · intro f hf hof hne
    rw [← hm f hof] at hne ⊢
    exact d1 f ((k1 f).2 hf) hne
  · intro f hf hof he
    rw [← hm f hof] at he
    exact d2 f ((k1 f).2 hf) he
  · intro h
    exact d3 _ (k2.2 h)

/-- C83: in a listing a file is followed by a symbol that stands for it, if there is one. -/
theorem C83_ls {env : Env} {image : Str} {ord : DiskOrder} {w : World} {m : Files} {z : Str} {t : Names} (hi : image ≠ str "-")
    (h : HasFiles w image ord m) (hn : HasNames env w image ord z t) (short : Bool) :
    ∃ w', ∃ line : UInt8 → Str, ∃ listed : List UInt8, run env (.ls ord (str "nakedos") short image []) w = (.ok (), w') ∧ w'.files = w.files ∧
      w'.stdout = w.stdout ++ listed.flatMap (fun f => line f ++ [0x0A]) ∧
      listed.Pairwise (· < ·) ∧ (∀ f, Ordinary f → (f ∈ listed ↔ m f ≠ [])) ∧
      ∀ f ∈ listed, (∃ n, Symbolic n ∧ t n = some f ∧ line f = if short then n else dfName f ++ str ":" ++ n) ∨
        ((∀ n, Symbolic n → t n ≠ some f) ∧ line f = dfName f) := by
  obtain ⟨raw, o, st, h1, h2, hst, hk⟩ := hn
  have hnk := open_naked h2
  have hm := hasFiles_view h h1 hnk
  have hfi : Finds env w image ord (str "nakedos") (.nakedos o) ord :=
    ⟨raw, by unfold given; rw [if_neg hi, h1], by rw [if_neg hi]; exact h2⟩
  have htab : o.table = st := by unfold Supermon.Operator.table; rw [hst]; rfl
  obtain ⟨w', e1, e2, e3⟩ := C71_ls_nakedos hfi short
  rw [htab] at e3
  refine ⟨w', nakedName st short, _, e1, e2, e3, ?_, ?_, ?_⟩
  · refine List.Pairwise.filter _ (List.pairwise_map.2 (List.pairwise_lt_range.imp_of_mem ?_))
    intro a b ha hb hab
    rw [List.mem_range] at ha hb
    rw [UInt8.lt_iff_toNat_lt]
    simp only [UInt8.toNat_ofNat']
    omega
  · intro f hf
    rw [← hm f hf, List.mem_filter, decide_eq_true_eq, Ne, Ne, Ne, Ne, Ne, Supermon.fileOnDisk_nil hnk.good]
    constructor
    · exact fun h => h.2.2.2.2
    · refine fun h => ⟨?_, hf.1.1, hf.1.2.1, hf.1.2.2, h⟩
      exact List.mem_map.2 ⟨f.toNat, List.mem_range.2 f.toNat_lt, by simp⟩
  · intro f hf
    have hff := (List.mem_filter.1 hf).2
    simp only [decide_eq_true_eq] at hff
    have hfn : IsFileNumber f := ⟨hff.1, hff.2.1, hff.2.2.1⟩
    unfold nakedName
    cases hx : st.find? (fun s => decide (s.address.toNat = 0xDF00 + f.toNat)) with
    | some s =>
      left
      have hs := List.mem_of_find?_eq_some hx
      have hsa : s.address.toNat = 0xDF00 + f.toNat := by simpa using List.find?_some hx
      have hsy : Symbolic s.name := by
        rcases hk.1.entries s hs with rfl | ⟨_, h2, _⟩
        · simp at hsa; omega
        · exact h2
      refine ⟨s.name, hsy, (hk.2.2 _ hsy f).2 ⟨hfn, s, hs, rfl, hsa⟩, rfl⟩
    | none =>
      right
      refine ⟨fun n hsy hc => ?_, rfl⟩
      obtain ⟨_, s, hs, _, hsa⟩ := (hk.2.2 n hsy f).1 hc
      have := List.find?_eq_none.1 hx s hs
      simp [hsa] at this

end Verif.Cmd
