import Verif.Spec.Space
import Verif.Props.NamesRun

/-!
# C85: the space on an image
-/

set_option autoImplicit false

namespace Verif.Supermon
open Disk Spec

theorem Good.owned {sm : SectorMap} {img : Bytes} (h : Good sm img) (g : UInt8) : ownedBy (owner img) g = ownedBy (own sm) g := by
  unfold ownedBy
  apply List.filter_congr
  intro n hn
  rw [(loaded_iff (by have := h.len; omega) sm).1 h.loaded n (List.mem_range.1 hn)]

theorem Good.sectors {sm : SectorMap} {img : Bytes} (h : Good sm img) (g : UInt8) :
    Spec.sectors (fileOnDisk img g) = (ownedBy (own sm) g).length := by
  unfold Spec.sectors
  rw [← h.onDisk, fileBytes_length h.len]
  omega

theorem capacity_eq (img : Bytes) : capacity img = 560 - (ownedBy (owner img) 0xFE).length := by
  unfold capacity ownedBy
  have : ∀ l : List Nat, (l.filter fun n => owner img n ≠ 0xFE).length + (l.filter fun n => owner img n = 0xFE).length = l.length := by
    intro l
    induction l with
    | nil => rfl
    | cons n l ih =>
      by_cases h : owner img n = 0xFE
      · rw [List.filter_cons_of_neg (by simpa using h), List.filter_cons_of_pos (by simpa using h)]
        simp only [List.length_cons]; omega
      · rw [List.filter_cons_of_pos (by simpa using h), List.filter_cons_of_neg (by simpa using h)]
        simp only [List.length_cons]; omega
  have := this (List.range 560)
  rw [List.length_range] at this
  omega

theorem Keep.capacity {T : UInt8 → Prop} {sm sm' : SectorMap} {img img' : Bytes} (hg : Good sm img) (h : Keep T sm img sm' img') :
    capacity img' = capacity img := by
  rw [capacity_eq, capacity_eq, hg.owned, h.good.owned, h.fixed]

theorem putNumbered_wrote {o : Operator} {f nf : UInt8} {sym : Str} {data : Bytes} {ow : Bool}
    (hok : (o.putNumbered f nf sym data ow).out = .ok ()) : (writeFile o.sm o.data f data ow).out = .ok () := by
  unfold Operator.putNumbered at hok
  simp only at hok
  split at hok
  · assumption
  · exact hok

theorem table_space_put {o : Operator} (h : Good o.sm o.data) (ho : openOperator o.data = .ok o) {f nf : UInt8} {sym : Str} {data : Bytes}
    {ow : Bool} (hf : IsFileNumber f) (h3 : f ≠ 3) (h4 : f ≠ 4) (hok : (o.putNumbered f nf sym data ow).out = .ok ()) :
    (ownedBy (own (o.putNumbered f nf sym data ow).op.sm) 3).length = (ownedBy (own o.sm) 3).length ∧
    (ownedBy (own (o.putNumbered f nf sym data ow).op.sm) 4).length = (ownedBy (own o.sm) 4).length := by
  have hw := putNumbered_wrote hok
  have hk := keep_writeFile h hf (by rw [hw]; simp)
  have e3 := hk.sect 3 isFile3 (Ne.symm h3)
  have e4 := hk.sect 4 isFile4 (Ne.symm h4)
  unfold Operator.putNumbered at hok ⊢
  simp only [hw] at hok ⊢
  split at hok
  · rename_i hc
    rw [if_pos hc]
    split at hok
    · rename_i st hst
      obtain ⟨s3, s4⟩ := table_sizes h ho hst
      split at hok
      · rename_i st' ha
        simp only at hok ⊢
        obtain ⟨w3, w4, _⟩ := writeSymbolTable_sizes hk.good hok
        exact ⟨w3.trans s3.symm, w4.trans s4.symm⟩
      · simp only
        exact ⟨congrArg _ e3, congrArg _ e4⟩
    · simp at hok
  · rename_i hc
    rw [if_neg hc]
    exact ⟨congrArg _ e3, congrArg _ e4⟩

theorem table_space_delete {o : Operator} (h : Good o.sm o.data) (ho : openOperator o.data = .ok o) {name : Str} {f : UInt8}
    (hn : fileForName o.table name = .ok f) (h3 : f ≠ 3) (h4 : f ≠ 4) (hok : (o.delete name).out = .ok ()) :
    (ownedBy (own (o.delete name).op.sm) 3).length = (ownedBy (own o.sm) 3).length ∧
    (ownedBy (own (o.delete name).op.sm) 4).length = (ownedBy (own o.sm) 4).length := by
  have hf := fileForName_file hn
  obtain ⟨hp, hk⟩ := keep_delete h hf
  have e3 := hk.sect 3 isFile3 (Ne.symm h3)
  have e4 := hk.sect 4 isFile4 (Ne.symm h4)
  unfold Operator.delete at hok ⊢
  rw [hn] at hok ⊢
  simp only [hp] at hok ⊢
  split at hok
  · rename_i st hst
    obtain ⟨s3, s4⟩ := table_sizes h ho hst
    split at hok
    · simp only at hok ⊢
      obtain ⟨w3, w4, _⟩ := writeSymbolTable_sizes hk.good hok
      exact ⟨w3.trans s3.symm, w4.trans s4.symm⟩
    · exact ⟨congrArg _ e3, congrArg _ e4⟩
  · rename_i hst
    exact ⟨congrArg _ e3, congrArg _ e4⟩

/-! ## Counting sectors -/

theorem sum_single {m : UInt8} {G : List UInt8} (hn : G.Nodup) :
    (G.map fun g => if m = g then 1 else 0).sum = if m ∈ G then 1 else 0 := by
  induction G with
  | nil => rfl
  | cons g G ih =>
    rw [List.nodup_cons] at hn
    rw [List.map_cons, List.sum_cons, ih hn.2]
    by_cases h : m = g
    · subst h
      rw [if_pos rfl, if_neg hn.1, if_pos (by simp)]
    · rw [if_neg h, Nat.zero_add]
      by_cases h2 : m ∈ G
      · rw [if_pos h2, if_pos (by simp [h2])]
      · rw [if_neg h2, if_neg (by simp [h, h2])]

theorem sum_add (a b : UInt8 → Nat) (G : List UInt8) :
    (G.map fun g => a g + b g).sum = (G.map a).sum + (G.map b).sum := by
  induction G with
  | nil => rfl
  | cons g G ih => simp only [List.map_cons, List.sum_cons, ih]; omega

theorem sum_owned (m : Nat → UInt8) {G : List UInt8} (hn : G.Nodup) (l : List Nat) :
    (G.map fun g => (l.filter fun n => m n = g).length).sum = (l.filter fun n => m n ∈ G).length := by
  induction l with
  | nil => simp
  | cons n l ih =>
    have e : ∀ g, ((n :: l).filter fun n => m n = g).length = (if m n = g then 1 else 0) + (l.filter fun n => m n = g).length := by
      intro g
      by_cases h : m n = g
      · rw [List.filter_cons_of_pos (by simpa using h), if_pos h, List.length_cons]; omega
      · rw [List.filter_cons_of_neg (by simpa using h), if_neg h]; omega
    simp only [e]
    rw [sum_add, ih, sum_single hn]
    by_cases h : m n ∈ G
    · rw [List.filter_cons_of_pos (by simpa using h), if_pos h, List.length_cons]; omega
    · rw [List.filter_cons_of_neg (by simpa using h), if_neg h]; omega

theorem bytes_nodup : ((List.range 256).map UInt8.ofNat).Nodup := by decide +kernel

theorem mem_bytes (g : UInt8) : g ∈ (List.range 256).map UInt8.ofNat :=
  List.mem_map.2 ⟨g.toNat, List.mem_range.2 g.toNat_lt, by simp⟩

theorem split_count (m : Nat → UInt8) {f : UInt8} (hf : Ordinary f) (l : List Nat) (hl : ∀ n ∈ l, m n ≠ 0) :
    (l.filter fun n => m n = 0xFF).length + (l.filter fun n => m n = f).length +
      (l.filter fun n => m n ∈ ((List.range 256).map UInt8.ofNat).filter fun g => Ordinary g ∧ g ≠ f).length +
      (l.filter fun n => m n = 3).length + (l.filter fun n => m n = 4).length + (l.filter fun n => m n = 0xFE).length = l.length := by
  induction l with
  | nil => rfl
  | cons n l ih =>
    have ih := ih (fun k hk => hl k (by simp [hk]))
    have h0 := hl n (by simp)
    have hm : m n ∈ ((List.range 256).map UInt8.ofNat).filter (fun g => Ordinary g ∧ g ≠ f) ↔ Ordinary (m n) ∧ m n ≠ f := by
      rw [List.mem_filter, decide_eq_true_eq]
      exact and_iff_right (mem_bytes _)
    generalize hP : (((List.range 256).map UInt8.ofNat).filter fun g => Ordinary g ∧ g ≠ f) = P at ih hm ⊢
    simp only [List.filter_cons, decide_eq_true_eq, hm]
    obtain ⟨⟨f0, fE, fF⟩, f3, f4⟩ := hf
    by_cases c1 : m n = 0xFF
    · simp only [c1, show ¬ Ordinary 0xFF by decide, Ne.symm fF, show (0xFF : UInt8) ≠ 3 by decide, show (0xFF : UInt8) ≠ 4 by decide,
        show (0xFF : UInt8) ≠ 0xFE by decide, if_true, if_false, false_and, List.length_cons]
      omega
    by_cases c2 : m n = 0xFE
    · simp only [c2, show ¬ Ordinary 0xFE by decide, Ne.symm fE, show (0xFE : UInt8) ≠ 3 by decide, show (0xFE : UInt8) ≠ 4 by decide,
        show (0xFE : UInt8) ≠ 0xFF by decide, if_true, if_false, false_and, List.length_cons]
      omega
    by_cases c3 : m n = 3
    · simp only [c3, show ¬ Ordinary 3 by decide, Ne.symm f3, show (3 : UInt8) ≠ 0xFE by decide, show (3 : UInt8) ≠ 4 by decide,
        show (3 : UInt8) ≠ 0xFF by decide, if_true, if_false, false_and, List.length_cons]
      omega
    by_cases c4 : m n = 4
    · simp only [c4, show ¬ Ordinary 4 by decide, Ne.symm f4, show (4 : UInt8) ≠ 0xFE by decide, show (4 : UInt8) ≠ 3 by decide,
        show (4 : UInt8) ≠ 0xFF by decide, if_true, if_false, false_and, List.length_cons]
      omega
    have ho : Ordinary (m n) := ⟨⟨h0, c2, c1⟩, c3, c4⟩
    by_cases c5 : m n = f
    · simp only [c5, if_true, if_false, ne_eq, not_true_eq_false, and_false, List.length_cons]
      rw [if_neg (Ne.symm (Ne.symm fF)), if_neg f3, if_neg f4, if_neg fE]
      omega
    · simp only [c1, c2, c3, c4, c5, ho, if_true, if_false, ne_eq, not_false_eq_true, and_self, List.length_cons]
      omega

/-- All sectors are accounted for. -/
theorem accounted {sm : SectorMap} {img : Bytes} (h : Good sm img) {m : Files} (hm : ∀ g, Ordinary g → fileOnDisk img g = m g) {f : UInt8}
    (hf : Ordinary f) :
    (ownedBy (owner img) 0xFF).length + (ownedBy (owner img) f).length + usedByOthers m f +
      (sectors (fileOnDisk img 3) + sectors (fileOnDisk img 4)) = capacity img := by
  have hu : usedByOthers m f =
      ((List.range 560).filter fun n => own sm n ∈ ((List.range 256).map UInt8.ofNat).filter fun g => Ordinary g ∧ g ≠ f).length := by
    rw [← sum_owned (own sm) (bytes_nodup.filter _)]
    unfold usedByOthers
    apply congrArg List.sum
    apply List.map_congr_left
    intro g hg
    rw [List.mem_filter, decide_eq_true_eq] at hg
    rw [← hm g hg.2.1, h.sectors]
    unfold ownedBy
    exact rfl
  have hs := split_count (own sm) hf (List.range 560) (fun n hn => h.legal.2 n (List.mem_range.1 hn))
  rw [List.length_range, ← hu] at hs
  rw [capacity_eq, h.owned, h.owned, h.owned, h.sectors, h.sectors]
  unfold ownedBy
  omega

end Verif.Supermon

namespace Verif.Cmd
open Disk Spec

theorem hasSpace_view {w : World} {image : Str} {ord : DiskOrder} {n k : Nat} {raw : Bytes} {o : Supermon.Operator}
    (h : HasSpace w image ord n k) (hr : w.files image = some raw) (ho : OpenedNaked raw o ord) :
    capacity o.data = n ∧ (ownedBy (own o.sm) 3).length + (ownedBy (own o.sm) 4).length = k := by
  obtain ⟨raw', img, h1, h2, _, h4⟩ := h
  rw [hr] at h1
  cases h1
  rw [← ho.good.sectors, ← ho.good.sectors]
  rw [ho.data, ← (view_iff (order_named ho.order) raw_named ho.len).1 h2]
  exact h4

theorem hasSpace_written {w : World} {image : Str} {ord : DiskOrder} {new : Bytes} {op : Supermon.Operator}
    (hr : w.files image = some new) (ho : ord = orderDO ∨ ord = orderPO) (hg : Supermon.Good op.sm op.data)
    (hw : writeBackBytes (AnyOp.nakedos op) ord = .ok new) :
    HasSpace w image ord (capacity op.data) ((ownedBy (own op.sm) 3).length + (ownedBy (own op.sm) 4).length) := by
  obtain ⟨hl, hv⟩ := written_view hg.len ho hw
  refine ⟨new, op.data, hr, (view_iff (order_named ho) raw_named hl).2 hv.symm, Supermon.good_nakedOS hg, rfl, ?_⟩
  rw [hg.sectors, hg.sectors]

theorem numericName_no_colon {name : Str} {f : UInt8} (h : NumericName name f) : (0x3A : UInt8) ∉ name :=
  h.2.elim hexNumeral_no_colon hexNumeral_no_colon

theorem space_put {o : Supermon.Operator} (h : Supermon.Good o.sm o.data) (ho : Supermon.openOperator o.data = .ok o) {fi : FileInfo} {ow : Bool}
    (hok : (o.putFile fi ow).out = .ok ()) :
    Supermon.Good (o.putFile fi ow).op.sm (o.putFile fi ow).op.data ∧ capacity (o.putFile fi ow).op.data = capacity o.data ∧
    ((∃ f part, Supermon.PartOf fi.descriptor.name part ∧ NumericName part f ∧ f ≠ 3 ∧ f ≠ 4) →
      (ownedBy (own (o.putFile fi ow).op.sm) 3).length + (ownedBy (own (o.putFile fi ow).op.sm) 4).length =
      (ownedBy (own o.sm) 3).length + (ownedBy (own o.sm) 4).length) := by
  obtain ⟨f, nf, sym, hf, e, hkind⟩ := Supermon.put_kinds hok
  rw [e] at hok ⊢
  have hw := Supermon.putNumbered_wrote hok
  have hk := Supermon.keep_putNumbered (nf := nf) (sym := sym) h hf (by rw [hw]; simp)
  refine ⟨hk.good, hk.capacity h, ?_⟩
  rintro ⟨g, part, hp, hg, g3, g4⟩
  have : f = g := by
    generalize fi.descriptor.name = name at hkind hp
    rcases hkind with ⟨hn, _⟩ | ⟨hc, hno, _⟩ | ⟨a, b, rfl, ha, hb, hn, hno, _⟩
    · cases hp with
      | plain _ => exact Supermon.C34_numeric_unique hn hg
      | number _ _ => exact absurd (numericName_no_colon hn) (by simp)
      | symbol _ _ => exact absurd (numericName_no_colon hn) (by simp)
    · cases hp with
      | plain _ => exact absurd hg (hno g)
      | number _ _ => simp at hc
      | symbol _ _ => simp at hc
    · generalize e : a ++ 0x3A :: b = s at hp
      cases hp with
      | plain hc => rw [← e] at hc; simp at hc
      | @number a' b' ha' hb' =>
        obtain ⟨rfl, rfl⟩ := first_colon ha ha' e
        exact Supermon.C34_numeric_unique hn hg
      | @symbol a' b' ha' hb' =>
        obtain ⟨rfl, rfl⟩ := first_colon ha ha' e
        exact absurd hg (hno g)
  subst this
  obtain ⟨a, b⟩ := Supermon.table_space_put h ho hf g3 g4 hok
  omega

theorem space_delete {o : Supermon.Operator} (h : Supermon.Good o.sm o.data) (ho : Supermon.openOperator o.data = .ok o) {name : Str}
    (hok : (o.delete name).out = .ok ()) :
    Supermon.Good (o.delete name).op.sm (o.delete name).op.data ∧ capacity (o.delete name).op.data = capacity o.data ∧
    ((∃ f, NumericName name f ∧ f ≠ 3 ∧ f ≠ 4) →
      (ownedBy (own (o.delete name).op.sm) 3).length + (ownedBy (own (o.delete name).op.sm) 4).length =
      (ownedBy (own o.sm) 3).length + (ownedBy (own o.sm) 4).length) := by
  rcases Supermon.fileForName_cases o.table name with ⟨f, hn⟩ | hn
  swap
  · rw [Supermon.op_delete_err hn] at hok; simp at hok
  have hk := Supermon.keep_op_delete h hn
  refine ⟨hk.good, hk.capacity h, ?_⟩
  rintro ⟨g, hg, g3, g4⟩
  have := fileForName_numeric hn hg
  subst this
  obtain ⟨a, b⟩ := Supermon.table_space_delete h ho hn g3 g4 hok
  omega

theorem space_one {env : Env} {image : Str} {w : World} {ord : DiskOrder} {n k : Nat} {c : Command} (hi : image ≠ str "-")
    (hc : Agrees image ord c) (h : HasSpace w image ord n k) :
    ∃ k', HasSpace (run env c w).2 image ord n k' ∧ (ByNumber image c → k' = k) := by
  have same : (run env c w).2.files image = w.files image → HasSpace (run env c w).2 image ord n k := by
    rintro e
    obtain ⟨raw, img, h1, h2⟩ := h
    exact ⟨raw, img, e.trans h1, h2⟩
  by_cases hok : (run env c w).1 = .ok ()
  swap
  · exact ⟨k, same (congrFun (C59_failure_changes_nothing env c w hok).1 image), fun _ => rfl⟩
  by_cases ht : target c = some image
  swap
  · exact ⟨k, same (C59_other_files_untouched env c w image ht), fun _ => rfl⟩
  cases c with
  | put order system t ow a i name source =>
    cases ht
    have hc := hc rfl
    obtain ⟨raw, o, ord', data, ft, new, h1, h2, h3, h4, h5, h6⟩ := put_inv hi hok
    have := open_order hc h2
    subst this
    have hnk := open_naked h2
    have hop := hnk.opened
    rw [← hnk.data] at hop
    obtain ⟨a1, a2⟩ := hasSpace_view h h1 hnk
    obtain ⟨b1, b2, b3⟩ := space_put hnk.good hop h4
    refine ⟨_, by rw [← a1, ← b2]; exact hasSpace_written h6 hnk.order b1 h5, ?_⟩
    intro hb
    obtain ⟨f, hf⟩ := hb rfl
    rw [← a2]
    exact b3 ⟨f, name, .plain (numericName_no_colon hf.1), hf⟩
  | rm order system mo i name =>
    cases ht
    have hc := hc rfl
    obtain ⟨raw, o, ord', new, h1, h2, h3, h4, h5, h6⟩ := rm_inv hi hok
    have := open_order hc h2
    subst this
    have hnk := open_naked h2
    have hop := hnk.opened
    rw [← hnk.data] at hop
    obtain ⟨a1, a2⟩ := hasSpace_view h h1 hnk
    obtain ⟨b1, b2, b3⟩ := space_delete hnk.good hop h3
    refine ⟨_, by rw [← a1, ← b2]; exact hasSpace_written h6 hnk.order b1 h5, ?_⟩
    intro hb
    rw [← a2]
    exact b3 (hb rfl)
  | mkhello order i name a s =>
    cases ht
    have hc := hc rfl
    obtain ⟨_, _, raw, o, ord', f, new, h1, h2, h3, h4, h5, h6⟩ := mkhello_inv hi hok
    have := open_order hc h2
    subst this
    have hnk := open_naked h2
    have hop := hnk.opened
    rw [← hnk.data] at hop
    obtain ⟨a1, a2⟩ := hasSpace_view h h1 hnk
    obtain ⟨b1, b2, b3⟩ := space_put hnk.good hop h4
    refine ⟨_, by rw [← a1, ← b2]; exact hasSpace_written h6 hnk.order b1 h5, ?_⟩
    intro _
    rw [← a2]
    have hsplit : str "DF01:FHELLO" = str "DF01" ++ 0x3A :: str "FHELLO" := by decide +kernel
    refine b3 ⟨1, str "DF01", ?_, (Supermon.parseAddressFilename_iff (by decide)).1 (by decide +kernel), by decide, by decide⟩
    show Supermon.PartOf (str "DF01:FHELLO") _
    rw [hsplit]
    exact .number (by decide) (by decide)
  | reorder o n ow i j => exact absurd ht hc
  | mksd o i b a s => exact absurd ht hc
  | ls _ _ _ _ _ => cases ht
  | filetypes _ => cases ht
  | dump _ _ _ _ => cases ht
  | decode _ _ _ => cases ht

/-- C85: no session, however long, changes the number of sectors there are for files; and if files are named by number, not even how many
of them belong to the symbol table. -/
theorem C85_no_loss {env : Env} {image : Str} {ord : DiskOrder} {w w' : World} {l : List (World × Command)} (hi : image ≠ str "-")
    (hs : Session env image w l w') (ha : ∀ p ∈ l, Agrees image ord p.2) {n k : Nat} (h : HasSpace w image ord n k) :
    ∃ k', HasSpace w' image ord n k' ∧ ((∀ p ∈ l, ByNumber image p.2) → k' = k) := by
  have move : ∀ {w1 w2 : World} {k}, w2.files image = w1.files image → HasSpace w1 image ord n k → HasSpace w2 image ord n k := by
    rintro w1 w2 k e ⟨raw, img, h1, h2⟩
    exact ⟨raw, img, e.trans h1, h2⟩
  induction hs generalizing k with
  | done e => exact ⟨k, move e h, fun _ => rfl⟩
  | @step w w1 w' c l e _ ih =>
    obtain ⟨k1, h1, h2⟩ := space_one (env := env) hi (ha (w1, c) (by simp)) (move e h)
    obtain ⟨k2, h3, h4⟩ := ih (fun p hp => ha p (by simp [hp])) h1
    exact ⟨k2, h3, fun hb => (h4 fun p hp => hb p (by simp [hp])).trans (h2 (hb (w1, c) (by simp)))⟩

/-- C85: the files of a readable symbol table have 32 sectors. -/
theorem C85_table_space {env : Env} {image : Str} {ord : DiskOrder} {w : World} {z : Str} {t : Names} (h : HasNames env w image ord z t) {n k : Nat}
    (hs : HasSpace w image ord n k) : k = 32 := by
  obtain ⟨raw, o, st, h1, h2, h3, _⟩ := h
  have hnk := open_naked h2
  have hop := hnk.opened
  rw [← hnk.data] at hop
  obtain ⟨_, a2⟩ := hasSpace_view hs h1 hnk
  obtain ⟨b1, b2⟩ := Supermon.table_sizes hnk.good hop h3
  omega

/-- C85: whether a non-empty file can be put depends only on the sizes of the files there are, not on where they are or what happened before. -/
theorem C85_fits {env : Env} {w : World} {image order system : Str} {o : Supermon.Operator} {ord : DiskOrder} (hi : image ≠ str "-")
    (ho : Finds env w image order system (.nakedos o) ord) {m : Files} (hm : HasFiles w image ord m) {n k : Nat} (hsp : HasSpace w image ord n k)
    {source t name : Str} (hs : source ≠ str "-") {data : Bytes} (hdata : w.files source = some data) (hd : data ≠ [])
    (ht : Types.filetypeForName t = .ok filetypeBinary) {f : UInt8} (hn : NumericName name f)
    (h3 : f ≠ 3) (h4 : f ≠ 4) (ow : Bool) (a : UInt16) :
    (run env (.put order system t ow a image name source) w).1 = .ok () ↔
      sectorsNeeded data.length + usedByOthers m f + k ≤ n ∧ (ow = true ∨ m f = []) := by
  rw [C78_put_number hi ho hs hdata hd ht (numericName_no_colon hn) hn ow a]
  obtain ⟨raw, hg, hopen⟩ := ho
  unfold given at hg
  rw [if_neg hi] at hg hopen
  have hnk := open_naked hopen
  have hf : Ordinary f := ⟨hn.1, h3, h4⟩
  have hv := hasFiles_view hm hg hnk
  obtain ⟨a1, a2⟩ := hasSpace_view hsp hg hnk
  have := Supermon.accounted hnk.good hv hf
  rw [hnk.good.sectors, hnk.good.sectors, a1, a2] at this
  rw [hv f hf]
  exact and_congr_left fun _ => by omega

/-- C85: so after every session that leaves the symbol table alone, `put` finds room exactly for what the other files, as the session left them,
and 32 sectors for the symbol table leave of the sectors that there were in the beginning. -/
theorem C85_session {env : Env} {image : Str} {ord : DiskOrder} {w w' : World} {l : List (World × Command)} (hi : image ≠ str "-")
    (hs : Session env image w l w') {m : Files} {z : Str} {t : Names} (ha : ∀ p ∈ l, Agrees image ord p.2 ∧ Careful image z t p.2)
    (h : HasFiles w image ord m) (hn : HasNames env w image ord z t) {n k : Nat} (hsp : HasSpace w image ord n k) :
    ∃ chs, Changes env image m t l chs ∧
      ∀ (source ty name : Str) (data : Bytes) (f : UInt8) (ow : Bool) (a : UInt16), source ≠ str "-" → w'.files source = some data → data ≠ [] →
        Types.filetypeForName ty = .ok filetypeBinary → NumericName name f → f ≠ 3 → f ≠ 4 →
        ((run env (.put ord (str "nakedos") ty ow a image name source) w').1 = .ok () ↔
          sectorsNeeded data.length + usedByOthers (chs.foldl Change.files m) f + 32 ≤ n ∧
          (ow = true ∨ chs.foldl Change.files m f = [])) := by
  obtain ⟨chs, h1, h2, h3⟩ := C83_session_partial hi hs ha h hn
  obtain ⟨k', h4, _⟩ := C85_no_loss hi hs (fun p hp => (ha p hp).1) hsp
  have := C85_table_space h3 h4
  subst this
  refine ⟨chs, h1, ?_⟩
  intro source ty name data f ow a g1 g2 g3 g4 g5 g6 g7
  obtain ⟨raw, o, st, b1, b2, _⟩ := h3
  exact C85_fits hi ⟨raw, by unfold given; rw [if_neg hi, b1], by rw [if_neg hi]; exact b2⟩ h2 h4 g1 g2 g3 g4 g5 g6 g7 ow a

/-! ## Concrete cases -/

theorem hasSpace_good {w : World} {sm : Supermon.SectorMap} {img : Bytes} (h : Supermon.Good sm img) {image : Str}
    (ha : w.files image = some (viewOf orderRaw orderDO img)) :
    HasSpace w image orderDO (560 - (ownedBy (own sm) 0xFE).length) ((ownedBy (own sm) 3).length + (ownedBy (own sm) 4).length) := by
  obtain ⟨raw, img', h1, h2, h3, _⟩ := hasFiles_good h ha
  have hl : raw.length = 143360 := by rw [← h2.1]; exact h3.1
  have hv := (view_iff (order_named (Or.inl rfl)) raw_named hl).1 h2
  rw [ha] at h1
  cases h1
  rw [viewOf_viewOf raw_named (order_named (Or.inl rfl)) h.len] at hv
  subst hv
  exact ⟨_, _, ha, h2, h3, by rw [Supermon.capacity_eq, h.owned], by rw [h.sectors, h.sectors]⟩

theorem lonely_fixed : (ownedBy (own Supermon.lonelyMap) 0xFE).length = 12 := by rw [Supermon.lonely_owned]; decide +kernel
theorem lonely_table : (ownedBy (own Supermon.lonelyMap) 3).length + (ownedBy (own Supermon.lonelyMap) 4).length = 0 := by
  rw [Supermon.lonely_owned, Supermon.lonely_owned]; decide +kernel

/-- Non-vacuity of C85: the session of two puts on the disk with the file DF09 has 548 sectors before and after. -/
example (env : Env) :
    ∃ w w1 w2, Session env (str "a.do") w [(w, putX), (w1, putY)] w2 ∧ (∀ p ∈ [(w, putX), (w1, putY)], ByNumber (str "a.do") p.2) ∧
      HasSpace w (str "a.do") orderDO 548 0 ∧ HasSpace w2 (str "a.do") orderDO 548 0 := by
  obtain ⟨w1, w2, h1, h2, h3⟩ := two_puts_session env Supermon.lonely_good lonely_5 lonely_6 (by rw [Supermon.lonely_free]; omega)
  have hs := hasSpace_good Supermon.lonely_good (twoFiles_a _)
  rw [lonely_fixed, lonely_table] at hs
  have hb : ∀ p ∈ [(twoFiles Supermon.lonelyImg, putX), (w1, putY)], ByNumber (str "a.do") p.2 := by
    intro p hp
    simp only [List.mem_cons, List.not_mem_nil, or_false] at hp
    rcases hp with rfl | rfl
    · exact fun _ => ⟨5, numeric5, by decide, by decide⟩
    · exact fun _ => ⟨6, numeric6, by decide, by decide⟩
  obtain ⟨k, g1, g2⟩ := C85_no_loss (by decide +kernel) h1 (fun p hp => (h2 p hp).1) hs
  rw [g2 hb] at g1
  exact ⟨_, w1, w2, h1, hb, hs, g1⟩

theorem fresh_good : Supermon.Good Supermon.freshMap Supermon.freshImg :=
  ⟨Supermon.freshImg_length, Supermon.freshMap_legal, Supermon.freshImg_load⟩

theorem fresh_fixed : (ownedBy (own Supermon.freshMap) 0xFE).length = 12 := by
  have : ownedBy (own Supermon.freshMap) 0xFE = (List.range 560).filter fun n => (if n < 12 then (0xFE : UInt8) else 0xFF) = 0xFE :=
    List.filter_congr fun n hn => by rw [Supermon.own_freshMap (List.mem_range.1 hn)]
  rw [this]
  decide +kernel

theorem fits_empty {env : Env} {w : World} {sm : Supermon.SectorMap} {img : Bytes} (hg : Supermon.Good sm img)
    (he : ∀ f, IsFileNumber f → ownedBy (own sm) f = []) (hfree : (ownedBy (own sm) 0xFF).length = 548)
    (hfix : (ownedBy (own sm) 0xFE).length = 12)
    (ha : w.files (str "a.do") = some (viewOf orderRaw orderDO img)) {data : Bytes}
    (hdata : w.files (str "x") = some data) (hd : data ≠ []) :
    (run env (.put (str "do") (str "nakedos") (str "B") false 0 (str "a.do") (str "DF05") (str "x")) w).1 = .ok () ↔
      sectorsNeeded data.length ≤ 548 := by
  have hs := hasSpace_good hg ha
  have hm := hasFiles_good hg ha
  rw [hfix, he 3 Supermon.isFile3, he 4 Supermon.isFile4] at hs
  have hf : Finds env w (str "a.do") (str "do") (str "nakedos") (.nakedos ⟨img, sm, Supermon.tableOn sm img⟩) orderDO :=
    ⟨_, by unfold given; rw [if_neg (by decide +kernel)]; exact ha,
      by rw [if_neg (by decide +kernel)]; exact open_view env hg (Or.inl rfl) _⟩
  rw [C85_fits (by decide +kernel) hf hm hs (by decide +kernel) hdata hd (by decide +kernel) numeric5 (by decide) (by decide)]
  have e := Supermon.accounted hg (m := fileOnDisk img) (fun _ _ => rfl) (f := 5) ⟨numeric5.1, by decide, by decide⟩
  rw [hg.owned, hg.owned, hfree, Supermon.capacity_eq, hg.owned, hfix, hg.sectors, hg.sectors, he 3 Supermon.isFile3, he 4 Supermon.isFile4,
    he 5 numeric5.1] at e
  have h5 : fileOnDisk img 5 = [] := by
    rw [← hg.onDisk, ← List.length_eq_zero_iff, Supermon.fileBytes_length hg.len, he 5 numeric5.1]
    rfl
  simp only [List.length_nil] at e ⊢
  constructor
  · intro h; omega
  · intro h; exact ⟨by omega, Or.inr h5⟩

/-- C85: on a freshly formatted disk there is room for a file of up to 548 sectors, and for no longer one. -/
theorem C85_fresh {env : Env} {w : World} (ha : w.files (str "a.do") = some (viewOf orderRaw orderDO Supermon.freshImg)) {data : Bytes}
    (hdata : w.files (str "x") = some data) (hd : data ≠ []) :
    (run env (.put (str "do") (str "nakedos") (str "B") false 0 (str "a.do") (str "DF05") (str "x")) w).1 = .ok () ↔
      sectorsNeeded data.length ≤ 548 :=
  fits_empty fresh_good (fun _ hf => Supermon.freshMap_file hf) Supermon.freshMap_free fresh_fixed ha hdata hd

end Verif.Cmd
