import Verif.Proofs.Settled
import Verif.Props.NamesRun

/-!
# C90: putting the same file again
-/

set_option autoImplicit false

namespace Verif.Supermon
open Disk Spec

/-- What a successful write of something has done. -/
theorem writeFile_inv {sm : SectorMap} {img : Bytes} (h : Good sm img) {f : UInt8} (hf : IsFileNumber f) {c : Bytes} (hc : c ≠ []) {ow : Bool}
    (hok : (writeFile sm img f c ow).out = .ok ()) :
    (writeFile sm img f c ow).sm = newMap sm f c ∧ (writeFile sm img f c ow).img = newImg sm f c img := by
  obtain ⟨h1, h2⟩ := (C25_write_outcome ow h.len hf hc).2.2.1.1 hok
  rw [writeFile_ok h.len hf hc (by unfold Fits; rw [sectorsNeeded_eq] at h1; omega) h2.symm]
  exact ⟨rfl, rfl⟩

theorem settled_symbolTable {sm : SectorMap} {img : Bytes} (h : Good sm img) {f : UInt8} (hf : IsFileNumber f) (h3 : f ≠ 3) (h4 : f ≠ 4)
    (hs : Settled sm f) (s3 : (ownedBy (own sm) 3).length ≤ 16) (s4 : (ownedBy (own sm) 4).length ≤ 16) {st : SymbolTable}
    (hok : (writeSymbolTable sm img st).1 = .ok ()) : Settled (writeSymbolTable sm img st).2.1 f := by
  unfold writeSymbolTable at hok ⊢
  have z0 : (zeros 0x1000).length = 0x1000 := zeros_length _
  rcases e : fillTables st 0 (zeros 0x1000) (zeros 0x1000) with ⟨t1, t2⟩ | _ | _ | _
  · obtain ⟨l1, l2⟩ := fillTables_length e z0 z0
    have n1 : t1 ≠ [] := by rintro rfl; simp at l1
    have n2 : t2 ≠ [] := by rintro rfl; simp at l2
    rw [e] at hok
    dsimp only at hok ⊢
    rcases e1 : (writeFile sm img 3 t1 true).out with u | _ | _ | _
    · have hk := keep_writeFile h isFile3 (c := t1) (ow := true) (by rw [e1]; simp)
      have m1 := (writeFile_inv h isFile3 n1 e1).1
      have hs1 : Settled (writeFile sm img 3 t1 true).sm f := by
        rw [m1]
        exact settled_newMap_other hf.2.2 isFile3.2.2 h3 hs (by rw [l1]; exact s3)
      have s4' : (ownedBy (own (writeFile sm img 3 t1 true).sm) 4).length ≤ 16 := by
        rw [hk.sect 4 isFile4 (by decide)]; exact s4
      rw [e1] at hok
      dsimp only at hok ⊢
      have hg1 := hk.good
      generalize writeFile sm img 3 t1 true = r1 at hok hs1 s4' hg1 ⊢
      rcases e2 : (writeFile r1.sm r1.img 4 t2 true).out with u | _ | _ | _
      · dsimp only
        rw [(writeFile_inv hg1 isFile4 n2 e2).1]
        exact settled_newMap_other hf.2.2 isFile4.2.2 h4 hs1 (by rw [l2]; exact s4')
      all_goals (rw [e2] at hok; simp at hok)
    all_goals (rw [e1] at hok; simp at hok)
  all_goals (rw [e] at hok; simp at hok)

/-- After a put, the file comes before every free sector. -/
theorem settled_putNumbered {o : Operator} (h : Good o.sm o.data) (ho : openOperator o.data = .ok o) {f nf : UInt8} {sym : Str} {data : Bytes}
    {ow : Bool} (hf : IsFileNumber f) (hd : data ≠ []) (hcase : (nf = f ∨ sym = []) ∨ (f ≠ 3 ∧ f ≠ 4))
    (hok : (o.putNumbered f nf sym data ow).out = .ok ()) : Settled (o.putNumbered f nf sym data ow).op.sm f := by
  have hw : (writeFile o.sm o.data f data ow).out = .ok () := by
    unfold Operator.putNumbered at hok
    simp only at hok
    split at hok
    · assumption
    · exact hok
  have hk := keep_writeFile h hf (c := data) (ow := ow) (by rw [hw]; simp)
  have hs := (writeFile_inv h hf hd hw).1
  have hs1 : Settled (writeFile o.sm o.data f data ow).sm f := by rw [hs]; exact settled_newMap _ _ hf.2.2
  by_cases hc : nf ≠ f ∧ sym ≠ []
  · obtain ⟨h3, h4⟩ := hcase.resolve_left (by simp [hc])
    unfold Operator.putNumbered at hok ⊢
    simp only [hw, if_pos hc] at hok ⊢
    cases hst : o.st with
    | none => rw [hst] at hok; simp at hok
    | some st =>
      obtain ⟨s3, s4⟩ := table_sizes h ho hst
      rw [hst] at hok
      simp only at hok ⊢
      rcases hadd : addSymbol st sym (0xDF00 + f.toUInt16) with ⟨out, st'⟩
      rw [hadd] at hok
      cases out with
      | ok u =>
        simp only at hok ⊢
        refine settled_symbolTable hk.good hf h3 h4 hs1 ?_ ?_ hok
        · rw [hk.sect 3 isFile3 h3.symm, s3]
        · rw [hk.sect 4 isFile4 h4.symm, s4]
      | err k => simp at hok
      | panic => simp at hok
      | timeout => simp at hok
  · unfold Operator.putNumbered
    simp only [hw, if_neg hc]
    exact hs1

/-- Putting again what is there. -/
theorem putNumbered_same {o : Operator} (h : Good o.sm o.data) {f nf : UInt8} {sym : Str} {data : Bytes} (hf : IsFileNumber f) (hd : data ≠ [])
    (hs : Settled o.sm f) (hb : fileBytes (own o.sm) o.data f = padded data) (hn : nf = f ∨ sym = []) :
    o.putNumbered f nf sym data true = ⟨true, .ok (), o⟩ := by
  unfold Operator.putNumbered
  rw [writeFile_same h hf hs hd hb]
  dsimp only
  rw [if_neg (fun hc => hn.elim hc.1 hc.2)]

/-- The checks a put makes before it looks at the name. -/
theorem putFile_checks {o : Operator} {fi : FileInfo} {ow : Bool} (hok : (o.putFile fi ow).out = .ok ()) :
    fi.descriptor.type = filetypeBinary ∧ fi.descriptor.length = fi.data.length := by
  unfold Operator.putFile at hok
  split at hok
  · simp at hok
  rename_i h1
  split at hok
  · simp at hok
  rename_i h2
  exact ⟨not_not.1 h1, not_not.1 h2⟩

theorem putFile_resolved {o : Operator} {fi : FileInfo} {ow : Bool} (hfi : fi.descriptor.type = filetypeBinary ∧ fi.descriptor.length = fi.data.length)
    {f nf : UInt8} {sym : Str} (hf : f ≠ 0) (hr : filesForCompoundName o.table fi.descriptor.name = .ok (f, nf, sym))
    (hs : sym = [] ∨ (o.st ≠ none ∧ LegalName sym)) : o.putFile fi ow = o.putNumbered f nf sym fi.data ow := by
  unfold Operator.putFile
  rw [if_neg (by simp [hfi.1]), if_neg (by simp [hfi.2]), hr]
  dsimp only
  rw [if_neg, if_neg, if_neg hf, if_neg hf]
  · rintro ⟨h1, h2⟩
    obtain ⟨_, hl⟩ := hs.resolve_left h1
    obtain ⟨six, e⟩ := legal_encode hl
    rw [e] at h2
    simp at h2
  · rintro ⟨h1, h2⟩
    exact (hs.resolve_left h1).1 h2

theorem put_again_number {o : Operator} (h : Good o.sm o.data) (ho : openOperator o.data = .ok o) {fi : FileInfo} {ow : Bool}
    (hok : (o.putFile fi ow).out = .ok ()) (hd : fi.data ≠ []) {f : UInt8} (hn : NumericName fi.descriptor.name f) {o2 : Operator}
    (ho2 : openOperator (o.putFile fi ow).op.data = .ok o2) : o2.putFile fi true = ⟨true, .ok (), o2⟩ := by
  obtain ⟨g, nf, sym, hg, e, hkind⟩ := put_kinds hok
  have hcol := numeric_no_colon hn
  have : g = f ∧ sym = [] := by
    rcases hkind with ⟨hn', hs⟩ | ⟨_, hn', _⟩ | ⟨a, b, hab, _⟩
    · exact ⟨C34_numeric_unique hn' hn, hs⟩
    · exact absurd hn (hn' f)
    · rw [hab] at hcol; simp at hcol
  obtain ⟨rfl, rfl⟩ := this
  have hok' := hok
  rw [e] at hok' ho2
  have hs := settled_putNumbered h ho hg hd (Or.inl (Or.inr rfl)) hok'
  obtain ⟨hg2, hcase⟩ := putNumbered_ok h hg hok'
  have hb := hcase.resolve_right (by simp)
  rw [open_of_good hg2] at ho2
  cases ho2
  rw [putFile_resolved (putFile_checks hok) hg.1 ((C39_plain _ hcol).1 g hn) (Or.inl rfl)]
  exact putNumbered_same (o := ⟨_, _, Supermon.tableOn _ _⟩) hg2 hg hd hs hb.2.2 (Or.inr rfl)

theorem put_again_name {o : Operator} (h : Good o.sm o.data) (ho : openOperator o.data = .ok o) {st : SymbolTable} (hst : o.st = some st)
    {z : Str} {t : Names} (hk : Knows st z t) {fi : FileInfo} {ow : Bool} (hname : PutName z t fi.descriptor.name)
    (hok : (o.putFile fi ow).out = .ok ()) (hd : fi.data ≠ []) {o2 : Operator} (ho2 : openOperator (o.putFile fi ow).op.data = .ok o2) :
    o2.putFile fi true = ⟨true, .ok (), o2⟩ := by
  obtain ⟨f, sym, o2', st2, hf, hto, _, hop, hg2, hdat, hfiles, hst2, hk2, hsm, ⟨nf, s, e⟩, _⟩ := put_names_how h ho hst hk hname hok
  rw [hop] at ho2
  cases ho2
  have hs : Settled o2.sm f := by
    rw [hsm]
    rw [e] at hok ⊢
    exact settled_putNumbered h ho hf.1 hd (Or.inr hf.2) hok
  have hb : fileBytes (own o2.sm) o2.data f = padded fi.data := by
    rw [hg2.onDisk, hfiles f hf, if_pos rfl]
  have htab : o2.table = st2 := by unfold Operator.table; rw [hst2]; rfl
  have hsome : o2.st ≠ none := by rw [hst2]; simp
  rcases hto with ⟨hn, rfl⟩ | ⟨hsy, rfl, _⟩ | ⟨a, b, hab, hn, hsy, rfl⟩
  · rw [putFile_resolved (putFile_checks hok) hf.1.1 ((C39_plain _ (numeric_no_colon hn)).1 f hn) (Or.inl rfl)]
    exact putNumbered_same hg2 hf.1 hd hs hb (Or.inr rfl)
  · have hres : fileForName o2.table fi.descriptor.name = .ok f := by
      rw [htab]
      refine ((knows_name hk2 hsy).1 f).2 ?_
      show (if SameName fi.descriptor.name fi.descriptor.name then some f else _) = _
      rw [if_pos (show SameName _ _ from rfl)]
    rw [putFile_resolved (putFile_checks hok) hf.1.1 ((C39_plain _ (symbolic_no_colon hsy)).2.1 hsy.2 f hres) (Or.inr ⟨hsome, hsy.1⟩)]
    exact putNumbered_same hg2 hf.1 hd hs hb (Or.inl rfl)
  · have hres : fileForName o2.table b = .ok f := by
      rw [htab]
      refine ((knows_name hk2 hsy).1 f).2 ?_
      show (if SameName b b then some f else _) = _
      rw [if_pos (show SameName _ _ from rfl)]
    have hr := ((C39_compound o2.table (numeric_no_colon hn) (symbolic_no_colon hsy)).1 f hn hsy.2).1 f hres
    rw [← hab] at hr
    rw [putFile_resolved (putFile_checks hok) hf.1.1 hr (Or.inr ⟨hsome, hsy.1⟩)]
    exact putNumbered_same hg2 hf.1 hd hs hb (Or.inl rfl)

end Verif.Supermon

namespace Verif.Cmd
open Disk Spec

theorem contentsOf_eq_given {w : World} {path : Str} {data : Bytes} (h : given w path = some data) :
    contentsOf path w = (.ok data, afterReading w path) := by
  unfold contentsOf World.fileContentsOrStdIn afterReading
  unfold given at h
  split
  · rename_i e
    rw [if_pos e] at h
    cases h
    rfl
  · rename_i e
    rw [if_neg e] at h
    rw [h]

theorem writeFile_same_bytes {w : World} {path : Str} {b : Bytes} (h : w.files path = some b) : (w.writeFile path b).files = w.files := by
  unfold World.writeFile
  funext p
  dsimp only
  split
  · rename_i e; rw [e, h]
  · rfl

/-- `put` on a NakedOS disk when it leaves the disk as it is. -/
theorem put_runs_same {env : Env} {w : World} {order : DiskOrder} {system t : Str} {ow : Bool} {address : UInt16}
    {image name source : Str} (hi : image ≠ str "-") {data : Bytes} (hdata : given w source = some data) {o : Supermon.Operator} {ord : DiskOrder}
    (hfind : Finds env w image order system (.nakedos o) ord) {ft : Filetype}
    (hft : Types.filetypeForName t = .ok ft) {ex : Bool}
    (hput : o.putFile ⟨{ name := name, length := data.length, type := ft }, data, address⟩ ow = ⟨ex, .ok (), o⟩) :
    (run env (.put order system t ow address image name source) w).1 = .ok () ∧
    (run env (.put order system t ow address image name source) w).2.files = w.files := by
  obtain ⟨raw, hraw, hopen⟩ := hfind
  unfold given at hraw
  rw [if_neg hi] at hraw hopen
  have hn := open_naked hopen
  have hl : o.data.length = 143360 := hn.good.len
  have hview : viewOf orderRaw ord o.data = raw := by rw [hn.data, viewOf_viewOf (order_named hn.order) raw_named hn.len]
  have key : run env (.put order system t ow address image name source) w = (.ok (), (afterReading w source).writeFile image raw) := by
    change putCmd env World.writeOutput order system t ow address image name source w = _
    unfold putCmd
    rw [if_neg (fun h => hi h.1), bind_run (a := (.nakedos o, ord)) (w' := w) (by rw [openDisk_eq hi hraw, hopen])]
    dsimp only
    rw [bind_run (a := data) (w' := afterReading w source) (contentsOf_eq_given hdata)]
    rw [bind_run (a := ft) (w' := afterReading w source) (by unfold lift; rw [hft])]
    generalize hfi : (⟨{ name := name, length := data.length, type := ft }, data, address⟩ : FileInfo) = fi at hput ⊢
    have e : AnyOp.putFile (.nakedos o) fi ow = (.ok ex, .nakedos o) := by
      unfold AnyOp.putFile
      dsimp only
      rw [hput]
    rw [e]
    dsimp only
    rw [bind_run (m := lift (.ok ex)) (a := ex) (w' := afterReading w source) rfl]
    unfold writeDisk writeBackVia
    rw [writeBack_naked hl hn.order, hview]
    dsimp only
    unfold World.writeOutput
    rw [if_neg hi, if_neg (by simp)]
  rw [key]
  refine ⟨rfl, ?_⟩
  dsimp only
  have hf : (afterReading w source).files = w.files := by unfold afterReading; split <;> rfl
  rw [writeFile_same_bytes (by rw [hf]; exact hraw), hf]

/-- Common part of the theorems below: the disk found after a put is the one the put left. -/
theorem put_then_find {env : Env} {order order2 : DiskOrder} {system system2 ty : Str} {ow : Bool} {a : UInt16} {image name source source2 : Str}
    {w w2 : World} (hi : image ≠ str "-") (h : (run env (.put order system ty ow a image name source) w).1 = .ok ())
    (hw2 : w2.files image = (run env (.put order system ty ow a image name source) w).2.files image)
    {o o2 : Supermon.Operator} {ord : DiskOrder} (hf : Finds env w image order system (.nakedos o) ord)
    (hf2 : Finds env w2 image order2 system2 (.nakedos o2) ord) {data : Bytes} (hd : given w source = some data)
    (hd2 : given w2 source2 = some data)
    (hput : ∀ fi : FileInfo, fi.descriptor.name = name → fi.data = data → (o.putFile fi ow).out = .ok () →
      Supermon.openOperator (o.putFile fi ow).op.data = .ok o2 → ∃ ex, o2.putFile fi true = ⟨ex, .ok (), o2⟩) :
    (run env (.put order2 system2 ty true a image name source2) w2).1 = .ok () ∧
    (run env (.put order2 system2 ty true a image name source2) w2).2.files = w2.files := by
  obtain ⟨raw, o', ord', data', ft, new, h1, h2, h3, h4, h5, h6, h7⟩ := put_inv_type hi h
  obtain ⟨raw', g1, g2⟩ := hf
  unfold given at g1
  rw [if_neg hi] at g1 g2
  rw [h1] at g1
  cases g1
  rw [h2] at g2
  cases g2
  rw [hd] at h3
  cases h3
  rw [h6] at hw2
  have hn := open_naked h2
  have hnl : (o.putFile ⟨{ name := name, length := data.length, type := ft }, data, a⟩ ow).op.data.length = 143360 := by
    obtain ⟨o3, f, k1, k2, k3, _⟩ := Supermon.reopen_put hn.good (by rw [hn.data]; exact hn.opened) h4
    rw [← k3]
    exact k2.len
  obtain ⟨hbl, hv⟩ := written_view hnl hn.order h5
  have hop2 : Supermon.openOperator (o.putFile ⟨{ name := name, length := data.length, type := ft }, data, a⟩ ow).op.data = .ok o2 := by
    obtain ⟨raw2, e1, e2⟩ := hf2
    unfold given at e1
    rw [if_neg hi] at e1 e2
    rw [hw2] at e1
    cases e1
    have := (open_naked e2).opened
    rw [hv] at this
    exact this
  obtain ⟨ex, hp⟩ := hput _ rfl rfl h4 hop2
  exact put_runs_same hi hd2 hf2 h7 hp

/-- C90, for names that are numbers: once a `put` has succeeded, putting the same contents again under the same name succeeds and changes no
byte of any file.  In between, anything may change but the image file. -/
theorem C90_number {env : Env} {order order2 : DiskOrder} {system system2 ty : Str} {ow : Bool} {a : UInt16} {image name source source2 : Str}
    {w w2 : World} (hi : image ≠ str "-") {f : UInt8} (hname : NumericName name f)
    (h : (run env (.put order system ty ow a image name source) w).1 = .ok ())
    (hw2 : w2.files image = (run env (.put order system ty ow a image name source) w).2.files image)
    {o o2 : Supermon.Operator} {ord : DiskOrder} (hf : Finds env w image order system (.nakedos o) ord)
    (hf2 : Finds env w2 image order2 system2 (.nakedos o2) ord) {data : Bytes} (hd0 : data ≠ []) (hd : given w source = some data)
    (hd2 : given w2 source2 = some data) :
    (run env (.put order2 system2 ty true a image name source2) w2).1 = .ok () ∧
    (run env (.put order2 system2 ty true a image name source2) w2).2.files = w2.files := by
  refine put_then_find hi h hw2 hf hf2 hd hd2 ?_
  rintro fi rfl rfl hok ho2
  obtain ⟨raw, _, g2⟩ := hf
  have hn := open_naked g2
  exact ⟨true, Supermon.put_again_number hn.good (by rw [hn.data]; exact hn.opened) hok hd0 hname ho2⟩

/-- C90, for symbolic names on a disk whose symbol table is in order: the same, for the names that C83 allows. -/
theorem C90_name_partial {env : Env} {order order2 : DiskOrder} {system system2 ty : Str} {ow : Bool} {a : UInt16} {image name source source2 : Str}
    {w w2 : World} (hi : image ≠ str "-") {z : Str} {t : Names} (hname : Careful image z t (.put order system ty ow a image name source))
    {ord : DiskOrder} (hk : HasNames env w image ord z t)
    (h : (run env (.put order system ty ow a image name source) w).1 = .ok ())
    (hw2 : w2.files image = (run env (.put order system ty ow a image name source) w).2.files image)
    {o o2 : Supermon.Operator} (hf : Finds env w image order system (.nakedos o) ord)
    (hf2 : Finds env w2 image order2 system2 (.nakedos o2) ord) {data : Bytes} (hd0 : data ≠ []) (hd : given w source = some data)
    (hd2 : given w2 source2 = some data) :
    (run env (.put order2 system2 ty true a image name source2) w2).1 = .ok () ∧
    (run env (.put order2 system2 ty true a image name source2) w2).2.files = w2.files := by
  refine put_then_find hi h hw2 hf hf2 hd hd2 ?_
  rintro fi rfl rfl hok ho2
  obtain ⟨raw, g1, g2⟩ := hf
  unfold given at g1
  rw [if_neg hi] at g1 g2
  have hn := open_naked g2
  obtain ⟨raw', o', st, k1, k2, k3, k4⟩ := hk
  rw [g1] at k1
  cases k1
  have := names_operator g2 k2
  subst this
  exact ⟨true, Supermon.put_again_name hn.good (by rw [hn.data]; exact hn.opened) k3 k4 (hname rfl) hok hd0 ho2⟩

end Verif.Cmd
