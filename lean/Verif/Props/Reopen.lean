import Verif.Proofs.Reopen
import Verif.Props.Cmd

/-!
# C63 and C61: what one command leaves for the next
-/

set_option autoImplicit false

namespace Verif.Supermon
open Disk Spec

/-- When a part of a name that was put into file `f` means that file on the disk read again: it is a
number, or it already named the file, or it is a legal name whose table entry can be replaced. -/
def Survives (st : SymbolTable) (part : Str) (f : UInt8) : Prop :=
  NumericName part f ∨ fileForName st part = .ok f ∨ (Sound st ∧ LegalName part ∧ SafeDelete st part)

/-- What a successful put leaves, seen by opening the bytes again. -/
theorem reopen_put {o : Operator} (h : Good o.sm o.data) (ho : openOperator o.data = .ok o) {fi : FileInfo} {ow : Bool}
    (hok : (o.putFile fi ow).out = .ok ()) :
    ∃ o2 f, openOperator (o.putFile fi ow).op.data = .ok o2 ∧ Good o2.sm o2.data ∧
      o2.data = (o.putFile fi ow).op.data ∧ o2.sm = (o.putFile fi ow).op.sm ∧ IsFileNumber f ∧
      (∀ part g, PartOf fi.descriptor.name part → NumericName part g → g = f) ∧
      (∀ g, IsFileNumber g → g ≠ f → g ≠ 3 → g ≠ 4 → fileOnDisk o2.data g = fileOnDisk o.data g) ∧
      (ow = false → fileOnDisk o.data f = []) ∧
      (f ≠ 3 → f ≠ 4 → fileOnDisk o2.data f = padded fi.data ∧
        ∀ part, fi.data ≠ [] → PartOf fi.descriptor.name part → part ≠ [] → Survives o.table part f →
          fileForName o2.table part = .ok f ∧ Stored o2 part fi.data) := by
  obtain ⟨f, nf, sym, hf, e, hparts⟩ := put_split hok
  have hnp : (writeFile o.sm o.data f fi.data ow).out ≠ .panic := by
    intro hc
    rw [e] at hok
    have := putNumbered_panic (nf := nf) (sym := sym) hc
    rw [hok] at this
    simp at this
  have hkeep := keep_putNumbered (nf := nf) (sym := sym) h hf hnp
  rw [← e] at hkeep
  have hg2 := hkeep.good
  refine ⟨_, f, open_of_good hg2, hg2, rfl, rfl, hf, ?_, ?_, ?_, ?_⟩
  · intro part g hp hg
    have hp0 : part ≠ [] := by
      rintro rfl
      have := (parseAddressFilename_iff hg.1.1).2 hg
      exact hg.1.1 this.symm
    rcases hparts part hp hp0 with hnum | ⟨_, hz, _⟩
    · exact C34_numeric_unique hg hnum
    · have := (parseAddressFilename_iff hg.1.1).2 hg
      rw [hz] at this
      exact absurd this.symm hg.1.1
  · intro g hg h1 h2 h3
    dsimp only
    rw [← hg2.onDisk, ← h.onDisk]
    exact hkeep.bytes g hg (by simp [h1, h2, h3])
  · intro how
    have hw : (writeFile o.sm o.data f fi.data ow).out = .ok () := by
      rw [e] at hok
      unfold Operator.putNumbered at hok
      simp only at hok
      split at hok
      · assumption
      · exact hok
    rw [← h.onDisk]
    exact (writeFile_bytes h hf hw).2 how
  intro h3 h4
  have hbytes : fileBytes (own (o.putFile fi ow).op.sm) (o.putFile fi ow).op.data f = padded fi.data := by
    rw [e] at hok ⊢
    obtain ⟨_, hcase⟩ := putNumbered_ok h hf hok
    rcases hcase with ⟨_, _, hb⟩ | ⟨_, _, st, _, _, _, hb⟩
    · exact hb
    · exact hb ⟨h3, h4⟩
  refine ⟨by dsimp only; rw [← hg2.onDisk]; exact hbytes, ?_⟩
  intro part hd hp hp0 hwhen
  suffices hres : fileForName ((tableOn (o.putFile fi ow).op.sm (o.putFile fi ow).op.data).getD []) part = .ok f from
    ⟨hres, stored_of_bytes (o := ⟨(o.putFile fi ow).op.data, (o.putFile fi ow).op.sm,
      tableOn (o.putFile fi ow).op.sm (o.putFile fi ow).op.data⟩) hg2.len hres hd hbytes⟩
  rcases hparts part hp hp0 with hnum | ⟨hsym, hz, hsame⟩
  · unfold fileForName
    rw [(parseAddressFilename_iff hf.1).2 hnum, if_pos hf.1]
  · have hok' := hok
    rw [e] at hok' hg2 ⊢
    obtain ⟨_, hcase⟩ := putNumbered_ok h hf hok'
    rcases hcase with ⟨hor, hst, _⟩ | ⟨hnf, hs0, st, hst, hadd, hst', _⟩
    · -- no symbol written: files 3 and 4 are as they were
      have hor' : nf = f := by
        rcases hor with h | h
        · exact h
        · exact absurd (hsym.trans h) hp0
      have hk : Keep (· = f) o.sm o.data (o.putNumbered f nf sym fi.data ow).op.sm (o.putNumbered f nf sym fi.data ow).op.data := by
        have hk := keep_writeFile h hf hnp
        unfold Operator.putNumbered
        simp only
        split
        · rw [if_neg (fun h => h.1 hor')]
          exact hk
        · exact hk
      rw [tableOn_congr h hg2 (hk.bytes 3 isFile3 (fun h => h3 h.symm)) (hk.bytes 4 isFile4 (fun h => h4 h.symm)),
        ← opened_table h ho]
      exact hsame.1 hor'
    · rcases hwhen with hnum | hg1 | ⟨hsound, hlegal, hsafe⟩
      · exact absurd ((parseAddressFilename_iff hnum.1.1).2 hnum) (by rw [hz]; exact fun h => hnum.1.1 h.symm)
      · exact absurd (hsame.2 hg1) hnf
      · subst hsym
        have htab : o.table = st := by unfold Operator.table; rw [hst]; rfl
        rw [htab] at hsound hsafe
        have hs' := sound_add hsound hlegal (a := 0xDF00 + f.toUInt16) (Or.inl hsafe)
        have hk : readSymbolTable (o.putNumbered f nf part fi.data ow).op.sm (o.putNumbered f nf part fi.data ow).op.data =
            .ok ((addSymbol st part (0xDF00 + f.toUInt16)).2.map canonical) := by
          have hk := keep_writeFile h hf hnp
          have hw : (writeFile o.sm o.data f fi.data ow).out = .ok () := by
            unfold Operator.putNumbered at hok'
            simp only at hok'
            split at hok'
            · assumption
            · exact hok'
          unfold Operator.putNumbered at hok' ⊢
          simp only [hw, if_pos (And.intro hnf hs0), hst] at hok' ⊢
          rcases hx : addSymbol st part (0xDF00 + f.toUInt16) with ⟨out, st'⟩
          rw [hx] at hadd hs' hok'
          simp only at hadd hs'
          subst hadd
          simp only at hok' ⊢
          exact C31_write_read hk.good hs'.wellFormed hok'
        unfold tableOn
        rw [hk]
        simp only [Option.getD_some]
        unfold fileForName
        rw [hz, if_neg (by simp), fileForSymbol_canonical hs'.clean hp0, fileForSymbol_byName hf (C32_add_self hadd)]

end Verif.Supermon

namespace Verif.Cmd
open Disk Spec

/-- The bytes a command gets when told to read `path`. -/
def given (w : World) (path : Str) : Option Bytes := if path = str "-" then some w.stdin else w.files path

/-- Every (order, system) pair that is tried before order `ord` with NakedOS rejects the bytes. -/
def NothingEarlier (env : Env) (raw : Bytes) (filename : Str) (order : DiskOrder) (system : Str) (ord : DiskOrder) : Prop :=
  ∀ os pre f post, CandidateOrders order (toLower (pathExt filename)) os →
    candidates os system (factories env) = pre ++ (ord, f) :: post → f.name = str "nakedos" →
    ∀ p ∈ pre, ∀ v, View p.1 p.2.diskOrder raw v → Rejects p.2 v

theorem factories_orders (env : Env) : ∀ f ∈ factories env, f.diskOrder = str "do" ∨ f.diskOrder = str "po" ∨ f.diskOrder = str "raw" :=
  fun f hf => (factories_lawful env f hf).1

theorem naked_factory {env : Env} {f : Factory AnyOp} (hf : f ∈ factories env) (hn : f.name = str "nakedos") :
    f = Factory.map .nakedos Supermon.factory := by
  simp only [factories, List.mem_cons, List.not_mem_nil, or_false] at hf
  rcases hf with rfl | rfl | rfl
  · exact absurd hn (by decide)
  · rfl
  · change str "prodos" = str "nakedos" at hn
    exact absurd hn (by decide)

theorem naked_factory' {env : Env} {f : Factory AnyOp} (hf : f ∈ factories env) {v : Bytes} {o : Supermon.Operator}
    (ho : f.operator v = .ok (.nakedos o)) : f = Factory.map .nakedos Supermon.factory := by
  simp only [factories, List.mem_cons, List.not_mem_nil, or_false] at hf
  rcases hf with rfl | rfl | rfl
  · obtain ⟨_, _, e⟩ := map_operator.1 ho
    cases e
  · rfl
  · obtain ⟨_, _, e⟩ := map_operator.1 ho
    cases e

theorem seems_of_open {v : Bytes} {o : Supermon.Operator} (h : Supermon.openOperator v = .ok o) :
    Supermon.seemsToMatch v = .ok true := by
  unfold Supermon.openOperator at h
  obtain ⟨sm, hs, h⟩ := Out.bind_eq_ok.1 h
  obtain ⟨u, hv, h⟩ := Out.bind_eq_ok.1 h
  unfold Supermon.seemsToMatch
  rw [hs]
  simp only [hv]

theorem map_seems (v : Bytes) : (Factory.map AnyOp.nakedos Supermon.factory).seemsToMatch v = Supermon.seemsToMatch v := by
  simp only [Factory.map, Supermon.factory]

theorem map_open {v : Bytes} {o : Supermon.Operator} (h : Supermon.openOperator v = .ok o) :
    (Factory.map AnyOp.nakedos Supermon.factory).operator v = .ok (.nakedos o) :=
  map_operator.2 ⟨o, h, rfl⟩

/-- Opening with the order and system NakedOS named explicitly. -/
theorem open_explicit {env : Env} {b : Bytes} (hb : b.length = 143360) {ord : DiskOrder} (ho : ord = orderDO ∨ ord = orderPO)
    {o2 : Supermon.Operator} (h2 : Supermon.openOperator (viewOf ord orderRaw b) = .ok o2) (filename : Str) :
    openImage b filename ord (str "nakedos") (factories env) = .ok (.nakedos o2, ord) := by
  have hc : CandidateOrders ord (toLower (pathExt filename)) [ord] := by
    rcases ho with rfl | rfl
    · exact CandidateOrders.explicitDO _
    · exact CandidateOrders.explicitPO _
  obtain ⟨v, hv, e⟩ := (C07_explicit_choice_obeyed hb (factories_orders env) hc (system := str "nakedos") (by decide)).1
    [Factory.map .dos3 Dos3.factory] (Factory.map .nakedos Supermon.factory) [Factory.map .prodos (Prodos.factory env.budget env.order)]
    rfl rfl (by
      intro g hg
      simp only [List.mem_cons, List.not_mem_nil, or_false] at hg
      subst hg
      decide)
  have := (view_iff (order_named ho) raw_named hb).1 hv
  subst this
  rw [e, map_open h2]
  rfl

/-- Opening with the same order and system flags as before. -/
theorem open_same {env : Env} {raw b : Bytes} {filename : Str} {order : DiskOrder} {system : Str}
    {o o2 : Supermon.Operator} {ord : DiskOrder}
    (hold : openImage raw filename order system (factories env) = .ok (.nakedos o, ord))
    (hb : b.length = 143360) (h2 : Supermon.openOperator (viewOf ord orderRaw b) = .ok o2)
    (hne : NothingEarlier env b filename order system ord) :
    openImage b filename order system (factories env) = .ok (.nakedos o2, ord) := by
  have hn := open_naked hold
  have hr := hn.len
  have hos : ∃ os, CandidateOrders order (toLower (pathExt filename)) os := by
    have h := hold
    unfold openImage at h
    simp only [show floppyDiskBytes = 143360 from rfl] at h
    rw [if_pos hr] at h
    unfold openDoOrPo at h
    simp only at h
    split at h
    · simp at h
    split at h
    · simp at h
    · rename_i os e
      exact ⟨os, (ordersToTry_iff _ _ _).1 e⟩
  obtain ⟨os, hos⟩ := hos
  by_cases hx : os.length = 1 ∧ system ≠ str "auto"
  · obtain ⟨hl, hsys⟩ := hx
    obtain ⟨x, rfl⟩ := List.length_eq_one_iff.1 hl
    have C := fun (b : Bytes) (hb : b.length = 143360) => C07_explicit_choice_obeyed hb (factories_orders env) hos hsys
    by_cases h1 : system = str "dos3"
    · obtain ⟨v, _, e⟩ := (C raw hr).1 [] (Factory.map .dos3 Dos3.factory) _ rfl h1.symm (by simp)
      rw [hold] at e
      obtain ⟨y, hy, e⟩ := Out.bind_eq_ok.1 e.symm
      obtain ⟨_, _, ee⟩ := map_operator.1 hy
      subst ee
      cases e
    by_cases h3 : system = str "nakedos"
    · have hpre : ∀ g ∈ [Factory.map AnyOp.dos3 Dos3.factory], g.name ≠ system := by
        intro g hg
        simp only [List.mem_cons, List.not_mem_nil, or_false] at hg
        subst hg
        exact fun h => h1 h.symm
      obtain ⟨v, _, e⟩ := (C raw hr).1 [Factory.map .dos3 Dos3.factory] (Factory.map .nakedos Supermon.factory) _ rfl h3.symm hpre
      rw [hold] at e
      obtain ⟨y, hy, e⟩ := Out.bind_eq_ok.1 e.symm
      simp only [Out.ok.injEq, Prod.mk.injEq] at e
      obtain ⟨_, rfl⟩ := e
      obtain ⟨v, hv, e⟩ := (C b hb).1 [Factory.map .dos3 Dos3.factory] (Factory.map .nakedos Supermon.factory) _ rfl h3.symm hpre
      have := (view_iff (order_named hn.order) raw_named hb).1 hv
      subst this
      rw [e, map_open h2]
      rfl
    by_cases h4 : system = str "prodos"
    · have hpre : ∀ g ∈ [Factory.map AnyOp.dos3 Dos3.factory, Factory.map .nakedos Supermon.factory], g.name ≠ system := by
        intro g hg
        simp only [List.mem_cons, List.not_mem_nil, or_false] at hg
        rcases hg with rfl | rfl
        · exact fun h => h1 h.symm
        · exact fun h => h3 h.symm
      obtain ⟨v, _, e⟩ := (C raw hr).1 [Factory.map .dos3 Dos3.factory, Factory.map .nakedos Supermon.factory] _ [] rfl h4.symm hpre
      rw [hold] at e
      obtain ⟨y, hy, e⟩ := Out.bind_eq_ok.1 e.symm
      obtain ⟨_, _, ee⟩ := map_operator.1 hy
      subst ee
      cases e
    · have := (C raw hr).2 (by
        intro f hf
        simp only [factories, List.mem_cons, List.not_mem_nil, or_false] at hf
        rcases hf with rfl | rfl | rfl
        · exact fun h => h1 h.symm
        · exact fun h => h3 h.symm
        · exact fun h => h4 h.symm)
      rw [hold] at this
      simp [Out.isErr] at this
  · have hauto : system = str "auto" ∨ os.length ≠ 1 := by
      by_cases h : system = str "auto"
      · exact Or.inl h
      · exact Or.inr (fun hl => hx ⟨hl, h⟩)
    obtain ⟨pre, f, post, hsplit, ⟨v, hv, hacc⟩, _⟩ := (C07_auto_picks_first_match hr (factories_orders env) hos hauto _ _).1 hold
    have hf : f ∈ factories env := by
      have : (ord, f) ∈ candidates os system (factories env) := by rw [hsplit]; simp
      simp only [candidates, List.mem_flatMap, List.mem_map] at this
      obtain ⟨_, _, g, hg, e⟩ := this
      cases e
      exact (List.mem_filter.1 hg).1
    have := naked_factory' hf hacc.2
    subst this
    refine (C07_auto_picks_first_match hb (factories_orders env) hos hauto _ _).2
      ⟨pre, _, post, hsplit, ⟨viewOf ord orderRaw b, (view_iff (order_named hn.order) raw_named hb).2 rfl, ?_, ?_⟩, ?_⟩
    · rw [map_seems]; exact seems_of_open h2
    · exact map_open h2
    · intro p hp
      have hpc : p ∈ candidates os system (factories env) := by rw [hsplit]; simp [hp]
      simp only [candidates, List.mem_flatMap, List.mem_map] at hpc
      obtain ⟨o1, ho1, f1, hf1, rfl⟩ := hpc
      have hv := (view_iff ((candidateOrders_named hos).2 _ ho1) (lawful_factOk (factories_lawful env _ (List.mem_filter.1 hf1).1)) hb).2 rfl
      exact ⟨_, hv, hne os pre _ post hos hsplit rfl _ hp _ hv⟩

/-- The bytes written back show the operator's bytes when viewed again. -/
theorem written_view {op : Supermon.Operator} (hl : op.data.length = 143360) {ord : DiskOrder} (ho : ord = orderDO ∨ ord = orderPO)
    {b : Bytes} (h : writeBackBytes (AnyOp.nakedos op) ord = .ok b) :
    b.length = 143360 ∧ viewOf ord orderRaw b = op.data := by
  have hbl := writeBackBytes_length h
  have e : (OperatorLike.getBytes (AnyOp.nakedos op)) = op.data := rfl
  have e2 : (OperatorLike.diskOrder (AnyOp.nakedos op)) = orderRaw := rfl
  rw [e, hl] at hbl
  refine ⟨hbl, ?_⟩
  unfold writeBackBytes at h
  rw [e, e2] at h
  simp only [show floppyDiskBytes = 143360 from rfl] at h
  rw [if_neg (by rw [hl]; simp), (swizzle_named_l2p raw_named hl).1, Out.bind_ok,
    (swizzle_named_p2l (order_named ho) (swizzle_named_l2p raw_named hl).2).1] at h
  have : viewOf orderRaw ord op.data = b := by
    simp only [Out.ok.injEq] at h
    exact h
  rw [← this, viewOf_viewOf raw_named (order_named ho) hl]

/-- C63 for one put: `o` is the disk as opened before, `o'` the disk as opened from the bytes
written. -/
def PutSeen (env : Env) (filename : Str) (order : DiskOrder) (system : Str) (ord : DiskOrder)
    (o : Supermon.Operator) (overwrite : Bool) (name : Str) (data : Bytes) (new : Bytes) : Prop :=
  ∃ o' f, openImage new filename ord (str "nakedos") (factories env) = .ok (.nakedos o', ord) ∧
    (NothingEarlier env new filename order system ord →
      openImage new filename order system (factories env) = .ok (.nakedos o', ord)) ∧
    IsFileNumber f ∧
    (∀ part g, Supermon.PartOf name part → NumericName part g → g = f) ∧
    (∀ g, IsFileNumber g → g ≠ f → g ≠ 3 → g ≠ 4 → fileOnDisk o'.data g = fileOnDisk o.data g) ∧
    (overwrite = false → fileOnDisk o.data f = []) ∧
    (f ≠ 3 → f ≠ 4 → fileOnDisk o'.data f = padded data ∧
      ∀ part, data ≠ [] → Supermon.PartOf name part → part ≠ [] → Supermon.Survives o.table part f →
        Supermon.fileForName o'.table part = .ok f ∧ Supermon.Stored o' part data)

theorem put_seen {env : Env} {raw : Bytes} {filename : Str} {order : DiskOrder} {system : Str} {o : Supermon.Operator}
    {ord : DiskOrder} (hold : openImage raw filename order system (factories env) = .ok (.nakedos o, ord))
    {fi : FileInfo} {ow : Bool} (hok : (o.putFile fi ow).out = .ok ()) {b : Bytes}
    (hw : writeBackBytes (AnyOp.nakedos (o.putFile fi ow).op) ord = .ok b) :
    PutSeen env filename order system ord o ow fi.descriptor.name fi.data b := by
  have hn := open_naked hold
  have hop := hn.opened
  rw [← hn.data] at hop
  obtain ⟨o', f, h1, h2, h3, h4, hf, hnum, h5, how, h6⟩ := Supermon.reopen_put hn.good hop hok
  have hl : (o.putFile fi ow).op.data.length = 143360 := by rw [← h3]; exact h2.len
  obtain ⟨hbl, hv⟩ := written_view hl hn.order hw
  rw [← hv] at h1
  exact ⟨o', f, open_explicit hbl hn.order h1 filename, open_same hold hbl h1, hf, hnum, h5, how, h6⟩

/-- What a successful `put` has done. -/
theorem put_inv_type {env : Env} {order : DiskOrder} {system filetypeName : Str} {overwrite : Bool} {address : UInt16}
    {image name source : Str} {w : World} (hi : image ≠ str "-")
    (h : (run env (.put order system filetypeName overwrite address image name source) w).1 = .ok ()) :
    ∃ raw o ord data ft new, w.files image = some raw ∧
      openImage raw image order system (factories env) = .ok (.nakedos o, ord) ∧
      given w source = some data ∧
      (o.putFile ⟨{ name := name, length := data.length, type := ft }, data, address⟩ overwrite).out = .ok () ∧
      writeBackBytes (AnyOp.nakedos
        (o.putFile ⟨{ name := name, length := data.length, type := ft }, data, address⟩ overwrite).op) ord = .ok new ∧
      (run env (.put order system filetypeName overwrite address image name source) w).2.files image = some new ∧
      Types.filetypeForName filetypeName = .ok ft := by
  rcases hr : run env (.put order system filetypeName overwrite address image name source) w with ⟨out, w2⟩
  rw [hr] at h
  simp only at h
  subst h
  change putCmd env World.writeOutput order system filetypeName overwrite address image name source w = _ at hr
  unfold putCmd at hr
  rw [if_neg (fun h => hi h.1)] at hr
  obtain ⟨⟨op, dord⟩, w1, ho, hr1⟩ := bind_ok_iff.1 hr
  obtain ⟨contents, w3, hcon, hr2⟩ := bind_ok_iff.1 hr1
  obtain ⟨ft, w4, hft, hr3⟩ := bind_ok_iff.1 hr2
  dsimp only at hr3
  obtain ⟨ex, w5, hpu, hr4⟩ := bind_ok_iff.1 hr3
  clear hr hr1 hr2 hr3
  have hw1 : w1 = w := by
    unfold openDisk openFilename at ho
    rw [if_neg hi] at ho
    split at ho
    · simp at ho
    · simp only [Prod.mk.injEq] at ho
      exact ho.2.symm
  subst hw1
  obtain ⟨hs, raw, fname, hopen, hfile⟩ := openDisk_ok ho
  obtain ⟨hraw, rfl⟩ := hfile hi
  obtain ⟨b, hb, hnew⟩ := writeDisk_ok hr4 hi
  simp only [lift, Prod.mk.injEq] at hpu
  obtain ⟨no, rfl, hok, e2⟩ := putFile_ok hpu.1
  rw [e2] at hb
  simp only [lift, Prod.mk.injEq] at hft
  refine ⟨raw, no, dord, contents, ft, b, hraw, hopen, ?_, hok, hb, hnew, hft.1⟩
  unfold contentsOf World.fileContentsOrStdIn at hcon
  unfold given
  split at hcon
  · rename_i hsrc
    rw [if_pos hsrc]
    simp only [Prod.mk.injEq, Out.ok.injEq] at hcon
    rw [hcon.1]
  · rename_i hsrc
    rw [if_neg hsrc]
    split at hcon
    · rename_i e
      simp only [Prod.mk.injEq, Out.ok.injEq] at hcon
      rw [e, hcon.1]
    · simp at hcon

theorem put_inv {env : Env} {order : DiskOrder} {system filetypeName : Str} {overwrite : Bool} {address : UInt16}
    {image name source : Str} {w : World} (hi : image ≠ str "-")
    (h : (run env (.put order system filetypeName overwrite address image name source) w).1 = .ok ()) :
    ∃ raw o ord data ft new, w.files image = some raw ∧
      openImage raw image order system (factories env) = .ok (.nakedos o, ord) ∧
      given w source = some data ∧
      (o.putFile ⟨{ name := name, length := data.length, type := ft }, data, address⟩ overwrite).out = .ok () ∧
      writeBackBytes (AnyOp.nakedos
        (o.putFile ⟨{ name := name, length := data.length, type := ft }, data, address⟩ overwrite).op) ord = .ok new ∧
      (run env (.put order system filetypeName overwrite address image name source) w).2.files image = some new := by
  obtain ⟨raw, o, ord, data, ft, new, h1, h2, h3, h4, h5, h6, _⟩ := put_inv_type hi h
  exact ⟨raw, o, ord, data, ft, new, h1, h2, h3, h4, h5, h6⟩

/-- C63: after `put` into an image file succeeds, opening the file again finds what was put: with
the order of the file and NakedOS named explicitly, and with the same flags as before as long as
nothing that is tried earlier now takes the image for its own.  The other files are unchanged.
Missing from the full claim: names in a damaged symbol table, and the table's own files 3 and 4. -/
theorem C63_put_partial (env : Env) (order : DiskOrder) (system filetypeName : Str) (overwrite : Bool) (address : UInt16)
    (image name source : Str) (w : World) (hi : image ≠ str "-")
    (h : (run env (.put order system filetypeName overwrite address image name source) w).1 = .ok ()) :
    ∃ raw o ord data new, w.files image = some raw ∧
      openImage raw image order system (factories env) = .ok (.nakedos o, ord) ∧
      given w source = some data ∧
      (run env (.put order system filetypeName overwrite address image name source) w).2.files image = some new ∧
      PutSeen env image order system ord o overwrite name data new := by
  obtain ⟨raw, o, ord, data, ft, new, h1, h2, h3, h4, h5, h6⟩ := put_inv hi h
  exact ⟨raw, o, ord, data, new, h1, h2, h3, h6, put_seen h2 h4 h5⟩

/-! ## Running the commands on a given disk -/

theorem writeBack_naked {op : Supermon.Operator} (hl : op.data.length = 143360) {ord : DiskOrder} (ho : ord = orderDO ∨ ord = orderPO) :
    writeBackBytes (AnyOp.nakedos op) ord = .ok (viewOf orderRaw ord op.data) := by
  have e : (OperatorLike.getBytes (AnyOp.nakedos op)) = op.data := rfl
  have e2 : (OperatorLike.diskOrder (AnyOp.nakedos op)) = orderRaw := rfl
  unfold writeBackBytes
  rw [e, e2]
  simp only [show floppyDiskBytes = 143360 from rfl]
  rw [if_neg (by rw [hl]; simp), (swizzle_named_l2p raw_named hl).1, Out.bind_ok,
    (swizzle_named_p2l (order_named ho) (swizzle_named_l2p raw_named hl).2).1]
  rfl

theorem openDisk_eq {env : Env} {w : World} {i : Str} (hi : i ≠ str "-") {raw : Bytes} (hf : w.files i = some raw)
    (o : DiskOrder) (s : Str) : openDisk env i o s w = (openImage raw i o s (factories env), w) := by
  unfold openDisk openFilename
  rw [if_neg hi, hf]

theorem bind_run {α β : Type} {m : Act α} {f : α → Act β} {w w' : World} {a : α} (h : m w = (.ok a, w')) :
    (m >>= f) w = f a w' := by
  rw [bind_apply]
  unfold Act.bind
  rw [h]

theorem bind_err {α β : Type} {m : Act α} {f : α → Act β} {w w' : World} {k : ErrKind} (h : m w = (.err k, w')) :
    (m >>= f) w = (.err k, w') := by
  rw [bind_apply]
  unfold Act.bind
  rw [h]

/-- `put` on a NakedOS disk, when everything goes well. -/
theorem put_runs {env : Env} {w : World} {order : DiskOrder} {system t : Str} {ow : Bool} {address : UInt16}
    {image name source : Str} (hi : image ≠ str "-") (hs : source ≠ str "-") {raw data : Bytes}
    (hraw : w.files image = some raw) (hdata : w.files source = some data) {o : Supermon.Operator} {ord : DiskOrder}
    (ho : ord = orderDO ∨ ord = orderPO)
    (hopen : openImage raw image order system (factories env) = .ok (.nakedos o, ord)) {ft : Filetype}
    (hft : Types.filetypeForName t = .ok ft)
    (hput : (o.putFile ⟨{ name := name, length := data.length, type := ft }, data, address⟩ ow).out = .ok ())
    (hl : (o.putFile ⟨{ name := name, length := data.length, type := ft }, data, address⟩ ow).op.data.length = 143360) :
    run env (.put order system t ow address image name source) w =
      (.ok (), w.writeFile image (viewOf orderRaw ord
        (o.putFile ⟨{ name := name, length := data.length, type := ft }, data, address⟩ ow).op.data)) := by
  change putCmd env World.writeOutput order system t ow address image name source w = _
  unfold putCmd
  rw [if_neg (fun h => hi h.1), bind_run (a := (.nakedos o, ord)) (w' := w) (by rw [openDisk_eq hi hraw, hopen])]
  dsimp only
  rw [bind_run (a := data) (w' := w) (by unfold contentsOf World.fileContentsOrStdIn; rw [if_neg hs, hdata])]
  rw [bind_run (a := ft) (w' := w) (by unfold lift; rw [hft])]
  generalize hfi : (⟨{ name := name, length := data.length, type := ft }, data, address⟩ : FileInfo) = fi at hput hl ⊢
  have e : AnyOp.putFile (.nakedos o) fi ow = (.ok (o.putFile fi ow).existed, .nakedos (o.putFile fi ow).op) := by
    unfold AnyOp.putFile
    dsimp only
    rw [hput]
  rw [e]
  dsimp only
  rw [bind_run (m := lift (.ok (o.putFile fi ow).existed)) (a := (o.putFile fi ow).existed) (w' := w) rfl]
  unfold writeDisk writeBackVia
  rw [writeBack_naked hl ho]
  dsimp only
  unfold World.writeOutput
  rw [if_neg hi, if_neg (by simp)]

/-- `dump` on a disk. -/
theorem dump_runs {env : Env} {w : World} {order : DiskOrder} {system image name : Str} (hi : image ≠ str "-")
    {raw : Bytes} (hraw : w.files image = some raw) {op : AnyOp} {ord : DiskOrder}
    (hopen : openImage raw image order system (factories env) = .ok (op, ord)) :
    run env (.dump order system image name) w =
      match op.getFile name with
      | .ok fi => (.ok (), { w with stdout := w.stdout ++ fi.data })
      | .err k => (.err k, w)
      | .panic => (.panic, w)
      | .timeout => (.timeout, w) := by
  change dump env order system image name w = _
  unfold dump
  rw [bind_run (a := (op, ord)) (w' := w) (by rw [openDisk_eq hi hraw, hopen])]
  dsimp only
  cases h : op.getFile name with
  | ok fi => rfl
  | err k => rfl
  | panic => rfl
  | timeout => rfl

/-- C63, seen from the command line: what `put` stored under a file number, `dump` prints, padded to
whole sectors.  The number may be spelled differently; any number is allowed. -/
theorem C63_put_then_dump {env : Env} {order : DiskOrder} {system filetypeName : Str} {overwrite : Bool} {address : UInt16}
    {image name source : Str} {w : World} (hi : image ≠ str "-")
    (h : (run env (.put order system filetypeName overwrite address image name source) w).1 = .ok ())
    {f : UInt8} (hn : NumericName name f) {data : Bytes} (hg : given w source = some data) (hd : data ≠ []) :
    ∃ ord, ord ∈ [str "do", str "po"] ∧ ∀ name', NumericName name' f → ∀ w', w'.files image =
        (run env (.put order system filetypeName overwrite address image name source) w).2.files image →
      run env (.dump ord (str "nakedos") image name') w' = (.ok (), { w' with stdout := w'.stdout ++ padded data }) := by
  obtain ⟨raw, o, ord, data', ft, new, h1, h2, h3, h4, h5, h6⟩ := put_inv hi h
  rw [hg] at h3
  cases h3
  have hnk := open_naked h2
  refine ⟨ord, by
    simp only [List.mem_cons, List.not_mem_nil, or_false]
    exact hnk.order, ?_⟩
  intro name' hn' w' hw'
  rw [h6] at hw'
  have e := Supermon.put_numeric h4 hn
  generalize hfi : (⟨{ name := name, length := data.length, type := ft }, data, address⟩ : FileInfo) = fi at h4 h5 e
  have hfd : fi.data = data := by rw [← hfi]
  have h4' := h4
  rw [e, hfd] at h4'
  obtain ⟨hgood, hcase⟩ := Supermon.putNumbered_ok hnk.good hn.1 h4'
  have hb : fileBytes (own (o.putNumbered f 0 [] data overwrite).op.sm) (o.putNumbered f 0 [] data overwrite).op.data f = padded data := by
    rcases hcase with ⟨_, _, hb⟩ | ⟨_, hs, _⟩
    · exact hb
    · exact absurd rfl hs
  rw [e, hfd] at h5
  obtain ⟨hbl, hv⟩ := written_view hgood.len hnk.order h5
  have hop := Supermon.open_of_good hgood
  rw [← hv] at hop
  rw [dump_runs hi hw' (open_explicit hbl hnk.order hop image)]
  rw [hv]
  have hst : Supermon.Stored ⟨(o.putNumbered f 0 [] data overwrite).op.data, (o.putNumbered f 0 [] data overwrite).op.sm,
      Supermon.tableOn (o.putNumbered f 0 [] data overwrite).op.sm (o.putNumbered f 0 [] data overwrite).op.data⟩ name' data :=
    Supermon.stored_of_bytes (o := ⟨(o.putNumbered f 0 [] data overwrite).op.data, (o.putNumbered f 0 [] data overwrite).op.sm,
      Supermon.tableOn (o.putNumbered f 0 [] data overwrite).op.sm (o.putNumbered f 0 [] data overwrite).op.data⟩)
      hgood.len (f := f) (by
      unfold Supermon.fileForName
      rw [(Supermon.parseAddressFilename_iff hn.1.1).2 hn', if_pos hn.1.1]) hd hb
  obtain ⟨fi', hget, hdat, _⟩ := hst
  unfold AnyOp.getFile
  dsimp only
  rw [hget]
  dsimp only
  rw [hdat]

/-! ## C61 -/

/-- The file that a name given to `mkhello` asks for: a name without colon is looked up, in
`number:symbol` the number counts. -/
def AsksFor (st : Supermon.SymbolTable) (name : Str) (f : UInt8) : Prop :=
  ((0x3A : UInt8) ∉ name ∧ Supermon.fileForName st name = .ok f) ∨
  ∃ a b, name = a ++ 0x3A :: b ∧ (0x3A : UInt8) ∉ a ∧ (0x3A : UInt8) ∉ b ∧ NumericName a f ∧ ∀ g, ¬ NumericName b g

theorem asksFor_iff (st : Supermon.SymbolTable) (name : Str) (f : UInt8) :
    AsksFor st name f ↔ ∃ addr sa sym, Supermon.filesForCompoundName st name = .ok (addr, sa, sym) ∧
      ¬ (addr = 0 ∧ sa = 0) ∧ f = if addr = 0 then sa else addr := by
  constructor
  · rintro (⟨hc, hf⟩ | ⟨a, b, rfl, ha, hb, hn, hg⟩)
    · have hff := Supermon.fileForName_file hf
      by_cases hn : ∃ g, NumericName name g
      · obtain ⟨g, hg⟩ := hn
        refine ⟨g, 0, [], (Supermon.C39_plain st hc).1 g hg, fun h => hg.1.1 h.1, ?_⟩
        rw [if_neg hg.1.1]
        unfold Supermon.fileForName at hf
        rw [(Supermon.parseAddressFilename_iff hg.1.1).2 hg, if_pos hg.1.1] at hf
        simpa using hf.symm
      · refine ⟨f, f, name, (Supermon.C39_plain st hc).2.1 (fun g hg => hn ⟨g, hg⟩) f hf, fun h => hff.1 h.1, ?_⟩
        rw [if_neg hff.1]
    · have C := (Supermon.C39_compound st ha hb).1 f hn hg
      rcases Supermon.C34_resolution_total st b with ⟨g, h, _⟩ | h
      · exact ⟨f, g, b, C.1 g h, fun h => hn.1.1 h.1, by rw [if_neg hn.1.1]⟩
      · exact ⟨f, 0, b, C.2 h, fun h => hn.1.1 h.1, by rw [if_neg hn.1.1]⟩
  · rintro ⟨addr, sa, sym, hc, hne, rfl⟩
    rcases Supermon.C39_exhaustive name with hcol | ⟨a, b, ha, hb, rfl⟩ | h2
    · left
      refine ⟨hcol, ?_⟩
      by_cases hn : ∃ g, NumericName name g
      · obtain ⟨g, hg⟩ := hn
        rw [(Supermon.C39_plain st hcol).1 g hg] at hc
        simp only [Out.ok.injEq, Prod.mk.injEq] at hc
        obtain ⟨rfl, rfl, rfl⟩ := hc
        rw [if_neg hg.1.1]
        unfold Supermon.fileForName
        rw [(Supermon.parseAddressFilename_iff hg.1.1).2 hg, if_pos hg.1.1]
      · have hn' : ∀ g, ¬ NumericName name g := fun g hg => hn ⟨g, hg⟩
        rcases Supermon.C34_resolution_total st name with ⟨g, h, _⟩ | h
        · rw [(Supermon.C39_plain st hcol).2.1 hn' g h] at hc
          simp only [Out.ok.injEq, Prod.mk.injEq] at hc
          obtain ⟨rfl, rfl, rfl⟩ := hc
          rw [ite_self]
          exact h
        · rw [(Supermon.C39_plain st hcol).2.2 hn' h] at hc
          simp only [Out.ok.injEq, Prod.mk.injEq] at hc
          exact absurd ⟨hc.1.symm, hc.2.1.symm⟩ hne
    · right
      refine ⟨a, b, rfl, ha, hb, ?_⟩
      obtain ⟨C1, C2, C3⟩ := Supermon.C39_compound st ha hb
      by_cases hg : ∃ g, NumericName b g
      · rw [C3 hg] at hc
        simp at hc
      have hg' : ∀ g, ¬ NumericName b g := fun g h => hg ⟨g, h⟩
      refine ⟨?_, hg'⟩
      by_cases hn : ∃ f, NumericName a f
      · obtain ⟨f, hf⟩ := hn
        have : addr = f := by
          rcases Supermon.C34_resolution_total st b with ⟨g, h, _⟩ | h
          · rw [(C1 f hf hg').1 g h] at hc
            simp only [Out.ok.injEq, Prod.mk.injEq] at hc
            exact hc.1.symm
          · rw [(C1 f hf hg').2 h] at hc
            simp only [Out.ok.injEq, Prod.mk.injEq] at hc
            exact hc.1.symm
        subst this
        rw [if_neg hf.1.1]
        exact hf
      · rw [C2 (fun f h => hn ⟨f, h⟩)] at hc
        simp at hc
    · rw [Supermon.C39_many_colons st h2] at hc
      simp at hc

/-- The program `mkhello` has to write: call NakedOS to read file `f` into memory at the page of
`address`, then jump to `start`. -/
def helloBytes (f : UInt8) (address start : UInt16) : Bytes :=
  [0x20, 0x40, 0x03, 0x6D, 0x01, 0xDC, 0x2C, f, 0xDF, 0x2C, UInt8.ofNat (address.toNat % 256),
   UInt8.ofNat (address.toNat / 256), 0xD8, 0x4C, UInt8.ofNat (start.toNat % 256), UInt8.ofNat (start.toNat / 256)]

theorem helloProgram_eq (f : UInt8) {address : UInt16} (ha : address.toNat % 256 = 0) (start : UInt16) :
    helloProgram f address start = helloBytes f address start := by
  have hlo : ∀ v : UInt16, lo8 v = UInt8.ofNat (v.toNat % 256) := by
    intro v; apply UInt8.toNat_inj.1; simp [lo8]
  have hhi : ∀ v : UInt16, hi8 v = UInt8.ofNat (v.toNat / 256) := by
    intro v; apply UInt8.toNat_inj.1; simp [hi8, Nat.shiftRight_eq_div_pow]
  unfold helloProgram helloBytes
  rw [hlo, hhi, hhi, ha]
  rfl

/-- The start address that counts: 0xFFFF stands for the load address. -/
def startOf (address start : UInt16) : Nat := if start.toNat = 0xFFFF then address.toNat else start.toNat

theorem effectiveStart_toNat (address start : UInt16) : (effectiveStart address start).toNat = startOf address start := by
  unfold effectiveStart startOf
  by_cases h : start = 0xFFFF
  · subst h; simp
  · rw [if_neg h, if_neg (fun hc => h (UInt16.toNat_inj.1 (by simpa using hc)))]

/-- The file `mkhello` puts: the program under the name DF01:FHELLO. -/
abbrev helloFile (program : Bytes) : FileInfo :=
  ⟨{ name := str "DF01:FHELLO", length := program.length, type := filetypeBinary }, program, 0⟩

/-- What a successful `mkhello` has done. -/
theorem mkhello_inv {env : Env} {order : DiskOrder} {image filename : Str} {address start : UInt16} {w : World}
    (hi : image ≠ str "-") (h : (run env (.mkhello order image filename address start) w).1 = .ok ()) :
    address.toNat % 256 = 0 ∧ address.toNat ≤ startOf address start ∧
    ∃ raw o ord f new, w.files image = some raw ∧
      openImage raw image order (str "auto") (factories env) = .ok (.nakedos o, ord) ∧ AsksFor o.table filename f ∧
      (o.putFile (helloFile (helloProgram f address (effectiveStart address start))) true).out = .ok () ∧
      writeBackBytes (AnyOp.nakedos
        (o.putFile (helloFile (helloProgram f address (effectiveStart address start))) true).op) ord = .ok new ∧
      (run env (.mkhello order image filename address start) w).2.files image = some new := by
  rcases hr : run env (.mkhello order image filename address start) w with ⟨out, w2⟩
  rw [hr] at h
  simp only at h
  subst h
  change mkhello env World.writeOutput order image filename address start w = _ at hr
  unfold mkhello at hr
  dsimp only at hr
  split at hr
  · simp [lift] at hr
  rename_i h1
  split at hr
  · simp [lift] at hr
  rename_i h2
  refine ⟨?_, ?_, ?_⟩
  · have : address % 256 = 0 := by simpa using h1
    have := congrArg UInt16.toNat this
    simpa using this
  · rw [← effectiveStart_toNat]
    rw [UInt16.lt_iff_toNat_lt] at h2
    omega
  obtain ⟨⟨op, dord⟩, w1, ho, hr1⟩ := bind_ok_iff.1 hr
  dsimp only at hr1
  cases op with
  | dos3 o => simp [lift] at hr1
  | prodos o => simp [lift] at hr1
  | nakedos no =>
    obtain ⟨⟨addr, sa, sym⟩, w3, hf, hr2⟩ := bind_ok_iff.1 hr1
    dsimp only at hr2
    split at hr2
    · simp [lift] at hr2
    rename_i h3
    obtain ⟨ex, w5, hpu, hr3⟩ := bind_ok_iff.1 hr2
    obtain ⟨hs, raw, name, hopen, hfile⟩ := openDisk_ok ho
    obtain ⟨hraw, rfl⟩ := hfile hi
    obtain ⟨b, hb, hnew⟩ := writeDisk_ok hr3 hi
    simp only [lift, Prod.mk.injEq] at hpu hf
    have hask := (asksFor_iff no.table filename (if addr = 0 then sa else addr)).2 ⟨addr, sa, sym, hf.1, h3, rfl⟩
    generalize (if addr = 0 then sa else addr) = f at hpu hb hask
    obtain ⟨no', e, hok, e2⟩ := putFile_ok hpu.1
    cases e
    rw [e2] at hb
    exact ⟨raw, no, dord, f, b, hraw, hopen, hask, hok, hb, hnew⟩

/-- C61: when `mkhello` succeeds, the load address is page aligned and not above the start, and the
image, opened again, holds in file DF01 the program that loads the file asked for at the load
address and jumps to the start; all other files but those of the symbol table are unchanged, and
FHELLO means DF01.  Missing: the last clause needs that the symbol table is sound and lets go of an
older FHELLO, see C63. -/
theorem C61_mkhello_partial {env : Env} {order : DiskOrder} {image filename : Str} {address start : UInt16} {w : World}
    (hi : image ≠ str "-") (h : (run env (.mkhello order image filename address start) w).1 = .ok ()) :
    address.toNat % 256 = 0 ∧ address.toNat ≤ startOf address start ∧
    ∃ raw o ord f new o', w.files image = some raw ∧
      openImage raw image order (str "auto") (factories env) = .ok (.nakedos o, ord) ∧ AsksFor o.table filename f ∧
      (run env (.mkhello order image filename address start) w).2.files image = some new ∧
      openImage new image ord (str "nakedos") (factories env) = .ok (.nakedos o', ord) ∧
      (NothingEarlier env new image order (str "auto") ord →
        openImage new image order (str "auto") (factories env) = .ok (.nakedos o', ord)) ∧
      fileOnDisk o'.data 1 = helloBytes f address (UInt16.ofNat (startOf address start)) ++ List.replicate 240 0 ∧
      Supermon.Stored o' (str "DF01") (helloBytes f address (UInt16.ofNat (startOf address start))) ∧
      (∀ g, IsFileNumber g → g ≠ 1 → g ≠ 3 → g ≠ 4 → fileOnDisk o'.data g = fileOnDisk o.data g) ∧
      (Supermon.Survives o.table (str "FHELLO") 1 → Supermon.fileForName o'.table (str "FHELLO") = .ok 1) := by
  obtain ⟨ha, hs, raw, o, ord, f, new, h1, h2, h3, h4, h5, h6⟩ := mkhello_inv hi h
  refine ⟨ha, hs, raw, o, ord, f, new, ?_⟩
  obtain ⟨o', f', g1, g2, hf, hnum, g3, _, g4⟩ := put_seen h2 h4 h5
  have hn1 : NumericName (str "DF01") 1 := (Supermon.parseAddressFilename_iff (by decide)).1 (by decide +kernel)
  have hsplit : str "DF01:FHELLO" = str "DF01" ++ 0x3A :: str "FHELLO" := by decide +kernel
  have hp1 : Supermon.PartOf (str "DF01:FHELLO") (str "DF01") := by
    rw [hsplit]; exact Supermon.PartOf.number (by decide +kernel) (by decide +kernel)
  have hp2 : Supermon.PartOf (str "DF01:FHELLO") (str "FHELLO") := by
    rw [hsplit]; exact Supermon.PartOf.symbol (by decide +kernel) (by decide +kernel)
  have := hnum (str "DF01") 1 hp1 hn1
  subst this
  have he : effectiveStart address start = UInt16.ofNat (startOf address start) := by
    apply UInt16.toNat_inj.1
    rw [effectiveStart_toNat, UInt16.toNat_ofNat']
    have : startOf address start < 65536 := by rw [← effectiveStart_toNat]; exact UInt16.toNat_lt _
    omega
  dsimp only at g4
  rw [he, helloProgram_eq f ha] at g4
  obtain ⟨g5, g6⟩ := g4 (by decide) (by decide)
  have hne : helloBytes f address (UInt16.ofNat (startOf address start)) ≠ [] := by unfold helloBytes; simp
  refine ⟨o', h1, h2, h3, h6, g1, g2, ?_, ?_, g3, ?_⟩
  · rw [g5]
    rfl
  · exact (g6 (str "DF01") hne hp1 (by decide +kernel) (Or.inl hn1)).2
  · intro hsv
    exact (g6 (str "FHELLO") hne hp2 (by decide +kernel) hsv).1

/-- C61: `mkhello` refuses a load address off a page boundary, a start below it, a disk that is not
NakedOS, and a name that asks for no file. -/
theorem C61_refused {env : Env} {order : DiskOrder} {image filename : Str} {address start : UInt16} {w : World}
    {raw : Bytes} (hi : image ≠ str "-") (hraw : w.files image = some raw)
    (h : address.toNat % 256 ≠ 0 ∨ startOf address start < address.toNat ∨
      ∀ o ord, openImage raw image order (str "auto") (factories env) = .ok (.nakedos o, ord) → ∀ f, ¬ AsksFor o.table filename f) :
    (run env (.mkhello order image filename address start) w).1 ≠ .ok () := by
  intro hok
  obtain ⟨ha, hs, raw', o, ord, f, new, h1, h2, h3, _⟩ := mkhello_inv hi hok
  rw [hraw] at h1
  cases h1
  rcases h with h | h | h
  · exact h ha
  · omega
  · exact h o ord h2 f h3

end Verif.Cmd
