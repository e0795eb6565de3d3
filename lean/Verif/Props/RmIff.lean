import Verif.Props.UndoWit

/-!
# C94: when rm succeeds, and removing twice
-/

set_option autoImplicit false

namespace Verif.Supermon
open Disk Spec

theorem deleteFile_absent {sm : SectorMap} {f : UInt8} (h : ownedBy (own sm) f = []) : deleteFile sm f = sm := by
  apply Vector.ext
  intro n hn
  have key : own (deleteFile sm f) n = own sm n := by
    rw [own_deleteFile _ _ hn, if_neg]
    intro e
    have : n ∈ ownedBy (own sm) f := mem_ownedBy.2 ⟨hn, e⟩
    rw [h] at this
    simp at this
  rw [own_eq hn, own_eq hn] at key
  exact key

/-- Deleting what is not there. -/
theorem delete_absent {o : Operator} (h : Good o.sm o.data) {name : Str} {f : UInt8} (hn : fileForName o.table name = .ok f)
    (hs : NoSymbol o.table name) (hf : fileOnDisk o.data f = []) : (o.delete name).out = .ok () ∧ (o.delete name).op = o := by
  have hout := (C29_delete_frees h hn hs).2.2.2
  refine ⟨hout, ?_⟩
  rw [fileOnDisk_nil h] at hf
  obtain ⟨f', hn', _, hcase⟩ := delete_split h hout
  rw [hn] at hn'
  cases hn'
  rcases hcase with ⟨_, e⟩ | ⟨st, hst, ⟨s, hs', hsn⟩, _⟩
  · rw [e, deleteFile_absent hf]
    have hp := C21_load_persist h.loaded
    rw [persist_eq (by have := h.len; omega)] at hp
    rw [(Prod.mk.inj hp).2]
  · have : o.table = st := by unfold Operator.table; rw [hst]; rfl
    rw [this] at hs
    exact absurd hsn (hs s hs')

end Verif.Supermon

namespace Verif.Cmd
open Disk Spec

/-- C94, for names that are not symbols, on every disk: `rm` succeeds exactly if the name is that of a file that is there, or the name of a file
and `--missingok` was given. -/
theorem C94_number {env : Env} {w : World} {image : Str} {order : DiskOrder} {system : Str} {o : Supermon.Operator} {ord : DiskOrder}
    (hi : image ≠ str "-") (h : Finds env w image order system (.nakedos o) ord) (m : Bool) (name : Str)
    (hs : Supermon.NoSymbol o.table name) :
    (run env (.rm order system m image name) w).1 = .ok () ↔ ∃ f, NumericName name f ∧ (fileOnDisk o.data f ≠ [] ∨ m = true) := by
  have hres : ∀ f, Supermon.fileForName o.table name = .ok f ↔ NumericName name f := by
    intro f
    rw [Supermon.C34_resolves_iff]
    refine ⟨fun h => h.elim id ?_, Or.inl⟩
    rintro ⟨_, _, x, hx, _⟩
    have hx' := List.find?_some hx
    exact absurd (of_decide_eq_true hx').symm (hs x (List.mem_of_find?_eq_some hx))
  constructor
  · intro hok
    by_cases hn : ∃ f, NumericName name f
    · obtain ⟨f, hn⟩ := hn
      refine ⟨f, hn, ?_⟩
      cases m with
      | true => exact Or.inr rfl
      | false =>
        refine Or.inl fun he => ?_
        exact (C73_missing hi h name f ((hres f).2 hn) he).1 hok
    · have := (C73_unknown_name h m name (fun f hf => hn ⟨f, (hres f).1 hf⟩)).1
      rw [hok] at this
      simp at this
  · rintro ⟨f, hn, hf⟩
    exact C73_rm_succeeds hi h m name f ((hres f).2 hn) hs hf

theorem digitValue_upper : ∀ c : UInt8, (digitValue c).isSome → digitValue (upperByte c) = digitValue c := by decide +kernel

theorem hexNumeral_upper {s : Str} {v : Nat} (h : HexNumeral s v) : HexNumeral (toUpper s) v := by
  induction h with
  | one hc => exact .one (by rw [digitValue_upper _ (by rw [hc]; rfl)]; exact hc)
  | snoc _ hc ih =>
    unfold toUpper at ih ⊢
    rw [List.map_append]
    exact .snoc ih (by rw [digitValue_upper _ (by rw [hc]; rfl)]; exact hc)

theorem numeric_upper {s : Str} {f : UInt8} (h : NumericName s f) : NumericName (toUpper s) f :=
  ⟨h.1, h.2.imp hexNumeral_upper hexNumeral_upper⟩

/-- A number is no symbol of a table in order. -/
theorem numeric_no_symbol {st : Supermon.SymbolTable} (h : Tidy st) {name : Str} {f : UInt8} (hn : NumericName name f) :
    Supermon.NoSymbol st name := by
  intro s hs e
  have h0 : name ≠ [] := by
    rintro rfl
    have := (Supermon.parseAddressFilename_iff hn.1.1).2 hn
    have e0 : Supermon.parseAddressFilename [] = 0 := by decide +kernel
    rw [e0] at this
    exact hn.1.1 this.symm
  rcases h.entries s hs with rfl | ⟨_, hsy, hup⟩
  · exact h0 (by
      have : toUpper name = [] := e
      have hl := congrArg List.length this
      unfold toUpper at hl
      simpa using hl)
  · refine hsy.2 f ?_
    rw [← hup, ← e]
    exact numeric_upper hn

/-- C94: on a disk whose symbol table is in order, `rm` of a number or a symbol succeeds exactly if the name stands for a file, and this is
there or `--missingok` was given. -/
theorem C94_tidy {env : Env} {w : World} {image order system : Str} {o : Supermon.Operator} {ord : DiskOrder}
    (hi : image ≠ str "-") (ho : Finds env w image order system (.nakedos o) ord) {st : Supermon.SymbolTable} (hst : o.st = some st)
    {z : Str} {t : Names} (hk : Knows st z t) {name : Str} {m : Bool} (hc : Careful image z t (.rm order system m image name)) :
    (run env (.rm order system m image name) w).1 = .ok () ↔
      ∃ f, (NumericName name f ∨ Symbolic name ∧ t name = some f) ∧ (fileOnDisk o.data f ≠ [] ∨ m = true) := by
  have htab : o.table = st := by unfold Supermon.Operator.table; rw [hst]; rfl
  rcases hc rfl with ⟨f, hf, _⟩ | ⟨hsy, hz, h3, h4⟩
  · rw [C94_number hi ho m name (by rw [htab]; exact numeric_no_symbol hk.1 hf)]
    constructor
    · rintro ⟨g, hg, hm⟩; exact ⟨g, Or.inl hg, hm⟩
    · rintro ⟨g, hg | ⟨hsy, _⟩, hm⟩
      · exact ⟨g, hg, hm⟩
      · exact absurd hf (hsy.2 f)
  · constructor
    · intro hok
      obtain ⟨raw, o', ord', new, o'', f, g1, g2, _, _, _, g6, g7, _⟩ := C73_rm env order system m image name w hi hok
      obtain ⟨raw', k1, k2⟩ := id ho
      unfold given at k1
      rw [if_neg hi] at k1 k2
      rw [g1] at k1
      cases k1
      rw [g2] at k2
      cases k2
      rw [htab] at g6
      refine ⟨f, Or.inr ⟨hsy, ((Supermon.knows_name hk hsy).1 f).1 g6⟩, ?_⟩
      cases m with
      | true => exact Or.inr rfl
      | false => exact Or.inl (g7 rfl)
    · rintro ⟨f, hn | ⟨_, hf⟩, hm⟩
      · exact absurd hn (hsy.2 f)
      · exact C83_rm_succeeds hi ho hst hk hsy hc hf hm

/-- C94: with `--missingok`, `rm` of the number of a file that is not there succeeds and changes no byte of any file. -/
theorem C94_absent {env : Env} {w : World} {image : Str} {order : DiskOrder} {system : Str} {o : Supermon.Operator} {ord : DiskOrder}
    (hi : image ≠ str "-") (h : Finds env w image order system (.nakedos o) ord) {name : Str} {f : UInt8} (hn : NumericName name f)
    (hs : Supermon.NoSymbol o.table name) (hf : fileOnDisk o.data f = []) :
    (run env (.rm order system true image name) w).1 = .ok () ∧ (run env (.rm order system true image name) w).2.files = w.files := by
  obtain ⟨raw, hraw, hopen⟩ := id h
  unfold given at hraw
  rw [if_neg hi] at hraw hopen
  have hnk := open_naked hopen
  obtain ⟨hout, hop⟩ := Supermon.delete_absent hnk.good ((Supermon.C34_resolves_iff _ _ _).2 (Or.inl hn)) hs hf
  have hview : viewOf orderRaw ord o.data = raw := by rw [hnk.data, viewOf_viewOf (order_named hnk.order) raw_named hnk.len]
  have key : run env (.rm order system true image name) w = (.ok (), w.writeFile image raw) := by
    change rm env World.writeOutput order system true image name w = _
    unfold rm
    rw [bind_run (a := (.nakedos o, ord)) (w' := w) (by rw [openDisk_eq hi hraw, hopen])]
    dsimp only
    have e : AnyOp.delete (.nakedos o) name = (.ok (o.delete name).existed, .nakedos o) := by
      unfold AnyOp.delete
      dsimp only
      rw [hout, hop]
    rw [e]
    dsimp only
    rw [bind_run (m := lift (.ok (o.delete name).existed)) (a := (o.delete name).existed) (w' := w) rfl]
    rw [if_neg (by simp)]
    unfold writeDisk writeBackVia
    rw [writeBack_naked hnk.good.len hnk.order, hview]
    dsimp only
    unfold World.writeOutput
    rw [if_neg hi, if_neg (by simp)]
  rw [key]
  exact ⟨rfl, writeFile_same_bytes hraw⟩

/-- C94: once `rm` of a number has succeeded, doing it again is an error without `--missingok`, and with it succeeds; in neither case a byte of
any file changes. In between, anything may change but the image file. -/
theorem C94_again {env : Env} {w w2 : World} {image : Str} {order order2 : DiskOrder} {system system2 : Str} {o o2 : Supermon.Operator}
    {ord : DiskOrder} (hi : image ≠ str "-") (h : Finds env w image order system (.nakedos o) ord) {name : Str} {f : UInt8}
    (hn : NumericName name f) (h3 : f ≠ 3) (h4 : f ≠ 4) (hs : Supermon.NoSymbol o.table name) {m : Bool}
    (hok : (run env (.rm order system m image name) w).1 = .ok ())
    (hw2 : w2.files image = (run env (.rm order system m image name) w).2.files image)
    (hf2 : Finds env w2 image order2 system2 (.nakedos o2) ord) (m2 : Bool) :
    ((run env (.rm order2 system2 m2 image name) w2).1 = .ok () ↔ m2 = true) ∧
    (run env (.rm order2 system2 m2 image name) w2).2.files = w2.files := by
  obtain ⟨raw, o', ord', new, o'', f', g1, g2, g3, g4, _, g6, g7, g8, g9, g10, _⟩ := C73_rm env order system m image name w hi hok
  obtain ⟨raw', k1, k2⟩ := id h
  unfold given at k1
  rw [if_neg hi] at k1 k2
  rw [g1] at k1
  cases k1
  rw [g2] at k2
  cases k2
  have hres := (Supermon.C34_resolves_iff o.table name f).2 (Or.inl hn)
  rw [hres] at g6
  cases g6
  obtain ⟨raw2, m1, m2'⟩ := id hf2
  unfold given at m1
  rw [if_neg hi] at m1 m2'
  rw [hw2, g3] at m1
  cases m1
  have := names_operator m2' g4
  subst this
  have htab := g10 h3 h4 hs
  have hs2 : Supermon.NoSymbol o2.table name := by rw [htab]; exact hs
  have hempty := g8 (Or.inr hs)
  have hiff := C94_number hi hf2 m2 name hs2
  cases m2 with
  | true =>
    obtain ⟨a, b⟩ := C94_absent hi hf2 hn hs2 hempty
    exact ⟨⟨fun _ => rfl, fun _ => a⟩, b⟩
  | false =>
    obtain ⟨a, b⟩ := C73_missing hi hf2 name f ((Supermon.C34_resolves_iff _ _ _).2 (Or.inl hn)) hempty
    exact ⟨⟨fun e => absurd e a, fun e => by simp at e⟩, b.1⟩

/-- Non-vacuity of C94: on one disk, removing a file by number is refused while it is not there, succeeds once it has been put, and is refused
the second time. -/
theorem game_rm (env : Env) : ∃ w w2 w3 o o2 o3, Finds env w (str "a.do") (str "do") (str "nakedos") (.nakedos o) orderDO ∧
    (run env (.rm (str "do") (str "nakedos") false (str "a.do") (str "5")) w).1 ≠ .ok () ∧
    run env (.put (str "do") (str "nakedos") (str "B") false 0 (str "a.do") (str "DF05") (str "x")) w = (.ok (), w2) ∧
    Finds env w2 (str "a.do") (str "do") (str "nakedos") (.nakedos o2) orderDO ∧
    run env (.rm (str "do") (str "nakedos") false (str "a.do") (str "5")) w2 = (.ok (), w3) ∧
    Finds env w3 (str "a.do") (str "do") (str "nakedos") (.nakedos o3) orderDO ∧
    (run env (.rm (str "do") (str "nakedos") false (str "a.do") (str "5")) w3).1 ≠ .ok () ∧
    (run env (.rm (str "do") (str "nakedos") true (str "a.do") (str "5")) w3).1 = .ok () := by
  obtain ⟨img, sm, hg, ho, hroom, h5⟩ := tabled5
  have hi : str "a.do" ≠ str "-" := by decide +kernel
  have hx : str "x" ≠ str "-" := by decide +kernel
  have hd1 : ([1] : Bytes) ≠ [] := by simp
  obtain ⟨hfi, hn, _, hrun⟩ := copy_disk env hg ho hroom h5 (d := [1]) hd1 (by simp) (str "B")
  have hok1 := number_disk env hg ho hroom h5 (d := [1]) hd1 (by simp)
  have hgx : given (copyWorld img [1]) (str "x") = some [1] := by unfold given; rw [if_neg hx]; exact copyWorld_x img [1]
  have h55 : NumericName (str "5") 5 := (Supermon.parseAddressFilename_iff (by decide)).1 (by decide +kernel)
  have hns : Supermon.NoSymbol (Supermon.Operator.mk img sm (some Supermon.chainTable)).table (str "5") :=
    numeric_no_symbol chainTable_knows.1 h55
  have hempty : fileOnDisk img 5 = [] := (Supermon.fileOnDisk_nil hg 5).2 h5
  have hfirst := C73_missing hi hfi (str "5") 5 ((Supermon.C34_resolves_iff _ _ _).2 (Or.inl h55)) hempty
  have hw : ∃ w2, run env (.put (str "do") (str "nakedos") (str "B") false 0 (str "a.do") (str "DF05") (str "x")) (copyWorld img [1]) =
      (.ok (), w2) := ⟨_, Prod.ext hok1 rfl⟩
  obtain ⟨w2, hw⟩ := hw
  obtain ⟨o2, hf2⟩ := put_finds env hg ho hroom h5 hw
  obtain ⟨a1, _, _⟩ := C93_number hi numeric5 h55 (by decide) (by decide) hd1 hgx hfi hempty hns hok1 (w2 := w2) (by rw [hw]) hf2 false
  have hw3 : ∃ w3, run env (.rm (str "do") (str "nakedos") false (str "a.do") (str "5")) w2 = (.ok (), w3) := ⟨_, Prod.ext a1 rfl⟩
  obtain ⟨w3, hw3⟩ := hw3
  obtain ⟨raw, o', ord', new, o3, f, g1, g2, g3, g4, _, _, _, _, _, _, _⟩ := C73_rm env (str "do") (str "nakedos") false (str "a.do") (str "5") w2 hi a1
  have := open_order (CandidateOrders.explicitDO _) g2
  subst this
  have hns2 : Supermon.NoSymbol o2.table (str "5") := by
    have hs1 : Session env (str "a.do") (copyWorld img [1])
        [(copyWorld img [1], .put (str "do") (str "nakedos") (str "B") false 0 (str "a.do") (str "DF05") (str "x"))] w2 :=
      Session.step rfl (Session.done (by rw [hw]))
    have hm : HasFiles (copyWorld img [1]) (str "a.do") orderDO (fileOnDisk img) := hasFiles_good hg (copyWorld_a img [1])
    obtain ⟨_, _, _, hn1⟩ := C83_session_partial hi hs1 (fun p hp => by
      simp only [List.mem_cons, List.not_mem_nil, or_false] at hp
      subst hp
      exact ⟨fun _ => CandidateOrders.explicitDO _, fun _ => Or.inl ⟨5, numeric5, by decide, by decide⟩⟩) hm hn
    obtain ⟨raw2, o4, st, k1, k2, k3, k4⟩ := hn1
    obtain ⟨raw3, j1, j2⟩ := id hf2
    unfold given at j1
    rw [if_neg hi] at j1 j2
    rw [k1] at j1
    cases j1
    have := names_operator j2 k2
    subst this
    have htab : o2.table = st := by unfold Supermon.Operator.table; rw [k3]; rfl
    rw [htab]
    exact numeric_no_symbol k4.1 h55
  rw [hw3] at g3
  have hf3 : Finds env w3 (str "a.do") (str "do") (str "nakedos") (.nakedos o3) orderDO :=
    ⟨new, by unfold given; rw [if_neg hi]; exact g3, by rw [if_neg hi]; exact g4⟩
  have again := fun m2 => C94_again hi hf2 h55 (by decide) (by decide) hns2 a1 (w2 := w3) (by rw [hw3]) hf3 m2
  exact ⟨copyWorld img [1], w2, w3, _, o2, o3, hfi, hfirst.1, hw, hf2, hw3, hf3, fun e => by simpa using (again false).1.1 e, (again true).1.2 rfl⟩

end Verif.Cmd
