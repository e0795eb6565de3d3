import Verif.Props.Life
import Verif.Props.Again
import Verif.Props.Copy

/-!
# C90, C92 and C93 on every NakedOS disk, whatever the state of its symbol table

What C103 says about one put makes it possible to say exactly when a file can be put again, and found again, under a symbol.
-/

set_option autoImplicit false

namespace Verif.Supermon
open Disk Spec

/-- The symbol is found after the put. -/
def SymbolHolds (st : SymbolTable) (sym : Str) (f : UInt8) : Prop :=
  sym = [] ∨ StandsFor st sym f ∨ ¬ AddingSpoils st sym (0xDF00 + f.toUInt16)

theorem legal_ne {s : Str} (h : LegalName s) : s ≠ [] := by
  rintro rfl
  have := h.1
  simp at this

theorem legal_stored {s : Str} (hs : LegalName s) : SameName s (stored s) := by
  rw [stored_eq, List.filter_eq_self.2 fun c hc => by
    unfold alnum
    rcases hs.2.2.1 c hc with h | h <;> rw [h] <;> simp]
  exact (upper_upper s).symm

/-- The disk after a put, opened again. -/
theorem put_settles {o : Operator} (h : Good o.sm o.data) (ho : openOperator o.data = .ok o) {name : Str} {data : Bytes} {ow : Bool} {a : UInt16}
    (hok : (o.putFile ⟨{ name := name, length := data.length, type := filetypeBinary }, data, a⟩ ow).out = .ok ()) (hd : data ≠ [])
    {f : UInt8} {sym : Str} (hm : PutMeans (fileOnDisk o.data) o.table name f sym) (hs : sym = [] ∨ LegalName sym ∧ f ≠ 3 ∧ f ≠ 4) {o2 : Operator}
    (ho2 : openOperator (o.putFile ⟨{ name := name, length := data.length, type := filetypeBinary }, data, a⟩ ow).op.data = .ok o2) :
    Good o2.sm o2.data ∧ Settled o2.sm f ∧ fileBytes (own o2.sm) o2.data f = padded data ∧
    (sym ≠ [] → (SymbolHolds o.table sym f → o2.st ≠ none ∧ StandsFor o2.table sym f) ∧ (¬ SymbolHolds o.table sym f → o2.st = none)) := by
  obtain ⟨nf, e, hnf⟩ := putFile_is h hok hm
  rw [e] at hok ho2
  have hf := putMeans_file hm
  obtain ⟨g1, g2, g3⟩ := putNumbered_fate h ho hf hok
  obtain ⟨_, hcase⟩ := putNumbered_ok h hf hok
  have hset := settled_putNumbered h ho hf hd (hs.imp Or.inr And.right) hok
  rw [open_of_good g1] at ho2
  cases ho2
  dsimp only
  refine ⟨g1, hset, ?_, ?_⟩
  · rcases hcase with ⟨_, _, hb⟩ | ⟨_, k, st, _, _, _, hb⟩
    · exact hb
    · exact hb (hs.resolve_left k).2
  · intro hs0
    obtain ⟨hl, h3, h4⟩ := hs.resolve_left hs0
    by_cases hsf : StandsFor o.table sym f
    · have := g2 (Or.inl ((hnf hs0).2 hsf)) h3 h4
      rw [this]
      refine ⟨fun _ => ⟨?_, ?_⟩, fun hc => absurd (Or.inr (Or.inl hsf)) hc⟩
      · intro hn
        obtain ⟨_, b, x, a, ⟨e2, _⟩, _⟩ := hsf
        unfold Operator.table at e2
        rw [hn] at e2
        simp at e2
      · exact hsf
    · obtain ⟨st, k1, k2, k3, k4, k5⟩ := g3 (fun e => hsf ((hnf hs0).1 e)) hs0
      have htab : o.table = st := by unfold Operator.table; rw [k1]; rfl
      unfold SymbolHolds
      rw [htab] at hsf ⊢
      by_cases hsp : AddingSpoils st sym (0xDF00 + f.toUInt16)
      · exact ⟨fun hc => absurd hsp ((hc.resolve_left hs0).resolve_left hsf), fun _ => k4 hsp⟩
      · have e5 := k5 hsp
        refine ⟨fun _ => ⟨by rw [e5]; simp, ?_⟩, fun hc => absurd (Or.inr (Or.inr hsp)) hc⟩
        unfold Operator.table
        dsimp only
        rw [e5]
        exact (names_added k2 hf k3 (Or.inl hl) hs0 f).2 (by rw [if_pos (legal_stored hl)])

/-- Putting the same again. -/
theorem put_again_any {o : Operator} (h : Good o.sm o.data) (ho : openOperator o.data = .ok o) {name : Str} {data : Bytes} {ow : Bool} {a : UInt16}
    (hok : (o.putFile ⟨{ name := name, length := data.length, type := filetypeBinary }, data, a⟩ ow).out = .ok ()) (hd : data ≠ [])
    {f : UInt8} {sym : Str} (hm : PutMeans (fileOnDisk o.data) o.table name f sym) (hs : NumericName name f ∧ sym = [] ∨ LegalName sym ∧ f ≠ 3 ∧ f ≠ 4) {o2 : Operator}
    (ho2 : openOperator (o.putFile ⟨{ name := name, length := data.length, type := filetypeBinary }, data, a⟩ ow).op.data = .ok o2) :
    (SymbolHolds o.table sym f →
      o2.putFile ⟨{ name := name, length := data.length, type := filetypeBinary }, data, a⟩ true = ⟨true, .ok (), o2⟩) ∧
    (¬ SymbolHolds o.table sym f → sym ≠ [] ∧ o2.st = none) := by
  obtain ⟨g1, g2, g3, g4⟩ := put_settles h ho hok hd hm (hs.imp And.right id) ho2
  have hf := putMeans_file hm
  refine ⟨fun hh => ?_, fun hh => ⟨fun e => hh (Or.inl e), (g4 fun e => hh (Or.inl e)).2 hh⟩⟩
  by_cases hs0 : sym = []
  · subst hs0
    have hn : NumericName name f := by
      rcases hs with h | ⟨h, _⟩
      · exact h.1
      · exact absurd rfl (legal_ne h)
    rw [putFile_resolved ⟨rfl, rfl⟩ hf.1 ((C39_plain _ (numeric_no_colon hn)).1 f hn) (Or.inl rfl)]
    exact putNumbered_same g1 hf hd g2 g3 (Or.inr rfl)
  · obtain ⟨hst, hsf⟩ := (g4 hs0).1 hh
    obtain ⟨hl, h3, h4⟩ := hs.resolve_left fun e => hs0 e.2
    rcases hm with ⟨_, e⟩ | ⟨hc, hnn, e, _⟩ | ⟨b, e, hb, hc, hnn⟩
    · exact absurd e hs0
    · subst e
      have hres : fileForName o2.table sym = .ok f := (nameOf_iff f).2 (Or.inr ⟨hnn, hsf⟩)
      rw [putFile_resolved ⟨rfl, rfl⟩ hf.1 ((C39_plain _ hc).2.1 hnn f hres) (Or.inr ⟨hst, hl⟩)]
      exact putNumbered_same g1 hf hd g2 g3 (Or.inl rfl)
    · have hres : fileForName o2.table sym = .ok f := (nameOf_iff f).2 (Or.inr ⟨hnn, hsf⟩)
      have hr := ((C39_compound o2.table (numeric_no_colon hb) hc).1 f hb hnn).1 f hres
      rw [← e] at hr
      rw [putFile_resolved ⟨rfl, rfl⟩ hf.1 hr (Or.inr ⟨hst, hl⟩)]
      exact putNumbered_same g1 hf hd g2 g3 (Or.inl rfl)

end Verif.Supermon

namespace Verif.Cmd
open Disk Spec

/-- Which symbol a name gives depends only on the name. -/
theorem putMeans_symbol {m m' : Files} {st st' : Supermon.SymbolTable} {name : Str} {f f' : UInt8} {sym sym' : Str} (h : PutMeans m st name f sym)
    (h' : PutMeans m' st' name f' sym') : sym = sym' := by
  rcases h with ⟨h1, h2⟩ | ⟨h1, h2, h3, _⟩ | ⟨b, h1, h2, _, _⟩
  · rcases h' with ⟨k1, k2⟩ | ⟨k1, k2, k3, _⟩ | ⟨c, k1, k2, _, _⟩
    · rw [h2, k2]
    · exact absurd h1 (k2 f)
    · have := Supermon.numeric_no_colon h1
      rw [k1] at this; simp at this
  · rcases h' with ⟨k1, k2⟩ | ⟨k1, k2, k3, _⟩ | ⟨c, k1, k2, _, _⟩
    · exact absurd k1 (h2 f')
    · rw [h3, k3]
    · rw [k1] at h1; simp at h1
  · rcases h' with ⟨k1, k2⟩ | ⟨k1, k2, k3, _⟩ | ⟨c, k1, k2, _, _⟩
    · have := Supermon.numeric_no_colon k1
      rw [h1] at this; simp at this
    · rw [h1] at k1; simp at k1
    · exact (first_colon (Supermon.numeric_no_colon h2) (Supermon.numeric_no_colon k2) (h1.symm.trans k1)).2

theorem putMeans_unique {m : Files} {st : Supermon.SymbolTable} {name : Str} {f f' : UInt8} {sym sym' : Str} (h : PutMeans m st name f sym)
    (h' : PutMeans m st name f' sym') : f = f' := by
  rcases Supermon.compound_means m st name with ⟨n, nf, s, _, hm, _⟩ | ⟨_, hm⟩
  swap
  · exact absurd h (hm f sym)
  have h1 := ((hm f sym).1 h).2
  have h2 := ((hm f' sym').1 h').2
  by_cases hn : n = 0
  · rw [if_pos hn] at h1 h2
    rcases Nat.lt_trichotomy f.toNat f'.toNat with hlt | heq | hlt
    · exact absurd h1.2.1 (h2.2.2 f h1.1 hlt)
    · exact UInt8.toNat_inj.1 heq
    · exact absurd h2.2.1 (h1.2.2 f' h2.1 hlt)
  · rw [if_neg hn] at h1 h2
    rw [h1, h2]

/-- After a put the image is what the operator made of it. -/
theorem put_reopened {env : Env} {order order2 : DiskOrder} {system system2 ty : Str} {ow : Bool} {a : UInt16} {image name source : Str}
    {w w2 : World} (hi : image ≠ str "-") (h : (run env (.put order system ty ow a image name source) w).1 = .ok ())
    (hw2 : w2.files image = (run env (.put order system ty ow a image name source) w).2.files image)
    {o o2 : Supermon.Operator} {ord : DiskOrder} (hf : Finds env w image order system (.nakedos o) ord)
    (hf2 : Finds env w2 image order2 system2 (.nakedos o2) ord) {data : Bytes} (hd : given w source = some data) :
    Types.filetypeForName ty = .ok filetypeBinary ∧
    (o.putFile ⟨{ name := name, length := data.length, type := filetypeBinary }, data, a⟩ ow).out = .ok () ∧
    Supermon.openOperator (o.putFile ⟨{ name := name, length := data.length, type := filetypeBinary }, data, a⟩ ow).op.data = .ok o2 := by
  obtain ⟨raw, o', ord', data', ft, new, h1, h2, h3, h4, h5, h6, h7⟩ := put_inv_type hi h
  obtain ⟨raw', g1, g2⟩ := hf
  unfold given at g1
  rw [if_neg hi] at g1 g2
  rw [h1] at g1
  cases g1
  rw [h2] at g2
  cases g2
  rw [hd] at h3
  cases h3
  rw [h6] at hw2
  have hn := open_naked h2
  have hft := (Supermon.putFile_checks h4).1
  dsimp only at hft
  subst hft
  have hnl : (o.putFile ⟨{ name := name, length := data.length, type := filetypeBinary }, data, a⟩ ow).op.data.length = 143360 := by
    obtain ⟨o3, f, k1, k2, k3, _⟩ := Supermon.reopen_put hn.good (by rw [hn.data]; exact hn.opened) h4
    rw [← k3]
    exact k2.len
  obtain ⟨hbl, hv⟩ := written_view hnl hn.order h5
  refine ⟨h7, h4, ?_⟩
  obtain ⟨raw2, e1, e2⟩ := hf2
  unfold given at e1
  rw [if_neg hi] at e1 e2
  rw [hw2] at e1
  cases e1
  have := (open_naked e2).opened
  rw [hv] at this
  exact this

/-- C90, on every NakedOS disk, whatever the state of its symbol table: putting the same contents again changes no byte of any file; and it
succeeds exactly if the name was a number, or the symbol already stood for the file, or giving it to the file did not spoil the table. -/
theorem C90_exact {env : Env} {order order2 : DiskOrder} {system system2 ty : Str} {ow : Bool} {a : UInt16} {image name source source2 : Str}
    {w w2 : World} (hi : image ≠ str "-") (h : (run env (.put order system ty ow a image name source) w).1 = .ok ())
    (hw2 : w2.files image = (run env (.put order system ty ow a image name source) w).2.files image)
    {o o2 : Supermon.Operator} {ord : DiskOrder} (hf : Finds env w image order system (.nakedos o) ord)
    (hf2 : Finds env w2 image order2 system2 (.nakedos o2) ord) {data : Bytes} (hd0 : data ≠ []) (hd : given w source = some data)
    (hd2 : given w2 source2 = some data) {f : UInt8} {sym : Str} (hm : PutMeans (fileOnDisk o.data) o.table name f sym)
    (hs : NumericName name f ∧ sym = [] ∨ LegalName sym ∧ f ≠ 3 ∧ f ≠ 4) :
    (run env (.put order2 system2 ty true a image name source2) w2).2.files = w2.files ∧
    ((run env (.put order2 system2 ty true a image name source2) w2).1 = .ok () ↔
      sym = [] ∨ StandsFor o.table sym f ∨ ¬ AddingSpoils o.table sym (0xDF00 + f.toUInt16)) := by
  obtain ⟨k1, k2, k3⟩ := put_reopened hi h hw2 hf hf2 hd
  obtain ⟨raw, _, g2⟩ := hf
  have hn := open_naked g2
  obtain ⟨p1, p2⟩ := Supermon.put_again_any hn.good (by rw [hn.data]; exact hn.opened) k2 hd0 hm hs k3
  by_cases hh : Supermon.SymbolHolds o.table sym f
  · obtain ⟨r1, r2⟩ := put_runs_same hi hd2 hf2 k1 (p1 hh)
    exact ⟨r2, fun _ => hh, fun _ => r1⟩
  · obtain ⟨q1, q2⟩ := p2 hh
    have hno : (run env (.put order2 system2 ty true a image name source2) w2).1 ≠ .ok () := by
      intro hc
      obtain ⟨raw2, o', ord', data', ft, new, h1, h2, h3, h4, _⟩ := put_inv_type hi hc
      obtain ⟨raw', e1, e2⟩ := hf2
      unfold given at e1
      rw [if_neg hi] at e1 e2
      rw [h1] at e1
      cases e1
      rw [h2] at e2
      cases e2
      have hft := (Supermon.putFile_checks h4).1
      dsimp only at hft
      subst hft
      have hn2 := open_naked h2
      have hop := hn2.opened
      rw [← hn2.data] at hop
      obtain ⟨f', sym', op2, _, hmean, _, _, _, _, hset⟩ := Supermon.put_life hn2.good hop h4
      have hsym : sym' = sym := putMeans_symbol hmean hm
      obtain ⟨st, k, _⟩ := hset (by rw [hsym]; exact q1) fun hc => by
        obtain ⟨_, b, x, a, ⟨e, _⟩, _⟩ := hc
        unfold Supermon.Operator.table at e
        rw [q2] at e
        simp at e
      rw [q2] at k
      cases k
    exact ⟨(C59_failure_changes_nothing env _ w2 hno).1, fun hc => absurd hc hno, fun hc => absurd hc hh⟩

/-- C92, on every NakedOS disk, whatever the state of its symbol table: the copy is found under its number; and under its symbol exactly if the
symbol already stood for the file or giving it to the file did not spoil the table (otherwise the symbol is unknown). -/
theorem C92_exact {env : Env} {orderA order order3 : DiskOrder} {systemA system system3 ty : Str} {ow : Bool} {a : UInt16}
    {imageA nameA image name source : Str} {wA w w3 : World}
    -- the file is dumped from the first image
    {oA : Supermon.Operator} {ordA : DiskOrder} (hA : Finds env wA imageA orderA systemA (.nakedos oA) ordA) {d : Bytes}
    (hdump : Dumps env wA orderA systemA imageA nameA d)
    -- and put on the second
    (hi : image ≠ str "-") {ord : DiskOrder} {o : Supermon.Operator} (hf : Finds env w image order system (.nakedos o) ord)
    {f : UInt8} {sym : Str} (hm : PutMeans (fileOnDisk o.data) o.table name f sym)
    (hs : NumericName name f ∧ sym = [] ∨ LegalName sym ∧ f ≠ 3 ∧ f ≠ 4)
    (hd : given w source = some d) (h : (run env (.put order system ty ow a image name source) w).1 = .ok ())
    -- which is then looked at
    (hw3 : w3.files image = (run env (.put order system ty ow a image name source) w).2.files image)
    {o3 : Supermon.Operator} (hf3 : Finds env w3 image order3 system3 (.nakedos o3) ord) :
    (∀ n, NumericName n f → Dumps env w3 order3 system3 image n d) ∧
    (sym ≠ [] → (StandsFor o.table sym f ∨ ¬ AddingSpoils o.table sym (0xDF00 + f.toUInt16) → Dumps env w3 order3 system3 image sym d) ∧
      (¬ (StandsFor o.table sym f ∨ ¬ AddingSpoils o.table sym (0xDF00 + f.toUInt16)) → DumpFails env w3 order3 system3 image sym)) := by
  obtain ⟨hd0, hpad⟩ := dumps_sectors hA hdump
  obtain ⟨k1, k2, k3⟩ := put_reopened hi h hw3 hf hf3 hd
  obtain ⟨raw, _, g2⟩ := hf
  have hn := open_naked g2
  obtain ⟨p1, p2, p3, p4⟩ := Supermon.put_settles hn.good (by rw [hn.data]; exact hn.opened) k2 hd0 hm (hs.imp And.right id) k3
  have hb : fileOnDisk o3.data f = d := by rw [← p1.onDisk, p3, hpad]
  obtain ⟨d1, d2, d3, d4⟩ := C72_dump_nakedos hf3 name
  refine ⟨fun n hnn => ?_, fun hs0 => ?_⟩
  · have := (C72_dump_nakedos hf3 n).1 f ((Supermon.C34_resolves_iff _ _ _).2 (Or.inl hnn)) (by rw [hb]; exact hd0)
    rw [hb] at this
    exact this
  · have hnn : ∀ g, ¬ NumericName sym g := by
      rcases hm with ⟨_, e⟩ | ⟨_, k, e, _⟩ | ⟨_, _, _, _, k⟩
      · exact absurd e hs0
      · rw [e]; exact k
      · exact k
    refine ⟨fun hh => ?_, fun hh => ?_⟩
    · have := (C72_dump_nakedos hf3 sym).1 f ((Supermon.nameOf_iff f).2 (Or.inr ⟨hnn, ((p4 hs0).1 (Or.inr hh)).2⟩)) (by rw [hb]; exact hd0)
      rw [hb] at this
      exact this
    · have hnone := (p4 hs0).2 fun hc => hh (hc.resolve_left hs0)
      obtain ⟨_, d2, d3, d4⟩ := C72_dump_nakedos hf3 sym
      rcases d4 with ⟨g, hg⟩ | ⟨k, hk⟩
      · exfalso
        rcases (Supermon.nameOf_iff g).1 hg with hx | ⟨_, hx⟩
        · exact hnn g hx
        · obtain ⟨_, b, x, a, ⟨e, _⟩, _⟩ := hx
          unfold Supermon.Operator.table at e
          rw [hnone] at e
          simp at e
      · exact d3 k hk

/-- C93, under a symbol, on every NakedOS disk, whatever the state of its symbol table.  A put creates a file that was not there, under a symbol that
was not in the table.  If that spoiled the table, the symbol is unknown to `rm`.  Otherwise `rm` of the symbol succeeds, all files are as they were
before the put; and all names are, unless removing the symbol spoils the table. -/
theorem C93_exact {env : Env} {order order2 : DiskOrder} {system system2 ty : Str} {ow : Bool} {a : UInt16} {image name source : Str}
    {w w2 : World} (hi : image ≠ str "-") (h : (run env (.put order system ty ow a image name source) w).1 = .ok ())
    (hw2 : w2.files image = (run env (.put order system ty ow a image name source) w).2.files image)
    {o o2 : Supermon.Operator} {ord : DiskOrder} (hf : Finds env w image order system (.nakedos o) ord)
    (hf2 : Finds env w2 image order2 system2 (.nakedos o2) ord) {data : Bytes} (hd0 : data ≠ []) (hd : given w source = some data)
    {f : UInt8} {sym : Str} (hm : PutMeans (fileOnDisk o.data) o.table name f sym) (hl : LegalName sym) (h34 : f ≠ 3 ∧ f ≠ 4)
    (hnew : fileOnDisk o.data f = []) (hfresh : ∀ s ∈ o.table, ¬ SameName s.name sym) (mok : Bool) :
    (AddingSpoils o.table sym (0xDF00 + f.toUInt16) → (run env (.rm order2 system2 mok image sym) w2).1 ≠ .ok ()) ∧
    (¬ AddingSpoils o.table sym (0xDF00 + f.toUInt16) → (run env (.rm order2 system2 mok image sym) w2).1 = .ok () ∧
      HasFiles (run env (.rm order2 system2 mok image sym) w2).2 image ord (fileOnDisk o.data) ∧
      (DeletingSpoils o2.table sym → HoldsNames env (run env (.rm order2 system2 mok image sym) w2).2 image ord none) ∧
      (¬ DeletingSpoils o2.table sym → HoldsNames env (run env (.rm order2 system2 mok image sym) w2).2 image ord (o.st.map entriesOf))) := by
  have hs0 := Supermon.legal_ne hl
  obtain ⟨k1, k2, k3⟩ := put_reopened hi h hw2 hf hf2 hd
  have hf0 := hf
  obtain ⟨raw, _, g2⟩ := hf
  have hn := open_naked g2
  have hop := hn.opened
  rw [← hn.data] at hop
  have hnn : ∀ g, ¬ NumericName sym g := by
    rcases hm with ⟨_, e⟩ | ⟨_, k, e, _⟩ | ⟨_, _, _, _, k⟩
    · exact absurd e hs0
    · rw [e]; exact k
    · exact k
  have hnsf : ¬ StandsFor o.table sym f := by
    rintro ⟨_, b, x, y, ⟨e, hx, _⟩, _⟩
    exact hfresh x (by rw [e]; simp) hx
  have hff := Supermon.putMeans_file hm
  -- the disk after the put
  obtain ⟨nf, e, hnf⟩ := Supermon.putFile_is hn.good k2 hm
  have hfiles : ∀ g, Ordinary g → fileOnDisk o2.data g = if g = f then padded data else fileOnDisk o.data g := by
    obtain ⟨f', sym', op2, q1, q2, q3, q4, _⟩ := Supermon.put_life hn.good hop k2
    have hf' : f' = f := putMeans_unique q2 hm
    subst hf'
    rw [q1, Supermon.open_of_good q3] at k3
    cases k3
    exact q4
  rw [e] at k2 k3
  obtain ⟨g1, _, g3⟩ := Supermon.putNumbered_fate hn.good hop hff k2
  rw [Supermon.open_of_good g1] at k3
  obtain ⟨st, s1, s2, s3, s4, s5⟩ := g3 (fun e => hnsf ((hnf hs0).1 e)) hs0
  have htab : o.table = st := by unfold Supermon.Operator.table; rw [s1]; rfl
  rw [htab] at hfresh ⊢
  by_cases hsp : AddingSpoils st sym (0xDF00 + f.toUInt16)
  · refine ⟨fun _ hc => ?_, fun hc => absurd hsp hc⟩
    obtain ⟨g, hg, _⟩ := (C94_rm hi hf2).1 hc
    have hnone : o2.st = none := by
      cases k3
      exact s4 hsp
    rcases hg with hx | ⟨_, hx⟩
    · exact hnn g hx
    · obtain ⟨_, b, x, a, ⟨e, _⟩, _⟩ := hx
      unfold Supermon.Operator.table at e
      rw [hnone] at e
      simp at e
  refine ⟨fun hc => absurd hc hsp, fun _ => ?_⟩
  -- the table after the put
  have hst2 : o2.st = some ((Supermon.addSymbol st sym (0xDF00 + f.toUInt16)).2.map Supermon.reread) := by
    cases k3
    exact s5 hsp
  have hord : Ordinary f := ⟨hff, h34⟩
  have hstore : ∀ e ∈ o2.table, Storable e.name := by
    obtain ⟨_, f', sym', q1, _, _, q4⟩ := (C91_put hi hf0 hd hd0).1 h
    have e1 : f' = f := putMeans_unique q1 hm
    have e2 : sym' = sym := putMeans_symbol q1 hm
    subst e1 e2
    obtain ⟨st', r1, r2, r3⟩ := q4 hs0
    rw [s1] at r1
    cases r1
    have r3 := (r3.resolve_left (by rw [← htab]; exact hnsf)).2
    obtain ⟨k, c1, c2, _⟩ := s2.keys_add (by
      intro hc
      have := Supermon.fileAddress f'
      rw [hc] at this
      rw [show (0 : UInt16).toNat = 0 from rfl] at this
      omega) s3
    have : o2.table = (Supermon.addSymbol st sym' (0xDF00 + f'.toUInt16)).2.map Supermon.reread := by
      unfold Supermon.Operator.table; rw [hst2]; rfl
    rw [this, Supermon.storable_keys, c1]
    intro y hy
    rcases List.mem_or_eq_of_mem_set hy with hy | rfl
    · exact Supermon.storable_keys.1 r3 y hy
    · exact (Supermon.storable_same (Supermon.legal_stored hl)).1 r2
  have htab2 : o2.table = (Supermon.addSymbol st sym (0xDF00 + f.toUInt16)).2.map Supermon.reread := by
    unfold Supermon.Operator.table; rw [hst2]; rfl
  have hsf2 : StandsFor o2.table sym f := by
    rw [htab2]
    exact (Supermon.names_added s2 hff s3 (Or.inl hl) hs0 f).2 (by rw [if_pos (Supermon.legal_stored hl)])
  have hthere : fileOnDisk o2.data f ≠ [] := by
    rw [hfiles f hord, if_pos rfl]
    intro hc
    have := congrArg List.length hc
    rw [Supermon.padded_length, List.length_nil] at this
    have := List.length_pos_iff.2 hd0
    omega
  have hok : (run env (.rm order2 system2 mok image sym) w2).1 = .ok () := by
    refine (C94_rm hi hf2).2 ⟨f, Or.inr ⟨hnn, hsf2⟩, Or.inl hthere, ?_⟩
    intro b x y hfo z hz
    refine hstore z ?_
    rw [hfo.1]
    rcases List.mem_append.1 hz with hz | hz
    · exact List.mem_append_left _ hz
    · exact List.mem_append_right _ (List.mem_cons_of_mem _ hz)
  refine ⟨hok, ?_⟩
  obtain ⟨raw2, o', ord', new, h1, h2, h3, h4, h5, h6⟩ := rm_inv hi hok
  obtain ⟨raw2', e1, e2⟩ := hf2
  unfold given at e1
  rw [if_neg hi] at e1 e2
  rw [h1] at e1
  cases e1
  rw [h2] at e2
  cases e2
  have hn2 := open_naked h2
  have hop2 := hn2.opened
  rw [← hn2.data] at hop2
  obtain ⟨f', n1, d1, _, d3⟩ := Supermon.delete_fate hn2.good hop2 h3
  obtain ⟨o4, f'', q1, q2, q3, q4, q5, q6, q7, _⟩ := Supermon.reopen_delete hn2.good hop2 h3
  have hf'' : f'' = f := by
    rw [(Supermon.nameOf_iff f).2 (Or.inr ⟨hnn, hsf2⟩)] at q4
    cases q4; rfl
  subst hf''
  obtain ⟨hbl, hv⟩ := written_view d1.len hn2.order h5
  have ho5 := Supermon.open_of_good d1
  have hopen := open_explicit (env := env) hbl hn2.order (by rw [hv]; exact ho5) image
  refine ⟨?_, ?_⟩
  · refine hasFiles_of h6 (open_naked hopen) fun g hg => ?_
    show fileOnDisk (o2.delete sym).op.data g = _
    rw [← q3]
    by_cases e : g = f''
    · subst e
      rw [q6 (Or.inl hg.2), hnew]
    · rw [q7 g hg.1 e (Or.inl hg.2), hfiles g hg, if_neg e]
  · obtain ⟨_, b, x, y, hfo, _⟩ := id hsf2
    obtain ⟨st2, c1, c2, c3, c4⟩ := d3 ⟨x, by rw [hfo.1]; simp, hfo.2.1⟩
    have e2 : st2 = o2.table := by unfold Supermon.Operator.table; rw [c1]; rfl
    subst e2
    refine ⟨fun hsp2 => ⟨new, _, h6, hopen, Or.inl ⟨rfl, c3 hsp2⟩⟩, fun hsp2 => ⟨new, _, h6, hopen, Or.inr ⟨_, _, by rw [s1]; rfl, c4 hsp2, fun n hne => ?_⟩⟩⟩
    rw [c2.entries_del hfo hne]
    obtain ⟨u1, u2⟩ := s2.entries_add s3 hs0 n
    rw [htab2]
    by_cases hsn : SameName n sym
    · rw [if_pos hsn, u2 hl hsn, List.tail_cons]
      have : entriesOf st n = [] := (s2.entries_nil hne).2 fun z hz hc => hfresh z hz (hc.trans hsn)
      rw [this]; rfl
    · rw [if_neg hsn, u1 fun hc => hsn (hc.trans (Supermon.legal_stored hl).symm)]

end Verif.Cmd
