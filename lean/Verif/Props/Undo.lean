import Verif.Spec.Undo
import Verif.Props.Copy
import Verif.Props.Space

/-!
# C93: removing what was just put
-/

set_option autoImplicit false

namespace Verif.Supermon
open Disk Spec

theorem sectorNo_ext {img img' : Bytes} {n : Nat} (h : ∀ i, i / 256 = n → img'[i]? = img[i]?) : sectorNo img' n = sectorNo img n := by
  rw [sectorNo_eq, sectorNo_eq]
  apply List.ext_getElem?
  intro i
  rw [getElem?_slice, getElem?_slice]
  split
  · exact h _ (by omega)
  · rfl

/-- Owners are the same where all is the same up to free sectors. -/
theorem SameUpToFree.owner {img img' : Bytes} (hn : NakedOS img) (h : SameUpToFree img img') {n : Nat} (hlt : n < 560) :
    owner img' n = owner img n := by
  have hl := hn.1
  unfold Spec.owner
  rw [List.getD_eq_getElem?_getD, List.getD_eq_getElem?_getD, h.2 (0x9D0 + n) (by omega)]
  have : (0x9D0 + n) / 256 < 12 := by omega
  rw [hn.2.1 _ this]
  decide

theorem deleteFile_newMap {sm : SectorMap} {f : UInt8} {c : Bytes} (h : ownedBy (own sm) f = []) :
    deleteFile (newMap sm f c) f = sm := by
  have hno : ∀ n, n < 560 → own sm n ≠ f := by
    intro n hn e
    have : n ∈ ownedBy (own sm) f := mem_ownedBy.2 ⟨hn, e⟩
    rw [h] at this
    simp at this
  have key : ∀ n, n < 560 → own (deleteFile (newMap sm f c) f) n = own sm n := by
    intro n hn
    rw [own_deleteFile _ _ hn, own_newMap _ _ _ hn]
    by_cases ht : n ∈ targets sm f c
    · rw [if_pos ht, if_pos rfl]
      rcases (mem_targets ht).2 with e | e
      · exact e.symm
      · exact absurd e (hno n hn)
    · rw [if_neg ht, if_neg (hno n hn), if_neg (hno n hn)]
  apply Vector.ext
  intro n hn
  have := key n hn
  rw [own_eq hn, own_eq hn] at this
  exact this

/-- The image after a new file is written and removed. -/
theorem undone_image {sm : SectorMap} {img : Bytes} (h : Good sm img) {f : UInt8} (hf : IsFileNumber f) {c : Bytes}
    (hfit : Fits sm f c) (hno : ownedBy (own sm) f = []) : SameUpToFree img (put (newImg sm f c img) 2512 sm.toList) := by
  have hl := newImg_length (sm := sm) (c := c) h.len hf.2.2 hfit
  refine ⟨by rw [put_length (by simp; omega), hl, h.len], ?_⟩
  intro i hi hown
  have hload := (loaded_iff (by have := h.len; omega) sm).1 h.loaded
  have hlen := h.len
  rw [getElem?_put (by omega)]
  have h560 : sm.toList.length = 560 := by simp
  rw [h560]
  by_cases hr : i < 2512 ∨ 3072 ≤ i
  · have key : (newImg sm f c img)[i]? = img[i]? := by
      refine getElem?_newImg_other h.len hf.2.2 hfit ?_ hr
      intro ht
      obtain ⟨hlt, e | e⟩ := mem_targets ht
      · rw [hload _ hlt] at e; exact hown e
      · have : i / 256 ∈ ownedBy (own sm) f := mem_ownedBy.2 ⟨hlt, e⟩
        rw [hno] at this
        simp at this
    split
    · exact key
    · rw [if_neg (by omega)]; exact key
  · rw [if_neg (by omega), if_pos (by omega)]
    have := hload (i - 2512) (by omega)
    unfold own owner at this
    rw [List.getD_eq_getElem?_getD, List.getD_eq_getElem?_getD, show 0x9D0 + (i - 2512) = i by omega,
      List.getElem?_eq_getElem (by simp; omega), List.getElem?_eq_getElem hi] at this
    rw [List.getElem?_eq_getElem (by simp; omega), List.getElem?_eq_getElem hi]
    exact congrArg some this

/-- Putting a new file by number, and removing it. -/
theorem put_delete_number {o : Operator} (h : Good o.sm o.data) (ho : openOperator o.data = .ok o) {fi : FileInfo} {ow : Bool}
    (hok : (o.putFile fi ow).out = .ok ()) (hd : fi.data ≠ []) {f : UInt8} (hn : NumericName fi.descriptor.name f) (h3 : f ≠ 3) (h4 : f ≠ 4)
    (hno : fileOnDisk o.data f = []) {name : Str} (hname : NumericName name f) (hs : NoSymbol o.table name) {o2 : Operator}
    (ho2 : openOperator (o.putFile fi ow).op.data = .ok o2) :
    (o2.delete name).out = .ok () ∧ fileForName o2.table name = .ok f ∧ NoSymbol o2.table name ∧ fileOnDisk o2.data f ≠ [] ∧
    SameUpToFree o.data (o2.delete name).op.data := by
  obtain ⟨g, nf, sym, hg, e, hkind⟩ := put_kinds hok
  have hcol := numeric_no_colon hn
  have : g = f ∧ sym = [] := by
    rcases hkind with ⟨hn', hs⟩ | ⟨_, hn', _⟩ | ⟨a, b, hab, _⟩
    · exact ⟨C34_numeric_unique hn' hn, hs⟩
    · exact absurd hn (hn' f)
    · rw [hab] at hcol; simp at hcol
  obtain ⟨rfl, rfl⟩ := this
  rw [e] at hok ho2
  obtain ⟨hg2, hcase⟩ := putNumbered_ok h hg hok
  obtain ⟨_, hst, hb⟩ := hcase.resolve_right (by simp)
  have hw := putNumbered_wrote hok
  have hk := keep_writeFile h hg (c := fi.data) (ow := ow) (by rw [hw]; simp)
  obtain ⟨m1, m2⟩ := writeFile_inv h hg hd hw
  have hop : (o.putNumbered g nf [] fi.data ow).op = ⟨newImg o.sm g fi.data o.data, newMap o.sm g fi.data, o.st⟩ := by
    unfold Operator.putNumbered
    simp only [hw]
    rw [if_neg (by simp), m1, m2]
  rw [fileOnDisk_nil h] at hno
  have hfit : Fits o.sm g fi.data := by
    obtain ⟨h1, _⟩ := (C25_write_outcome ow h.len hg hd).2.2.1.1 hw
    unfold Fits
    rw [sectorsNeeded_eq] at h1
    omega
  rw [m1, m2] at hk
  rw [hop] at hg2 ho2 hb
  dsimp only at hg2 ho2 hb
  rw [open_of_good hg2] at ho2
  cases ho2
  have htab : tableOn (newMap o.sm g fi.data) (newImg o.sm g fi.data o.data) = o.st := by
    rw [tableOn_congr h hk.good (hk.bytes 3 isFile3 (fun h => h3 h.symm)) (hk.bytes 4 isFile4 (fun h => h4 h.symm)), ← opened_table h ho]
  rw [htab]
  have hres : fileForName (Operator.mk (newImg o.sm g fi.data o.data) (newMap o.sm g fi.data) o.st).table name = .ok g :=
    (C34_resolves_iff _ _ _).2 (Or.inl hname)
  have hs2 : NoSymbol (Operator.mk (newImg o.sm g fi.data o.data) (newMap o.sm g fi.data) o.st).table name := hs
  have hok2 := (C29_delete_frees (o := ⟨newImg o.sm g fi.data o.data, newMap o.sm g fi.data, o.st⟩) hg2 hres hs2).2.2.2
  obtain ⟨f', hn', _, hcase⟩ := delete_split (o := ⟨newImg o.sm g fi.data o.data, newMap o.sm g fi.data, o.st⟩) hg2 hok2
  rw [hres] at hn'
  cases hn'
  refine ⟨hok2, hres, hs2, ?_, ?_⟩
  · dsimp only
    rw [← hg2.onDisk, hb]
    intro hc
    unfold padded at hc
    exact hd (List.append_eq_nil_iff.1 hc).1
  rcases hcase with ⟨_, e⟩ | ⟨st, hst', ⟨s, hs', hsn⟩, _⟩
  · rw [e]
    dsimp only
    rw [deleteFile_newMap hno]
    exact undone_image h hg hfit hno
  · have : (Operator.mk (newImg o.sm g fi.data o.data) (newMap o.sm g fi.data) o.st).table = st := by
      unfold Operator.table; rw [hst']; rfl
    rw [this] at hs2
    exact absurd hsn (hs2 s hs')

end Verif.Supermon

namespace Verif.Cmd
open Disk Spec

/-- `ls` prints `text`, and changes no file. -/
def Lists (env : Env) (w : World) (order : DiskOrder) (system : Str) (short : Bool) (image : Str) (text : Bytes) : Prop :=
  ∃ w', run env (.ls order system short image []) w = (.ok (), w') ∧ w'.files = w.files ∧ w'.stdout = w.stdout ++ text

/-- What is listed and dumped does not depend on the contents of free sectors. -/
theorem same_reading {env : Env} {w w' : World} {image : Str} {order order' : DiskOrder} {system system' : Str} {o o' : Supermon.Operator}
    {ord ord' : DiskOrder} (h : Finds env w image order system (.nakedos o) ord) (h' : Finds env w' image order' system' (.nakedos o') ord')
    (hsame : SameUpToFree o.data o'.data) :
    (∀ short, ∃ text, Lists env w order system short image text ∧ Lists env w' order' system' short image text) ∧
    ∀ name d, Dumps env w order system image name d ↔ Dumps env w' order' system' image name d := by
  obtain ⟨raw, _, h2⟩ := id h
  obtain ⟨raw', _, h2'⟩ := id h'
  have hg := (open_naked h2).good
  have hg' := (open_naked h2').good
  have hnk : NakedOS o.data := by
    refine ⟨hg.len, ?_⟩
    have hl := (Supermon.loaded_iff (by have := hg.len; omega) o.sm).1 hg.loaded
    exact ⟨fun n hn => by rw [← hl n (by omega)]; exact hg.legal.1 n hn, fun n hn => by rw [← hl n hn]; exact hg.legal.2 n hn⟩
  have hown : ∀ n, n < 560 → owner o'.data n = owner o.data n := fun n hn => Supermon.SameUpToFree.owner hnk hsame hn
  have hob : ∀ f, ownedBy (own o'.sm) f = ownedBy (own o.sm) f := by
    intro f
    rw [← hg.owned, ← hg'.owned]
    unfold ownedBy
    apply List.filter_congr
    intro n hn
    rw [hown n (List.mem_range.1 hn)]
  have hfile : ∀ f, f ≠ 0xFF → fileOnDisk o'.data f = fileOnDisk o.data f := by
    intro f hf
    rw [← hg.onDisk, ← hg'.onDisk]
    unfold fileBytes
    rw [hob]
    apply List.flatMap_congr
    intro n hn
    obtain ⟨hlt, e⟩ := Supermon.mem_ownedBy.1 hn
    have e' : owner o.data n ≠ 0xFF := by
      rw [← (Supermon.loaded_iff (by have := hg.len; omega) o.sm).1 hg.loaded n hlt, e]; exact hf
    exact Supermon.sectorNo_ext fun i hi => hsame.2 i (by have := hg.len; omega) (by rw [hi]; exact e')
  have hst : o'.st = o.st := by
    have e := (open_naked h2).opened
    have e' := (open_naked h2').opened
    rw [← (open_naked h2).data] at e
    rw [← (open_naked h2').data] at e'
    rw [Supermon.opened_table hg e, Supermon.opened_table hg' e']
    refine Supermon.tableOn_congr hg hg' ?_ ?_
    · rw [hg.onDisk, hg'.onDisk]; exact hfile 3 (by decide)
    · rw [hg.onDisk, hg'.onDisk]; exact hfile 4 (by decide)
  have htab : o'.table = o.table := by unfold Supermon.Operator.table; rw [hst]
  refine ⟨?_, ?_⟩
  · intro short
    obtain ⟨w1, a1, a2, a3⟩ := C71_ls_nakedos h short
    obtain ⟨w1', b1, b2, b3⟩ := C71_ls_nakedos h' short
    refine ⟨_, ⟨w1, a1, a2, a3⟩, ⟨w1', b1, b2, ?_⟩⟩
    have hp : (fun f : UInt8 => decide (f ≠ 0 ∧ f ≠ 0xFE ∧ f ≠ 0xFF ∧ ownedBy (own o'.sm) f ≠ [])) =
        fun f => decide (f ≠ 0 ∧ f ≠ 0xFE ∧ f ≠ 0xFF ∧ ownedBy (own o.sm) f ≠ []) := by
      funext f
      rw [hob]
    rw [htab, hp] at b3
    exact b3
  · intro name d
    obtain ⟨a1, a2, a3, a4⟩ := C72_dump_nakedos h name
    obtain ⟨b1, b2, b3, _⟩ := C72_dump_nakedos h' name
    rw [htab] at b1 b2 b3
    rcases a4 with ⟨f, hf⟩ | ⟨k, hk⟩
    · have hff := hfile f (Supermon.fileForName_file hf).2.2
      by_cases e : fileOnDisk o.data f = []
      · exact ⟨fun hd => absurd (a2 f hf e) (dumps_not_fails hd), fun hd => absurd (b2 f hf (by rw [hff, e])) (dumps_not_fails hd)⟩
      · have x := a1 f hf e
        have y := b1 f hf (by rw [hff]; exact e)
        rw [hff] at y
        exact ⟨fun hd => by rw [dumps_unique hd x]; exact y, fun hd => by rw [dumps_unique hd y]; exact x⟩
    · exact ⟨fun hd => absurd (a3 k hk) (dumps_not_fails hd), fun hd => absurd (b3 k hk) (dumps_not_fails hd)⟩

/-- C93, for names that are numbers: `rm` of a file that has just been put, and was not there before, succeeds, and afterwards the image is
as it was, except for bytes in free sectors. So `ls` and `dump` print what they printed before. In between, anything may change but the
image file. -/
theorem C93_number {env : Env} {order order2 : DiskOrder} {system system2 ty : Str} {ow : Bool} {a : UInt16} {image name name2 source : Str}
    {w w2 : World} (hi : image ≠ str "-") {f : UInt8} (hname : NumericName name f) (hname2 : NumericName name2 f) (h3 : f ≠ 3) (h4 : f ≠ 4)
    {data : Bytes} (hd0 : data ≠ []) (hd : given w source = some data) {o o2 : Supermon.Operator} {ord : DiskOrder}
    (hf : Finds env w image order system (.nakedos o) ord) (hnew : fileOnDisk o.data f = []) (hsym : Supermon.NoSymbol o.table name2)
    (h : (run env (.put order system ty ow a image name source) w).1 = .ok ())
    (hw2 : w2.files image = (run env (.put order system ty ow a image name source) w).2.files image)
    (hf2 : Finds env w2 image order2 system2 (.nakedos o2) ord) (m : Bool) :
    (run env (.rm order2 system2 m image name2) w2).1 = .ok () ∧
    (∃ raw raw3 img img3, w.files image = some raw ∧ (run env (.rm order2 system2 m image name2) w2).2.files image = some raw3 ∧
      View ord (str "raw") raw img ∧ View ord (str "raw") raw3 img3 ∧ SameUpToFree img img3) ∧
    ∀ (w4 : World) (order4 : DiskOrder) (system4 : Str) (o4 : Supermon.Operator),
      w4.files image = (run env (.rm order2 system2 m image name2) w2).2.files image →
      Finds env w4 image order4 system4 (.nakedos o4) ord →
      (∀ short, ∃ text, Lists env w order system short image text ∧ Lists env w4 order4 system4 short image text) ∧
      ∀ n d, Dumps env w order system image n d ↔ Dumps env w4 order4 system4 image n d := by
  obtain ⟨raw, o', ord', data', ft, new, h1, h2, h3', h4', h5, h6, h7⟩ := put_inv_type hi h
  have hff := id hf
  obtain ⟨raw', g1, g2⟩ := hf
  unfold given at g1
  rw [if_neg hi] at g1 g2
  rw [h1] at g1
  cases g1
  rw [h2] at g2
  cases g2
  rw [hd] at h3'
  cases h3'
  rw [h6] at hw2
  have hn := open_naked h2
  have hgo : Supermon.openOperator o.data = .ok o := by rw [hn.data]; exact hn.opened
  have hnl : (o.putFile ⟨{ name := name, length := data.length, type := ft }, data, a⟩ ow).op.data.length = 143360 := by
    obtain ⟨o3, f, k1, k2, k3, _⟩ := Supermon.reopen_put hn.good hgo h4'
    rw [← k3]
    exact k2.len
  obtain ⟨hbl, hv⟩ := written_view hnl hn.order h5
  have hff2 := id hf2
  obtain ⟨raw2, e1, e2⟩ := hf2
  unfold given at e1
  rw [if_neg hi] at e1 e2
  have hop2 : Supermon.openOperator (o.putFile ⟨{ name := name, length := data.length, type := ft }, data, a⟩ ow).op.data = .ok o2 := by
    rw [hw2] at e1
    cases e1
    have := (open_naked e2).opened
    rw [hv] at this
    exact this
  have hn2 := open_naked e2
  obtain ⟨d1, d2, d3, d4, d6⟩ := Supermon.put_delete_number hn.good hgo h4' hd0 hname h3 h4 hnew hname2 hsym hop2
  have hok := C73_rm_succeeds hi hff2 m name2 f d2 d3 (Or.inl d4)
  refine ⟨hok, ?_⟩
  obtain ⟨raw2', o2', ord2, new3, k1, k2, k3, k4, k5, k6⟩ := rm_inv hi hok
  rw [e1] at k1
  cases k1
  rw [e2] at k2
  cases k2
  have hl3 : (o2.delete name2).op.data.length = 143360 := by rw [d6.1]; exact hn.good.len
  obtain ⟨hl4, hv3⟩ := written_view hl3 hn.order k5
  refine ⟨⟨raw, new3, o.data, (o2.delete name2).op.data, h1, k6, ?_, ?_, d6⟩, ?_⟩
  · rw [hn.data]
    exact (view_iff (order_named hn.order) raw_named hn.len).2 rfl
  · rw [← hv3]
    exact (view_iff (order_named hn.order) raw_named hl4).2 rfl
  · intro w4 order4 system4 o4 hw4 hf4
    obtain ⟨raw4, m1, m2⟩ := id hf4
    unfold given at m1
    rw [if_neg hi] at m1 m2
    rw [hw4, k6] at m1
    cases m1
    have hn4 := open_naked m2
    have hdat : o4.data = (o2.delete name2).op.data := by rw [hn4.data, hv3]
    exact same_reading hff hf4 (by rw [hdat]; exact d6)

/-- Which names a table is said to know matters only for those that can be symbols. -/
theorem hasNames_congr {env : Env} {w : World} {image : Str} {ord : DiskOrder} {z : Str} {t t' : Names} (h : HasNames env w image ord z t)
    (e : ∀ n, Symbolic n → t' n = t n) : HasNames env w image ord z t' := by
  obtain ⟨raw, o, st, h1, h2, h3, h4, h5, h6⟩ := h
  exact ⟨raw, o, st, h1, h2, h3, h4, h5, fun n hn f => by rw [e n hn]; exact h6 n hn f⟩

/-- The name of a file that is not there: a symbol that stands for nothing, alone or after the number of a file that is not there. -/
def NewName (m : Files) (t : Names) (name s : Str) : Prop :=
  Symbolic s ∧ t s = none ∧ (name = s ∨ ∃ a f, name = a ++ 0x3A :: s ∧ NumericName a f ∧ f ≠ 3 ∧ f ≠ 4 ∧ m f = [])

/-- C93, for symbols on a disk whose symbol table is in order: `rm` of a symbol under which something has just been put, and that stood for
nothing before, succeeds, and afterwards all files and all names are as they were. -/
theorem C93_name_partial {env : Env} {order order2 : DiskOrder} {system system2 ty : Str} {ow : Bool} {a : UInt16} {image name s source : Str}
    {w w2 : World} (hi : image ≠ str "-") {ord : DiskOrder} {m : Files} {z : Str} {t : Names} (hm : HasFiles w image ord m)
    (hn : HasNames env w image ord z t) (hname : NewName m t name s) (hz : ¬ SameName s z)
    {data : Bytes} (hd0 : data ≠ []) (hd : given w source = some data)
    (hag : CandidateOrders order (toLower (pathExt image)) [ord]) (hag2 : CandidateOrders order2 (toLower (pathExt image)) [ord])
    (h : (run env (.put order system ty ow a image name source) w).1 = .ok ())
    (hw2 : w2.files image = (run env (.put order system ty ow a image name source) w).2.files image)
    {o2 : Supermon.Operator} (hf2 : Finds env w2 image order2 system2 (.nakedos o2) ord) (mok : Bool) :
    (run env (.rm order2 system2 mok image s) w2).1 = .ok () ∧
    HasFiles (run env (.rm order2 system2 mok image s) w2).2 image ord m ∧
    HasNames env (run env (.rm order2 system2 mok image s) w2).2 image ord z t := by
  obtain ⟨hsy, hts, hkind⟩ := hname
  -- the put
  have hs1 : Session env image w [(w, .put order system ty ow a image name source)] w2 := Session.step rfl (Session.done hw2)
  have hcare : Agrees image ord (.put order system ty ow a image name source) ∧ Careful image z t (.put order system ty ow a image name source) := by
    refine ⟨fun _ => hag, fun _ => ?_⟩
    rcases hkind with rfl | ⟨b, f, e, hb, h3, h4, _⟩
    · exact Or.inr (Or.inl ⟨hsy, by rw [hts]; simp, by rw [hts]; simp, fun hc => absurd hc hz⟩)
    · exact Or.inr (Or.inr ⟨b, s, f, e, hb, h3, h4, hsy, fun hc => absurd hc hz⟩)
  obtain ⟨chs, hch, hf1, hn1⟩ := C83_session_partial hi hs1 (fun p hp => by
    simp only [List.mem_cons, List.not_mem_nil, or_false] at hp
    subst hp
    exact hcare) hm hn
  obtain ⟨ch, rfl, hdo⟩ := changes_one hch
  have hput : ∃ f, Ordinary f ∧ ch = .put f data (some s) ∧ m f = [] := by
    cases hdo with
    | failed hc => exact absurd h hc
    | elsewhere hc => exact absurd rfl hc
    | @put _ _ _ _ _ _ _ f data' sym _ hg hf hto how =>
      rw [hd] at hg
      cases hg
      refine ⟨f, hf, ?_⟩
      rcases hkind with rfl | ⟨b, g, e, hb, h3, h4, hg⟩
      · rcases hto with ⟨hc, _⟩ | ⟨_, e, hc⟩ | ⟨b, c, e, _⟩
        · exact absurd hc (hsy.2 f)
        · rw [hts] at hc
          exact ⟨by rw [e], (hc.resolve_left (by simp)).2⟩
        · have := Supermon.symbolic_no_colon hsy
          rw [e] at this
          simp at this
      · rcases hto with ⟨hc, _⟩ | ⟨hc, _⟩ | ⟨b', c, e', hb', _, e2⟩
        · have := Supermon.numeric_no_colon hc
          rw [e] at this
          simp at this
        · have := Supermon.symbolic_no_colon hc
          rw [e] at this
          simp at this
        · rw [e] at e'
          obtain ⟨rfl, rfl⟩ := first_colon (Supermon.numeric_no_colon hb) (Supermon.numeric_no_colon hb') e'
          have := Supermon.C34_numeric_unique hb hb'
          subst this
          exact ⟨by rw [e2], hg⟩
  obtain ⟨f, hf, rfl, hmf⟩ := hput
  rw [List.foldl_cons, List.foldl_nil] at hf1 hn1
  have hts1 : (Change.put f data (some s)).names t s = some f := if_pos (show SameName s s from rfl)
  have hm1 : (Change.put f data (some s)).files m f = padded data := if_pos rfl
  have hback : ∀ g, (Change.rm f (some s)).files ((Change.put f data (some s)).files m) g = m g := by
    intro g
    show (if g = f then [] else if g = f then padded data else m g) = m g
    by_cases e : g = f
    · rw [if_pos e, e, hmf]
    · rw [if_neg e, if_neg e]
  have hsame : ∀ n, Symbolic n → SameName n s → t n = none := by
    intro n hn' e
    obtain ⟨_, _, st, _, _, _, _, _, hk⟩ := id hn
    cases hc : t n with
    | none => rfl
    | some g =>
      obtain ⟨h1, x, h2, h3, h4⟩ := (hk n hn' g).1 hc
      have := (hk s hsy g).2 ⟨h1, x, h2, h3.trans e, h4⟩
      rw [hts] at this
      cases this
  have hbackn : ∀ n, Symbolic n → t n = (Change.rm f (some s)).names ((Change.put f data (some s)).names t) n := by
    intro n hn'
    show t n = (if SameName n s then none else if SameName n s then some f else t n)
    by_cases e : SameName n s
    · rw [if_pos e, hsame n hn' e]
    · rw [if_neg e, if_neg e]
  generalize (Change.put f data (some s)).names t = t1 at hn1 hts1 hbackn
  generalize (Change.put f data (some s)).files m = m1 at hf1 hm1 hback
  have hpad : padded data ≠ [] := by
    intro hc
    unfold padded at hc
    exact hd0 (List.append_eq_nil_iff.1 hc).1
  -- the rm
  have hcare2 : Agrees image ord (.rm order2 system2 mok image s) ∧ Careful image z t1 (.rm order2 system2 mok image s) := by
    refine ⟨fun _ => hag2, fun _ => Or.inr ⟨hsy, hz, ?_, ?_⟩⟩
    · rw [hts1]; exact fun hc => hf.2.1 (Option.some.inj hc)
    · rw [hts1]; exact fun hc => hf.2.2 (Option.some.inj hc)
  have hok2 : (run env (.rm order2 system2 mok image s) w2).1 = .ok () := by
    obtain ⟨raw, o, st, h1, h2, hst, hk⟩ := id hn1
    obtain ⟨raw', g1, g2⟩ := id hf2
    unfold given at g1
    rw [if_neg hi] at g1 g2
    rw [h1] at g1
    cases g1
    have := names_operator g2 h2
    subst this
    have hv := hasFiles_view hf1 h1 (open_naked h2)
    exact C83_rm_succeeds hi hf2 hst hk hsy hcare2.2 hts1 (Or.inl (by rw [hv f hf, hm1]; exact hpad))
  have hs2 : Session env image w2 [(w2, .rm order2 system2 mok image s)] (run env (.rm order2 system2 mok image s) w2).2 :=
    Session.step rfl (Session.done rfl)
  obtain ⟨chs, hch, hf3, hn3⟩ := C83_session_partial hi hs2 (fun p hp => by
    simp only [List.mem_cons, List.not_mem_nil, or_false] at hp
    subst hp
    exact hcare2) hf1 hn1
  obtain ⟨c, rfl, hdo⟩ := changes_one hch
  have hc : c = .rm f (some s) := by
    cases hdo with
    | failed hc => exact absurd hok2 hc
    | elsewhere hc => exact absurd rfl hc
    | rm _ _ hto _ =>
      rcases hto with ⟨hc, _⟩ | ⟨_, e, hc⟩
      · exact absurd hc (hsy.2 _)
      · rw [hts1] at hc
        cases hc
        rw [e]
  subst hc
  rw [List.foldl_cons, List.foldl_nil] at hf3 hn3
  refine ⟨hok2, ?_, hasNames_congr hn3 hbackn⟩
  obtain ⟨raw, img, x1, x2, x3, x4⟩ := hf3
  exact ⟨raw, img, x1, x2, x3, fun g hg => by rw [x4 g hg, hback g]⟩

end Verif.Cmd
