import Verif.Props.History
import Verif.Props.CmdFilesWit

/-!
# C78: when a put by number succeeds; a session for C77
-/

set_option autoImplicit false

namespace Verif.Cmd
open Disk Spec

theorem writeFile_good {sm : Supermon.SectorMap} {img : Bytes} (h : Supermon.Good sm img) {f : UInt8} (hf : IsFileNumber f) {data : Bytes}
    (hd : data ≠ []) (hfit : Supermon.Fits sm f data) :
    Supermon.Good (Supermon.newMap sm f data) (Supermon.newImg sm f data img) := by
  have hwr := Supermon.writeFile_ok (img := img) (ow := true) h.len hf hd hfit (Or.inl rfl)
  have hk := Supermon.keep_writeFile (c := data) (ow := true) h hf (by rw [hwr]; simp)
  rw [hwr] at hk
  exact hk.good

theorem putFile_number {o : Supermon.Operator} (h : Supermon.Good o.sm o.data) {name : Str} {f : UInt8} (hc : (0x3A : UInt8) ∉ name)
    (hn : NumericName name f) {data : Bytes} (hd : data ≠ []) (hfit : Supermon.Fits o.sm f data) {ow : Bool}
    (hx : ow = true ∨ ownedBy (own o.sm) f = []) (a : UInt16) :
    o.putFile ⟨{ name := name, length := data.length, type := filetypeBinary }, data, a⟩ ow =
      ⟨decide ((ownedBy (own o.sm) f).length > 0), .ok (), ⟨Supermon.newImg o.sm f data o.data, Supermon.newMap o.sm f data, o.st⟩⟩ := by
  have e := Supermon.writeFile_ok (img := o.data) (ow := ow) h.len hn.1 hd hfit hx
  have := putFile_numeric o hc hn data ow
  have e2 : o.putFile ⟨{ name := name, length := data.length, type := filetypeBinary }, data, a⟩ ow = o.putNumbered f 0 [] data ow := by
    rw [← this]; rfl
  rw [e2]
  unfold Supermon.Operator.putNumbered
  simp only [e]
  rw [if_neg (fun h => h.2 rfl)]

/-- `put` of a new numbered file: what it leaves. -/
theorem put_number_runs {env : Env} {w : World} {image order system : Str} {o : Supermon.Operator} {ord : DiskOrder} {raw : Bytes}
    (hi : image ≠ str "-") (hraw : w.files image = some raw) (ho : openImage raw image order system (factories env) = .ok (.nakedos o, ord))
    {source t name : Str} (hs : source ≠ str "-") {data : Bytes} (hdata : w.files source = some data) (hd : data ≠ [])
    (ht : Types.filetypeForName t = .ok filetypeBinary) {f : UInt8} (hc : (0x3A : UInt8) ∉ name) (hn : NumericName name f)
    (hfit : Supermon.Fits o.sm f data) {ow : Bool} (hx : ow = true ∨ ownedBy (own o.sm) f = []) (a : UInt16) :
    run env (.put order system t ow a image name source) w =
      (.ok (), w.writeFile image (viewOf orderRaw ord (Supermon.newImg o.sm f data o.data))) := by
  have hnk := open_naked ho
  have e := putFile_number hnk.good hc hn hd hfit hx a
  have hg := writeFile_good hnk.good hn.1 hd hfit
  have := put_runs (env := env) (t := t) (ow := ow) (address := a) (name := name) hi hs hraw hdata hnk.order ho ht
    (by rw [e]) (by rw [e]; exact hg.len)
  rw [this, e]

/-- C78: a put of a non-empty file by its number succeeds exactly if the sectors it needs are free or those of the file it
replaces, and it replaces no file unless it is allowed to. -/
theorem C78_put_number {env : Env} {w : World} {image order system : Str} {o : Supermon.Operator} {ord : DiskOrder}
    (hi : image ≠ str "-") (ho : Finds env w image order system (.nakedos o) ord)
    {source t name : Str} (hs : source ≠ str "-") {data : Bytes} (hdata : w.files source = some data) (hd : data ≠ [])
    (ht : Types.filetypeForName t = .ok filetypeBinary) {f : UInt8} (hc : (0x3A : UInt8) ∉ name) (hn : NumericName name f)
    (ow : Bool) (a : UInt16) :
    (run env (.put order system t ow a image name source) w).1 = .ok () ↔
      sectorsNeeded data.length ≤ (ownedBy (owner o.data) 0xFF).length + (ownedBy (owner o.data) f).length ∧
      (ow = true ∨ fileOnDisk o.data f = []) := by
  obtain ⟨raw, hg, hopen⟩ := ho
  unfold given at hg
  rw [if_neg hi] at hg hopen
  have hnk := open_naked hopen
  have hown : ∀ g, ownedBy (owner o.data) g = ownedBy (own o.sm) g := by
    intro g
    unfold ownedBy
    apply List.filter_congr
    intro n hn
    rw [(Supermon.loaded_iff (by have := hnk.good.len; omega) o.sm).1 hnk.good.loaded n (List.mem_range.1 hn)]
  have hfile : fileOnDisk o.data f = [] ↔ ownedBy (own o.sm) f = [] := by
    rw [← hnk.good.onDisk, ← List.length_eq_zero_iff, Supermon.fileBytes_length hnk.good.len, ← List.length_eq_zero_iff]
    omega
  rw [hown, hown, Supermon.sectorsNeeded_eq, hfile]
  constructor
  · intro h
    obtain ⟨raw', o', ord', data', ft, new, h1, h2, h3, h4, h5, h6⟩ := put_inv hi h
    rw [hg] at h1; cases h1
    rw [hopen] at h2; cases h2
    unfold given at h3
    rw [if_neg hs, hdata] at h3; cases h3
    have hft : ft = filetypeBinary := by
      by_contra hne
      unfold Supermon.Operator.putFile at h4
      rw [if_pos hne] at h4
      simp at h4
    subst hft
    rw [show o.putFile ⟨{ name := name, length := data.length, type := filetypeBinary }, data, a⟩ ow = o.putNumbered f 0 [] data ow from
      (rfl : _ = o.putFile ⟨{ name := name, length := data.length, type := filetypeBinary }, data, 0⟩ ow).trans
        (putFile_numeric o hc hn data ow)] at h4
    have hw : (Supermon.writeFile o.sm o.data f data ow).out = .ok () := by
      unfold Supermon.Operator.putNumbered at h4
      dsimp only at h4
      split at h4
      · assumption
      · rename_i hne
        exact h4
    refine ⟨(Supermon.writeFile_ok_inv hnk.good.len hn.1 hd hw).1, ?_⟩
    by_contra hx
    simp only [not_or, Bool.not_eq_true] at hx
    obtain ⟨rfl, hx⟩ := hx
    rw [Supermon.writeFile_exists (Supermon.writeFile_ok_inv hnk.good.len hn.1 hd hw).1 hx] at hw
    simp at hw
  · rintro ⟨hfit, hx⟩
    rw [put_number_runs hi hg hopen hs hdata hd ht hc hn hfit hx a]

/-! ## Two puts in a row -/

theorem open_view (env : Env) {sm : Supermon.SectorMap} {img : Bytes} (h : Supermon.Good sm img) {ord : DiskOrder}
    (ho : ord = orderDO ∨ ord = orderPO) (filename : Str) :
    openImage (viewOf orderRaw ord img) filename ord (str "nakedos") (factories env) =
      .ok (.nakedos ⟨img, sm, Supermon.tableOn sm img⟩, ord) :=
  open_explicit (viewOf_length raw_named (order_named ho) h.len) ho
    (by rw [viewOf_viewOf raw_named (order_named ho) h.len]; exact Supermon.open_of_good h) filename

theorem writeFile_self (w : World) (p : Str) (d : Bytes) : (w.writeFile p d).files p = some d := by
  unfold World.writeFile
  dsimp only
  rw [if_pos rfl]

theorem writeFile_other (w : World) {p q : Str} (d : Bytes) (h : q ≠ p) : (w.writeFile p d).files q = w.files q := by
  unfold World.writeFile
  dsimp only
  rw [if_neg h]

theorem did_put {env : Env} {image : Str} {w : World} {m : Files} {order system t : Str} {ow : Bool} {a : UInt16} {name source : Str}
    {ev : Event} (h : Did env image w m (.put order system t ow a image name source) ev)
    (hok : (run env (.put order system t ow a image name source) w).1 = .ok ()) {f : UInt8} (hc : (0x3A : UInt8) ∉ name)
    (hn : NumericName name f) {data : Bytes} (hg : given w source = some data) : ev = .put f data := by
  cases h with
  | failed h => exact absurd hok h
  | elsewhere h => exact absurd rfl h
  | put _ hg' _ hn' _ =>
    rw [hg] at hg'
    cases hg'
    rw [hn' name f (.plain hc) hn]

theorem events_two {env : Env} {image : Str} {m : Files} {p q : World × Command} {evs : List Event} (h : Events env image m [p, q] evs) :
    ∃ e1 e2, evs = [e1, e2] ∧ Did env image p.1 m p.2 e1 ∧ Did env image q.1 (e1.apply m) q.2 e2 := by
  cases h with
  | step d1 r =>
    cases r with
    | step d2 r2 =>
      cases r2
      exact ⟨_, _, rfl, d1, d2⟩

theorem two_apply (m : Files) (a b : Bytes) :
    [Event.put 5 a, Event.put 6 b].foldl Event.apply m 5 = padded a ∧ [Event.put 5 a, Event.put 6 b].foldl Event.apply m 6 = padded b ∧
    [Event.put 5 a, Event.put 6 b].foldl Event.apply m 9 = m 9 := by
  simp [Event.apply]

/-- A world with a disk image `a.do` and files `x` and `y` of one byte. -/
def twoFiles (img : Bytes) : World where
  files p := if p = str "a.do" then some (viewOf orderRaw orderDO img) else if p = str "x" then some [1] else
    if p = str "y" then some [2] else none
  stdin := []
  stdout := []

def putX : Command := .put (str "do") (str "nakedos") (str "B") false 0 (str "a.do") (str "DF05") (str "x")
def putY : Command := .put (str "do") (str "nakedos") (str "B") false 0 (str "a.do") (str "DF06") (str "y")

theorem twoFiles_x (img : Bytes) : (twoFiles img).files (str "x") = some [1] := by
  unfold twoFiles
  dsimp only
  rw [if_neg (by decide +kernel), if_pos rfl]

theorem twoFiles_y (img : Bytes) : (twoFiles img).files (str "y") = some [2] := by
  unfold twoFiles
  dsimp only
  rw [if_neg (by decide +kernel), if_neg (by decide +kernel), if_pos rfl]

theorem twoFiles_a (img : Bytes) : (twoFiles img).files (str "a.do") = some (viewOf orderRaw orderDO img) := by
  unfold twoFiles
  dsimp only
  rw [if_pos rfl]

theorem numeric5 : NumericName (str "DF05") 5 := (Supermon.parseAddressFilename_iff (by decide)).1 (by decide +kernel)
theorem numeric6 : NumericName (str "DF06") 6 := (Supermon.parseAddressFilename_iff (by decide)).1 (by decide +kernel)

theorem putX_runs (env : Env) {w : World} {sm : Supermon.SectorMap} {img : Bytes} (h : Supermon.Good sm img)
    (ha : w.files (str "a.do") = some (viewOf orderRaw orderDO img)) (hx : w.files (str "x") = some [1])
    (h5 : ownedBy (own sm) 5 = []) (hfree : 1 ≤ (ownedBy (own sm) 0xFF).length) :
    run env putX w = (.ok (), w.writeFile (str "a.do") (viewOf orderRaw orderDO (Supermon.newImg sm 5 [1] img))) ∧
    Supermon.Good (Supermon.newMap sm 5 [1]) (Supermon.newImg sm 5 [1] img) := by
  have fit : Supermon.Fits sm 5 [1] := by
    unfold Supermon.Fits; rw [h5]; simp only [List.length_cons, List.length_nil]; omega
  exact ⟨put_number_runs (by decide +kernel) ha (open_view env h (Or.inl rfl) _) (by decide +kernel) hx (by simp)
    (by decide +kernel) (by decide +kernel) numeric5 fit (Or.inr h5) 0, writeFile_good h numeric5.1 (by simp) fit⟩

theorem putY_runs (env : Env) {w : World} {sm : Supermon.SectorMap} {img : Bytes} (h : Supermon.Good sm img)
    (ha : w.files (str "a.do") = some (viewOf orderRaw orderDO img)) (hx : w.files (str "y") = some [2])
    (h6 : ownedBy (own sm) 6 = []) (hfree : 1 ≤ (ownedBy (own sm) 0xFF).length) :
    run env putY w = (.ok (), w.writeFile (str "a.do") (viewOf orderRaw orderDO (Supermon.newImg sm 6 [2] img))) ∧
    Supermon.Good (Supermon.newMap sm 6 [2]) (Supermon.newImg sm 6 [2] img) := by
  have fit : Supermon.Fits sm 6 [2] := by
    unfold Supermon.Fits; rw [h6]; simp only [List.length_cons, List.length_nil]; omega
  exact ⟨put_number_runs (by decide +kernel) ha (open_view env h (Or.inl rfl) _) (by decide +kernel) hx (by simp)
    (by decide +kernel) (by decide +kernel) numeric6 fit (Or.inr h6) 0, writeFile_good h numeric6.1 (by simp) fit⟩

theorem hasFiles_good {w : World} {sm : Supermon.SectorMap} {img : Bytes} (h : Supermon.Good sm img) {image : Str}
    (ha : w.files image = some (viewOf orderRaw orderDO img)) : HasFiles w image orderDO (fileOnDisk img) := by
  have hl := viewOf_length raw_named (order_named (Or.inl rfl)) h.len (fo := orderDO)
  refine ⟨_, img, ha, (view_iff (order_named (Or.inl rfl)) raw_named hl).2 ?_, Supermon.good_nakedOS h, fun _ _ => rfl⟩
  rw [viewOf_viewOf raw_named (order_named (Or.inl rfl)) h.len]

theorem two_puts (env : Env) {sm : Supermon.SectorMap} {img : Bytes} (h : Supermon.Good sm img) (h5 : ownedBy (own sm) 5 = [])
    (h6 : ownedBy (own sm) 6 = []) (hfree : 2 ≤ (ownedBy (own sm) 0xFF).length) :
    ∃ w1 w2, run env putX (twoFiles img) = (.ok (), w1) ∧ run env putY w1 = (.ok (), w2) := by
  obtain ⟨r1, g1⟩ := putX_runs env h (twoFiles_a img) (twoFiles_x img) h5 (by omega)
  have fit : Supermon.Fits sm 5 [1] := by
    unfold Supermon.Fits; rw [h5]; simp only [List.length_cons, List.length_nil]; omega
  have hf := Supermon.ownedBy_newMap_free (sm := sm) (f := 5) (c := [1]) (by decide)
  rw [Supermon.targets_length (by decide) fit, h5] at hf
  simp only [List.length_cons, List.length_nil] at hf
  obtain ⟨r2, g2⟩ := putY_runs env g1 (w := (twoFiles img).writeFile (str "a.do") (viewOf orderRaw orderDO (Supermon.newImg sm 5 [1] img)))
    (writeFile_self _ _ _)
    (by rw [writeFile_other _ _ (by decide +kernel), twoFiles_y])
    (by rw [Supermon.ownedBy_newMap_other _ _ (by decide) (by decide), h6]) (by omega)
  exact ⟨_, _, r1, r2⟩

/-- Non-vacuity of C77 and C78: a session of two puts on a disk with the file DF09, after which the disk has three files. -/
theorem two_puts_session (env : Env) {sm : Supermon.SectorMap} {img : Bytes} (h : Supermon.Good sm img) (h5 : ownedBy (own sm) 5 = [])
    (h6 : ownedBy (own sm) 6 = []) (hfree : 2 ≤ (ownedBy (own sm) 0xFF).length) :
    ∃ w1 w2, Session env (str "a.do") (twoFiles img) [(twoFiles img, putX), (w1, putY)] w2 ∧
      (∀ p ∈ [(twoFiles img, putX), (w1, putY)], Agrees (str "a.do") orderDO p.2 ∧ Harmless (str "a.do") p.2) ∧
      HasFiles (twoFiles img) (str "a.do") orderDO (fileOnDisk img) ∧
      ∃ m, HasFiles w2 (str "a.do") orderDO m ∧ m 5 = padded [1] ∧ m 6 = padded [2] ∧ m 9 = fileOnDisk img 9 := by
  obtain ⟨w1, w2, e1, e2⟩ := two_puts env h h5 h6 hfree
  have hs : Session env (str "a.do") (twoFiles img) [(twoFiles img, putX), (w1, putY)] w2 := by
    refine Session.step rfl ?_
    rw [e1]
    refine Session.step rfl ?_
    rw [e2]
    exact Session.done rfl
  have ha : ∀ p ∈ [(twoFiles img, putX), (w1, putY)], Agrees (str "a.do") orderDO p.2 ∧ Harmless (str "a.do") p.2 := by
    intro p hp
    simp only [List.mem_cons, List.not_mem_nil, or_false] at hp
    rcases hp with rfl | rfl <;> exact ⟨fun _ => CandidateOrders.explicitDO _, fun _ => rfl⟩
  have hf := hasFiles_good h (twoFiles_a img)
  refine ⟨w1, w2, hs, ha, hf, ?_⟩
  obtain ⟨evs, hev, hm⟩ := C77_session (by decide +kernel) hs (fun p hp => (ha p hp).1) hf
  refine ⟨_, hm, ?_⟩
  have hgx : given (twoFiles img) (str "x") = some [1] := by
    unfold given; rw [if_neg (by decide +kernel), twoFiles_x]
  have hgy : given w1 (str "y") = some [2] := by
    unfold given
    rw [if_neg (by decide +kernel)]
    have := C59_other_files_untouched env putX (twoFiles img) (str "y") (by decide +kernel)
    rw [e1] at this
    exact this.trans (twoFiles_y img)
  obtain ⟨ev1, ev2, rfl, d1, d2⟩ := events_two hev
  have := did_put d1 (show (run env putX _).1 = _ by rw [e1]) (by decide +kernel) numeric5 hgx
  subst this
  have := did_put d2 (show (run env putY _).1 = _ by rw [e2]) (by decide +kernel) numeric6 hgy
  subst this
  exact two_apply (fileOnDisk img) [1] [2]

theorem lonely_5 : ownedBy (own Supermon.lonelyMap) 5 = [] := by rw [Supermon.lonely_owned]; decide +kernel
theorem lonely_6 : ownedBy (own Supermon.lonelyMap) 6 = [] := by rw [Supermon.lonely_owned]; decide +kernel

example (env : Env) :
    ∃ w w1 w2 m0, Session env (str "a.do") w [(w, putX), (w1, putY)] w2 ∧
      (∀ p ∈ [(w, putX), (w1, putY)], Agrees (str "a.do") orderDO p.2 ∧ Harmless (str "a.do") p.2) ∧
      HasFiles w (str "a.do") orderDO m0 ∧
      ∃ m, HasFiles w2 (str "a.do") orderDO m ∧ m 5 = padded [1] ∧ m 6 = padded [2] ∧ m 9 = m0 9 := by
  obtain ⟨w1, w2, h⟩ := two_puts_session env Supermon.lonely_good lonely_5 lonely_6 (by rw [Supermon.lonely_free]; omega)
  exact ⟨_, w1, w2, _, h⟩

end Verif.Cmd
