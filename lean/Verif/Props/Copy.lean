import Verif.Props.PutIff

/-!
# C92: copying files with dump and put
-/

set_option autoImplicit false

namespace Verif.Cmd
open Disk Spec

theorem dumps_unique {env : Env} {w : World} {order : DiskOrder} {system image name : Str} {d d' : Bytes}
    (h : Dumps env w order system image name d) (h' : Dumps env w order system image name d') : d = d' := by
  obtain ⟨w1, e1, _, s1⟩ := h
  obtain ⟨w2, e2, _, s2⟩ := h'
  rw [e1] at e2
  cases e2
  rw [s1] at s2
  exact List.append_cancel_left s2

theorem dumps_not_fails {env : Env} {w : World} {order : DiskOrder} {system image name : Str} {d : Bytes}
    (h : Dumps env w order system image name d) : ¬ DumpFails env w order system image name := by
  obtain ⟨w1, e1, _⟩ := h
  intro hf
  have := hf.1
  rw [e1] at this
  simp at this

theorem padded_sectors {d : Bytes} {k : Nat} (h : d.length = 256 * k) : padded d = d := by
  unfold padded
  have : (256 - d.length % 256) % 256 = 0 := by omega
  rw [this]
  simp

/-- What is dumped from a NakedOS disk are whole sectors. -/
theorem dumps_sectors {env : Env} {w : World} {image : Str} {order : DiskOrder} {system : Str} {o : Supermon.Operator} {ord : DiskOrder}
    (h : Finds env w image order system (.nakedos o) ord) {name : Str} {d : Bytes} (hd : Dumps env w order system image name d) :
    d ≠ [] ∧ padded d = d := by
  obtain ⟨h1, h2, h3, h4⟩ := C72_dump_nakedos h name
  obtain ⟨raw, _, hopen⟩ := h
  have hg := (open_naked hopen).good
  rcases h4 with ⟨f, hf⟩ | ⟨k, hk⟩
  · by_cases he : fileOnDisk o.data f = []
    · exact absurd (h2 f hf he) (dumps_not_fails hd)
    · have e := dumps_unique hd (h1 f hf he)
      have hl : (fileOnDisk o.data f).length = 256 * (ownedBy (owner o.data) f).length := Supermon.fileBytes_length hg.len _ _
      rw [e]
      exact ⟨he, padded_sectors hl⟩
  · exact absurd (h3 k hk) (dumps_not_fails hd)

/-- What `dump` prints after a successful `put`, under each part of the name. -/
theorem put_then_dump {env : Env} {order order3 : DiskOrder} {system system3 ty : Str} {ow : Bool} {a : UInt16} {image name source : Str}
    {w w3 : World} (hi : image ≠ str "-") {z : Str} {t : Names} (hname : Careful image z t (.put order system ty ow a image name source))
    {ord : DiskOrder} (hk : HasNames env w image ord z t)
    (h : (run env (.put order system ty ow a image name source) w).1 = .ok ())
    (hw3 : w3.files image = (run env (.put order system ty ow a image name source) w).2.files image)
    {o o3 : Supermon.Operator} (hf : Finds env w image order system (.nakedos o) ord)
    (hf3 : Finds env w3 image order3 system3 (.nakedos o3) ord) {data : Bytes} (hd0 : data ≠ []) (hd : given w source = some data)
    {part : Str} (hp : Supermon.PartOf name part) : Dumps env w3 order3 system3 image part (padded data) := by
  obtain ⟨raw, o', ord', data', ft, new, h1, h2, h3, h4, h5, h6, h7⟩ := put_inv_type hi h
  obtain ⟨raw', g1, g2⟩ := hf
  unfold given at g1
  rw [if_neg hi] at g1 g2
  rw [h1] at g1
  cases g1
  rw [h2] at g2
  cases g2
  rw [hd] at h3
  cases h3
  rw [h6] at hw3
  have hn := open_naked h2
  have hop := hn.opened
  rw [← hn.data] at hop
  obtain ⟨raw', o', st, k1, k2, k3, k4⟩ := hk
  rw [h1] at k1
  cases k1
  have := names_operator h2 k2
  subst this
  obtain ⟨f, sym, o2, st2, p1, p2, _, p4, p5, p6, p7, p8, p9⟩ := Supermon.put_names hn.good hop k3 k4
    (fi := ⟨{ name := name, length := data.length, type := ft }, data, a⟩) (hname rfl) h4
  obtain ⟨hbl, hv⟩ := written_view (by rw [← p6]; exact p5.len) hn.order h5
  have ho3 : o3 = o2 := by
    obtain ⟨raw2, e1, e2⟩ := id hf3
    unfold given at e1
    rw [if_neg hi] at e1 e2
    rw [hw3] at e1
    cases e1
    have := (open_naked e2).opened
    rw [hv, p4] at this
    cases this
    rfl
  subst ho3
  have htab : o3.table = st2 := by unfold Supermon.Operator.table; rw [p8]; rfl
  have hb : fileOnDisk o3.data f = padded data := by rw [p7 f p1, if_pos rfl]
  have hne : padded data ≠ [] := by
    intro e
    have := congrArg List.length e
    rw [Supermon.padded_length] at this
    have := List.length_pos_iff.2 hd0
    simp at *
    omega
  have hres : Supermon.fileForName o3.table part = .ok f := by
    have hnum : ∀ {n : Str}, NumericName n f → Supermon.fileForName o3.table n = .ok f := fun hn =>
      (Supermon.C34_resolves_iff _ _ _).2 (Or.inl hn)
    have hsym : ∀ {n : Str}, Symbolic n → sym = some n → Supermon.fileForName o3.table n = .ok f := by
      intro n hsy e
      rw [htab]
      refine ((Supermon.knows_name p9 hsy).1 f).2 ?_
      rw [e]
      show (if SameName n n then some f else _) = _
      rw [if_pos (show SameName _ _ from rfl)]
    dsimp only at p2
    rcases p2 with ⟨hnn, _⟩ | ⟨hsy, e, _⟩ | ⟨x, y, e, hx, hy, es⟩
    · have hcol := Supermon.numeric_no_colon hnn
      cases hp with
      | plain _ => exact hnum hnn
      | number _ _ => simp at hcol
      | symbol _ _ => simp at hcol
    · have hcol := Supermon.symbolic_no_colon hsy
      cases hp with
      | plain _ => exact hsym hsy e
      | number _ _ => simp at hcol
      | symbol _ _ => simp at hcol
    · have hcx := Supermon.numeric_no_colon hx
      generalize name = nm at hp e
      cases hp with
      | plain hc => rw [e] at hc; simp at hc
      | number ha hb' =>
        obtain ⟨rfl, rfl⟩ := first_colon ha hcx e
        exact hnum hx
      | symbol ha hb' =>
        obtain ⟨rfl, rfl⟩ := first_colon ha hcx e
        exact hsym hy es
  have := (C72_dump_nakedos hf3 part).1 f hres (by rw [hb]; exact hne)
  rw [hb] at this
  exact this

/-- C92, under a number: what `dump` prints of a file on one NakedOS disk, given to `put` on another, is what `dump` prints there, byte for byte.
It is so for every NakedOS disk, whatever the state of its symbol table. -/
theorem C92_copy_number {env : Env} {orderA order : DiskOrder} {systemA system ty : Str} {ow : Bool} {a : UInt16}
    {imageA nameA image name source : Str} {wA w : World}
    -- the file is dumped from the first image
    {oA : Supermon.Operator} {ordA : DiskOrder} (hA : Finds env wA imageA orderA systemA (.nakedos oA) ordA) {d : Bytes}
    (hdump : Dumps env wA orderA systemA imageA nameA d)
    -- and put on the second
    (hi : image ≠ str "-") {f : UInt8} (hname : NumericName name f) (hd : given w source = some d)
    (h : (run env (.put order system ty ow a image name source) w).1 = .ok ()) :
    -- where it is found under every way of writing the number
    ∃ ord, ord ∈ [str "do", str "po"] ∧ ∀ name', NumericName name' f → ∀ w3, w3.files image =
        (run env (.put order system ty ow a image name source) w).2.files image →
      Dumps env w3 ord (str "nakedos") image name' d := by
  obtain ⟨hd0, hpad⟩ := dumps_sectors hA hdump
  obtain ⟨ord, h1, h2⟩ := C63_put_then_dump hi h hname hd hd0
  refine ⟨ord, h1, fun name' hn' w3 hw3 => ?_⟩
  have := h2 name' hn' w3 hw3
  rw [hpad] at this
  rw [Dumps, this]
  exact ⟨_, rfl, rfl, rfl⟩

/-- C92: what `dump` prints of a file on one NakedOS disk, given to `put` on another, is what `dump` prints there, under each part of the name. -/
theorem C92_copy_partial {env : Env} {orderA order order3 : DiskOrder} {systemA system system3 ty : Str} {ow : Bool} {a : UInt16}
    {imageA nameA image name source : Str} {wA w w3 : World}
    -- the file is dumped from the first image
    {oA : Supermon.Operator} {ordA : DiskOrder} (hA : Finds env wA imageA orderA systemA (.nakedos oA) ordA) {d : Bytes}
    (hdump : Dumps env wA orderA systemA imageA nameA d)
    -- and put on the second
    (hi : image ≠ str "-") {z : Str} {t : Names} (hname : Careful image z t (.put order system ty ow a image name source))
    {ord : DiskOrder} (hk : HasNames env w image ord z t) {o : Supermon.Operator} (hf : Finds env w image order system (.nakedos o) ord)
    (hd : given w source = some d) (h : (run env (.put order system ty ow a image name source) w).1 = .ok ())
    -- which is then looked at
    (hw3 : w3.files image = (run env (.put order system ty ow a image name source) w).2.files image)
    {o3 : Supermon.Operator} (hf3 : Finds env w3 image order3 system3 (.nakedos o3) ord)
    {part : Str} (hp : Supermon.PartOf name part) : Dumps env w3 order3 system3 image part d := by
  obtain ⟨hd0, hpad⟩ := dumps_sectors hA hdump
  have := put_then_dump hi hname hk h hw3 hf hf3 hd0 hd hp
  rw [hpad] at this
  exact this

/-- A world with a disk image `a.do` and a file `x`. -/
def copyWorld (img d : Bytes) : World where
  files p := if p = str "a.do" then some (viewOf orderRaw orderDO img) else if p = str "x" then some d else none
  stdin := []
  stdout := []

theorem copyWorld_a (img d : Bytes) : (copyWorld img d).files (str "a.do") = some (viewOf orderRaw orderDO img) := by
  unfold copyWorld
  dsimp only
  rw [if_pos rfl]

theorem copyWorld_x (img d : Bytes) : (copyWorld img d).files (str "x") = some d := by
  unfold copyWorld
  dsimp only
  rw [if_neg (by decide +kernel), if_pos rfl]

/-- `putGame` in a world with other contents for the file. -/
theorem copy_disk (env : Env) {sm : Supermon.SectorMap} {img : Bytes} (hg : Supermon.Good sm img)
    (ho : Supermon.openOperator img = .ok ⟨img, sm, some Supermon.chainTable⟩) (hroom : 33 ≤ (ownedBy (own sm) 0xFF).length)
    (h5 : ownedBy (own sm) 5 = []) {d : Bytes} (hd : d ≠ []) (hl : d.length ≤ 256) (ty : Str) :
    Finds env (copyWorld img d) (str "a.do") (str "do") (str "nakedos") (.nakedos ⟨img, sm, some Supermon.chainTable⟩) orderDO ∧
    HasNames env (copyWorld img d) (str "a.do") orderDO (str "AAA") (fun _ => none) ∧
    Careful (str "a.do") (str "AAA") (fun _ => none) (.put (str "do") (str "nakedos") ty false 0 (str "a.do") (str "DF05:GAME") (str "x")) ∧
    ((run env (.put (str "do") (str "nakedos") ty false 0 (str "a.do") (str "DF05:GAME") (str "x")) (copyWorld img d)).1 = .ok () ↔
      Types.filetypeForName ty = .ok filetypeBinary) := by
  have hopen := open_view env hg (Or.inl rfl) (str "a.do") (ord := orderDO)
  have e : Supermon.tableOn sm img = some Supermon.chainTable := (Supermon.opened_table (o := ⟨img, sm, some _⟩) hg ho).symm
  rw [e] at hopen
  have hfi : Finds env (copyWorld img d) (str "a.do") (str "do") (str "nakedos") (.nakedos ⟨img, sm, some Supermon.chainTable⟩) orderDO :=
    ⟨_, by unfold given; rw [if_neg (by decide +kernel), copyWorld_a], by rw [if_neg (by decide +kernel)]; exact hopen⟩
  have hcare : Careful (str "a.do") (str "AAA") (fun _ => none)
      (.put (str "do") (str "nakedos") ty false 0 (str "a.do") (str "DF05:GAME") (str "x")) :=
    fun _ => Or.inr (Or.inr ⟨str "DF05", str "GAME", 5, game_split, numeric5, by decide, by decide,
      game_symbolic, fun e => absurd e (by decide +kernel)⟩)
  refine ⟨hfi, ⟨_, _, _, copyWorld_a img d, hopen, rfl, chainTable_knows⟩, hcare, ?_⟩
  have hown : ∀ g, ownedBy (owner img) g = ownedBy (own sm) g := by
    intro g
    unfold ownedBy
    apply List.filter_congr
    intro n hn
    rw [(Supermon.loaded_iff (by have := hg.len; omega) sm).1 hg.loaded n (List.mem_range.1 hn)]
  rw [C91_tidy (by decide +kernel) hfi rfl chainTable_knows (by decide +kernel) (copyWorld_x img d) hd hcare]
  refine ⟨fun h => h.1, fun h => ⟨h, 5, some (str "GAME"), ⟨numeric5.1, by decide, by decide⟩,
    Or.inr (Or.inr ⟨_, _, game_split, numeric5, game_symbolic, rfl⟩), ?_, Or.inr ((Supermon.fileOnDisk_nil hg 5).2 h5), fun s _ =>
      (Or.inr ⟨⟨0, [], 0⟩, List.mem_cons_of_mem _ List.mem_cons_self, rfl⟩)⟩⟩
  dsimp only
  rw [hown, hown, Supermon.sectorsNeeded_eq]
  have : (d.length + 255) / 256 ≤ 1 := by omega
  omega

/-- Non-vacuity of C91: on one disk the same `put` succeeds for the type binary and is refused for another. -/
theorem game_iff (env : Env) : ∃ w, HasNames env w (str "a.do") orderDO (str "AAA") (fun _ => none) ∧
    (run env (.put (str "do") (str "nakedos") (str "B") false 0 (str "a.do") (str "DF05:GAME") (str "x")) w).1 = .ok () ∧
    (run env (.put (str "do") (str "nakedos") (str "T") false 0 (str "a.do") (str "DF05:GAME") (str "x")) w).1 ≠ .ok () := by
  obtain ⟨img, sm, hg, ho, hroom, h5⟩ := tabled5
  have h := fun ty => copy_disk env hg ho hroom h5 (d := [1]) (by simp) (by simp) ty
  refine ⟨_, (h []).2.1, ((h (str "B")).2.2.2).2 (by decide +kernel), fun e => ?_⟩
  have := ((h (str "T")).2.2.2).1 e
  revert this
  decide +kernel

/-- Non-vacuity of C92: a file put on one disk is dumped from there and put on another disk, and is the same. -/
theorem game_copy (env : Env) : ∃ w1 w w3 d, d ≠ [] ∧ Dumps env w1 (str "do") (str "nakedos") (str "a.do") (str "GAME") d ∧
    given w (str "x") = some d ∧
    run env (.put (str "do") (str "nakedos") (str "B") false 0 (str "a.do") (str "DF05:GAME") (str "x")) w = (.ok (), w3) ∧
    w3.files ≠ w.files ∧
    Dumps env w3 (str "do") (str "nakedos") (str "a.do") (str "GAME") d := by
  obtain ⟨img, sm, hg, ho, hroom, h5⟩ := tabled5
  have hi : str "a.do" ≠ str "-" := by decide +kernel
  have hx : str "x" ≠ str "-" := by decide +kernel
  have hpart : Supermon.PartOf (str "DF05:GAME") (str "GAME") := by
    rw [game_split]; exact .symbol (by decide +kernel) (by decide +kernel)
  have key : ∀ d : Bytes, d ≠ [] → d.length ≤ 256 → ∃ w3 o3,
      run env (.put (str "do") (str "nakedos") (str "B") false 0 (str "a.do") (str "DF05:GAME") (str "x")) (copyWorld img d) = (.ok (), w3) ∧
      Finds env w3 (str "a.do") (str "do") (str "nakedos") (.nakedos o3) orderDO ∧ w3.files ≠ (copyWorld img d).files := by
    intro d hd hl
    obtain ⟨hfi, hn, hcare, hrun⟩ := copy_disk env hg ho hroom h5 hd hl (str "B")
    have hok := hrun.2 (by decide +kernel)
    obtain ⟨raw, o, ord, data, new, h1, h2, h3, h4, o', f, g1, _, g3, g4, g5, g6, g7⟩ :=
      C63_put_partial env (str "do") (str "nakedos") (str "B") false 0 (str "a.do") (str "DF05:GAME") (str "x") (copyWorld img d) hi hok
    have := open_order (CandidateOrders.explicitDO _) h2
    subst this
    have hw : ∃ w1, run env (.put (str "do") (str "nakedos") (str "B") false 0 (str "a.do") (str "DF05:GAME") (str "x")) (copyWorld img d) =
        (.ok (), w1) := ⟨_, Prod.ext hok rfl⟩
    obtain ⟨w1, hw⟩ := hw
    rw [hw] at h4
    dsimp only at h4
    refine ⟨w1, o', hw, ⟨new, by unfold given; rw [if_neg hi]; exact h4, by rw [if_neg hi]; exact g1⟩, ?_⟩
    intro e
    rw [e, h1] at h4
    cases h4
    have : o = o' := names_operator h2 g1
    subst this
    have hf5 : f = 5 := (g4 (str "DF05") 5 (by rw [game_split]; exact .number (by decide +kernel) (by decide +kernel)) numeric5).symm
    have e1 := (g7 (by rw [hf5]; decide) (by rw [hf5]; decide)).1
    have e2 := g6 rfl
    unfold given at h3
    rw [if_neg hx, copyWorld_x] at h3
    cases h3
    rw [e2] at e1
    have := congrArg List.length e1
    rw [Supermon.padded_length] at this
    have := List.length_pos_iff.2 hd
    simp at *
    omega
  obtain ⟨w1, o1, r1, f1, _⟩ := key [1] (by simp) (by simp)
  obtain ⟨q1, q2, q3, _⟩ := copy_disk env hg ho hroom h5 (d := [1]) (by simp) (by simp) (str "B")
  have hp1 : padded [1] ≠ [] := padded_one
  have hl1 : (padded [1]).length ≤ 256 := by decide +kernel
  have hgiven : ∀ d, given (copyWorld img d) (str "x") = some d := by
    intro d; unfold given; rw [if_neg hx, copyWorld_x]
  have d1 := put_then_dump hi q3 q2 (by rw [r1]) (by rw [r1]) q1 f1 (by simp) (hgiven [1]) hpart
  generalize padded [1] = d at hp1 hl1 d1
  obtain ⟨w3, o3, r3, f3, ne⟩ := key d hp1 hl1
  obtain ⟨p1, p2, p3, _⟩ := copy_disk env hg ho hroom h5 hp1 hl1 (str "B")
  exact ⟨w1, copyWorld img d, w3, d, hp1, d1, hgiven d, r3, ne,
    C92_copy_partial f1 d1 hi p3 p2 p1 (hgiven d) (by rw [r3]) (by rw [r3]) f3 hpart⟩

end Verif.Cmd
