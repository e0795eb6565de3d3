import Verif.Proofs.Open
import Verif.Props.Disk

/-!
# C06-C10: opening images, writing back, reordering
-/

set_option autoImplicit false

namespace Verif.Disk
open Spec

variable {Ω : Type}

theorem openDoOrPo_ok {raw : Bytes} (hr : raw.length = 143360) {order : DiskOrder} {system ext : Str}
    {fs : List (Factory Ω)} (hf : ∀ f ∈ fs, factOk f) {op : Ω} {o : DiskOrder}
    (h : openDoOrPo raw order system ext fs = .ok (op, o)) :
    ∃ f ∈ fs, o ∈ [orderDO, orderPO, orderRaw] ∧
      (system = str "auto" ∨ system = f.name) ∧ f.operator (viewOf o f.diskOrder raw) = .ok op := by
  unfold openDoOrPo at h
  simp only at h
  split at h
  · simp at h
  split at h
  · simp at h
  rename_i os hos
  have hnamed := (candidateOrders_named ((ordersToTry_iff _ _ _).1 hos)).2
  have hff : ∀ f ∈ fs.filter (fun f => decide (system = str "auto" ∨ system = f.name)), factOk f :=
    fun f hf' => hf f (List.mem_filter.1 hf').1
  by_cases hx : os.length = 1 ∧ system ≠ str "auto"
  · rw [decide_eq_true hx] at h
    obtain ⟨o', rfl⟩ := List.length_eq_one_iff.1 hx.1
    unfold openOuter at h
    rw [(swizzle_named_l2p (hnamed o' (by simp)) hr).1, Out.bind_ok] at h
    cases hfl : fs.filter (fun f => decide (system = str "auto" ∨ system = f.name)) with
    | nil => rw [hfl] at h; simp [openInner, openOuter] at h
    | cons f rest =>
      rw [hfl] at h
      have hmem : f ∈ fs.filter (fun f => decide (system = str "auto" ∨ system = f.name)) := by
        rw [hfl]; simp
      unfold openInner at h
      rw [(swizzle_named_p2l (hff f hmem) (swizzle_named_l2p (hnamed o' (by simp)) hr).2).1] at h
      simp only [Out.bind_ok, if_true] at h
      have hm := List.mem_filter.1 hmem
      change ((f.operator (viewOf o' f.diskOrder raw) >>= fun op => Out.ok (some (op, o'))) >>= _) = _ at h
      cases hop : f.operator (viewOf o' f.diskOrder raw) with
      | ok op' =>
        rw [hop] at h
        simp only [Out.bind_ok, Out.ok.injEq, Prod.mk.injEq] at h
        obtain ⟨rfl, rfl⟩ := h
        exact ⟨f, hm.1, hnamed _ (by simp), by simpa using hm.2, hop⟩
      | err k => rw [hop] at h; simp at h
      | panic => rw [hop] at h; simp at h
      | timeout => rw [hop] at h; simp at h
  · rw [decide_eq_false hx, openOuter_scan hr _ hff _ hnamed, scan_ok_iff] at h
    obtain ⟨pre, f, post, e, ha, _⟩ := h
    have hmem : (o, f) ∈ os.flatMap fun o =>
        (fs.filter (fun f => decide (system = str "auto" ∨ system = f.name))).map fun f => (o, f) := by
      rw [e]; simp
    simp only [List.mem_flatMap, List.mem_map, Prod.mk.injEq] at hmem
    obtain ⟨o1, ho1, f1, hf1, rfl, rfl⟩ := hmem
    have hm := List.mem_filter.1 hf1
    exact ⟨f1, hm.1, hnamed _ ho1, by simpa using hm.2, ha.2⟩

theorem openHDVLoop_ok {raw : Bytes} {fs : List (Factory Ω)} {op : Ω} {o : DiskOrder}
    (h : openHDVLoop raw fs = .ok (op, o)) :
    ∃ f ∈ fs, f.name = str "prodos" ∧ f.operator raw = .ok op ∧ o = orderPO := by
  induction fs with
  | nil => simp [openHDVLoop] at h
  | cons f fs ih =>
    unfold openHDVLoop at h
    split at h
    · rename_i hn
      obtain ⟨op', h1, h2⟩ := Out.bind_eq_ok.1 h
      simp only [Out.ok.injEq, Prod.mk.injEq] at h2
      obtain ⟨rfl, rfl⟩ := h2
      exact ⟨f, by simp, hn, h1, rfl⟩
    · obtain ⟨g, hg, x⟩ := ih h
      exact ⟨g, by simp [hg], x⟩

theorem lawful_factOk [OperatorLike Ω] {f : Factory Ω} (h : Lawful f) : factOk f := by
  have := h.1
  simp only [factOk, List.mem_cons, List.not_mem_nil, or_false]
  exact this

/-! ## C06 -/

/-- C06: whatever order and system were requested or guessed, if the image opens, then writing
the untouched operator back produces exactly the original file bytes. -/
theorem C06_open_write_back_identity [OperatorLike Ω] {raw : Bytes} {filename : Str}
    {order : DiskOrder} {system : Str} {fs : List (Factory Ω)} (hf : ∀ f ∈ fs, Lawful f)
    {op : Ω} {o : DiskOrder} (h : openImage raw filename order system fs = .ok (op, o)) :
    writeBackBytes op o = .ok raw ∧
    ∀ (w : World) (out : Str) (overwrite : Bool),
      writeBack w out op o overwrite = w.writeOutput out raw overwrite := by
  have key : writeBackBytes op o = .ok raw := by
    unfold openImage at h
    simp only [show floppyDiskBytes = 143360 from rfl] at h
    split at h
    · rename_i hr
      obtain ⟨f, hm, ho, _, hop⟩ := openDoOrPo_ok hr (fun f hf' => lawful_factOk (hf f hf')) h
      obtain ⟨hb, hd⟩ := (hf f hm).2 _ _ hop
      have hfo := lawful_factOk (hf f hm)
      have hl := viewOf_length ho hfo hr
      unfold writeBackBytes
      rw [hb, hd]
      simp only [show floppyDiskBytes = 143360 from rfl]
      rw [if_neg (by rw [hl]; simp), (swizzle_named_l2p hfo hl).1, Out.bind_ok,
        (swizzle_named_p2l ho (swizzle_named_l2p hfo hl).2).1]
      exact congrArg Out.ok (viewOf_viewOf ho hfo hr)
    · rename_i hr
      split at h
      · simp at h
      · split at h
        · unfold openHDV at h
          simp only at h
          repeat' (split at h; · simp at h)
          obtain ⟨f, hm, _, hop, rfl⟩ := openHDVLoop_ok h
          obtain ⟨hb, _⟩ := (hf f hm).2 _ _ hop
          unfold writeBackBytes
          rw [hb]
          simp only [show floppyDiskBytes = 143360 from rfl]
          rw [if_pos hr]
        · simp at h
  refine ⟨key, fun w out ow => ?_⟩
  unfold writeBack writeBackVia
  rw [key]

/-- Non-vacuity: a lawful system that accepts everything; opening any floppy image succeeds. -/
example : ∃ (f : @Factory Bytes) (_ : OperatorLike Bytes), Lawful f ∧
    ∃ x, openImage (zeros 143360) (str "a.dsk") (str "auto") (str "auto") [f] = .ok x := by
  refine ⟨⟨str "id", orderPO, fun _ => .ok true, fun b => .ok b⟩, ⟨id, fun _ => orderPO⟩,
    ⟨Or.inr (Or.inl rfl), ?_⟩, ?_⟩
  · intro b op h
    simp only [Out.ok.injEq] at h
    exact ⟨h.symm, rfl⟩
  · refine ⟨(viewOf orderDO orderPO (zeros 143360), orderDO), ?_⟩
    unfold openImage
    simp only [show floppyDiskBytes = 143360 from rfl]
    rw [if_pos (zeros_length _)]
    unfold openDoOrPo
    have e : ordersToTry (str "auto") (toLower (pathExt (str "a.dsk"))) =
      some [orderDO, orderPO] := by decide +kernel
    simp only [e]
    rw [if_neg (by simp), show decide ((_ : Prop) ∧ _) = false by simp]
    rw [openOuter_scan (zeros_length _)]
    · rfl
    · intro f hf
      have := (List.mem_filter.1 hf).1
      simp only [List.mem_cons, List.not_mem_nil, or_false] at this
      subst this
      simp [factOk]
    · simp [orderDO, orderPO, orderRaw]

/-! ## C07 -/

/-- C07: when several (order, system) pairs are possible, opening a floppy image succeeds with an
operator and order exactly when that pair is the first in candidate order whose system accepts
the view of the image in that order, all earlier ones rejecting theirs. -/
theorem C07_auto_picks_first_match {raw : Bytes} (hr : raw.length = 143360) {filename : Str}
    {order : DiskOrder} {system : Str} {fs : List (Factory Ω)}
    (hf : ∀ f ∈ fs, f.diskOrder = str "do" ∨ f.diskOrder = str "po" ∨ f.diskOrder = str "raw")
    {os : List DiskOrder} (hos : CandidateOrders order (toLower (pathExt filename)) os)
    (hauto : system = str "auto" ∨ os.length ≠ 1) (op : Ω) (o : DiskOrder) :
    openImage raw filename order system fs = .ok (op, o) ↔
      ∃ pre f post, candidates os system fs = pre ++ (o, f) :: post ∧
        (∃ v, View o f.diskOrder raw v ∧ Accepts f v op) ∧
        ∀ p ∈ pre, ∃ v, View p.1 p.2.diskOrder raw v ∧ Rejects p.2 v := by
  have hff : ∀ f ∈ fs.filter (fun f => decide (system = str "auto" ∨ system = f.name)), factOk f := by
    intro f hf'
    have := hf f (List.mem_filter.1 hf').1
    simp only [factOk, List.mem_cons, List.not_mem_nil, or_false]
    exact this
  have hnamed := (candidateOrders_named hos).2
  have hview : ∀ p ∈ candidates os system fs, ∀ v, View p.1 p.2.diskOrder raw v ↔
      v = viewOf p.1 p.2.diskOrder raw := by
    intro p hp v
    simp only [candidates, List.mem_flatMap, List.mem_map] at hp
    obtain ⟨o1, ho1, f1, hf1, rfl⟩ := hp
    exact view_iff (hnamed _ ho1) (hff _ hf1) hr
  have hcand : candidates os system fs = os.flatMap fun o =>
      (fs.filter (fun f => decide (system = str "auto" ∨ system = f.name))).map fun f => (o, f) := rfl
  have hopen : openImage raw filename order system fs = scan raw (candidates os system fs) := by
    unfold openImage
    simp only [show floppyDiskBytes = 143360 from rfl]
    rw [if_pos hr]
    unfold openDoOrPo
    simp only [(ordersToTry_iff _ _ _).2 hos]
    split
    · rename_i h0
      rw [hcand, List.eq_nil_of_length_eq_zero h0]
      have : (os.flatMap fun o => ([] : List (Factory Ω)).map fun f => (o, f)) = [] := by simp
      rw [this]; rfl
    · have hx : ¬ (os.length = 1 ∧ system ≠ str "auto") := by
        rintro ⟨h1, h2⟩; rcases hauto with h | h
        · exact h2 h
        · exact h h1
      rw [decide_eq_false hx, openOuter_scan hr _ hff _ hnamed, hcand]
  rw [hopen, scan_ok_iff]
  constructor
  · rintro ⟨pre, f, post, e, ha, hp⟩
    refine ⟨pre, f, post, e, ⟨_, (hview (o, f) (by rw [e]; simp) _).2 rfl, ha⟩, ?_⟩
    intro p hp'
    exact ⟨_, (hview p (by rw [e]; simp [hp']) _).2 rfl, hp p hp'⟩
  · rintro ⟨pre, f, post, e, ⟨v, hv, ha⟩, hp⟩
    have := (hview (o, f) (by rw [e]; simp) _).1 hv
    subst this
    refine ⟨pre, f, post, e, ha, ?_⟩
    intro p hp'
    obtain ⟨v, hv, hrj⟩ := hp p hp'
    have := (hview p (by rw [e]; simp [hp']) _).1 hv
    subst this
    exact hrj

/-- C07: with a single possible order and a named system, opening a floppy image is exactly
what the first system of that name makes of its view of the image: it is not probed, and its
error, if any, is the result. -/
theorem C07_explicit_choice_obeyed {raw : Bytes} (hr : raw.length = 143360) {filename : Str}
    {order o : DiskOrder} {system : Str} {fs : List (Factory Ω)}
    (hf : ∀ f ∈ fs, f.diskOrder = str "do" ∨ f.diskOrder = str "po" ∨ f.diskOrder = str "raw")
    (hos : CandidateOrders order (toLower (pathExt filename)) [o])
    (hsys : system ≠ str "auto") :
    (∀ pre f post, fs = pre ++ f :: post → f.name = system → (∀ g ∈ pre, g.name ≠ system) →
      ∃ v, View o f.diskOrder raw v ∧
        openImage raw filename order system fs =
          (f.operator v >>= fun op => Out.ok (op, o))) ∧
    ((∀ f ∈ fs, f.name ≠ system) → (openImage raw filename order system fs).isErr) := by
  have hno := (candidateOrders_named hos).2 o (by simp)
  constructor
  · intro pre f post e hn hp
    have hfo : factOk f := by
      have := hf f (by rw [e]; simp)
      simp only [factOk, List.mem_cons, List.not_mem_nil, or_false]
      exact this
    refine ⟨viewOf o f.diskOrder raw, (view_iff hno hfo hr).2 rfl, ?_⟩
    have hfilt : fs.filter (fun f => decide (system = str "auto" ∨ system = f.name)) =
        f :: post.filter (fun f => decide (system = str "auto" ∨ system = f.name)) := by
      rw [e, List.filter_append, List.filter_cons, if_pos (by simp [hn]),
        List.filter_eq_nil_iff.2, List.nil_append]
      intro g hg
      simp only [decide_eq_true_eq, not_or]
      exact ⟨hsys, fun h => hp g hg h.symm⟩
    unfold openImage
    simp only [show floppyDiskBytes = 143360 from rfl]
    rw [if_pos hr]
    unfold openDoOrPo
    simp only [(ordersToTry_iff _ _ _).2 hos, hfilt]
    rw [if_neg (by simp), show decide ((_ : Prop) ∧ _) = true by simp [hsys]]
    unfold openOuter
    rw [(swizzle_named_l2p hno hr).1, Out.bind_ok]
    unfold openInner
    rw [(swizzle_named_p2l hfo (swizzle_named_l2p hno hr).2).1, Out.bind_ok]
    show ((f.operator (viewOf o f.diskOrder raw) >>= _) >>= _) = _
    cases f.operator (viewOf o f.diskOrder raw) <;> rfl
  · intro hnone
    unfold openImage
    simp only [show floppyDiskBytes = 143360 from rfl]
    rw [if_pos hr]
    unfold openDoOrPo
    simp only
    rw [if_pos]
    · rfl
    · rw [List.filter_eq_nil_iff.2]
      · rfl
      · intro g hg
        simp only [decide_eq_true_eq, not_or]
        exact ⟨hsys, fun h => hnone g hg h.symm⟩

/-- C07: with an order flag and extension that allow no order, opening a floppy image fails. -/
theorem C07_no_candidate_order_is_an_error {raw : Bytes} (hr : raw.length = 143360) {filename : Str}
    {order : DiskOrder} {system : Str} {fs : List (Factory Ω)}
    (hos : ∀ os, ¬ CandidateOrders order (toLower (pathExt filename)) os) :
    (openImage raw filename order system fs).isErr := by
  unfold openImage
  simp only [show floppyDiskBytes = 143360 from rfl]
  rw [if_pos hr]
  unfold openDoOrPo
  simp only
  split
  · rfl
  · split
    · rfl
    · rename_i os h
      exact absurd ((ordersToTry_iff _ _ _).1 h) (hos os)

/-- Non-vacuity: the candidate orders of `--order auto` on a `.dsk` file, and of `--order po`. -/
example : CandidateOrders (str "auto") (toLower (pathExt (str "dir.x/GAME.DSK"))) [orderDO, orderPO] ∧
    CandidateOrders (str "po") (toLower (pathExt (str "game.dsk"))) [orderPO] :=
  ⟨(ordersToTry_iff _ _ _).1 (by decide +kernel), .explicitPO _⟩

/-! ## C08 -/

/-- C08: only floppy-sized images, and `.hdv` files of whole blocks up to 32 MiB opened as
ProDOS in ProDOS order, can be opened; everything else is an error (never a crash or hang),
13-sector images included. -/
theorem C08_wrong_images_refused (raw : Bytes) (filename : Str) (order : DiskOrder) (system : Str)
    (fs : List (Factory Ω)) :
    raw.length = 143360 ∨
    (toLower (pathExt filename) = str ".hdv" ∧ raw.length % 512 = 0 ∧ raw.length ≤ 32 * 1024 * 1024 ∧
      (order = str "auto" ∨ order = str "po") ∧ (system = str "auto" ∨ system = str "prodos") ∧
      ∃ f ∈ fs, f.name = str "prodos") ∨
    (openImage raw filename order system fs).isErr := by
  by_cases hr : raw.length = 143360
  · exact Or.inl hr
  right
  unfold openImage
  simp only [show floppyDiskBytes = 143360 from rfl]
  rw [if_neg hr]
  split
  · right; rfl
  split
  case isFalse => right; rfl
  rename_i hext
  unfold openHDV
  simp only
  split
  · right; rfl
  split
  · right; rfl
  split
  · right; rfl
  split
  · right; rfl
  rename_i h1 h2 h3 h4
  by_cases hp : ∃ f ∈ fs, f.name = str "prodos"
  · left
    refine ⟨hext, by omega, by omega, ?_, ?_, hp⟩
    · by_cases ha : order = str "auto"
      · exact Or.inl ha
      · by_cases hb : order = str "po"
        · exact Or.inr hb
        · exact absurd ⟨ha, hb⟩ h3
    · by_cases ha : system = str "auto"
      · exact Or.inl ha
      · by_cases hb : system = str "prodos"
        · exact Or.inr hb
        · exact absurd ⟨ha, hb⟩ h4
  · right
    clear hext h1 h2 h3 h4 hr
    induction fs with
    | nil => rfl
    | cons f fs ih =>
      unfold openHDVLoop
      rw [if_neg (fun h => hp ⟨f, by simp, h⟩)]
      exact ih (fun ⟨g, hg, hn⟩ => hp ⟨g, by simp [hg], hn⟩)

/-- C08: a 13-sector image is always refused. -/
theorem C08_13_sector_refused (raw : Bytes) (h : raw.length = 116480) (filename : Str)
    (order : DiskOrder) (system : Str) (fs : List (Factory Ω)) :
    (openImage raw filename order system fs).isErr := by
  unfold openImage
  simp only [show floppyDiskBytes = 143360 from rfl, show floppyDiskBytes13Sector = 116480 from rfl]
  rw [if_neg (by omega), if_pos h]
  rfl

/-- C08: an acceptable `.hdv` file is opened by the first ProDOS system, on the bytes as they
are, in ProDOS order. -/
theorem C08_hdv_opened_by_prodos (raw : Bytes) {filename : Str} {order : DiskOrder} {system : Str}
    {pre post : List (Factory Ω)} {f : Factory Ω}
    (hext : toLower (pathExt filename) = str ".hdv") (hm : raw.length % 512 = 0)
    (hmax : raw.length ≤ 32 * 1024 * 1024) (hfl : raw.length ≠ 143360)
    (ho : order = str "auto" ∨ order = str "po")
    (hs : system = str "auto" ∨ system = str "prodos")
    (hpre : ∀ g ∈ pre, g.name ≠ str "prodos") (hf : f.name = str "prodos") :
    openImage raw filename order system (pre ++ f :: post) =
      (f.operator raw >>= fun op => .ok (op, str "po")) := by
  unfold openImage
  simp only [show floppyDiskBytes = 143360 from rfl, show floppyDiskBytes13Sector = 116480 from rfl]
  rw [if_neg hfl, if_neg (by intro h; rw [h] at hm; omega), if_pos hext]
  unfold openHDV
  simp only
  rw [if_neg (by omega), if_neg (by omega), if_neg (by rintro ⟨a, b⟩; rcases ho with h | h; exact a h; exact b h),
    if_neg (by rintro ⟨a, b⟩; rcases hs with h | h; exact a h; exact b h)]
  induction pre with
  | nil => simp only [List.nil_append, openHDVLoop]; rw [if_pos hf]; rfl
  | cons g pre ih =>
    rw [List.cons_append, openHDVLoop, if_neg (hpre g (by simp))]
    exact ih (fun x hx => hpre x (by simp [hx]))

/-- Non-vacuity: a 1 MiB `.HDV` file satisfies the conditions of the previous theorem. -/
example : toLower (pathExt (str "big.HDV")) = str ".hdv" ∧ (zeros 1048576).length % 512 = 0 ∧
    (zeros 1048576).length ≤ 32 * 1024 * 1024 ∧ (zeros 1048576).length ≠ 143360 := by
  simp only [zeros_length]
  decide +kernel

/-! ## C09 -/

/-- C09: between any two named orders (in particular do and po), reordering a floppy image
succeeds, moves whole sectors inside tracks from the one order to the other, and reordering back
restores the image. -/
theorem C09_reorder_involutive {a b : DiskOrder} (ha : a ∈ [str "do", str "po", str "raw"])
    (hb : b ∈ [str "do", str "po", str "raw"]) {img : Bytes} (hi : img.length = 143360) :
    ∃ r, reorderBytes a b img = .ok r ∧ View a b img r ∧ reorderBytes b a r = .ok img := by
  have hla : logicalToPhysicalByName? a = some (logicalToPhysicalByName a) ∧
      physicalToLogicalByName? a = some (physicalToLogicalByName a) := by
    simp only [List.mem_cons, List.not_mem_nil, or_false] at ha
    rcases ha with rfl | rfl | rfl <;> decide
  have hlb : logicalToPhysicalByName? b = some (logicalToPhysicalByName b) ∧
      physicalToLogicalByName? b = some (physicalToLogicalByName b) := by
    simp only [List.mem_cons, List.not_mem_nil, or_false] at hb
    rcases hb with rfl | rfl | rfl <;> decide
  have hl := viewOf_length ha hb hi
  refine ⟨viewOf a b img, ?_, (view_iff ha hb hi).2 rfl, ?_⟩
  · unfold reorderBytes
    simp only [hla.1, hlb.2]
    rw [(swizzle_named_l2p ha hi).1, Out.bind_ok,
      (swizzle_named_p2l hb (swizzle_named_l2p ha hi).2).1]
    rfl
  · unfold reorderBytes
    simp only [hlb.1, hla.2]
    rw [(swizzle_named_l2p hb hl).1, Out.bind_ok,
      (swizzle_named_p2l ha (swizzle_named_l2p hb hl).2).1]
    exact congrArg Out.ok (viewOf_viewOf ha hb hi)

/-- C09: where the sectors go: the sector of the result that order `b` keeps in a physical sector is the
sector of the input that order `a` keeps there.  Between do and po: sector `s` and 15 - `s` change places, but
0 and 15 stay. -/
theorem C09_reorder_places {a b : DiskOrder} (ha : a ∈ [str "do", str "po", str "raw"])
    (hb : b ∈ [str "do", str "po", str "raw"]) {img r : Bytes} (h : reorderBytes a b img = .ok r)
    {t : Nat} (ht : t < 35) {s s' : Nat} (hs : s < 16) (hs' : s' < 16) (he : interleave a s = interleave b s') :
    sectorAt r t s' = sectorAt img t s := by
  have e1 : logicalToPhysicalByName? a = some (logicalToPhysicalByName a) := by
    simp only [List.mem_cons, List.not_mem_nil, or_false] at ha
    rcases ha with rfl | rfl | rfl <;> decide
  have e2 : physicalToLogicalByName? b = some (physicalToLogicalByName b) := by
    simp only [List.mem_cons, List.not_mem_nil, or_false] at hb
    rcases hb with rfl | rfl | rfl <;> decide
  unfold reorderBytes at h
  rw [e1, e2] at h
  obtain ⟨raw, h1, h2⟩ := Out.bind_eq_ok.1 h
  rw [(C04_interleave hb).2 h2 t ht s' hs', ← he, (C04_interleave ha).1 h1 t ht s hs]

theorem C09_do_to_po {img r : Bytes} (h : reorderBytes (str "do") (str "po") img = .ok r) {t : Nat} (ht : t < 35) :
    sectorAt r t 0 = sectorAt img t 0 ∧ sectorAt r t 15 = sectorAt img t 15 ∧
    ∀ s, 1 ≤ s → s ≤ 14 → sectorAt r t (15 - s) = sectorAt img t s := by
  refine ⟨C09_reorder_places (by simp) (by simp) h ht (by omega) (by omega) (by decide),
    C09_reorder_places (by simp) (by simp) h ht (by omega) (by omega) (by decide), ?_⟩
  intro s h1 h2
  refine C09_reorder_places (by simp) (by simp) h ht (by omega) (by omega) ?_
  have : ∀ s, s ≤ 14 → 1 ≤ s → interleave (str "do") s = interleave (str "po") (15 - s) := by decide +kernel
  exact this s h2 h1

/-- C09, at the level of the command: reordering a floppy image in place from do to po and then
from po to do leaves every file as it was. -/
theorem C09_reorder_command_round_trip (w : World) (path : Str) (img : Bytes)
    (hp : path ≠ str "-") (hw : w.files path = some img) (hi : img.length = 143360) :
    ∃ w1 w2, reorderRun w (str "do") (str "po") false path [] = (.ok (), w1) ∧
      reorderRun w1 (str "po") (str "do") false path [] = (.ok (), w2) ∧
      (∀ q, q ≠ path → w1.files q = w.files q) ∧ w2.files = w.files := by
  obtain ⟨r, h1, _, h2⟩ := C09_reorder_involutive (a := str "do") (b := str "po") (by simp) (by simp) hi
  have e1 : getOrders path (str "do") [] (str "po") = .ok (str "do", str "po") := by
    simp only [getOrders]
    rw [if_neg (by decide), if_neg (by decide), if_pos (by decide)]
  have e2 : getOrders path (str "po") [] (str "do") = .ok (str "po", str "do") := by
    simp only [getOrders]
    rw [if_neg (by decide), if_neg (by decide), if_pos (by decide)]
  have hp' : (path = str "-") = False := by simp [hp]
  refine ⟨w.writeFile path r, (w.writeFile path r).writeFile path img, ?_, ?_, ?_, ?_⟩
  · simp [reorderRun, reorderVia, e1, World.fileContentsOrStdIn, hp', hw, h1, World.writeOutput]
  · simp [reorderRun, reorderVia, e2, World.fileContentsOrStdIn, hp', World.writeFile, h2, World.writeOutput]
  · intro q hq
    simp [World.writeFile, hq]
  · funext q
    simp only [World.writeFile]
    by_cases hq : q = path
    · simp [hq, hw]
    · simp [hq]

/-- Non-vacuity: the hypotheses hold for a file system with one blank image. -/
example : ∃ w : World, w.files (str "x.dsk") = some (zeros 143360) :=
  ⟨⟨fun _ => some (zeros 143360), [], []⟩, rfl⟩

/-! ## C10 -/

private theorem getOrders_flags (a b : Str) {x y : DiskOrder}
    (h : ¬ (x = orderAuto ∧ y = orderAuto)) : getOrders a x b y = getOrders [] x [] y := by
  unfold getOrders
  by_cases hx : x = orderAuto <;> by_cases hy : y = orderAuto
  · exact absurd ⟨hx, hy⟩ h
  · simp [hx, hy]
  · simp [hx, hy]
  · simp [hx, hy]

/-- C10: with flags from auto/do/po, reorder either fails or converts between do and po. -/
theorem C10_reorder_uses_two_orders (a b : Str) {x y : DiskOrder}
    (hx : x ∈ [str "auto", str "do", str "po"]) (hy : y ∈ [str "auto", str "do", str "po"]) :
    getOrders a x b y = .ok (str "do", str "po") ∨ getOrders a x b y = .ok (str "po", str "do") ∨
    (getOrders a x b y).isErr := by
  simp only [List.mem_cons, List.not_mem_nil, or_false] at hx hy
  have hguess : ∀ n, orderFromFilename n orderUnknown = orderDO ∨
      orderFromFilename n orderUnknown = orderPO ∨
      orderFromFilename n orderUnknown = orderUnknown := by
    intro n; unfold orderFromFilename; simp only
    split
    · simp
    · split <;> simp
  have e : ∀ (p q : DiskOrder), p ∈ [orderDO, orderPO, orderUnknown] →
      q ∈ [orderDO, orderPO, orderUnknown] →
      orderFromFilename a orderUnknown = p → orderFromFilename b orderUnknown = q →
      getOrders a (str "auto") b (str "auto") = .ok (str "do", str "po") ∨
      getOrders a (str "auto") b (str "auto") = .ok (str "po", str "do") ∨
      (getOrders a (str "auto") b (str "auto")).isErr := by
    intro p q hp hq h1 h2
    unfold getOrders
    rw [if_neg (by decide), if_neg (by decide), if_neg (by decide), if_neg (by decide)]
    simp only [h1, h2]
    simp only [List.mem_cons, List.not_mem_nil, or_false] at hp hq
    rcases hp with rfl | rfl | rfl <;> rcases hq with rfl | rfl | rfl <;> decide
  rcases hx with rfl | rfl | rfl <;> rcases hy with rfl | rfl | rfl
  · apply e _ _ _ _ rfl rfl
    · have := hguess a; simpa using this
    · have := hguess b; simpa using this
  all_goals (rw [getOrders_flags a b (by decide)]; decide)

/-- C10: explicit flags are honoured: two different explicit orders are used as given, two equal
ones are an error, and with one explicit flag the other side is the other order. -/
theorem C10_explicit_flags_honoured (a b : Str) {x y : DiskOrder}
    (hx : x ∈ [str "do", str "po"]) (hy : y ∈ [str "do", str "po"]) :
    (x ≠ y → getOrders a x b y = .ok (x, y)) ∧
    (x = y → (getOrders a x b y).isErr) ∧
    (∃ z, getOrders a x b (str "auto") = .ok (x, z) ∧ z ≠ x ∧ z ∈ [str "do", str "po"]) ∧
    (∃ z, getOrders a (str "auto") b y = .ok (z, y) ∧ z ≠ y ∧ z ∈ [str "do", str "po"]) := by
  simp only [List.mem_cons, List.not_mem_nil, or_false] at hx hy
  refine ⟨?_, ?_, ?_, ?_⟩
  · rcases hx with rfl | rfl <;> rcases hy with rfl | rfl <;> (rw [getOrders_flags a b (by decide)]; decide)
  · rcases hx with rfl | rfl <;> rcases hy with rfl | rfl <;> (rw [getOrders_flags a b (by decide)]; decide)
  · rcases hx with rfl | rfl
    · exact ⟨str "po", by rw [getOrders_flags a b (by decide)]; decide⟩
    · exact ⟨str "do", by rw [getOrders_flags a b (by decide)]; decide⟩
  · rcases hy with rfl | rfl
    · exact ⟨str "po", by rw [getOrders_flags a b (by decide)]; decide⟩
    · exact ⟨str "do", by rw [getOrders_flags a b (by decide)]; decide⟩

/-- C10: without flags the direction is do to po exactly when a name says so and the other does
not contradict it, likewise po to do; otherwise it is an error. -/
theorem C10_guess_from_extensions (a b : Str) :
    (getOrders a (str "auto") b (str "auto") = .ok (str "do", str "po") ↔
      (NameSaysDO a ∧ ¬ NameSaysDO b) ∨ (NameSaysPO b ∧ ¬ NameSaysPO a)) ∧
    (getOrders a (str "auto") b (str "auto") = .ok (str "po", str "do") ↔
      (NameSaysPO a ∧ ¬ NameSaysPO b) ∨ (NameSaysDO b ∧ ¬ NameSaysDO a)) := by
  have hg : ∀ n, (NameSaysDO n = True ∧ NameSaysPO n = False ∧
        orderFromFilename n orderUnknown = orderDO) ∨
      (NameSaysDO n = False ∧ NameSaysPO n = True ∧
        orderFromFilename n orderUnknown = orderPO) ∨
      (NameSaysDO n = False ∧ NameSaysPO n = False ∧
        orderFromFilename n orderUnknown = orderUnknown) := by
    intro n
    simp only [eq_iff_iff, iff_true, iff_false]
    unfold NameSaysDO NameSaysPO orderFromFilename
    simp only
    by_cases h1 : toLower (pathExt n) = str ".dsk" ∨ toLower (pathExt n) = str ".do"
    · left
      refine ⟨h1, ?_, by rw [if_pos h1]⟩
      rcases h1 with h | h <;> rw [h] <;> decide
    · by_cases h2 : toLower (pathExt n) = str ".po"
      · right; left; exact ⟨h1, h2, by rw [if_neg h1, if_pos h2]⟩
      · right; right; exact ⟨h1, h2, by rw [if_neg h1, if_neg h2]⟩
  unfold getOrders
  rw [if_neg (by decide), if_neg (by decide), if_neg (by decide), if_neg (by decide)]
  rcases hg a with ⟨a1, a2, a3⟩ | ⟨a1, a2, a3⟩ | ⟨a1, a2, a3⟩ <;>
  rcases hg b with ⟨b1, b2, b3⟩ | ⟨b1, b2, b3⟩ | ⟨b1, b2, b3⟩ <;>
  rw [a1, a2, a3, b1, b2, b3] <;> decide

/-- `path.Ext` as used above means what it should: the text from the last dot, when nothing
after that dot is a dot or slash. -/
theorem C10_path_ext (p e : Str) (h : ∀ c ∈ e, c ≠ 0x2E ∧ c ≠ 0x2F) :
    pathExt (p ++ 0x2E :: e) = 0x2E :: e := by
  have go : ∀ (r acc : Str), (∀ c ∈ r, c ≠ 0x2E ∧ c ≠ 0x2F) →
      pathExtGo (r ++ 0x2E :: p.reverse) acc = 0x2E :: (r.reverse ++ acc) := by
    intro r
    induction r with
    | nil => intro acc _; rfl
    | cons c r ih =>
      intro acc hc
      have := hc c (by simp)
      simp only [List.cons_append, pathExtGo]
      rw [if_neg this.2, if_neg this.1, ih _ (fun x hx => hc x (by simp [hx]))]
      simp
  unfold pathExt
  have := go e.reverse [] (by simpa using h)
  simpa using this

/-- Non-vacuity: names deciding the direction. -/
example : getOrders (str "a.dsk") (str "auto") (str "b.PO") (str "auto") = .ok (orderDO, orderPO) ∧
    (getOrders (str "a.dsk") (str "auto") (str "b.do") (str "auto")).isErr := by decide +kernel

end Verif.Disk
