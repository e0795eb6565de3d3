import Verif.Spec.SdSafe
import Verif.Props.Sd
import Verif.Props.HistoryWit
import Verif.Props.RecogniseWit

/-!
# C109: putting and removing files leaves Standard Delivery disks alone
-/

set_option autoImplicit false
set_option maxRecDepth 20000

namespace Verif.Cmd
open Disk Spec

/-- Every page of the binary, also those after its end, is where the loader looks for it. -/
theorem sd_page {contents : Bytes} {address start : UInt16} {img : Bytes} (h : sdImage contents address start = .ok img) {i : Nat} (hi : i + 1 < 560) :
    sectorAt img (visit (i + 1)).1 (visit (i + 1)).2 = page contents i := by
  obtain ⟨_, _, h3, h4, _⟩ := C56_layout _ _ _ _ h
  by_cases hp : i < pages contents
  · exact h3 i hp
  · have hv := C56_visits_distinct.1 (i + 1) hi
    rw [h4 _ _ hv.1 hv.2 (fun j hj e => by have := C56_visits_distinct.2 j (i + 1) e; omega)]
    unfold page zeros
    refine List.ext_getElem (by simp) fun j hj _ => ?_
    have hj : j < 256 := by simpa using hj
    have : contents[256 * i + j]? = none := List.getElem?_eq_none (by unfold pages at hp; omega)
    rw [List.getElem_replicate, List.getElem_map, List.getElem_range, this]
    rfl

theorem page_getD (contents : Bytes) (i : Nat) {j : Nat} (hj : j < 256) : (page contents i).getD j 0 = contents.getD (256 * i + j) 0 := by
  unfold page
  rw [List.getD_eq_getElem?_getD, List.getElem?_map, List.getElem?_range hj, List.getD_eq_getElem?_getD]
  rfl

/-- A byte of the sector map, in its sector. -/
theorem owner_sector (v : Bytes) (n : Nat) : owner v n =
    if n < 48 then (sectorAt v 0 9).getD (208 + n) 0
    else if n < 304 then (sectorAt v 0 10).getD (n - 48) 0
    else if n < 560 then (sectorAt v 0 11).getD (n - 304) 0 else owner v n := by
  have key : ∀ s j, j < 256 → (sectorAt v 0 s).getD j 0 = v.getD (256 * s + j) 0 := by
    intro s j hj
    unfold sectorAt
    rw [List.getD_eq_getElem?_getD, List.getElem?_take_of_lt hj, List.getElem?_drop, List.getD_eq_getElem?_getD]
    simp
  unfold owner
  split
  · rw [key _ _ (by omega)]; congr 1; omega
  · split
    · rw [key _ _ (by omega)]; congr 1; omega
    · split
      · rw [key _ _ (by omega)]; congr 1; omega
      · rfl

theorem legalMap_congr {m m' : Nat → UInt8} (h : ∀ n, n < 560 → m n = m' n) : LegalMap m ↔ LegalMap m' := by
  unfold LegalMap
  exact and_congr (forall₂_congr fun n hn => by rw [h n (by omega)]) (forall₂_congr fun n hn => by rw [h n hn])

/-- Where sectors of the image file are seen. -/
theorem view_moves {o fo : DiskOrder} {raw v : Bytes} (h : View o fo raw v) {t : Nat} (ht : t < 35) {r d e : Nat} (hr : r < 16) (hd : d < 16)
    (h1 : (logicalToPhysicalByName o)[r]? = some (d : Int)) (h2 : (physicalToLogicalByName fo)[d]? = some (e : Int)) :
    sectorAt v t e = sectorAt raw t r := by
  obtain ⟨_, p, _, s1, s2⟩ := h
  rw [s2 t ht d hd e h2, s1 t ht r hr d h1]

section
variable {contents : Bytes} {address start : UInt16} {img raw v : Bytes} {made taken : DiskOrder}

/-- The three sectors of the map hold pages of the binary. -/
theorem map_sectors (h : sdImage contents address start = .ok img) (hm : made ∈ [orderDO, orderPO, orderRaw]) (hmade : View made (str "raw") raw img)
    (ht : taken ∈ [orderDO, orderPO]) (hv : View taken (str "raw") raw v) :
    sectorAt v 0 9 = page contents (mapPages made taken).1 ∧ sectorAt v 0 10 = page contents (mapPages made taken).2.1 ∧
    sectorAt v 0 11 = page contents (mapPages made taken).2.2 := by
  have key : ∀ s r x k, r < 16 → x < 16 → s < 16 → k < 20 → (logicalToPhysicalByName taken)[r]? = some ((s : Nat) : Int) →
      (logicalToPhysicalByName made)[r]? = some ((x : Nat) : Int) → visit (k + 1) = (0, x) →
      (∀ y, y < 16 → (physicalToLogicalByName (str "raw"))[y]? = some ((y : Nat) : Int)) → sectorAt v 0 s = page contents k := by
    intro s r x k hr hx hs hk h1 h2 h3 h4
    rw [view_moves hv (by omega) hr hs h1 (h4 s hs), ← view_moves hmade (by omega) hr hx h2 (h4 x hx), ← sd_page h (i := k) (by omega), h3]
  have hid : ∀ y, y < 16 → (physicalToLogicalByName (str "raw"))[y]? = some ((y : Nat) : Int) := by decide +kernel
  simp only [List.mem_cons, List.not_mem_nil, or_false] at hm ht
  rcases hm with rfl | rfl | rfl <;> rcases ht with rfl | rfl
  · exact ⟨key 9 3 9 11 (by decide) (by decide) (by decide) (by decide) (by decide +kernel) (by decide +kernel) (by decide +kernel) hid,
      key 10 10 10 4 (by decide) (by decide) (by decide) (by decide) (by decide +kernel) (by decide +kernel) (by decide +kernel) hid,
      key 11 2 11 12 (by decide) (by decide) (by decide) (by decide) (by decide +kernel) (by decide +kernel) (by decide +kernel) hid⟩
  · exact ⟨key 9 12 6 2 (by decide) (by decide) (by decide) (by decide) (by decide +kernel) (by decide +kernel) (by decide +kernel) hid,
      key 10 5 5 9 (by decide) (by decide) (by decide) (by decide) (by decide +kernel) (by decide +kernel) (by decide +kernel) hid,
      key 11 13 4 1 (by decide) (by decide) (by decide) (by decide) (by decide +kernel) (by decide +kernel) (by decide +kernel) hid⟩
  · exact ⟨key 9 3 6 2 (by decide) (by decide) (by decide) (by decide) (by decide +kernel) (by decide +kernel) (by decide +kernel) hid,
      key 10 10 5 9 (by decide) (by decide) (by decide) (by decide) (by decide +kernel) (by decide +kernel) (by decide +kernel) hid,
      key 11 2 4 1 (by decide) (by decide) (by decide) (by decide) (by decide +kernel) (by decide +kernel) (by decide +kernel) hid⟩
  · exact ⟨key 9 12 9 11 (by decide) (by decide) (by decide) (by decide) (by decide +kernel) (by decide +kernel) (by decide +kernel) hid,
      key 10 5 10 4 (by decide) (by decide) (by decide) (by decide) (by decide +kernel) (by decide +kernel) (by decide +kernel) hid,
      key 11 13 11 12 (by decide) (by decide) (by decide) (by decide) (by decide +kernel) (by decide +kernel) (by decide +kernel) hid⟩
  · exact ⟨key 9 3 3 8 (by decide) (by decide) (by decide) (by decide) (by decide +kernel) (by decide +kernel) (by decide +kernel) hid,
      key 10 10 10 4 (by decide) (by decide) (by decide) (by decide) (by decide +kernel) (by decide +kernel) (by decide +kernel) hid,
      key 11 2 2 0 (by decide) (by decide) (by decide) (by decide) (by decide +kernel) (by decide +kernel) (by decide +kernel) hid⟩
  · exact ⟨key 9 12 12 5 (by decide) (by decide) (by decide) (by decide) (by decide +kernel) (by decide +kernel) (by decide +kernel) hid,
      key 10 5 5 9 (by decide) (by decide) (by decide) (by decide) (by decide +kernel) (by decide +kernel) (by decide +kernel) hid,
      key 11 13 13 13 (by decide) (by decide) (by decide) (by decide) (by decide +kernel) (by decide +kernel) (by decide +kernel) hid⟩

/-- The sector map that NakedOS finds there. -/
theorem sd_owner (h : sdImage contents address start = .ok img) (hm : made ∈ [orderDO, orderPO, orderRaw]) (hmade : View made (str "raw") raw img)
    (ht : taken ∈ [orderDO, orderPO]) (hv : View taken (str "raw") raw v) {n : Nat} (hn : n < 560) :
    owner v n = mapBytes contents (mapPages made taken) n := by
  obtain ⟨h9, h10, h11⟩ := map_sectors h hm hmade ht hv
  unfold mapBytes
  rw [owner_sector, h9, h10, h11]
  split
  · rw [page_getD _ _ (by omega), Nat.add_assoc]
  · split
    · rw [page_getD _ _ (by omega)]
    · rw [page_getD _ _ (by omega)]

theorem taken_named (ht : taken ∈ [orderDO, orderPO]) : taken ∈ [orderDO, orderPO, orderRaw] := by
  simp only [List.mem_cons, List.not_mem_nil, or_false] at ht ⊢
  exact ht.imp_right Or.inl

/-- C109: exactly when the disk, taken to be in some order, is a NakedOS disk. -/
theorem C109_nakedos_exact (h : sdImage contents address start = .ok img) (hm : made ∈ [orderDO, orderPO, orderRaw]) (hl : raw.length = 143360)
    (hmade : View made (str "raw") raw img) (ht : taken ∈ [orderDO, orderPO]) :
    Carries raw (taken, .nakedos) ↔ SpellsMap contents (mapPages made taken) := by
  have hn := taken_named ht
  have key : ∀ v, View taken (str "raw") raw v → (LegalMap (owner v) ↔ SpellsMap contents (mapPages made taken)) :=
    fun v hv => legalMap_congr fun n hn => sd_owner h hm hmade ht hv hn
  constructor
  · rintro ⟨v, hv, hd⟩
    exact (key v hv).1 hd.2
  · intro hs
    have hv := (view_iff hn raw_named hl).2 rfl
    exact ⟨_, hv, viewOf_length hn raw_named hl, (key _ hv).2 hs⟩

/-- C109: the disk is never found to be a DOS 3.3 disk, and looking for a DOS 3.3 catalog on it ends. -/
theorem C109_not_dos (h : sdImage contents address start = .ok img) (hm : made ∈ [orderDO, orderPO, orderRaw]) (hl : raw.length = 143360)
    (hmade : View made (str "raw") raw img) (ht : taken ∈ [orderDO, orderPO, orderRaw]) (hv : View taken (str "do") raw v) :
    ¬ DosDisk v ∧ ¬ EndlessCatalog v := by
  obtain ⟨_, _, _, h4, _⟩ := C56_layout _ _ _ _ h
  have hp : pages contents ≤ 176 := by have := (sdImage_iff.1 ⟨img, h⟩).2.2.2.2; omega
  have e1 : sectorAt img 17 0 = zeros 256 := h4 17 0 (by omega) (by omega) (fun i hi e => by
    have : (visit i).1 = 17 := by rw [e]
    unfold visit at this
    simp only at this
    omega)
  have e2 : sectorAt v 17 0 = zeros 256 := by
    rw [(view_iff ht (by decide +kernel) hl).1 hv, view_sector0 ht (by decide +kernel) hl (by omega),
      ← view_sector0 hm (fo := orderRaw) (by decide +kernel) hl (by omega), ← (view_iff hm raw_named hl).1 hmade, e1]
  have hnv : ¬ NormalVTOC v := by
    rintro ⟨_, _, h, _⟩
    unfold sbyte vtocAt at h
    rw [e2] at h
    revert h
    decide +kernel
  exact ⟨fun h => hnv h.1, fun h => hnv h.1⟩

end

/-- C109: a binary of up to eight pages cannot be mistaken for a sector map. -/
theorem small_no_map {contents : Bytes} (h : contents.length ≤ 2048) {made taken : DiskOrder} (hm : made ∈ [orderDO, orderPO, orderRaw])
    (ht : taken ∈ [orderDO, orderPO]) : ¬ SpellsMap contents (mapPages made taken) := by
  have hz : ∀ n, 2048 ≤ n → contents.getD n 0 = 0 := by
    intro n hn
    rw [List.getD_eq_getElem?_getD, List.getElem?_eq_none (by omega)]
    rfl
  rintro ⟨_, h2⟩
  simp only [List.mem_cons, List.not_mem_nil, or_false] at hm ht
  have a := h2 0 (by omega)
  have b := h2 48 (by omega)
  have c := h2 304 (by omega)
  unfold mapBytes at a b c
  simp only [show (0 : Nat) < 48 from by omega, show ¬ (48 : Nat) < 48 from by omega, show (48 : Nat) < 304 from by omega,
    show ¬ (304 : Nat) < 48 from by omega, show ¬ (304 : Nat) < 304 from by omega, if_true, if_false] at a b c
  rcases hm with rfl | rfl | rfl <;> rcases ht with rfl | rfl
  · exact c (hz _ (by decide +kernel))
  · exact b (hz _ (by decide +kernel))
  · exact b (hz _ (by decide +kernel))
  · exact c (hz _ (by decide +kernel))
  · exact a (hz _ (by decide +kernel))
  · exact b (hz _ (by decide +kernel))

/-- C57, from the command line: `mksd` succeeds exactly if the binary can be read, it and the addresses are accepted, and the order of the image
file is one of the three. -/
theorem C57_command (env : Env) (w : World) (order : DiskOrder) (diskImage binary : Str) (address start : UInt16) :
    (run env (.mksd order diskImage binary address start) w).1 = .ok () ↔
      (∃ contents img, given w binary = some contents ∧ sdImage contents address (effectiveStart address start) = .ok img) ∧
      sdOrder order diskImage ∈ [str "do", str "po", str "raw"] := by
  change (mksd World.writeOutput order diskImage binary address start w).1 = _ ↔ _
  constructor
  · intro h
    rcases hr : mksd World.writeOutput order diskImage binary address start w with ⟨out, w2⟩
    rw [hr] at h
    simp only at h
    subst h
    unfold mksd at hr
    obtain ⟨contents, w1, hc, hr⟩ := bind_ok_iff.1 hr
    obtain ⟨img, w3, hi, hr⟩ := bind_ok_iff.1 hr
    obtain ⟨raw, w4, hs, hr⟩ := bind_ok_iff.1 hr
    simp only [lift, Prod.mk.injEq] at hi hs
    obtain ⟨l1, s1, e1⟩ := swizzle_ok_iff.1 hs.1
    refine ⟨⟨contents, img, ?_, hi.1⟩, ?_⟩
    · unfold contentsOf World.fileContentsOrStdIn at hc
      unfold given
      split at hc
      · rename_i hsrc
        rw [if_pos hsrc]
        simp only [Prod.mk.injEq, Out.ok.injEq] at hc
        rw [hc.1]
      · rename_i hsrc
        rw [if_neg hsrc]
        split at hc
        · rename_i e
          simp only [Prod.mk.injEq, Out.ok.injEq] at hc
          rw [e, hc.1]
        · simp at hc
    · refine Classical.byContradiction fun hn => ?_
      simp only [List.mem_cons, List.not_mem_nil, or_false, not_or] at hn
      have : physicalToLogicalByName (sdOrder order diskImage) = [] := by
        unfold physicalToLogicalByName physicalToLogicalByName? orderDO orderPO orderRaw
        rw [if_neg hn.1, if_neg hn.2.1, if_neg hn.2.2]
        rfl
      rw [this] at s1
      exact absurd ((perm16_iff _).1 s1).1 (by simp)
  · rintro ⟨⟨contents, img, hg, hi⟩, ho⟩
    have hl := (C56_layout _ _ _ _ hi).1
    have hc : ∃ w1, contentsOf binary w = (.ok contents, w1) := by
      unfold given at hg
      unfold contentsOf World.fileContentsOrStdIn
      split at hg
      · rename_i hs
        rw [if_pos hs]
        simp only [Option.some.injEq] at hg
        subst hg
        exact ⟨_, rfl⟩
      · rename_i hs
        rw [if_neg hs, hg]
        exact ⟨_, rfl⟩
    obtain ⟨w1, hc⟩ := hc
    unfold mksd
    rw [bind_run hc, bind_run (a := img) (w' := w1) (by unfold lift; rw [hi])]
    change (Act.bind _ _ w1).1 = _
    unfold Act.bind lift
    rw [(swizzle_named_p2l ho hl).1]
    change (World.writeOutput w1 diskImage _ true).1 = _
    unfold World.writeOutput
    split
    · rfl
    · rw [if_neg (by simp)]

theorem open_candidate {env : Env} {raw : Bytes} {filename : Str} {order : DiskOrder} {system : Str} {x : AnyOp × DiskOrder}
    (hl : raw.length = 143360) (h : openImage raw filename order system (factories env) = .ok x) :
    ∃ os, CandidateOrders order (toLower (pathExt filename)) os ∧ x.2 ∈ os := by
  unfold openImage at h
  simp only [show floppyDiskBytes = 143360 from rfl] at h
  rw [if_pos hl] at h
  unfold openDoOrPo at h
  simp only at h
  split at h
  · simp at h
  split at h
  · simp at h
  · rename_i os ho
    exact ⟨os, (ordersToTry_iff _ _ _).1 ho, openOuter_order h⟩

/-- A command that puts or removes files and succeeds took the image for a NakedOS disk, in one of the orders its options allow. -/
theorem changes_opens {env : Env} {w : World} {image : Str} (hi : image ≠ str "-") {c : Command} (hc : ChangesFilesOf image c)
    (h : (run env c w).1 = .ok ()) :
    ∃ raw o os ord, w.files image = some raw ∧ raw.length = 143360 ∧
      openImage raw image (optionsOf c).1 (optionsOf c).2 (factories env) = .ok (.nakedos o, ord) ∧
      CandidateOrders (optionsOf c).1 (toLower (pathExt image)) os ∧ ord ∈ os := by
  have key : ∀ raw o ord order system, openImage raw image order system (factories env) = .ok (AnyOp.nakedos o, ord) →
      raw.length = 143360 ∧ ∃ os, CandidateOrders order (toLower (pathExt image)) os ∧ ord ∈ os := fun raw o ord order system h =>
    have hl := (open_naked h).len
    ⟨hl, open_candidate hl h⟩
  cases c with
  | put o s t ow a i name source =>
    obtain rfl : i = image := hc
    obtain ⟨raw, op, ord, _, _, _, h1, h2, _⟩ := put_inv hi h
    obtain ⟨hl, os, h3, h4⟩ := key _ _ _ _ _ h2
    exact ⟨raw, op, os, ord, h1, hl, h2, h3, h4⟩
  | rm o s m i name =>
    obtain rfl : i = image := hc
    obtain ⟨raw, op, ord, _, h1, h2, _⟩ := rm_inv hi h
    obtain ⟨hl, os, h3, h4⟩ := key _ _ _ _ _ h2
    exact ⟨raw, op, os, ord, h1, hl, h2, h3, h4⟩
  | mkhello o i name a st =>
    obtain rfl : i = image := hc
    obtain ⟨_, _, raw, op, ord, _, _, h1, h2, _⟩ := mkhello_inv hi h
    obtain ⟨hl, os, h3, h4⟩ := key _ _ _ _ _ h2
    exact ⟨raw, op, os, ord, h1, hl, h2, h3, h4⟩
  | _ => exact hc.elim

/-- C109: unless the binary reads like a NakedOS sector map in the right places, `put`, `rm` and `mkhello` on a disk made by `mksd` do not
succeed and change no file, whatever their options and whatever happened to other files in between. -/
theorem C109_safe (env env' : Env) {w w' : World} {order : DiskOrder} {image binary : Str} {address start : UInt16} (hi : image ≠ str "-")
    (hb : binary ≠ str "-") (hmk : (run env (.mksd order image binary address start) w).1 = .ok ())
    (hw : w'.files image = (run env (.mksd order image binary address start) w).2.files image) {c : Command} (hc : ChangesFilesOf image c)
    (hs : ∀ contents os, w.files binary = some contents → CandidateOrders (optionsOf c).1 (toLower (pathExt image)) os →
      ∀ taken ∈ os, ¬ SpellsMap contents (mapPages (sdOrder order image) taken)) :
    (run env' c w').1 ≠ .ok () ∧ (run env' c w').2.files = w'.files ∧ (run env' c w').2.stdout = w'.stdout := by
  have hne : (run env' c w').1 ≠ .ok () := by
    intro hok
    obtain ⟨contents, img, raw, h1, h2, h3, hl, hv⟩ := C56_command env w order image binary address start hi hb hmk
    have ho := ((C57_command env w order image binary address start).1 hmk).2
    obtain ⟨raw', o, os, ord, r1, _, r2, r3, r4⟩ := changes_opens hi hc hok
    rw [hw, h3] at r1
    simp only [Option.some.injEq] at r1
    subst r1
    have hn := open_naked r2
    have ht : ord ∈ [orderDO, orderPO] := by
      rcases hn.order with rfl | rfl <;> simp
    refine hs contents os h1 r3 ord r4 ((C109_nakedos_exact h2 ho hl hv ht).1 ⟨_, (view_iff (order_named hn.order) raw_named hl).2 rfl, ?_⟩)
    have hg := hn.good
    rw [hn.data] at hg
    exact ⟨viewOf_length (order_named hn.order) raw_named hl, (Supermon.good_nakedOS hg).2⟩
  exact ⟨hne, C59_failure_changes_nothing env' c w' hne⟩

/-- C109 (partial): a binary of up to 2048 bytes is safe from `put`, `rm` and `mkhello`, whatever their options.  Missing are longer binaries: they
are safe exactly if they do not read like a sector map (`C109_safe`, `C109_nakedos_exact`). -/
theorem C109_small_partial (env env' : Env) {w w' : World} {order : DiskOrder} {image binary : Str} {address start : UInt16} (hi : image ≠ str "-")
    (hb : binary ≠ str "-") (hmk : (run env (.mksd order image binary address start) w).1 = .ok ())
    (hw : w'.files image = (run env (.mksd order image binary address start) w).2.files image) {c : Command} (hc : ChangesFilesOf image c)
    (hs : ∀ contents, w.files binary = some contents → contents.length ≤ 2048) :
    (run env' c w').1 ≠ .ok () ∧ (run env' c w').2.files = w'.files ∧ (run env' c w').2.stdout = w'.stdout := by
  refine C109_safe env env' hi hb hmk hw hc fun contents os h1 h2 taken ht => ?_
  generalize (optionsOf c).1 = o at h2
  generalize toLower (pathExt image) = ext at h2
  refine small_no_map (hs contents h1) ((C57_command env w order image binary address start).1 hmk).2 ?_
  cases h2 <;> simp only [List.mem_cons, List.not_mem_nil, or_false] at ht <;> rcases ht with rfl | rfl <;> decide +kernel

/-- C109: otherwise they do not: if the binary reads like a sector map when the disk is taken to be in the order that is tried first, `put` without a system
named writes every new file for which the map has room to the disk, over the program. -/
theorem C109_unsafe (env env' : Env) {w w' : World} {order : DiskOrder} {image binary : Str} {address start : UInt16} (hi : image ≠ str "-")
    (hb : binary ≠ str "-") (hmk : (run env (.mksd order image binary address start) w).1 = .ok ())
    (hw : w'.files image = (run env (.mksd order image binary address start) w).2.files image)
    {contents : Bytes} (hbin : w.files binary = some contents) {order' taken : DiskOrder} {os : List DiskOrder}
    (hcand : CandidateOrders order' (toLower (pathExt image)) (taken :: os))
    (hs : SpellsMap contents (mapPages (sdOrder order image) taken))
    {source t name : Str} (hso : source ≠ str "-") {data : Bytes} (hdata : w'.files source = some data) (hd : data ≠ [])
    (hty : Types.filetypeForName t = .ok filetypeBinary) {f : UInt8} (hc : (0x3A : UInt8) ∉ name) (hn : NumericName name f) (hf34 : f ≠ 3 ∧ f ≠ 4)
    (hnew : ∀ n, n < 560 → mapBytes contents (mapPages (sdOrder order image) taken) n ≠ f)
    (hroom : sectorsNeeded data.length ≤ (ownedBy (mapBytes contents (mapPages (sdOrder order image) taken)) 0xFF).length) (a : UInt16) :
    (run env' (.put order' (str "auto") t false a image name source) w').1 = .ok () ∧
    (run env' (.put order' (str "auto") t false a image name source) w').2.files image ≠ w'.files image := by
  obtain ⟨contents', img, raw, h1, h2, h3, hl, hv⟩ := C56_command env w order image binary address start hi hb hmk
  rw [hbin] at h1
  simp only [Option.some.injEq] at h1
  subst h1
  have ho := ((C57_command env w order image binary address start).1 hmk).2
  have ht : taken ∈ [orderDO, orderPO] := by
    generalize toLower (pathExt image) = ext at hcand
    cases hcand <;> decide +kernel
  have hv' : View taken (str "raw") raw (viewOf taken orderRaw raw) := (view_iff (taken_named ht) raw_named hl).2 rfl
  have hvd : View taken (str "do") raw (viewOf taken orderDO raw) := (view_iff (taken_named ht) (by decide +kernel) hl).2 rfl
  have hnd := C109_not_dos h2 ho hl hv (taken_named ht) hvd
  generalize viewOf taken orderRaw raw = v at hv'
  have hown : ∀ n, n < 560 → owner v n = mapBytes contents (mapPages (sdOrder order image) taken) n := fun n hn => sd_owner h2 ho hv ht hv' hn
  have hvl : v.length = 143360 := by rw [(view_iff (taken_named ht) raw_named hl).1 hv']; exact viewOf_length (taken_named ht) raw_named hl
  have hnk : NakedOS v := ⟨hvl, (legalMap_congr hown).2 hs⟩
  obtain ⟨o, hop, hod⟩ := C84_nakedos (env := env') hl hcand hv' hnk hvd hnd.1 hnd.2
  subst hod
  have hraw : w'.files image = some raw := by rw [hw, h3]
  have hfi : Finds env' w' image order' (str "auto") (.nakedos o) taken :=
    ⟨raw, by unfold given; rw [if_neg hi, hraw], by rw [if_neg hi]; exact hop⟩
  have hf : ownedBy (owner o.data) f = [] := by
    unfold ownedBy
    rw [List.filter_eq_nil_iff]
    intro n hn
    rw [hown n (List.mem_range.1 hn)]
    simpa using hnew n (List.mem_range.1 hn)
  have hff : ownedBy (owner o.data) 0xFF = ownedBy (mapBytes contents (mapPages (sdOrder order image) taken)) 0xFF := by
    unfold ownedBy
    exact List.filter_congr fun n hn => by rw [hown n (List.mem_range.1 hn)]
  have hnil : fileOnDisk o.data f = [] := by
    unfold fileOnDisk fileBytes
    rw [hf]; rfl
  have hok := (C78_put_number hi hfi hso hdata hd hty hc hn false a).2 ⟨by rw [hff]; omega, Or.inr hnil⟩
  refine ⟨hok, ?_⟩
  obtain ⟨raw', o1, ord, data', new, r1, r2, r3, r4, o', g, r5, _, r6, r7, r8, r9, r10⟩ := C63_put_partial env' _ _ _ _ _ _ _ _ _ hi hok
  rw [hraw] at r1
  simp only [Option.some.injEq] at r1
  subst r1
  rw [hop] at r2
  simp only [Out.ok.injEq, Prod.mk.injEq, AnyOp.nakedos.injEq] at r2
  obtain ⟨rfl, rfl⟩ := r2
  rw [r4, hraw]
  intro e
  simp only [Option.some.injEq] at e
  subst e
  have hsame : o'.data = o.data := by rw [(open_naked r5).data, (open_naked hop).data]
  obtain rfl : f = g := r7 _ _ (.plain hc) hn
  have := (r10 hf34.1 hf34.2).1
  rw [hsame, hnil] at this
  unfold given at r3
  rw [if_neg hso, hdata] at r3
  simp only [Option.some.injEq] at r3
  subst r3
  exact hd (List.append_eq_nil_iff.1 this.symm).1

/-! ### A binary that reads like a sector map -/

/-- Thirteen pages, with twelve bytes FE in page 11 and FF everywhere else. -/
def mapBinary : Bytes := List.replicate 3024 0xFF ++ (List.replicate 12 0xFE ++ List.replicate 292 0xFF)

theorem mapBinary_length : mapBinary.length = 3328 := by
  unfold mapBinary
  simp only [List.length_append, List.length_replicate]

theorem mapBinary_getD (i : Nat) (h : i < 3328) : mapBinary.getD i 0 = if 3024 ≤ i ∧ i < 3036 then 0xFE else 0xFF := by
  unfold mapBinary
  rw [List.getD_eq_getElem?_getD]
  by_cases h1 : i < 3024
  · rw [List.getElem?_append_left (by rw [List.length_replicate]; exact h1), List.getElem?_replicate, if_pos h1, if_neg (by omega)]; rfl
  · rw [List.getElem?_append_right (by rw [List.length_replicate]; omega), List.length_replicate]
    by_cases h2 : i < 3036
    · rw [List.getElem?_append_left (by rw [List.length_replicate]; omega), List.getElem?_replicate, if_pos (by omega), if_pos (by omega)]; rfl
    · rw [List.getElem?_append_right (by rw [List.length_replicate]; omega), List.length_replicate, List.getElem?_replicate, if_pos (by omega), if_neg (by omega)]
      rfl

theorem mapBinary_bytes (n : Nat) (h : n < 560) : mapBytes mapBinary (11, 4, 12) n = if n < 12 then 0xFE else 0xFF := by
  unfold mapBytes
  simp only
  split
  · rw [mapBinary_getD _ (by omega)]
    by_cases h1 : n < 12
    · rw [if_pos h1, if_pos (by omega)]
    · rw [if_neg h1, if_neg (by omega)]
  · rw [if_neg (show ¬ n < 12 by omega)]
    split
    · rw [mapBinary_getD _ (by omega), if_neg (by omega)]
    · rw [mapBinary_getD _ (by omega), if_neg (by omega)]

theorem run_pair {α β : Type} {p : α × β} {a : α} (h : p.1 = a) : p = (a, p.2) := by
  subst h
  rfl

/-- The binary, and a file to be put. -/
def mapWorld : World where
  files p := if p = str "prog" then some mapBinary else if p = str "x" then some [1] else none
  stdin := []
  stdout := []

theorem mapWorld_prog : mapWorld.files (str "prog") = some mapBinary := by
  unfold mapWorld
  simp only [if_true]

theorem mapWorld_mksd (env : Env) : (run env (.mksd (str "auto") (str "a.do") (str "prog") 0x2000 0xFFFF) mapWorld).1 = .ok () := by
  refine (C57_command _ _ _ _ _ _ _).2 ⟨?_, by decide +kernel⟩
  have hp : pages mapBinary = 13 := by unfold pages; rw [mapBinary_length]
  obtain ⟨img, h⟩ := sdImage_iff.2 (show SdOk mapBinary 0x2000 (effectiveStart 0x2000 0xFFFF) from by
    unfold SdOk
    rw [mapBinary_length, hp]
    decide +kernel)
  refine ⟨mapBinary, img, ?_, h⟩
  unfold given
  rw [if_neg (by decide +kernel), mapWorld_prog]

/-- C109 fails as stated: on the disk made from this binary, `put` succeeds and overwrites the program. -/
theorem C109_violated (env : Env) : ∃ w w', run env (.mksd (str "auto") (str "a.do") (str "prog") 0x2000 0xFFFF) w = (.ok (), w') ∧
    (run env (.put (str "auto") (str "auto") (str "B") false 0 (str "a.do") (str "DF05") (str "x")) w').1 = .ok () ∧
    (run env (.put (str "auto") (str "auto") (str "B") false 0 (str "a.do") (str "DF05") (str "x")) w').2.files (str "a.do") ≠ w'.files (str "a.do") := by
  have hmk := mapWorld_mksd env
  refine ⟨mapWorld, (run env (.mksd (str "auto") (str "a.do") (str "prog") 0x2000 0xFFFF) mapWorld).2, run_pair hmk, ?_⟩
  have hx : (run env (.mksd (str "auto") (str "a.do") (str "prog") 0x2000 0xFFFF) mapWorld).2.files (str "x") = some [1] := by
    rw [C59_other_files_untouched env _ mapWorld (str "x") (by decide +kernel)]
    unfold mapWorld
    simp only
    rw [if_neg (by decide +kernel), if_pos trivial]
  have hmp : mapPages (sdOrder (str "auto") (str "a.do")) (str "do") = (11, 4, 12) := by decide +kernel
  refine C109_unsafe env env (by decide +kernel) (by decide +kernel) hmk rfl (contents := mapBinary) mapWorld_prog
    (order' := str "auto") (taken := str "do") (os := []) CandidateOrders.byExtDO ?_ (by decide +kernel) hx (by simp) (by decide +kernel) (by decide +kernel) numeric5 (by decide) ?_ ?_ 0
  · rw [hmp]
    refine ⟨fun n hn => ?_, fun n hn => ?_⟩
    · rw [mapBinary_bytes n (by omega), if_pos hn]
    · rw [mapBinary_bytes n hn]
      split <;> decide
  · intro n hn
    rw [hmp, mapBinary_bytes n hn]
    split <;> decide
  · rw [hmp]
    refine List.length_pos_of_mem (a := 12) ?_
    unfold ownedBy
    rw [List.mem_filter]
    refine ⟨List.mem_range.2 (by omega), ?_⟩
    rw [mapBinary_bytes 12 (by omega)]
    decide

theorem small_example (env : Env) {b : Bytes} (hz : b.length = 300) :
    ∃ w w', run env (.mksd (str "auto") (str "a.do") (str "prog") 0x0C00 0xFFFF) w = (.ok (), w') ∧
    (run env (.put (str "auto") (str "auto") (str "B") false 0 (str "a.do") (str "DF05") (str "x")) w').1 ≠ .ok () ∧
    (run env (.put (str "auto") (str "auto") (str "B") false 0 (str "a.do") (str "DF05") (str "x")) w').2.files = w'.files := by
  have hf : (oneFile (str "prog") b).files (str "prog") = some b := by unfold oneFile; simp only [if_true]
  have hmk : (run env (.mksd (str "auto") (str "a.do") (str "prog") 0x0C00 0xFFFF) (oneFile (str "prog") b)).1 = .ok () := by
    refine (C57_command _ _ _ _ _ _ _).2 ⟨?_, by decide +kernel⟩
    have hp : pages b = 2 := by unfold pages; rw [hz]
    obtain ⟨img, h⟩ := sdImage_iff.2 (show SdOk b 0x0C00 (effectiveStart 0x0C00 0xFFFF) from by
      unfold SdOk
      rw [hz, hp]
      decide +kernel)
    exact ⟨b, img, by unfold given; rw [if_neg (by decide +kernel), hf], h⟩
  refine ⟨_, _, run_pair hmk, ?_⟩
  have := C109_small_partial env env (by decide +kernel) (by decide +kernel) hmk rfl
    (c := .put (str "auto") (str "auto") (str "B") false 0 (str "a.do") (str "DF05") (str "x")) rfl (fun contents h => by
      rw [hf] at h
      simp only [Option.some.injEq] at h
      rw [← h, hz]
      omega)
  exact ⟨this.1, this.2.1⟩

/-- Non-vacuity of `C109_small_partial`: after `mksd` of a binary of 300 bytes, `put` of a new file is refused. -/
example (env : Env) : ∃ w w', run env (.mksd (str "auto") (str "a.do") (str "prog") 0x0C00 0xFFFF) w = (.ok (), w') ∧
    (run env (.put (str "auto") (str "auto") (str "B") false 0 (str "a.do") (str "DF05") (str "x")) w').1 ≠ .ok () ∧
    (run env (.put (str "auto") (str "auto") (str "B") false 0 (str "a.do") (str "DF05") (str "x")) w').2.files = w'.files :=
  small_example env (zeros_length 300)

end Verif.Cmd
