import Verif.Props.CmdFiles
import Verif.Props.ReopenWit
import Verif.Props.Dos3Wit
import Verif.Props.ProdosWit

/-!
# Concrete disks for C67, C71-C74
-/

set_option autoImplicit false
set_option maxRecDepth 20000

namespace Verif.Cmd
open Disk Spec

/-- A world with one file. -/
def oneFile (name : Str) (contents : Bytes) : World where
  files p := if p = name then some contents else none
  stdin := []
  stdout := []

theorem finds_oneFile {env : Env} {image : Str} (hi : image ≠ str "-") {raw : Bytes} {order : DiskOrder} {system : Str}
    {op : AnyOp} {ord : DiskOrder} (h : openImage raw image order system (factories env) = .ok (op, ord)) :
    Finds env (oneFile image raw) image order system op ord := by
  refine ⟨raw, ?_, ?_⟩
  · unfold given oneFile
    rw [if_neg hi]
    simp only [if_true]
  · rw [if_neg hi]; exact h

/-- A disk opened as DOS 3.3. -/
theorem finds_dos3 (env : Env) {img : Bytes} (hl : img.length = 143360) :
    Finds env (oneFile (str "a.do") (viewOf orderDO orderDO img)) (str "a.do") (str "do") (str "dos3") (.dos3 ⟨img⟩) orderDO := by
  have hd : orderDO ∈ [orderDO, orderPO, orderRaw] := by simp
  refine finds_oneFile (by decide +kernel) ?_
  have hb := viewOf_length hd hd hl
  obtain ⟨v, hv, e⟩ := (C07_explicit_choice_obeyed hb (factories_orders env) (CandidateOrders.explicitDO (toLower (pathExt (str "a.do"))))
    (system := str "dos3") (by decide)).1 [] (Factory.map .dos3 Dos3.factory) _ rfl rfl (by simp)
  have := (view_iff hd hd hb).1 hv
  subst this
  rw [viewOf_viewOf hd hd hl] at e
  exact e.trans (by rw [map_operator.2 ⟨(⟨img⟩ : Dos3.Operator), rfl, rfl⟩]; rfl)

/-- A disk opened as ProDOS. -/
theorem finds_prodos (env : Env) {img : Bytes} (hl : img.length = 143360) :
    Finds env (oneFile (str "a.po") (viewOf orderPO orderPO img)) (str "a.po") (str "po") (str "prodos") (.prodos ⟨img⟩) orderPO := by
  have hd : orderPO ∈ [orderDO, orderPO, orderRaw] := by simp
  refine finds_oneFile (by decide +kernel) ?_
  have hb := viewOf_length hd hd hl
  obtain ⟨v, hv, e⟩ := (C07_explicit_choice_obeyed hb (factories_orders env) (CandidateOrders.explicitPO (toLower (pathExt (str "a.po"))))
    (system := str "prodos") (by decide)).1 [Factory.map .dos3 Dos3.factory, Factory.map .nakedos Supermon.factory]
      (Factory.map .prodos (Prodos.factory env.budget env.order)) [] rfl rfl (by
      intro g hg
      simp only [List.mem_cons, List.not_mem_nil, or_false] at hg
      rcases hg with rfl | rfl <;> decide)
  have := (view_iff hd hd hb).1 hv
  subst this
  rw [viewOf_viewOf hd hd hl] at e
  exact e.trans (by rw [map_operator.2 ⟨(⟨img⟩ : Prodos.Operator), rfl, rfl⟩]; rfl)

/-- A disk opened as NakedOS. -/
theorem finds_nakedos (env : Env) {img : Bytes} (hl : img.length = 143360) {o : Supermon.Operator} (ho : Supermon.openOperator img = .ok o) :
    Finds env (diskWorld img) (str "a.do") (str "do") (str "nakedos") (.nakedos o) orderDO := by
  refine ⟨viewOf orderRaw orderDO img, ?_, ?_⟩
  · unfold given diskWorld
    rw [if_neg (by decide +kernel)]
    simp only [if_true]
  · rw [if_neg (by decide +kernel)]
    exact diskWorld_open hl ho

theorem goodDev_length : Prodos.goodDev.length = 143360 :=
  Prodos.dev_length (by decide +kernel) (by decide +kernel) (by decide +kernel)

theorem ls_prodos_example {img : Bytes} (hl : img.length = 143360) (env : Env) {dir : Str} {ds : List Descriptor}
    (h : Prodos.Operator.catalog env.budget env.order ⟨img⟩ dir = .ok ds) :
    ∃ w w', run env (.ls (str "po") (str "prodos") false (str "a.po") dir) w = (.ok (), w') ∧ w'.stdout = lsLines false ds := by
  have e := ls_eq (finds_prodos env hl) false dir
  rw [if_neg (by simp [AnyOp.hasSubdirs]), show (AnyOp.prodos ⟨img⟩).catalog env dir = .ok ds from h] at e
  refine ⟨_, _, e, ?_⟩
  dsimp only
  rw [(afterReading_same _ _).2]
  rfl

/-- Non-vacuity of C67: `put` on the example DOS 3.3 disk and `rm` on the example ProDOS disk. -/
example (env : Env) : ∃ w w2, (run env (.put (str "do") (str "dos3") (str "B") true 0 (str "a.do") (str "HI") (str "src")) w).1.isErr = true ∧
    (run env (.rm (str "po") (str "prodos") true (str "a.po") (str "F")) w2).1.isErr = true :=
  ⟨_, _, ((C67_writes_refused (finds_dos3 env Dos3.exDisk_length) (Or.inl ⟨_, rfl⟩)).1 _ _ _ _ _).1,
    ((C67_writes_refused (finds_prodos env goodDev_length) (Or.inr ⟨_, rfl⟩)).2 _ _).1⟩

/-- Non-vacuity of C71 for DOS 3.3: the deleted file is not listed. -/
example (env : Env) : ∃ w w', run env (.ls (str "do") (str "dos3") false (str "a.do") []) w = (.ok (), w') ∧
    w'.stdout = str "EMPTY\nLONG\nHUGE\nHI\n" := by
  obtain ⟨w', h1, _, h2⟩ := C71_ls_dos3 (finds_dos3 env Dos3.exDisk_length) false Dos3.exDisk_facts.1 _ Dos3.exDisk_chain
  refine ⟨_, w', h1, ?_⟩
  rw [h2, Dos3.exDisk_entries]
  decide +kernel

/-- Non-vacuity of C71 for ProDOS: the subdirectory "A" of the example volume. -/
example (ord : RangeOrder UInt16 Prodos.Subdirectory) :
    ∃ w w', run ⟨1, ord⟩ (.ls (str "po") (str "prodos") false (str "a.po") (str "A")) w = (.ok (), w') ∧ w'.stdout = str "F\n" := by
  obtain ⟨w, w', h1, h2⟩ := ls_prodos_example goodDev_length ⟨1, ord⟩ (Prodos.good_lists ord)
  exact ⟨w, w', h1, by rw [h2]; decide +kernel⟩

/-- Non-vacuity of C72 for DOS 3.3: the text "HI" without its padding. -/
example (env : Env) : ∃ w, Dumps env w (str "do") (str "dos3") (str "a.do") (str "HI") [0xC8, 0xC9, 0x8D] := by
  refine ⟨_, (C72_dump_dos3_partial (finds_dos3 env Dos3.exDisk_length) Dos3.exDisk_facts.1 _ Dos3.exDisk_chain (str "HI")).1
    (Dos3.mkEntry 17 7 0x00 (str "HI") 2) [(17, 7)] _ ?_ ?_ ?_ ?_ ?_⟩
  · rw [Dos3.exDisk_entries]; decide +kernel
  · exact Dos3.exDisk_fileChain 7 (by omega) (by omega) (by decide +kernel) (by decide +kernel)
  · intro p hp
    simp only [List.getLast?_singleton, Option.some.injEq] at hp
    subst hp
    rw [Dos3.exDisk_pairs 7 (by omega)]
    exact ⟨(17, 8), by decide +kernel, by decide⟩
  · intro p hp q hq hne
    rw [List.mem_singleton.1 hp, Dos3.exDisk_pairs 7 (by omega)] at hq
    have : q = (17, 8) ∨ q = (0, 0) := by
      revert q
      decide +kernel
    rcases this with rfl | rfl
    · exact Dos3.exDisk_onImage 8 (by omega)
    · exact absurd rfl hne
  · left
    have hp : pairsData Dos3.exDisk (filePairs Dos3.exDisk [(17, 7)]) = [0xC8, 0xC9, 0x8D] ++ zeros 253 := by
      have : filePairs Dos3.exDisk [(17, 7)] = [(17, 8)] := by
        show withoutTrailing (0, 0) (pairs Dos3.exDisk (17, 7)) = _
        rw [Dos3.exDisk_pairs 7 (by omega)]
        decide +kernel
      rw [this]
      unfold pairsData
      rw [List.flatMap_cons, List.flatMap_nil, List.append_nil, if_neg (by simp), Dos3.exDisk_sector 8 (by omega)]
      rfl
    rw [hp]
    exact ⟨by decide +kernel, ⟨0xC8, by simp, by decide⟩, by decide +kernel⟩

open Supermon in
theorem lonely_open : openOperator lonelyImg = .ok ⟨lonelyImg, lonelyMap, none⟩ := by
  rw [open_of_good lonely_good]
  refine congrArg (fun t => Out.ok (⟨lonelyImg, lonelyMap, t⟩ : Operator)) (tableOn_none ?_)
  intro t
  unfold readSymbolTable
  rw [readFile_eq lonely_good.len]
  unfold fileBytes
  rw [lonely_3]
  simp

theorem naked_example {img : Bytes} {sm : Supermon.SectorMap} (hg : Supermon.Good sm img)
    (ho : Supermon.openOperator img = .ok ⟨img, sm, none⟩) (h9 : ownedBy (own sm) 9 = [272]) (env : Env) :
    ∃ w w' data, data.length = 256 ∧ Dumps env w (str "do") (str "nakedos") (str "a.do") (str "DF09") data ∧
    run env (.rm (str "do") (str "nakedos") false (str "a.do") (str "DF09")) w = (.ok (), w') := by
  have hf := finds_nakedos env hg.len ho
  have hn : Supermon.fileForName (Supermon.Operator.table ⟨img, sm, none⟩) (str "DF09") = .ok 9 := by
    unfold Supermon.fileForName
    rw [show Supermon.parseAddressFilename (str "DF09") = 9 by decide +kernel, if_pos (by decide)]
  have hlen : (fileOnDisk img 9).length = 256 := by
    rw [← hg.onDisk, Supermon.fileBytes_length hg.len, h9]; rfl
  have hne : fileOnDisk img 9 ≠ [] := by
    intro e; rw [e] at hlen; simp at hlen
  refine ⟨diskWorld img, (run env (.rm (str "do") (str "nakedos") false (str "a.do") (str "DF09")) (diskWorld img)).2, _, hlen,
    (C72_dump_nakedos hf (str "DF09")).1 9 hn hne, ?_⟩
  rw [← C73_rm_succeeds (by decide +kernel) hf false (str "DF09") 9 hn (by
    intro s hs
    simp [Supermon.Operator.table] at hs) (Or.inl hne)]

/-- Non-vacuity of C72 and C73 for NakedOS: a disk with the one file DF09. -/
example (env : Env) : ∃ w w' data, data.length = 256 ∧ Dumps env w (str "do") (str "nakedos") (str "a.do") (str "DF09") data ∧
    run env (.rm (str "do") (str "nakedos") false (str "a.do") (str "DF09")) w = (.ok (), w') :=
  naked_example Supermon.lonely_good lonely_open Supermon.lonely_9 env

/-- Non-vacuity of C74: a put without `--overwrite` that succeeds. -/
example (env : Env) : ∃ w, (run env (.put (str "do") (str "auto") (str "B") false 0 (str "a.do") (str "DF09") (str "src")) w).1 = .ok () := by
  obtain ⟨w, w', h, _⟩ := C63_violated_auto env
  exact ⟨w, by rw [h]⟩

end Verif.Cmd
