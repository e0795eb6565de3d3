import Verif.Props.Again

/-!
# C90: a disk on which a file is put twice, and one on which that fails
-/

set_option autoImplicit false

namespace Verif.Cmd
open Disk Spec

/-- `putGame` with overwriting. -/
def putGameAgain : Command := .put (str "do") (str "nakedos") (str "B") true 0 (str "a.do") (str "DF05:GAME") (str "x")

/-- The hypotheses of C90 are met: a file put under a new symbol, and put again. -/
theorem game_again (env : Env) : ∃ w w1, run env putGame w = (.ok (), w1) ∧ w1.files ≠ w.files ∧
    (run env putGameAgain w1).1 = .ok () ∧ (run env putGameAgain w1).2.files = w1.files := by
  obtain ⟨img, sm, hg, ho, hroom, h5⟩ := tabled5
  obtain ⟨hf, hn, hok⟩ := game_disk env hg ho hroom h5
  have hcare := (game_careful putGame (by simp)).2
  unfold putGameAgain
  unfold putGame at hok hcare ⊢
  have hi : str "a.do" ≠ str "-" := by decide +kernel
  have hx : str "x" ≠ str "-" := by decide +kernel
  obtain ⟨raw, o, ord, data, new, h1, h2, h3, h4, o', f, g1, _, g3, g4, g5, g6, g7⟩ :=
    C63_put_partial env (str "do") (str "nakedos") (str "B") false 0 (str "a.do") (str "DF05:GAME") (str "x") (twoFiles img) hi hok
  have := open_order (CandidateOrders.explicitDO _) h2
  subst this
  have hf5 : f = 5 := (g4 (str "DF05") 5 (by rw [game_split]; exact .number (by decide +kernel) (by decide +kernel)) numeric5).symm
  have hfind : Finds env (twoFiles img) (str "a.do") (str "do") (str "nakedos") (.nakedos o) orderDO :=
    ⟨raw, by unfold given; rw [if_neg hi]; exact h1, by rw [if_neg hi]; exact h2⟩
  have hgx : given (twoFiles img) (str "x") = some [1] := by unfold given; rw [if_neg hx, twoFiles_x]
  have hdata : data = [1] := by rw [h3] at hgx; exact Option.some.inj hgx
  have hother := C59_other_files_untouched env
    (.put (str "do") (str "nakedos") (str "B") false 0 (str "a.do") (str "DF05:GAME") (str "x")) (twoFiles img) (str "x")
    (by unfold target; decide +kernel)
  have hw : ∃ w1, run env (.put (str "do") (str "nakedos") (str "B") false 0 (str "a.do") (str "DF05:GAME") (str "x")) (twoFiles img) =
      (.ok (), w1) := ⟨_, Prod.ext hok rfl⟩
  obtain ⟨w1, hw⟩ := hw
  rw [hw] at hother
  rw [hw] at h4
  dsimp only at h4 hother
  have hfind2 : Finds env w1 (str "a.do") (str "do") (str "nakedos") (.nakedos o') orderDO :=
    ⟨new, by unfold given; rw [if_neg hi]; exact h4, by rw [if_neg hi]; exact g1⟩
  have hgx2 : given w1 (str "x") = some [1] := by unfold given; rw [if_neg hx, hother, twoFiles_x]
  refine ⟨twoFiles img, w1, hw, ?_, ?_⟩
  · intro e
    rw [e, h1] at h4
    cases h4
    have : o = o' := names_operator h2 g1
    subst this
    have e1 := (g7 (by rw [hf5]; decide) (by rw [hf5]; decide)).1
    have e2 := g6 rfl
    rw [e2, hdata] at e1
    exact padded_one e1.symm
  · exact C90_name_partial (env := env) (w := twoFiles img) (order := str "do") (system := str "nakedos") (ty := str "B") (ow := false) (source := str "x") hi
      hcare hn hok (by rw [hw]) hfind hfind2 (data := [1]) (by simp) hgx hgx2

/-- C90 fails for the symbol of the table's first entry, if it ends the chain of another: the first `put` succeeds and the second fails. -/
theorem C90_violated (env : Env) : ∃ w w', HasNames env w (str "a.do") orderDO (str "AAA") (fun _ => none) ∧
    run env (.put (str "do") (str "nakedos") (str "B") true 0 (str "a.do") (str "DF05:AAA") (str "src")) w = (.ok (), w') ∧
    run env (.put (str "do") (str "nakedos") (str "B") true 0 (str "a.do") (str "DF05:AAA") (str "src")) w' = (.err .other, w') := by
  obtain ⟨img, sm, hg, hopen, hroom⟩ := Supermon.tabled
  obtain ⟨h1, h2, h3⟩ := Supermon.tabled_aaa hg hroom
  refine ⟨diskWorld img, _, ?_, diskWorld_put hg.len hopen h1 h2.len, ?_⟩
  · exact ⟨_, _, _, by unfold diskWorld; dsimp only; rw [if_pos rfl], diskWorld_open hg.len hopen, rfl, chainTable_knows⟩
  · generalize (⟨img, sm, some Supermon.chainTable⟩ : Supermon.Operator).putFile
      ⟨{ name := str "DF05:AAA", length := ([1, 2, 3] : Bytes).length, type := filetypeBinary }, [1, 2, 3], 0⟩ true = r at h2 h3 ⊢
    have ho := Supermon.open_of_good h2
    rw [h3] at ho
    have hd := diskWorld_open (env := env) h2.len ho
    have hw : ((diskWorld img).writeFile (str "a.do") (viewOf orderRaw orderDO r.op.data)).files (str "a.do") =
        some (viewOf orderRaw orderDO r.op.data) := by
      unfold World.writeFile
      dsimp only
      rw [if_pos rfl]
    have hs : ((diskWorld img).writeFile (str "a.do") (viewOf orderRaw orderDO r.op.data)).files (str "src") = some [1, 2, 3] := by
      unfold World.writeFile
      dsimp only
      rw [if_neg (by decide +kernel)]
      unfold diskWorld
      dsimp only
      rw [if_neg (by decide +kernel), if_pos rfl]
    generalize (diskWorld img).writeFile (str "a.do") (viewOf orderRaw orderDO r.op.data) = w' at hw hs ⊢
    change putCmd env World.writeOutput (str "do") (str "nakedos") (str "B") true 0 (str "a.do") (str "DF05:AAA") (str "src") w' = _
    unfold putCmd
    rw [if_neg (fun h => absurd h.1 (by decide +kernel)), bind_run (w' := w') (by rw [openDisk_eq (by decide +kernel) hw, hd])]
    dsimp only
    rw [bind_run (a := [1, 2, 3]) (w' := w') (by unfold contentsOf World.fileContentsOrStdIn; rw [if_neg (by decide +kernel), hs])]
    rw [bind_run (a := filetypeBinary) (w' := w') (by unfold lift; rw [show Types.filetypeForName (str "B") = .ok filetypeBinary by decide +kernel])]
    have e : ∀ (d : Bytes) (m : Supermon.SectorMap) (fi : FileInfo), fi.descriptor.name = str "DF05:AAA" → fi.descriptor.type = filetypeBinary →
        fi.descriptor.length = fi.data.length →
        AnyOp.putFile (.nakedos ⟨d, m, none⟩) fi true = (.err .other, .nakedos ⟨d, m, none⟩) := by
      intro d m fi e1 e2 e3
      unfold AnyOp.putFile Supermon.Operator.putFile
      dsimp only
      rw [if_neg (by simp [e2]), if_neg (by simp [e3]), e1,
        show Supermon.filesForCompoundName (Supermon.Operator.table ⟨d, m, none⟩) (str "DF05:AAA") = .ok (5, 0, str "AAA") by
          change Supermon.filesForCompoundName [] (str "DF05:AAA") = _; decide +kernel]
      dsimp only
      rw [if_pos ⟨by decide +kernel, rfl⟩]
    generalize hfi : (⟨{ name := str "DF05:AAA", length := ([1, 2, 3] : Bytes).length, type := filetypeBinary }, [1, 2, 3], 0⟩ : FileInfo) = fi
    rw [e _ _ fi (by rw [← hfi]) (by rw [← hfi]) (by rw [← hfi])]
    exact bind_err rfl

end Verif.Cmd
