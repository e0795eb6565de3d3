import Verif.Props.Undo

/-!
# C93: a case
-/

set_option autoImplicit false

namespace Verif.Cmd
open Disk Spec

/-- `put` of the file under its number, in the world of `copy_disk`. -/
theorem number_disk (env : Env) {sm : Supermon.SectorMap} {img : Bytes} (hg : Supermon.Good sm img)
    (ho : Supermon.openOperator img = .ok ⟨img, sm, some Supermon.chainTable⟩) (hroom : 33 ≤ (ownedBy (own sm) 0xFF).length)
    (h5 : ownedBy (own sm) 5 = []) {d : Bytes} (hd : d ≠ []) (hl : d.length ≤ 256) :
    (run env (.put (str "do") (str "nakedos") (str "B") false 0 (str "a.do") (str "DF05") (str "x")) (copyWorld img d)).1 = .ok () := by
  obtain ⟨hfi, _⟩ := copy_disk env hg ho hroom h5 hd hl []
  have hown : ∀ g, ownedBy (owner img) g = ownedBy (own sm) g := hg.owned
  rw [C91_tidy (by decide +kernel) hfi rfl chainTable_knows (by decide +kernel) (copyWorld_x img d) hd
    (fun _ => Or.inl ⟨5, numeric5, by decide, by decide⟩)]
  refine ⟨by decide +kernel, 5, none, ⟨numeric5.1, by decide, by decide⟩, Or.inl ⟨numeric5, rfl⟩, ?_,
    Or.inr ((Supermon.fileOnDisk_nil hg 5).2 h5), fun s hs => by cases hs⟩
  dsimp only
  rw [hown, hown, Supermon.sectorsNeeded_eq]
  have : (d.length + 255) / 256 ≤ 1 := by omega
  omega

/-- A disk on which the file is put, and the disk after that. -/
theorem put_finds (env : Env) {sm : Supermon.SectorMap} {img : Bytes} (hg : Supermon.Good sm img)
    (ho : Supermon.openOperator img = .ok ⟨img, sm, some Supermon.chainTable⟩) (hroom : 33 ≤ (ownedBy (own sm) 0xFF).length)
    (h5 : ownedBy (own sm) 5 = []) {name : Str} {w2 : World}
    (h : run env (.put (str "do") (str "nakedos") (str "B") false 0 (str "a.do") name (str "x")) (copyWorld img [1]) = (.ok (), w2)) :
    ∃ o2, Finds env w2 (str "a.do") (str "do") (str "nakedos") (.nakedos o2) orderDO := by
  have hi : str "a.do" ≠ str "-" := by decide +kernel
  obtain ⟨hfi, _⟩ := copy_disk env hg ho hroom h5 (d := [1]) (by simp) (by simp) []
  obtain ⟨raw, o, ord, data, new, h1, h2, h3, h4, o', f, g1, _⟩ :=
    C63_put_partial env (str "do") (str "nakedos") (str "B") false 0 (str "a.do") name (str "x") (copyWorld img [1]) hi (by rw [h])
  have := open_order (CandidateOrders.explicitDO _) h2
  subst this
  rw [h] at h4
  exact ⟨o', new, by unfold given; rw [if_neg hi]; exact h4, by rw [if_neg hi]; exact g1⟩

/-- Non-vacuity of C93: a file is put on a disk under its number, and under its number and a symbol; both can be undone. -/
theorem game_undo (env : Env) : ∃ w w2 w3 v2 v3 m,
    run env (.put (str "do") (str "nakedos") (str "B") false 0 (str "a.do") (str "DF05") (str "x")) w = (.ok (), w2) ∧
    run env (.rm (str "do") (str "nakedos") false (str "a.do") (str "5")) w2 = (.ok (), w3) ∧
    (∃ raw raw3 img img3, w.files (str "a.do") = some raw ∧ w3.files (str "a.do") = some raw3 ∧
      View orderDO (str "raw") raw img ∧ View orderDO (str "raw") raw3 img3 ∧ SameUpToFree img img3) ∧
    run env (.put (str "do") (str "nakedos") (str "B") false 0 (str "a.do") (str "DF05:GAME") (str "x")) w = (.ok (), v2) ∧
    run env (.rm (str "do") (str "nakedos") false (str "a.do") (str "GAME")) v2 = (.ok (), v3) ∧
    HasFiles w (str "a.do") orderDO m ∧ HasFiles v3 (str "a.do") orderDO m ∧
    HasNames env v3 (str "a.do") orderDO (str "AAA") (fun _ => none) := by
  obtain ⟨img, sm, hg, ho, hroom, h5⟩ := tabled5
  have hi : str "a.do" ≠ str "-" := by decide +kernel
  have hx : str "x" ≠ str "-" := by decide +kernel
  have hd1 : ([1] : Bytes) ≠ [] := by simp
  obtain ⟨hfi, hn, _, hrun⟩ := copy_disk env hg ho hroom h5 (d := [1]) hd1 (by simp) (str "B")
  have hok1 := number_disk env hg ho hroom h5 (d := [1]) hd1 (by simp)
  have hok2 := hrun.2 (by decide +kernel)
  have hgx : given (copyWorld img [1]) (str "x") = some [1] := by unfold given; rw [if_neg hx]; exact copyWorld_x img [1]
  have hw : ∃ w2, run env (.put (str "do") (str "nakedos") (str "B") false 0 (str "a.do") (str "DF05") (str "x")) (copyWorld img [1]) =
      (.ok (), w2) := ⟨_, Prod.ext hok1 rfl⟩
  obtain ⟨w2, hw⟩ := hw
  have hv : ∃ v2, run env (.put (str "do") (str "nakedos") (str "B") false 0 (str "a.do") (str "DF05:GAME") (str "x")) (copyWorld img [1]) =
      (.ok (), v2) := ⟨_, Prod.ext hok2 rfl⟩
  obtain ⟨v2, hv⟩ := hv
  obtain ⟨o2, hf2⟩ := put_finds env hg ho hroom h5 hw
  obtain ⟨p2, hg2⟩ := put_finds env hg ho hroom h5 hv
  have h55 : NumericName (str "5") 5 := (Supermon.parseAddressFilename_iff (by decide)).1 (by decide +kernel)
  have hns : Supermon.NoSymbol (Supermon.Operator.mk img sm (some Supermon.chainTable)).table (str "5") := by
    intro s hs e
    have hs' : s ∈ Supermon.chainTable := hs
    rcases chainTable_knows.1.entries s hs' with rfl | ⟨_, hsy, hup⟩
    · revert e; decide +kernel
    · have : s.name = str "5" := by rw [← hup, ← e]; decide +kernel
      rw [this] at hsy
      exact hsy.2 5 h55
  obtain ⟨a1, a2, _⟩ := C93_number hi numeric5 h55 (by decide) (by decide) hd1 hgx hfi ((Supermon.fileOnDisk_nil hg 5).2 h5) hns
    hok1 (w2 := w2) (by rw [hw]) hf2 false
  have hm : HasFiles (copyWorld img [1]) (str "a.do") orderDO (fileOnDisk img) := hasFiles_good hg (copyWorld_a img [1])
  obtain ⟨b1, b2, b3⟩ := C93_name_partial (w2 := v2) (s := str "GAME") hi hm hn
    ⟨game_symbolic, rfl, Or.inr ⟨str "DF05", 5, game_split, numeric5, by decide, by decide, (Supermon.fileOnDisk_nil hg 5).2 h5⟩⟩
    (by decide +kernel) hd1 hgx (CandidateOrders.explicitDO _) (CandidateOrders.explicitDO _) hok2 (by rw [hv]) hg2 false
  have hw3 : ∃ w3, run env (.rm (str "do") (str "nakedos") false (str "a.do") (str "5")) w2 = (.ok (), w3) := ⟨_, Prod.ext a1 rfl⟩
  obtain ⟨w3, hw3⟩ := hw3
  have hv3 : ∃ v3, run env (.rm (str "do") (str "nakedos") false (str "a.do") (str "GAME")) v2 = (.ok (), v3) := ⟨_, Prod.ext b1 rfl⟩
  obtain ⟨v3, hv3⟩ := hv3
  rw [hw3] at a2
  rw [hv3] at b2 b3
  exact ⟨copyWorld img [1], w2, w3, v2, v3, fileOnDisk img, hw, hw3, a2, hv, hv3, hm, b2, b3⟩

end Verif.Cmd
