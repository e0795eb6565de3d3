import Verif.Props.AnyTable
import Verif.Props.LifeWit

/-!
# Non-vacuity of C90_exact, C92_exact and C93_exact

Two puts on a disk with a symbol table: one keeps the table, one spoils it.
-/

set_option autoImplicit false

namespace Verif.Supermon
open Disk Spec

theorem chainTable_noGame : ∀ s ∈ chainTable, ¬ SameName s.name (str "GAME") := by
  intro s hs
  obtain ⟨i, hi, e⟩ := List.getElem_of_mem hs
  rcases chainTable_get i s (by rw [List.getElem?_eq_getElem hi, e]) with ⟨_, rfl⟩ | ⟨_, rfl⟩ | rfl <;> decide +kernel

theorem chainTable_game_fits : ¬ AddingSpoils chainTable (str "GAME") (0xDF00 + (5 : UInt8).toUInt16) := by
  rintro (⟨i, s, h, _⟩ | ⟨_, p, j, t, ⟨⟨x, h1, h2⟩, _⟩, ⟨h3, _, h4, h5⟩, _⟩)
  · exact chainTable_noGame s (List.mem_of_getElem? h.1) h.2.1
  · rcases chainTable_get j t h3 with ⟨_, rfl⟩ | ⟨_, rfl⟩ | rfl
    · simp only at h5; omega
    · have : p = 0 := by simp only at h5; omega
      subst this
      rcases chainTable_get 0 x h1 with ⟨_, rfl⟩ | ⟨h, _⟩ | rfl
      · exact absurd h2 (by decide)
      · exact absurd h (by decide)
      · have h0 : chainTable[0]? = some ⟨1, str "AAA", -1⟩ := by unfold chainTable; rfl
        rw [h0] at h1
        exact absurd (Option.some.inj h1) (by decide +kernel)
    · exact h4 rfl

end Verif.Supermon

namespace Verif.Cmd
open Disk Spec

theorem reopen_after {env : Env} {w : World} {image : Str} {o : Supermon.Operator} {ord : DiskOrder} (hi : image ≠ str "-")
    (hf : Finds env w image ord (str "nakedos") (.nakedos o) ord) {c : Command} (hag : Agrees image ord c) :
    ∃ o2, Finds env (run env c w).2 image ord (str "nakedos") (.nakedos o2) ord := by
  obtain ⟨hf0, hn0⟩ := C105_begin hi hf
  obtain ⟨m1, t1, _, _, raw, o2, r1, r2, _⟩ := C105_session hi (Session.step (c := c) rfl (Session.done rfl)) (fun p hp => by
    simp only [List.mem_cons, List.not_mem_nil, or_false] at hp
    subst hp
    exact hag) hf0 hn0
  exact ⟨o2, raw, by unfold given; rw [if_neg hi, r1], by rw [if_neg hi]; exact r2⟩

/-- A put that keeps the table: the hypotheses of C90_exact, C92_exact and C93_exact. -/
theorem game_exact (env : Env) : ∃ w o o2, Finds env w (str "a.do") (str "do") (str "nakedos") (.nakedos o) orderDO ∧
    (run env putGame w).1 = .ok () ∧ Finds env (run env putGame w).2 (str "a.do") (str "do") (str "nakedos") (.nakedos o2) orderDO ∧
    given w (str "x") = some [1] ∧ PutMeans (fileOnDisk o.data) o.table (str "DF05:GAME") 5 (str "GAME") ∧ LegalName (str "GAME") ∧
    fileOnDisk o.data 5 = [] ∧ (∀ s ∈ o.table, ¬ SameName s.name (str "GAME")) ∧
    ¬ AddingSpoils o.table (str "GAME") (0xDF00 + (5 : UInt8).toUInt16) := by
  obtain ⟨img, sm, hg, ho, hroom, h5⟩ := tabled5
  obtain ⟨_, _, hok⟩ := game_disk env hg ho hroom h5
  have hi : str "a.do" ≠ str "-" := by decide +kernel
  have hx : str "x" ≠ str "-" := by decide +kernel
  have hopen := open_view env hg (Or.inl rfl) (str "a.do") (ord := orderDO)
  have e : Supermon.tableOn sm img = some Supermon.chainTable := (Supermon.opened_table (o := ⟨img, sm, some _⟩) hg ho).symm
  rw [e] at hopen
  have hfi : Finds env (twoFiles img) (str "a.do") (str "do") (str "nakedos") (.nakedos ⟨img, sm, some Supermon.chainTable⟩) orderDO :=
    ⟨_, by unfold given; rw [if_neg hi, twoFiles_a], by rw [if_neg hi]; exact hopen⟩
  obtain ⟨o2, h2⟩ := reopen_after (c := putGame) hi hfi (fun _ => CandidateOrders.explicitDO _)
  refine ⟨twoFiles img, _, o2, hfi, hok, h2, by unfold given; rw [if_neg hx, twoFiles_x], ?_, by decide +kernel, ?_, Supermon.chainTable_noGame,
    Supermon.chainTable_game_fits⟩
  · rw [game_split]
    exact Supermon.means_number_symbol _ _ numeric5 (by decide +kernel) (by decide +kernel)
  · exact (Supermon.fileOnDisk_nil hg 5).2 h5

/-- A put that spoils the table: the hypotheses of C90_exact and C92_exact. -/
theorem aaa_exact (env : Env) : ∃ w o o2, Finds env w (str "a.do") (str "do") (str "nakedos") (.nakedos o) orderDO ∧
    (run env (.put (str "do") (str "nakedos") (str "B") true 0 (str "a.do") (str "DF05:AAA") (str "src")) w).1 = .ok () ∧
    Finds env (run env (.put (str "do") (str "nakedos") (str "B") true 0 (str "a.do") (str "DF05:AAA") (str "src")) w).2 (str "a.do") (str "do")
      (str "nakedos") (.nakedos o2) orderDO ∧
    given w (str "src") = some [1, 2, 3] ∧ PutMeans (fileOnDisk o.data) o.table (str "DF05:AAA") 5 (str "AAA") ∧ LegalName (str "AAA") ∧
    ¬ StandsFor o.table (str "AAA") 5 ∧ AddingSpoils o.table (str "AAA") (0xDF00 + (5 : UInt8).toUInt16) := by
  obtain ⟨img, sm, hg, ho, hroom⟩ := Supermon.tabled
  obtain ⟨h1, h2, h3⟩ := Supermon.tabled_aaa hg hroom
  have hi : str "a.do" ≠ str "-" := by decide +kernel
  have hx : str "src" ≠ str "-" := by decide +kernel
  have hfi : Finds env (diskWorld img) (str "a.do") (str "do") (str "nakedos") (.nakedos ⟨img, sm, some Supermon.chainTable⟩) orderDO :=
    ⟨viewOf orderRaw orderDO img, by unfold given; rw [if_neg hi]; unfold diskWorld; simp only [if_true],
      by rw [if_neg hi]; exact diskWorld_open hg.len ho⟩
  obtain ⟨o2, h4⟩ := reopen_after (c := .put (str "do") (str "nakedos") (str "B") true 0 (str "a.do") (str "DF05:AAA") (str "src")) hi hfi
    (fun _ => CandidateOrders.explicitDO _)
  refine ⟨diskWorld img, _, o2, hfi, ?_, h4, ?_, ?_, by decide +kernel, ?_, Supermon.chainTable_aaa_spoils⟩
  · rw [diskWorld_put hg.len ho h1 h2.len]
  · unfold given diskWorld
    rw [if_neg hx]
    dsimp only
    rw [if_neg (by decide +kernel), if_pos rfl]
  · exact Supermon.means_number_symbol (a := str "DF05") _ _ ((Supermon.parseAddressFilename_iff (by decide)).1 (by decide +kernel)) (by decide +kernel)
      (by decide +kernel)
  · rintro ⟨_, b, x, y, hfo, ha⟩
    have hx : x ∈ Supermon.chainTable := by
      have := hfo.1
      unfold Supermon.Operator.table at this
      dsimp only [Option.getD_some] at this
      rw [this]; simp
    rcases chainTable_mem x hx with h | ⟨h, _⟩ | ⟨h, _⟩ <;> rw [h] at ha <;> revert ha <;> decide

end Verif.Cmd
