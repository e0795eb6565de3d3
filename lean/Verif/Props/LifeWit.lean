import Verif.Props.Life
import Verif.Props.ListNames

/-!
# Non-vacuity of C105

A disk with a symbol table gets a file under DF05:GAME; the next command of the session succeeds and does not name GAME.
-/

set_option autoImplicit false

namespace Verif.Cmd
open Disk Spec

theorem chainTable_mem : ∀ s ∈ Supermon.chainTable, s.address = 0 ∨ s.address = 1 ∧ s.name = str "AAA" ∨ s.address = 0x100 ∧ s.name = str "BBB" := by
  intro s hs
  obtain ⟨i, hi, e⟩ := List.getElem_of_mem hs
  rcases Supermon.chainTable_get i s (by rw [List.getElem?_eq_getElem hi, e]) with ⟨_, rfl⟩ | ⟨_, rfl⟩ | rfl
  · exact Or.inr (Or.inl ⟨rfl, rfl⟩)
  · exact Or.inr (Or.inr ⟨rfl, rfl⟩)
  · exact Or.inl rfl

theorem chainTable_entries {n : Str} (h1 : ¬ SameName (str "AAA") n) (h2 : ¬ SameName (str "BBB") n) : entriesOf Supermon.chainTable n = [] := by
  unfold entriesOf
  rw [List.map_eq_nil_iff, List.filter_eq_nil_iff]
  intro s hs
  simp only [ne_eq, decide_eq_true_eq, not_and]
  intro h0 hn
  rcases chainTable_mem s hs with h | ⟨_, h⟩ | ⟨_, h⟩
  · exact h0 h
  · rw [h] at hn; exact h1 hn
  · rw [h] at hn; exact h2 hn

theorem chainTable_noTableFile : NoTableFile (some (entriesOf Supermon.chainTable)) := by
  rintro d e k _
  cases e
  have : ∀ a ∈ entriesOf Supermon.chainTable k, a = 0 ∨ a = 1 ∨ a = 0x100 := by
    intro a ha
    unfold entriesOf at ha
    obtain ⟨s, hs, rfl⟩ := List.mem_map.1 ha
    rcases chainTable_mem s (List.mem_of_mem_filter hs) with h | ⟨h, _⟩ | ⟨h, _⟩
    · exact Or.inl h
    · exact Or.inr (Or.inl h)
    · exact Or.inr (Or.inr h)
  constructor
  · intro h
    have := this _ h
    revert this
    decide
  · intro h
    have := this _ h
    revert this
    decide

/-- `rm --missingok DF07` on the same image. -/
def rmSeven : Command := .rm (str "do") (str "nakedos") true (str "a.do") (str "DF07")

theorem numeric7 : NumericName (str "DF07") 7 := (Supermon.parseAddressFilename_iff (by decide)).1 (by decide +kernel)

theorem actsAll_one {env : Env} {image : Str} {m m' : Files} {t t' : Option Entries} {p : World × Command}
    (h : ActsAll env image m t [p] m' t') : Acts env image p.1 m t p.2 m' t' := by
  cases h with
  | step h1 h2 => cases h2; exact h1

theorem acts_putGame {env : Env} {w : World} {m m' : Files} {d d1 : Entries} (h : Acts env (str "a.do") w m (some d) putGame m' (some d1))
    (hok : (run env putGame w).1 = .ok ()) (hnm : ¬ Means (some d) (str "GAME") 5) : SetsName d (str "GAME") 5 d1 := by
  unfold putGame at h
  cases h with
  | failed h => exact absurd hok h
  | elsewhere h => exact absurd rfl h
  | put _ _ hp _ haf =>
    rcases hp with ⟨h1, _⟩ | ⟨h1, _⟩ | ⟨a, h1, h2, _⟩
    · exact absurd (Supermon.numeric_no_colon h1) (by decide +kernel)
    · exact absurd h1 (by decide +kernel)
    · obtain ⟨rfl, rfl⟩ := first_colon (Supermon.numeric_no_colon numeric5) (Supermon.numeric_no_colon h2) (game_split.symm.trans h1)
      cases Supermon.C34_numeric_unique h2 numeric5
      obtain ⟨d', e1, e2 | ⟨d'', e2, e3⟩⟩ := haf.2 (by decide +kernel) hnm
      · cases e2
      · cases e1
        cases e2
        exact e3

/-- Non-vacuity of C105: a session of two commands that both succeed, which keep away from the symbol table's own files; the first gives a meaning
to a symbol, which the second does not name. -/
theorem life_game (env : Env) : ∃ w w1 w2 m m1 t t1, Session env (str "a.do") w [(w, putGame), (w1, rmSeven)] w2 ∧
    Session env (str "a.do") w1 [(w1, rmSeven)] w2 ∧ (run env putGame w).1 = .ok () ∧ (run env rmSeven w1).1 = .ok () ∧
    (∀ c ∈ [putGame, rmSeven], Agrees (str "a.do") orderDO c ∧ Spares (str "a.do") (str "AAA") c) ∧ Spares (str "a.do") (str "GAME") rmSeven ∧
    HasFiles w (str "a.do") orderDO m ∧ HoldsNames env w (str "a.do") orderDO t ∧ NoTableFile t ∧
    HasFiles w1 (str "a.do") orderDO m1 ∧ HoldsNames env w1 (str "a.do") orderDO t1 ∧ NoTableFile t1 ∧
    ¬ Means t (str "GAME") 5 ∧ Means t1 (str "GAME") 5 := by
  obtain ⟨img, sm, hg, ho, hroom, h5⟩ := tabled5
  obtain ⟨hf, hn, hok⟩ := game_disk env hg ho hroom h5
  have hi : str "a.do" ≠ str "-" := by decide +kernel
  have hopen := open_view env hg (Or.inl rfl) (str "a.do") (ord := orderDO)
  have e : Supermon.tableOn sm img = some Supermon.chainTable := (Supermon.opened_table (o := ⟨img, sm, some _⟩) hg ho).symm
  rw [e] at hopen
  have hfi : Finds env (twoFiles img) (str "a.do") (str "do") (str "nakedos") (.nakedos ⟨img, sm, some Supermon.chainTable⟩) orderDO :=
    ⟨_, by unfold given; rw [if_neg hi, twoFiles_a], by rw [if_neg hi]; exact hopen⟩
  obtain ⟨hf0, hn0⟩ := C105_begin hi hfi
  simp only [Option.map_some] at hn0
  have hs1 : Session env (str "a.do") (twoFiles img) [(twoFiles img, putGame)] (run env putGame (twoFiles img)).2 :=
    Session.step rfl (Session.done rfl)
  have hsp : ∀ c ∈ [putGame, rmSeven], Agrees (str "a.do") orderDO c ∧ Spares (str "a.do") (str "AAA") c := by
    intro c hc
    simp only [List.mem_cons, List.not_mem_nil, or_false] at hc
    rcases hc with rfl | rfl
    · exact ⟨fun _ => CandidateOrders.explicitDO _, fun _ => Or.inr (Or.inr ⟨str "DF05", str "GAME", 5, game_split, numeric5, by decide, by decide,
        by decide +kernel, by decide +kernel⟩)⟩
    · refine ⟨fun _ => CandidateOrders.explicitDO _, fun _ => ⟨by decide +kernel, by decide +kernel, fun f hf => ?_⟩⟩
      cases Supermon.C34_numeric_unique hf numeric7
      exact ⟨by decide, by decide⟩
  have hsp7 : Spares (str "a.do") (str "GAME") rmSeven := by
    refine fun _ => ⟨by decide +kernel, by decide +kernel, fun f hf => ?_⟩
    cases Supermon.C34_numeric_unique hf numeric7
    exact ⟨by decide, by decide⟩
  -- the names are not lost
  obtain ⟨chs, hch, _, hn1⟩ := C83_session_partial hi hs1 (fun p hp => by
    simp only [List.mem_cons, List.not_mem_nil, or_false] at hp
    subst hp
    exact game_careful putGame (by simp)) hf hn
  obtain ⟨m1, t1, hact, hf1, hh1⟩ := C105_session hi hs1 (fun p hp => by
    simp only [List.mem_cons, List.not_mem_nil, or_false] at hp
    subst hp
    exact (hsp putGame (by simp)).1) hf0 hn0
  have hact1 := actsAll_one hact
  have hnt1 := (acts_keeps (n := str "AAA") hact1 (hsp putGame (by simp)).2 chainTable_noTableFile).1
  have hgame : entriesOf Supermon.chainTable (str "GAME") = [] := chainTable_entries (by decide +kernel) (by decide +kernel)
  have hnm : ¬ Means (some (entriesOf Supermon.chainTable)) (str "GAME") 5 := by
    rintro ⟨_, d, a, rest, e1, e2, _⟩
    rw [← Option.some.inj e1, hgame] at e2
    cases e2
  obtain ⟨raw1, o1, st1, r1, r2, r3, _⟩ := hn1
  have hsome : ∃ d1, t1 = some d1 ∧ ∀ n, n ≠ [] → entriesOf st1 n = d1 n := by
    obtain ⟨raw', o', k1, k2, k3⟩ := id hh1
    rw [r1] at k1
    cases k1
    rw [r2] at k2
    cases k2
    rcases k3 with ⟨_, k⟩ | ⟨d, st, k, kst, kd⟩
    · rw [r3] at k; cases k
    · rw [r3] at kst; cases kst
      exact ⟨d, k, kd⟩
  obtain ⟨d1, rfl, hd1⟩ := hsome
  have hset := acts_putGame hact1 hok hnm
  have hm1 : Means (some d1) (str "GAME") 5 :=
    ⟨numeric5.1, d1, _, _, rfl, hset.2 (by decide +kernel) _ rfl, by decide⟩
  have hd7 : d1 (str "DF07") = [] := by
    rw [hset.1 _ (by decide +kernel)]
    exact chainTable_entries (by decide +kernel) (by decide +kernel)
  have hnk := open_naked r2
  have hop := hnk.opened
  have hfi1 : Finds env (run env putGame (twoFiles img)).2 (str "a.do") (str "do") (str "nakedos") (.nakedos o1) orderDO :=
    ⟨raw1, by unfold given; rw [if_neg hi, r1], by rw [if_neg hi]; exact r2⟩
  have htab : o1.table = st1 := by unfold Supermon.Operator.table; rw [r3]; rfl
  have hok7 : (run env rmSeven (run env putGame (twoFiles img)).2).1 = .ok () := by
    refine (C94_rm hi hfi1).2 ⟨7, Or.inl numeric7, Or.inr rfl, ?_⟩
    rw [htab]
    intro b s a hfo
    have := (Supermon.opened_fromDisk hop r3).entries_first (by decide +kernel) hfo
    rw [hd1 _ (by decide +kernel), hd7] at this
    cases this
  exact ⟨twoFiles img, _, _, _, m1, _, some d1, Session.step rfl (Session.step rfl (Session.done rfl)), Session.step rfl (Session.done rfl), hok, hok7,
    hsp, hsp7, hf0, hn0, chainTable_noTableFile, hf1, hh1, hnt1, hnm, hm1⟩

end Verif.Cmd
