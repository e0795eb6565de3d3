import Verif.Props.InTime
import Verif.Props.StepsWit

/-!
# C115: commands that end in time
-/

set_option autoImplicit false
set_option maxRecDepth 20000

namespace Verif.Cmd
open Disk Spec Spec.Prodos

theorem blank_listedOnce (n : Nat) : ListedOnce (zeros n) := by
  have hz := blank_bbyte n
  have hd : ∀ k, DirOf (zeros n) k → k = 2 := fun k hk => hk.resolve_right (Prodos.blank_no_subdir hz k)
  refine ⟨fun k l hk hl => ?_, fun k k' j hk hk' h _ => ?_, fun k hk h => ?_⟩
  · have := hd k hk
    subst this
    have : subdirKeys (zeros n) 2 l = [] := by
      by_contra hne
      obtain ⟨j, hj⟩ := List.exists_mem_of_ne_nil _ hne
      unfold subdirKeys at hj
      obtain ⟨e, he, rfl⟩ := List.mem_map.1 hj
      obtain ⟨h1, h2⟩ := List.mem_filter.1 he
      exact Prodos.blank_no_child hz _ ⟨l, e, hl, h1, by simpa using h2, rfl⟩
    rw [this]; exact List.nodup_nil
  · rw [hd k hk, hd k' hk']
  · rw [hd k hk] at h
    exact Prodos.blank_no_child hz _ h

theorem blank_trees {n : Nat} (hn : n = 143360) (name : Str) (order : DiskOrder) : TreesOnly name order (zeros n) := by
  have hl : (zeros n).length = 143360 := by rw [zeros_length, hn]
  refine ⟨fun _ os hos o ho v hv => ?_, fun _ => blank_listedOnce n⟩
  have hno := (candidateOrders_named hos).2 o ho
  have hp := system_order_named .prodos
  have : v = zeros n := by
    rw [(view_iff hno hp hl).1 hv, ← (view_iff hno hp hl).1 (blank_view hn hno hp)]
  rw [this]; exact blank_listedOnce n

/-- Non-vacuity of `C115_in_time_partial`: on an unused disk, every command that opens it ends within 143361 rounds. -/
theorem blank_in_time {n : Nat} (hn : n = 143360) (c : Command) (w : World) (hc : programOf c = none)
    (hw : ∀ p o, imageOf c = some (p, o) → contentOf w p = some (zeros n)) (ord : RangeOrder UInt16 Prodos.Subdirectory) :
    (run ⟨n + 1, ord⟩ c w).1 ≠ .timeout := by
  have key : ∀ p o raw, imageOf c = some (p, o) → contentOf w p = some raw → raw = zeros n := by
    intro p o raw h hr
    rw [hw p o h] at hr
    exact (Option.some.inj hr).symm
  refine C115_in_time_partial c w ⟨fun p o raw h hr => ?_, fun p l raw h => by rw [hc] at h; cases h⟩ (fun p o raw h hr => ?_)
    ⟨fun p o raw h hr => ?_, fun p l raw h => by rw [hc] at h; cases h⟩ ord
  · rw [key p o raw h hr]; exact blank_noCircles hn _ _
  · rw [key p o raw h hr]; exact blank_trees hn _ _
  · rw [key p o raw h hr, zeros_length]; omega

/-- Non-vacuity of `C115_settled_partial`: listing a volume with a subdirectory. -/
example (w : World) (hw : w.files (str "x.po") = some Prodos.goodDev) (dir : Str) (ord : RangeOrder UInt16 Prodos.Subdirectory) (m : Nat)
    (hm : 143361 ≤ m) : run ⟨143361, ord⟩ (.ls (str "auto") (str "prodos") false (str "x.po") dir) w =
      run ⟨m, ord⟩ (.ls (str "auto") (str "prodos") false (str "x.po") dir) w := by
  have key : ∀ p o raw, imageOf (.ls (str "auto") (str "prodos") false (str "x.po") dir) = some (p, o) → contentOf w p = some raw →
      raw = Prodos.goodDev ∧ p = str "x.po" ∧ o = str "auto" := by
    intro p o raw h hr
    cases h
    unfold contentOf at hr
    rw [if_neg (by decide), hw] at hr
    exact ⟨(Option.some.inj hr).symm, rfl, rfl⟩
  refine C115_settled_partial _ w (fun p o raw h hr => ?_) ⟨fun p o raw h hr => ?_, fun p l raw h => by cases h⟩ hm ord
  · obtain ⟨rfl, rfl, rfl⟩ := key p o raw h hr
    refine ⟨fun hl os hos o' ho' v hv => ?_, fun hl => absurd Prodos.good_length hl⟩
    have e : ordersToTry (str "auto") (toLower (pathExt (judgedBy (str "x.po")))) = some [str "po"] := by decide +kernel
    rw [(ordersToTry_iff _ _ _).2 hos] at e
    cases e
    rw [List.mem_singleton] at ho'
    subst ho'
    have hp : orderPO ∈ [orderDO, orderPO, orderRaw] := by simp
    have : v = Prodos.goodDev := by
      rw [(view_iff hp hp hl).1 hv]
      exact ((view_iff hp hp hl).1 (view_po hl)).symm
    rw [this]; exact Prodos.good_listedOnce
  · obtain ⟨rfl, _, _⟩ := key p o raw h hr
    rw [Prodos.good_length]; decide

/-- Non-vacuity of `C115_plain_floppies`: a DOS 3.3 disk with files. -/
example (env env' : Env) (w : World) (hw : w.files (str "x.dsk") = some Dos3.exDisk) (name : Str) :
    run env (.dump (str "auto") (str "auto") (str "x.dsk") name) w = run env' (.dump (str "auto") (str "auto") (str "x.dsk") name) w := by
  refine C115_plain_floppies _ w rfl (fun p o raw h hr => ?_) env env'
  cases h
  unfold contentOf at hr
  rw [if_neg (by decide), hw] at hr
  cases hr
  exact ⟨Dos3.exDisk_length, str "do", [str "po"], CandidateOrders.byExtDsk,
    Or.inl ⟨Or.inl rfl, _, view_self Dos3.exDisk_length, Dos3.exDisk_facts.1, _, Dos3.exDisk_chain⟩⟩

end Verif.Cmd
