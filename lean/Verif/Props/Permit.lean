import Verif.Spec.Permit
import Verif.Props.Plain

/-!
# C58 for the commands
-/

set_option autoImplicit false

namespace Verif.Cmd
open Disk Spec

/-- `reorder` into a file that exists, without `--overwrite`: no success, and no file changes. -/
theorem C58_reorder_refused (env : Env) (w : World) (order newOrder : DiskOrder) (image newImage : Str) (old : Bytes)
    (hn : newImage ≠ []) (hs : newImage ≠ str "-") (h : w.files newImage = some old) :
    (run env (.reorder order newOrder false image newImage) w).1 ≠ .ok () ∧
    (run env (.reorder order newOrder false image newImage) w).2.files = w.files ∧
    (run env (.reorder order newOrder false image newImage) w).2.stdout = w.stdout := by
  change (reorder World.writeOutput order newOrder false image newImage w).1 ≠ _ ∧
    (reorder World.writeOutput order newOrder false image newImage w).2.files = _ ∧
    (reorder World.writeOutput order newOrder false image newImage w).2.stdout = _
  rcases reorder_cases World.writeOutput w order newOrder false image newImage with ⟨h1, h2⟩ | ⟨b, w', _, h1, _, _, _, e⟩
  · exact ⟨h1, h2⟩
  · rw [e, if_neg hn, if_neg hn]
    obtain ⟨r1, r2⟩ := C58_refuses_to_overwrite w' newImage b hs old (by rw [h1.1]; exact h)
    rw [r2]
    refine ⟨fun hc => ?_, h1⟩
    rw [hc] at r1
    simp [Out.isErr] at r1

/-- C58 for every command: a file that is there is changed only if the command was told to replace it. -/
theorem C58_command (env : Env) (c : Command) (w : World) (q : Str) (old : Bytes) (h : w.files q = some old)
    (hc : (run env c w).2.files q ≠ some old) : ToldToReplace c q := by
  have ht : target c = some q := by
    by_contra hne
    exact hc (by rw [C59_other_files_untouched env c w q hne, h])
  cases c with
  | reorder o n ow i j =>
    by_cases hj : j = []
    · refine Or.inl ⟨hj, ?_⟩
      simpa [target, hj, eq_comm] using ht
    · have hq : q = j := by simpa [target, hj, eq_comm] using ht
      subst hq
      refine Or.inr ⟨hj, rfl, ?_⟩
      cases ow with
      | true => rfl
      | false =>
        exfalso
        by_cases hs : q = str "-"
        · subst hs
          refine hc ?_
          change (reorder World.writeOutput o n false i (str "-") w).2.files (str "-") = some old
          rcases reorder_cases World.writeOutput w o n false i (str "-") with ⟨_, h2⟩ | ⟨b, w', _, h1, _, _, _, e⟩
          · rw [h2.1]; exact h
          · rw [e, if_neg hj, if_neg hj, (C58_stdout w' b false).2.1, h1.1]; exact h
        · exact hc (by rw [(C58_reorder_refused env w o n i q old hj hs h).2.1]; exact h)
  | put o s t ow a i x y => simpa [target, ToldToReplace, eq_comm] using ht
  | rm o s m i n => simpa [target, ToldToReplace, eq_comm] using ht
  | mkhello o i n a s => simpa [target, ToldToReplace, eq_comm] using ht
  | mksd o i b a s => simpa [target, ToldToReplace, eq_comm] using ht
  | ls o s sh i d => simp [target] at ht
  | filetypes a => simp [target] at ht
  | dump o s i f => simp [target] at ht
  | decode f l r => simp [target] at ht

/-- With `--overwrite`, `reorder` replaces a file; without, the same command is refused. -/
example (env : Env) : ∃ w : World, w.files (str "b.po") = some [1] ∧
    (run env (.reorder (str "do") (str "po") true (str "a.do") (str "b.po")) w).1 = .ok () ∧
    (run env (.reorder (str "do") (str "po") true (str "a.do") (str "b.po")) w).2.files (str "b.po") ≠ some [1] ∧
    (run env (.reorder (str "do") (str "po") false (str "a.do") (str "b.po")) w).1 ≠ .ok () := by
  obtain ⟨x, hx⟩ : ∃ x : Bytes, x.length = 143360 := ⟨zeros 143360, zeros_length _⟩
  obtain ⟨r, h1, _, _⟩ := C09_reorder_involutive (img := x) (a := str "do") (b := str "po") (by simp) (by simp) hx
  have hr := (reorderBytes_lengths h1).2
  have e1 : getOrders (str "a.do") (str "do") (str "b.po") (str "po") = .ok (str "do", str "po") := by decide +kernel
  let w : World := ⟨fun p => if p = str "a.do" then some x else if p = str "b.po" then some [1] else none, [], []⟩
  have ha : w.files (str "a.do") = some x :=
    show (if str "a.do" = str "a.do" then some x else if str "a.do" = str "b.po" then some [1] else none) =
      some x from if_pos rfl
  have hb : w.files (str "b.po") = some [1] :=
    show (if str "b.po" = str "a.do" then some x else if str "b.po" = str "b.po" then some [1] else none) = some [1] from
      (if_neg (by decide +kernel)).trans (if_pos rfl)
  have n1 : str "a.do" ≠ str "-" := by decide +kernel
  have n2 : str "b.po" ≠ str "-" := by decide +kernel
  have n3 : str "b.po" ≠ [] := by decide +kernel
  have e : run env (.reorder (str "do") (str "po") true (str "a.do") (str "b.po")) w = (.ok (), w.writeFile (str "b.po") r) := by
    show reorder World.writeOutput (str "do") (str "po") true (str "a.do") (str "b.po") w = _
    unfold reorder
    unfold reorderVia
    rw [e1]
    dsimp only
    unfold World.fileContentsOrStdIn
    rw [if_neg n1, ha]
    dsimp only
    rw [h1]
    dsimp only
    rw [if_neg n3]
    unfold World.writeOutput
    rw [if_neg n2, if_neg (by simp)]
  refine ⟨w, hb, ?_, ?_, (C58_reorder_refused env w _ _ _ _ [1] n3 n2 hb).1⟩
  · rw [e]
  · rw [e]
    intro hc
    have : r = [1] := by simpa [World.writeFile] using hc
    rw [this] at hr
    simp at hr

end Verif.Cmd
