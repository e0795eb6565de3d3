import Verif.Spec.Filetypes
import Verif.Props.Cmd

/-!
# C104: the table that `filetypes` prints
-/

set_option autoImplicit false
set_option maxRecDepth 20000

namespace Verif.Cmd
open Spec

theorem foldl_max_ge (l : List Nat) (x : Nat) : x ≤ l.foldl max x ∧ ∀ n ∈ l, n ≤ l.foldl max x := by
  induction l generalizing x with
  | nil => simp
  | cons y t ih =>
    have h := ih (max x y)
    simp only [List.foldl_cons, List.mem_cons]
    refine ⟨by omega, ?_⟩
    rintro n (rfl | hn)
    · omega
    · exact h.2 n hn

theorem colWidth_gt {rows : List (List Str)} {r : List Str} (h : r ∈ rows) (k : Nat) : (r.getD k []).length < colWidth rows k := by
  unfold colWidth
  have := (foldl_max_ge (rows.map fun r => (r.getD k []).length) 0).2 _ (List.mem_map_of_mem h)
  omega

/-- A line of the table without its end. -/
def tabText (rows : List (List Str)) (a b c d : Str) : Str :=
  (a ++ List.replicate (colWidth rows 0 - a.length) 0x20) ++ ((b ++ List.replicate (colWidth rows 1 - b.length) 0x20) ++
    ((c ++ List.replicate (colWidth rows 2 - c.length) 0x20) ++ d))

theorem tabLine_eq (rows : List (List Str)) (a b c d : Str) : tabLine rows [a, b, c, d] = tabText rows a b c d ++ [0x0A] := by
  unfold tabLine tabText
  simp [List.range_succ, List.flatMap_cons]

theorem cell_of {x y z : Str} {p q : Nat} {c : Str} {n : Nat} (hx : x.length = p) (hq : (c ++ List.replicate n 0x20).length = q - p)
    (hpq : p ≤ q) (hy : y = c ++ List.replicate n 0x20) (hn : 0 < n) (hc : c.getLast? ≠ some 0x20) : Cell (x ++ (y ++ z)) p q c := by
  refine ⟨hpq, hc, n, hn, ?_⟩
  rw [List.drop_left' hx, hy, List.take_left' hq]

theorem fourCells_tabText {rows : List (List Str)} {a b c d : Str} (h : [a, b, c, d] ∈ rows)
    (hl : ∀ x ∈ [a, b, c], x.getLast? ≠ some 0x20) :
    FourCells (colWidth rows 0) (colWidth rows 0 + colWidth rows 1) (colWidth rows 0 + colWidth rows 1 + colWidth rows 2)
      (tabText rows a b c d) a b c d := by
  have h0 := colWidth_gt h 0
  have h1 := colWidth_gt h 1
  have h2 := colWidth_gt h 2
  simp only [List.getD_cons_zero, List.getD_cons_succ] at h0 h1 h2
  unfold tabText
  refine ⟨?_, ?_, ?_, ?_⟩
  · exact cell_of (x := []) rfl (by simp; omega) (by omega) rfl (by omega) (hl a (by simp))
  · exact cell_of (by simp; omega) (by simp; omega) (by omega) rfl (by omega) (hl b (by simp))
  · rw [← List.append_assoc]
    exact cell_of (by simp; omega) (by simp; omega) (by omega) rfl (by omega) (hl c (by simp))
  · rw [← List.append_assoc, ← List.append_assoc]
    exact List.drop_left' (by simp; omega)

/-- The cells of the table are plain: none ends in a space and none has an end of line in it. -/
theorem filetype_cells : ∀ info ∈ Types.filetypeInfos,
    (info.desc.getLast? ≠ some 0x20 ∧ info.name.getLast? ≠ some 0x20 ∧ info.threeLetter.getLast? ≠ some 0x20) ∧
    (0x0A : UInt8) ∉ info.desc ∧ (0x0A : UInt8) ∉ info.name ∧ (0x0A : UInt8) ∉ info.threeLetter ∧ (0x0A : UInt8) ∉ info.oneLetter := by
  decide +kernel

theorem listed_mem {all : Bool} {info : Types.FiletypeInfo} (h : info ∈ Types.listFiletypes all) : info ∈ Types.filetypeInfos := by
  unfold Types.listFiletypes at h
  split at h
  · exact h
  · exact (List.mem_filter.1 h).1

/-- C104: `filetypes` succeeds, changes no file, and prints a table with two lines of headings and then one line for each type that is
listed, in order; every line has the description, name, three-letter name and one-letter name in the same columns. -/
theorem C104_filetypes (env : Env) (w : World) (all : Bool) :
    (run env (.filetypes all) w).1 = .ok () ∧ (run env (.filetypes all) w).2.files = w.files ∧
    ∃ (lines : List Str) (p q r : Nat),
      (run env (.filetypes all) w).2.stdout = w.stdout ++ lines.flatMap (· ++ [0x0A]) ∧ (∀ l ∈ lines, (0x0A : UInt8) ∉ l) ∧
      lines.length = 2 + (Types.listFiletypes all).length ∧
      (∃ l, lines[0]? = some l ∧ FourCells p q r l (str "Description") (str "Name") (str "Three-letter Name") (str "One-letter Name")) ∧
      ∀ (i : Nat) (info : Types.FiletypeInfo), (Types.listFiletypes all)[i]? = some info →
        ∃ l, lines[i + 2]? = some l ∧ FourCells p q r l info.desc info.name info.threeLetter info.oneLetter := by
  refine ⟨rfl, rfl, ?_⟩
  have hall : ∀ x ∈ filetypeRows all, ∃ a b c d, x = [a, b, c, d] ∧ (∀ y ∈ [a, b, c], y.getLast? ≠ some 0x20) ∧ ∀ y ∈ [a, b, c, d], (0x0A : UInt8) ∉ y := by
    intro x hx
    unfold filetypeRows at hx
    rcases List.mem_cons.1 hx with rfl | hx
    · exact ⟨_, _, _, _, rfl, by decide +kernel, by decide +kernel⟩
    rcases List.mem_cons.1 hx with rfl | hx
    · exact ⟨_, _, _, _, rfl, by decide +kernel, by decide +kernel⟩
    obtain ⟨info, hi, rfl⟩ := List.mem_map.1 hx
    obtain ⟨⟨h1, h2, h3⟩, h4, h5, h6, h7⟩ := filetype_cells info (listed_mem hi)
    refine ⟨_, _, _, _, rfl, ?_, ?_⟩
    · intro y hy
      simp only [List.mem_cons, List.not_mem_nil, or_false] at hy
      rcases hy with rfl | rfl | rfl <;> assumption
    · intro y hy
      simp only [List.mem_cons, List.not_mem_nil, or_false] at hy
      rcases hy with rfl | rfl | rfl | rfl <;> assumption
  have hout : (run env (.filetypes all) w).2.stdout = w.stdout ++ (filetypeRows all).flatMap (tabLine (filetypeRows all)) := rfl
  have hlen : (filetypeRows all).length = 2 + (Types.listFiletypes all).length := by unfold filetypeRows; simp; omega
  have h0 : (filetypeRows all)[0]? = some [str "Description", str "Name", str "Three-letter Name", str "One-letter Name"] := rfl
  have hi : ∀ (i : Nat) (info : Types.FiletypeInfo), (Types.listFiletypes all)[i]? = some info →
      (filetypeRows all)[i + 2]? = some [info.desc, info.name, info.threeLetter, info.oneLetter] := by
    intro i info h
    unfold filetypeRows
    simp only [List.getElem?_cons_succ, List.getElem?_map, h]
    rfl
  rw [hout]
  generalize filetypeRows all = rows at *
  refine ⟨rows.map fun x => tabText rows (x.getD 0 []) (x.getD 1 []) (x.getD 2 []) (x.getD 3 []), colWidth rows 0, colWidth rows 0 + colWidth rows 1,
    colWidth rows 0 + colWidth rows 1 + colWidth rows 2, ?_, ?_, by simpa using hlen, ?_, ?_⟩
  · congr 1
    rw [List.flatMap_map]
    apply List.flatMap_congr
    intro x hx
    obtain ⟨a, b, c, d, rfl, _, _⟩ := hall x hx
    exact tabLine_eq rows a b c d
  · intro l hl
    obtain ⟨x, hx, rfl⟩ := List.mem_map.1 hl
    obtain ⟨a, b, c, d, rfl, _, h⟩ := hall x hx
    have ha := h a (by simp)
    have hb := h b (by simp)
    have hc := h c (by simp)
    have hd := h d (by simp)
    simp only [tabText, List.getD_cons_zero, List.getD_cons_succ, List.mem_append, List.mem_replicate, not_or]
    exact ⟨⟨ha, fun e => absurd e.2 (by decide)⟩, ⟨hb, fun e => absurd e.2 (by decide)⟩, ⟨hc, fun e => absurd e.2 (by decide)⟩, hd⟩
  · refine ⟨_, by rw [List.getElem?_map, h0]; rfl, ?_⟩
    exact fourCells_tabText (List.mem_of_getElem? h0) (by decide +kernel)
  · intro i info h
    have h2 := hi i info h
    refine ⟨_, by rw [List.getElem?_map, h2]; rfl, ?_⟩
    obtain ⟨a, b, c, d, e, h3, _⟩ := hall _ (List.mem_of_getElem? h2)
    cases e
    exact fourCells_tabText (List.mem_of_getElem? h2) h3

/-- Non-vacuity of C104: the table without `--all` has a line for binary files. -/
example : ∃ (i : Nat) (info : Types.FiletypeInfo), (Types.listFiletypes false)[i]? = some info ∧ info.type = 6 := by
  have h : ((Types.listFiletypes false)[3]?.map fun x => x.type) = some 6 := by decide +kernel
  obtain ⟨info, h1, h2⟩ := Option.map_eq_some_iff.1 h
  exact ⟨3, info, h1, h2⟩

end Verif.Cmd
