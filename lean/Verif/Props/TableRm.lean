import Verif.Props.PutAny
import Verif.Props.TableFiles

/-!
# C73 on the files of the symbol table

`rm` by a symbol writes the symbol table, which lives in files 3 and 4, after it has deleted the file.
-/

set_option autoImplicit false

namespace Verif.Supermon
open Disk Spec

/-- After a symbol has been deleted, files 3 and 4 hold the symbol table. -/
theorem delete_symbol_files {o : Operator} (h : Good o.sm o.data) {name : Str} (hok : (o.delete name).out = .ok ()) (hs : ∃ s ∈ o.table, SameName s.name name) :
    (fileOnDisk (o.delete name).op.data 3).length = 4096 ∧ (fileOnDisk (o.delete name).op.data 4).length = 4096 := by
  obtain ⟨f, hn, _, hcase⟩ := delete_split h hok
  have hf := fileForName_file hn
  rcases hcase with ⟨hno, _⟩ | ⟨st, hst, _, hw, hop⟩
  · obtain ⟨s, hs1, hs2⟩ := hs
    exact absurd hs2.symm (hno s hs1)
  · have hg2 := (good_op_delete h name).1
    have hkd := (keep_delete h hf).2.good
    obtain ⟨t1, t2, ht⟩ := writeSymbolTable_filled hw
    obtain ⟨l1, l2⟩ := fillTables_length ht (zeros_length _) (zeros_length _)
    obtain ⟨b3, b4⟩ := writeSymbolTable_files ht hkd hw
    rw [← hg2.onDisk, ← hg2.onDisk, hop, b3, b4, padded_length, padded_length, l1, l2]
    exact ⟨rfl, rfl⟩

/-- A table with one symbol, for file 3. -/
def fooTable : SymbolTable := ⟨0xDF03, str "FOO", -1⟩ :: List.replicate 818 Symbol.empty

theorem fooTable_get (i : Nat) (s : Symbol) (h : fooTable[i]? = some s) :
    (i = 0 ∧ s = ⟨0xDF03, str "FOO", -1⟩) ∨ s = Symbol.empty := by
  match i, h with
  | 0, h => left; exact ⟨rfl, (Option.some.inj h).symm⟩
  | i + 1, h =>
    right
    unfold fooTable at h
    simp only [List.getElem?_cons_succ] at h
    exact (List.mem_replicate.1 (List.mem_of_getElem? h)).2

theorem fooTable_wf : WellFormed fooTable where
  length := by unfold fooTable; simp only [List.length_cons, List.length_replicate]
  names := by
    intro s hs
    obtain ⟨i, hi, e⟩ := List.getElem_of_mem hs
    rcases fooTable_get i s (by rw [List.getElem?_eq_getElem hi, e]) with ⟨_, rfl⟩ | rfl
    · right; decide +kernel
    · left; rfl
  links := by
    intro i s hi h0
    rcases fooTable_get i s hi with ⟨_, rfl⟩ | rfl
    · exact Or.inl rfl
    · exact absurd rfl h0

theorem fooTable_canonical : fooTable.map canonical = fooTable := by
  conv_rhs => rw [← List.map_id fooTable]
  apply List.map_congr_left
  intro s hs
  obtain ⟨i, hi, e⟩ := List.getElem_of_mem hs
  rcases fooTable_get i s (by rw [List.getElem?_eq_getElem hi, e]) with ⟨_, rfl⟩ | rfl
  · decide +kernel
  · decide +kernel

/-- A disk with this table. -/
theorem foo_disk : ∃ img sm, Good sm img ∧ openOperator img = .ok ⟨img, sm, some fooTable⟩ ∧ fileOnDisk img 3 ≠ [] := by
  have hw := fresh_room _ fooTable_wf
  have hk := keep_writeSymbolTable fresh_good fooTable
  have ho : openOperator (writeSymbolTable freshMap freshImg fooTable).2.2 =
      .ok ⟨(writeSymbolTable freshMap freshImg fooTable).2.2, (writeSymbolTable freshMap freshImg fooTable).2.1,
        some (fooTable.map canonical)⟩ := by
    unfold openOperator
    rw [hk.good.loaded, Out.bind_ok, (verify_ok_iff _).2 hk.good.legal, Out.bind_ok, C31_write_read fresh_good fooTable_wf hw]
  rw [fooTable_canonical] at ho
  refine ⟨_, _, hk.good, ho, ?_⟩
  intro e
  have := (writeSymbolTable_sizes fresh_good hw).1
  rw [(fileOnDisk_nil hk.good 3).1 e] at this
  simp at this

end Verif.Supermon

namespace Verif.Cmd
open Disk Spec

/-- C73: after `rm` by a name in the symbol table succeeds, files 3 and 4 are there, with the 4096 bytes each of the symbol table, even if the
name was that of one of them. -/
theorem C73_table_files {env : Env} {w : World} {image order system : Str} {o : Supermon.Operator} {ord : DiskOrder}
    (hi : image ≠ str "-") (ho : Finds env w image order system (.nakedos o) ord) {name : Str} {m : Bool}
    (hok : (run env (.rm order system m image name) w).1 = .ok ()) (hs : ∃ s ∈ o.table, SameName s.name name) :
    ∃ o', Finds env (run env (.rm order system m image name) w).2 image ord (str "nakedos") (.nakedos o') ord ∧
      (fileOnDisk o'.data 3).length = 4096 ∧ (fileOnDisk o'.data 4).length = 4096 := by
  obtain ⟨raw, hg, hopen⟩ := ho
  unfold given at hg
  rw [if_neg hi] at hg hopen
  have hnk := open_naked hopen
  have hop := hnk.opened
  rw [← hnk.data] at hop
  obtain ⟨raw', o', ord', new, h1, h2, h3, h4, h5, h6⟩ := rm_inv hi hok
  rw [hg] at h1
  cases h1
  rw [hopen] at h2
  cases h2
  have g1 := (Supermon.good_op_delete hnk.good name).1
  obtain ⟨hbl, hv⟩ := written_view g1.len hnk.order h5
  have ho3 := open_explicit (env := env) hbl hnk.order (by rw [hv]; exact Supermon.open_of_good g1) image
  refine ⟨_, ⟨new, by unfold given; rw [if_neg hi]; exact h6, by rw [if_neg hi]; exact ho3⟩, ?_⟩
  exact Supermon.delete_symbol_files hnk.good h3 hs

/-- C73 fails for the files of the symbol table: there is a disk on which FOO stands for file 3, rm of FOO succeeds without --missingok,
and file 3 is still there. -/
theorem C73_violated_table (env : Env) : ∃ w o o', Finds env w (str "a.do") (str "do") (str "nakedos") (.nakedos o) orderDO ∧
    NameOf o.table (str "FOO") 3 ∧
    (run env (.rm (str "do") (str "nakedos") false (str "a.do") (str "FOO")) w).1 = .ok () ∧
    Finds env (run env (.rm (str "do") (str "nakedos") false (str "a.do") (str "FOO")) w).2 (str "a.do") (str "do") (str "nakedos") (.nakedos o') orderDO ∧
    fileOnDisk o'.data 3 ≠ [] := by
  obtain ⟨img, sm, hg, ho, h3⟩ := Supermon.foo_disk
  have hi : str "a.do" ≠ str "-" := by decide +kernel
  have hfi : Finds env (diskWorld img) (str "a.do") (str "do") (str "nakedos") (.nakedos ⟨img, sm, some Supermon.fooTable⟩) orderDO :=
    ⟨viewOf orderRaw orderDO img, by unfold given; rw [if_neg hi]; unfold diskWorld; simp only [if_true], by rw [if_neg hi]; exact diskWorld_open hg.len ho⟩
  have hname : NameOf Supermon.fooTable (str "FOO") 3 := by
    refine (Supermon.nameOf_iff 3).1 ?_
    unfold Supermon.fileForName Supermon.fooTable Supermon.fileForSymbol
    rw [if_neg (by decide +kernel), if_pos (by decide +kernel), if_pos (by decide +kernel)]
    decide +kernel
  have hok : (run env (.rm (str "do") (str "nakedos") false (str "a.do") (str "FOO")) (diskWorld img)).1 = .ok () := by
    refine (C94_rm hi hfi).2 ⟨3, hname, Or.inl h3, ?_⟩
    intro before s after h e he
    have hmem : e ∈ Supermon.fooTable := by
      have h1 : Supermon.fooTable = before ++ s :: after := h.1
      rw [h1]
      rcases List.mem_append.1 he with he | he
      · exact List.mem_append_left _ he
      · exact List.mem_append_right _ (List.mem_cons_of_mem _ he)
    obtain ⟨i, hi, e'⟩ := List.getElem_of_mem hmem
    rcases Supermon.fooTable_get i e (by rw [List.getElem?_eq_getElem hi, e']) with ⟨_, rfl⟩ | rfl
    · decide +kernel
    · decide +kernel
  obtain ⟨o', h1, h2, _⟩ := C73_table_files hi hfi hok ⟨_, List.mem_cons_self, rfl⟩
  refine ⟨_, _, o', hfi, hname, hok, h1, ?_⟩
  intro e
  rw [e] at h2
  simp at h2

end Verif.Cmd
