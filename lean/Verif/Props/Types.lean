import Verif.Proofs.Filetype
import Verif.Model.Errors
import Verif.Model.Helpers

/-!
# C58: WriteOutput, C62: names of file types, C64: error kinds
-/

set_option autoImplicit false
set_option maxRecDepth 20000

namespace Verif

/-! ## C58 -/

/-- Without force an existing file is not touched. -/
theorem C58_refuses_to_overwrite (w : World) (path : Str) (contents : Bytes) (hp : path ≠ str "-")
    (old : Bytes) (h : w.files path = some old) :
    (w.writeOutput path contents false).1.isErr ∧ (w.writeOutput path contents false).2 = w := by
  unfold World.writeOutput
  rw [if_neg hp, if_pos ⟨rfl, by rw [h]; rfl⟩]
  exact ⟨rfl, rfl⟩

/-- With force, or if there is no such file, the file then has the contents, and nothing else
changes. -/
theorem C58_writes_exactly (w : World) (path : Str) (contents : Bytes) (force : Bool) (hp : path ≠ str "-")
    (h : force = true ∨ w.files path = none) :
    (w.writeOutput path contents force).1 = .ok () ∧
    (w.writeOutput path contents force).2.files path = some contents ∧
    (∀ q, q ≠ path → (w.writeOutput path contents force).2.files q = w.files q) ∧
    (w.writeOutput path contents force).2.stdout = w.stdout := by
  unfold World.writeOutput
  rw [if_neg hp, if_neg]
  · refine ⟨rfl, ?_, ?_, rfl⟩
    · simp [World.writeFile]
    · intro q hq; simp [World.writeFile, hq]
  · rintro ⟨hf, hs⟩
    rcases h with h | h
    · rw [h] at hf; simp at hf
    · rw [h] at hs; simp at hs

/-- The name `-` is standard output, whatever the flag. -/
theorem C58_stdout (w : World) (contents : Bytes) (force : Bool) :
    (w.writeOutput (str "-") contents force).1 = .ok () ∧
    (w.writeOutput (str "-") contents force).2.files = w.files ∧
    (w.writeOutput (str "-") contents force).2.stdout = w.stdout ++ contents := by
  unfold World.writeOutput
  rw [if_pos rfl]
  exact ⟨rfl, rfl, rfl⟩

example : ∃ w : World, w.files (str "a") = some [1] ∧ w.files (str "b") = none :=
  ⟨⟨fun p => if p = str "a" then some [1] else none, [], []⟩, by decide, by decide⟩

/-! ## C62 -/

namespace Types

theorem codes_mem {info : FiletypeInfo} (h : info ∈ filetypeInfos) : codeOf info ∈ codes := by
  rw [← codes_eq]; exact List.mem_map_of_mem h

theorem type_toNat {info : FiletypeInfo} (h : info ∈ filetypeInfos) : ((info.type.toNat : Nat) : Int) = info.type :=
  Int.toNat_of_nonneg (of_decide_eq_true (List.all_eq_true.1 types_nonneg info h))

theorem code_zero {s : Str} (h : code s = 0) : s = [] := code_inj s [] h

/-- Full names resolve to their own types, and types and full names are all different. -/
theorem C62_full_names : (∀ info ∈ filetypeInfos, filetypeForName info.name = .ok info.type) ∧
    (filetypeInfos.map (·.type)).Nodup ∧ (filetypeInfos.map (·.name)).Nodup := by
  refine ⟨?_, ?_, ?_⟩
  · intro info h
    have := List.all_eq_true.1 look_name _ (codes_mem h)
    have := forName_look info.name info.type.toNat (by simpa [codeOf] using this)
    rw [this, type_toNat h]
  · have h : ((filetypeInfos.map (·.type)).map Int.toNat).Nodup := by
      have := codes_types
      rw [← codes_eq, List.map_map] at this
      rw [List.map_map]
      exact this
    exact List.Nodup.of_map _ h
  · have h : ((filetypeInfos.map (·.name)).map code).Nodup := by
      have := codes_names
      rw [← codes_eq, List.map_map] at this
      rw [List.map_map]
      exact this
    exact List.Nodup.of_map _ h

/-- The names that an entry's text advertises, separated by bars, resolve to the entry's type. -/
theorem C62_advertised_names : ∀ info ∈ filetypeInfos, ∀ n ∈ parts info.namesString, filetypeForName n = .ok info.type := by
  intro info h n hn
  obtain ⟨k, hk, e⟩ := List.mem_iff_getElem.1 h
  have hz : (codeOf info, (parts info.namesString).map code) ∈ codes.zip nameCodes := by
    rw [← codes_eq, ← nameCodes_eq, List.zip_map', List.mem_map]
    exact ⟨info, h, rfl⟩
  have := List.all_eq_true.1 look_parts _ hz
  have := List.all_eq_true.1 this (code n) (List.mem_map_of_mem hn)
  have := forName_look n info.type.toNat (by simpa [codeOf] using this)
  rw [this, type_toNat h]

/-- Every three-letter name resolves to its own type; so does every one-letter name, except those of
"new A" and "new B". -/
theorem C62_short_names_partial : (∀ info ∈ filetypeInfos, info.threeLetter ≠ [] → filetypeForName info.threeLetter = .ok info.type) ∧
    (∀ info ∈ filetypeInfos, info.oneLetter ≠ [] → info.type ≠ 0x101 → info.type ≠ 0x102 →
      filetypeForName info.oneLetter = .ok info.type) := by
  refine ⟨?_, ?_⟩
  · intro info h hne
    have := List.all_eq_true.1 look_three _ (codes_mem h)
    have h0 : code info.threeLetter ≠ 0 := fun h => hne (code_zero h)
    have := forName_look info.threeLetter info.type.toNat (by simpa [codeOf, h0] using this)
    rw [this, type_toNat h]
  · intro info h hne h1 h2
    have := List.all_eq_true.1 look_one _ (codes_mem h)
    have h0 : code info.oneLetter ≠ 0 := fun h => hne (code_zero h)
    have ht := type_toNat h
    have h1' : info.type.toNat ≠ 257 := by intro e; rw [e] at ht; exact h1 ht.symm
    have h2' : info.type.toNat ≠ 258 := by intro e; rw [e] at ht; exact h2 ht.symm
    have := forName_look info.oneLetter info.type.toNat (by simpa [codeOf, h0, h1', h2'] using this)
    rw [this, ht]

/-- C62 fails for the one-letter names of "new A" and "new B", which `diskii filetypes` lists: they
resolve to Applesoft and binary. -/
theorem C62_violated_one_letter : (∃ info ∈ listFiletypes false, info.type = 0x101 ∧ info.oneLetter = str "A") ∧
    filetypeForName (str "A") = .ok 0xFC ∧
    (∃ info ∈ listFiletypes false, info.type = 0x102 ∧ info.oneLetter = str "B") ∧ filetypeForName (str "B") = .ok 0x06 := by
  refine ⟨by decide +kernel, by decide +kernel, by decide +kernel, by decide +kernel⟩

/-- A non-empty text that is no name of any entry is an error. -/
theorem C62_unknown_is_an_error (s : Str) : (filetypeForName s).isErr ↔
    ∀ info ∈ filetypeInfos, info.name ≠ s ∧ info.threeLetter ≠ s ∧ info.oneLetter ≠ s := by
  unfold filetypeForName
  constructor
  · intro h
    split at h
    · simp at h
    · rename_i hn
      intro info hi
      have := List.find?_eq_none.1 hn info hi
      simpa using this
  · intro h
    have : filetypeInfos.find? (fun info => info.name = s ∨ info.threeLetter = s ∨ info.oneLetter = s) = none := by
      rw [List.find?_eq_none]
      intro info hi
      have := h info hi
      simpa using this
    rw [this]
    rfl

example : (filetypeForName (str "XYZ")).isErr := by decide +kernel

/-- C62 fails for the empty text: it is accepted, as "typeless". -/
theorem C62_violated_empty_name : filetypeForName [] = .ok 0 := by decide +kernel

/-- Every ProDOS type byte but 0xF9 has an entry. -/
theorem C62_bytes_partial : ∀ b : Nat, b < 256 → b ≠ 0xF9 → ∃ info ∈ filetypeInfos, info.type = (b : Int) := by
  intro b hb hne
  have := List.all_eq_true.1 codes_bytes b (List.mem_range.2 hb)
  simp only [Bool.or_eq_true, beq_iff_eq, hne, false_or, List.any_eq_true] at this
  obtain ⟨r, hr, e⟩ := this
  rw [← codes_eq, List.mem_map] at hr
  obtain ⟨info, hi, rfl⟩ := hr
  exact ⟨info, hi, by rw [← type_toNat hi, ← e]; rfl⟩

/-- C62 fails for type 0xF9, which has no name. -/
theorem C62_violated_F9 : (∀ info ∈ filetypeInfos, info.type ≠ 0xF9) ∧
    filetypeString 0xF9 = str "Invalid/unknown filetype F9" := by
  have h : ∀ info ∈ filetypeInfos, info.type ≠ 0xF9 := by
    intro info hi e
    have := List.all_eq_true.1 codes_F9 _ (codes_mem hi)
    rw [codeOf, e] at this
    have k : ((Int.toNat 249) != 249) = true := this
    exact absurd k (by decide)
  refine ⟨h, ?_⟩
  unfold filetypeString
  have : filetypeInfos.find? (fun info => info.type = 0xF9) = none := by
    rw [List.find?_eq_none]
    intro info hi
    simpa using h info hi
  rw [this]
  decide

theorem initLoop_text : ∀ (l : List FiletypeInfo) (seen : List Str), ∀ info ∈ initLoop l seen,
    info.stringified = info.desc ++ str " (" ++ info.namesString ++ str ")"
  | [], _, info, h => by simp [initLoop] at h
  | x :: l, seen, info, h => by
    rw [initLoop, List.mem_cons] at h
    rcases h with rfl | h
    · rfl
    · exact initLoop_text l _ info h

theorem find_type {l : List FiletypeInfo} (h : (l.map (·.type)).Nodup) {info : FiletypeInfo} (hi : info ∈ l) :
    l.find? (fun i => i.type = info.type) = some info := by
  induction l with
  | nil => simp at hi
  | cons x l ih =>
    rw [List.map_cons, List.nodup_cons] at h
    rcases List.mem_cons.1 hi with rfl | hi'
    · rw [List.find?_cons_of_pos (by simp)]
    · rw [List.find?_cons_of_neg, ih h.2 hi']
      simp only [decide_eq_true_eq]
      intro e
      exact h.1 (by rw [e]; exact List.mem_map_of_mem hi')

/-- A type prints as its description and then its names in parentheses. -/
theorem C62_string : ∀ info ∈ filetypeInfos, filetypeString info.type = info.desc ++ str " (" ++ info.namesString ++ str ")" := by
  intro info h
  unfold filetypeString
  rw [find_type C62_full_names.2.1 h]
  exact initLoop_text _ _ info h

/-- The listing without `--all` leaves out exactly the extra types, in the same order. -/
theorem C62_listing : listFiletypes true = filetypeInfos ∧
    listFiletypes false = filetypeInfos.filter (fun info => info.extra = false) := by
  refine ⟨rfl, ?_⟩
  unfold listFiletypes
  rw [if_neg (by decide)]
  congr 1
  funext info
  cases info.extra <;> rfl

end Types

/-! ## C64 -/

namespace Errors

/-- Each of the three kinds of error is recognised by its own predicate and by no other, whatever
its text; the text is kept. -/
theorem C64_kinds (t : Str) :
    (isOutOfSpace (some (outOfSpacef t)) = true ∧ isFileExists (some (outOfSpacef t)) = false ∧
      isFileNotFound (some (outOfSpacef t)) = false ∧ (outOfSpacef t).error = t) ∧
    (isOutOfSpace (some (fileExistsf t)) = false ∧ isFileExists (some (fileExistsf t)) = true ∧
      isFileNotFound (some (fileExistsf t)) = false ∧ (fileExistsf t).error = t) ∧
    (isOutOfSpace (some (fileNotFoundf t)) = false ∧ isFileExists (some (fileNotFoundf t)) = false ∧
      isFileNotFound (some (fileNotFoundf t)) = true ∧ (fileNotFoundf t).error = t) :=
  ⟨⟨rfl, rfl, rfl, rfl⟩, ⟨rfl, rfl, rfl, rfl⟩, ⟨rfl, rfl, rfl, rfl⟩⟩

/-- Ordinary errors, wrapped errors and no error are recognised by none. -/
theorem C64_others (t : Str) (e : GoError) : ∀ x ∈ [none, some (new t), some (.wrapped t e)],
    isOutOfSpace x = false ∧ isFileExists x = false ∧ isFileNotFound x = false := by
  intro x hx
  simp only [List.mem_cons, List.not_mem_nil, or_false] at hx
  rcases hx with rfl | rfl | rfl <;> exact ⟨rfl, rfl, rfl⟩

/-- At most one predicate holds of any error, and the model's error classes are those predicates. -/
theorem C64_exclusive (e : GoError) :
    (isOutOfSpace (some e) = true ↔ kind e = .outOfSpace) ∧ (isFileExists (some e) = true ↔ kind e = .fileExists) ∧
    (isFileNotFound (some e) = true ↔ kind e = .fileNotFound) := by
  cases e <;> simp [isOutOfSpace, isFileExists, isFileNotFound, kind]

end Errors
end Verif
