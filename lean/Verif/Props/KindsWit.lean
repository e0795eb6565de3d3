import Verif.Props.Kinds
import Verif.Props.FailedWit
import Verif.Props.MoreWit
import Verif.Props.Dos3Wit

/-!
# C117: a file that is not found, and other errors
-/

set_option autoImplicit false
set_option maxRecDepth 20000

namespace Verif.Supermon
open Disk Spec

/-- C117 fails for GetFile: file 7 is not on the disk, but the error for DF07 does not say so. -/
theorem C117_violated_get : ∃ img o, img.length = 143360 ∧ openOperator img = .ok o ∧ NumericName (str "DF07") 7 ∧ fileOnDisk img 7 = [] ∧
    o.getFile (str "DF07") = .err .other ∧ o.getFile (str "BAR") = .err .fileNotFound := by
  obtain ⟨img, o, hl, ho, hst, h5, h7, _⟩ := short_disk
  have num7 : NumericName (str "DF07") 7 := (parseAddressFilename_iff (by decide)).1 (by decide +kernel)
  refine ⟨img, o, hl, ho, num7, h7, (C117_get_exact hl ho _).2.2.2 ⟨7, Or.inl num7, h7⟩, ?_⟩
  have htab : o.table = shortTable := by unfold Operator.table; rw [hst]; rfl
  unfold Operator.getFile
  rw [htab, show fileForName shortTable (str "BAR") = .err .fileNotFound from by decide +kernel]
  rfl

/-- The three kinds all occur, on one disk: putting too much, putting what is there already, removing what nobody has heard of. -/
example : ∃ img o, ∃ big small : FileInfo, img.length = 143360 ∧ openOperator img = .ok o ∧ (o.putFile big true).out = .err .outOfSpace ∧
    (o.putFile small false).out = .err .fileExists ∧ (o.delete (str "BAR")).out = .err .fileNotFound := by
  obtain ⟨img, o, hl, ho, hst, h5, h7, hroom⟩ := short_disk
  obtain ⟨hg, hdata⟩ := open_good hl ho
  have htab : o.table = shortTable := by unfold Operator.table; rw [hst]; rfl
  have num5 : NumericName (str "DF05") 5 := (parseAddressFilename_iff (by decide)).1 (by decide +kernel)
  have asks : AsksToPut (fileOnDisk img) o.st (str "DF05") 5 [] := ⟨Or.inl ⟨num5, rfl⟩, fun h => absurd rfl h⟩
  have n1 : (zeros 300000).length = 300000 := zeros_length _
  have r : roomFor img 5 ≤ 1120 := by
    have l : ∀ g, (ownedBy (owner img) g).length ≤ 560 := by
      intro g
      unfold ownedBy
      exact (List.length_filter_le _ _).trans (by rw [List.length_range])
    have l1 := l 0xFF
    have l2 := l 5
    unfold roomFor
    omega
  refine ⟨img, o, ⟨{ name := str "DF05", length := (zeros 300000).length, type := filetypeBinary }, zeros 300000, 0⟩,
    ⟨{ name := str "DF05", length := 1, type := filetypeBinary }, [1], 0⟩, hl, ho, ?_, ?_, ?_⟩
  · refine (C117_put_partial hl ho _ true rfl rfl).1.2 ⟨5, [], asks, ?_⟩
    · show roomFor img 5 < sectorsNeeded (zeros 300000).length
      rw [n1]
      have : sectorsNeeded 300000 = 1172 := by decide
      omega
  · refine (C117_put_partial hl ho _ false rfl rfl).2.1.2 ⟨5, [], asks, ?_, h5, rfl⟩
    have : sectorsNeeded ([1] : Bytes).length = 1 := by decide
    rw [this]
    unfold roomFor
    omega
  · rw [op_delete_err (k := .fileNotFound)]
    rw [htab]
    decide +kernel

/-- Putting nothing crashes on this disk where file 5 may be overwritten, and returns where it may not. -/
example : ∃ img o, ∃ fi : FileInfo, img.length = 143360 ∧ openOperator img = .ok o ∧ fi.data = [] ∧ (o.putFile fi true).out = .panic ∧
    (o.putFile fi false).out = .err .fileExists := by
  obtain ⟨img, o, hl, ho, hst, h5, h7, hroom⟩ := short_disk
  obtain ⟨hg, hdata⟩ := open_good hl ho
  have num5 : NumericName (str "DF05") 5 := (parseAddressFilename_iff (by decide)).1 (by decide +kernel)
  have asks : AsksToPut (fileOnDisk img) o.st (str "DF05") 5 [] := ⟨Or.inl ⟨num5, rfl⟩, fun h => absurd rfl h⟩
  have r : 0 < roomFor img 5 := by
    unfold roomFor
    omega
  exact ⟨img, o, ⟨{ name := str "DF05", length := 0, type := filetypeBinary }, [], 0⟩, hl, ho, rfl,
    (C37_exact hl ho _ true).2.2 ⟨rfl, rfl, rfl, 5, [], asks, Or.inl rfl, r⟩,
    (C117_put_partial hl ho _ false rfl rfl).2.1.2 ⟨5, [], asks, Nat.zero_le _, h5, rfl⟩⟩

end Verif.Supermon

namespace Verif.Dos3
open Disk Spec

/-- The hypotheses of C117_violated_dos are met: the example disk has a catalog with four files, and NOTHERE is none of them. -/
example : ∃ fds deleted, readCatalog exDisk = .ok (fds, deleted) ∧ fds.length = 4 ∧
    (∀ fd ∈ fds, fd.filenameString ≠ str "NOTHERE") ∧ Operator.getFile ⟨exDisk⟩ (str "NOTHERE") = .err .other := by
  obtain ⟨files, deleted, h, h1, _⟩ := C15_catalog_complete exDisk exDisk_facts.1 _ exDisk_chain
  rw [exDisk_entries] at h1
  have hno : ∀ fd ∈ files, fd.filenameString ≠ str "NOTHERE" := by
    have hl := C20_lookup exDisk exDisk_facts.1 _ exDisk_chain (str "NOTHERE")
    rw [exDisk_entries, show (((List.range 7).map fun k => (exCat.drop (0x0b + 35 * k)).take 35).filter
      (fun e => LiveEntry e)).find? (fun e => entryName e = str "NOTHERE") = none from by decide +kernel] at hl
    unfold Operator.fileForFilename at hl
    rw [show readCatalog (Operator.mk exDisk).data = .ok (files, deleted) from h, Out.bind_ok] at hl
    intro fd hfd he
    cases hf : files.find? (fun fd => fd.filenameString = str "NOTHERE") with
    | none => exact absurd he (by simpa using List.find?_eq_none.1 hf fd hfd)
    | some fd => simp only [hf] at hl; cases hl
  refine ⟨files, deleted, h, ?_, hno, C117_violated_dos (o := ⟨exDisk⟩) h hno⟩
  rw [← List.length_map (f := FileDesc.toBytes), h1]
  decide +kernel

end Verif.Dos3
