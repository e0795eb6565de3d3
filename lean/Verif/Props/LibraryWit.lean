import Verif.Props.Library
import Verif.Props.RecogniseWit
import Verif.Props.ValuesDos3

/-!
# An example for C114
-/

set_option autoImplicit false

namespace Verif.Spec
open Disk Heap Cmd HeapOpen

variable {env : Env} {grow : Nat → Nat → Nat}

theorem exDisk_opens : Disk.openImage Dos3.exDisk (str "a.dsk") (str "auto") (str "auto") (Cmd.factories env) = .ok (.dos3 ⟨Dos3.exDisk⟩, str "do") :=
  C84_dos Dos3.exDisk_length (o := str "do") (os := [str "po"]) CandidateOrders.byExtDsk (Or.inl rfl) (view_self Dos3.exDisk_length)
    ⟨Dos3.exDisk_facts.1, _, Dos3.exDisk_chain⟩

/-- A program that opens one image as two disks, writes into the first byte of the second, gets a file from each of them and writes into one of the
two: the first disk, and the other file, stay as they were. -/
def exCalls (img : Bytes) : List LibCall :=
  [.make img, .openImage 0 (str "a.dsk") (str "auto") (str "auto"), .openImage 0 (str "a.dsk") (str "auto") (str "auto"), .write 2 0 9,
    .get 1 (str "HI"), .get 1 (str "HI"), .write 3 0 7]

theorem exCalls_sees {img : Bytes} {fi : FileInfo} (ho : Disk.openImage img (str "a.dsk") (str "auto") (str "auto") (Cmd.factories env) = .ok (.dos3 ⟨img⟩, str "do"))
    (hl : 0 < img.length) (hg : Dos3.Operator.getFile ⟨img⟩ (str "HI") = .ok fi) (hf : fi.data = [0xC8, 0xC9, 0x8D]) :
    ((Lib.run env grow ⟨[], []⟩ (exCalls img))[6]?.map fun s => (s.out, s.things.map (·.bytes))) =
      some (.ok false, [img, img, img.set 0 9, [7, 0xC9, 0x8D], [0xC8, 0xC9, 0x8D]]) := by
  have hc : ∀ c ∈ exCalls img, CopiesImage c := by
    intro c h
    simp only [exCalls, List.mem_cons, List.not_mem_nil, or_false] at h
    rcases h with rfl | rfl | rfl | rfl | rfl | rfl | rfl
    all_goals first | trivial | exact (show toLower (pathExt (str "a.dsk")) ≠ str ".hdv" by decide +kernel)
  rw [C114_values_partial _ hc]
  have v1 : libStep env [] (.make img) = (seen env [.mine img] (.ok false), [.mine img]) := rfl
  have v2 : libStep env [.mine img] (.openImage 0 (str "a.dsk") (str "auto") (str "auto")) =
      (seen env [.mine img, .disk (.dos3 ⟨img⟩)] (.ok false) (some (str "do")), [.mine img, .disk (.dos3 ⟨img⟩)]) := by
    show opens env [.mine img] (Disk.openImage img (str "a.dsk") (str "auto") (str "auto") (Cmd.factories env)) = _
    rw [ho]; rfl
  have v3 : libStep env [.mine img, .disk (.dos3 ⟨img⟩)] (.openImage 0 (str "a.dsk") (str "auto") (str "auto")) =
      (seen env [.mine img, .disk (.dos3 ⟨img⟩), .disk (.dos3 ⟨img⟩)] (.ok false) (some (str "do")), [.mine img, .disk (.dos3 ⟨img⟩), .disk (.dos3 ⟨img⟩)]) := by
    show opens env [.mine img, .disk (.dos3 ⟨img⟩)] (Disk.openImage img (str "a.dsk") (str "auto") (str "auto") (Cmd.factories env)) = _
    rw [ho]; rfl
  have v4 : libStep env [.mine img, .disk (.dos3 ⟨img⟩), .disk (.dos3 ⟨img⟩)] (.write 2 0 9) =
      (seen env [.mine img, .disk (.dos3 ⟨img⟩), .disk (.dos3 ⟨img.set 0 9⟩)] (.ok false), [.mine img, .disk (.dos3 ⟨img⟩), .disk (.dos3 ⟨img.set 0 9⟩)]) :=
    if_pos hl
  have v5 : ∀ l, libStep env (.mine img :: .disk (.dos3 ⟨img⟩) :: l) (.get 1 (str "HI")) =
      (seen env (.mine img :: .disk (.dos3 ⟨img⟩) :: l ++ [.mine [0xC8, 0xC9, 0x8D]]) (.ok false), .mine img :: .disk (.dos3 ⟨img⟩) :: l ++ [.mine [0xC8, 0xC9, 0x8D]]) := by
    intro l
    show gets env (.mine img :: .disk (.dos3 ⟨img⟩) :: l) (Dos3.Operator.getFile ⟨img⟩ (str "HI")) = _
    rw [hg]
    unfold gets
    dsimp only
    rw [hf]
  unfold exCalls
  simp only [libValues]
  rw [v1]; dsimp only
  rw [v2]; dsimp only
  rw [v3]; dsimp only
  rw [v4]; dsimp only
  rw [v5]; dsimp only
  rw [List.cons_append, List.cons_append, v5]
  rfl

example : ∃ img : Bytes, img.length = 143360 ∧
    ((Lib.run env grow ⟨[], []⟩ (exCalls img))[6]?.map fun s => (s.out, s.things.map (·.bytes))) =
      some (.ok false, [img, img, img.set 0 9, [7, 0xC9, 0x8D], [0xC8, 0xC9, 0x8D]]) := by
  obtain ⟨fi, hg, hfi⟩ := Dos3.exDisk_hi
  have hl : Dos3.exDisk.length = 143360 := Dos3.exDisk_length
  have ho := exDisk_opens (env := env)
  generalize Dos3.exDisk = img at hg hl ho
  exact ⟨img, hl, exCalls_sees ho (by rw [hl]; exact Nat.succ_pos _) hg (by rw [hfi])⟩

end Verif.Spec
