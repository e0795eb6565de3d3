import Verif.Props.Ends
import Verif.Props.CrashWit
import Verif.Props.RmIff

/-!
# Commands on a NakedOS disk return

C80 (no crash) and C87 (no endless loop) put together for disks that are taken for NakedOS disks, where neither needs a condition
on what is on the disk.  With this, a command that does not succeed has reported an error (C73, C78, C91 and C94 say when).
-/

set_option autoImplicit false

namespace Verif.Cmd

open Verif Verif.Disk Verif.Spec

theorem returns_of {α : Type} {o : Out α} (h1 : o ≠ .panic) (h2 : o ≠ .timeout) : (∃ a, o = .ok a) ∨ o.isErr = true := by
  cases o with
  | ok a => exact Or.inl ⟨a, rfl⟩
  | err k => exact Or.inr rfl
  | panic => exact absurd rfl h1
  | timeout => exact absurd rfl h2

section
variable {env : Env} {w : World} {image : Str} {order : DiskOrder} {system : Str} {o : Supermon.Operator} {ord : DiskOrder}

/-- C87: on a NakedOS disk, whatever is on it, `ls`, `dump`, `rm` and `put` come to an end. -/
theorem C87_nakedos (h : Finds env w image order system (.nakedos o) ord) :
    (∀ short dir, (run env (.ls order system short image dir) w).1 ≠ .timeout) ∧
    (∀ name, (run env (.dump order system image name) w).1 ≠ .timeout) ∧
    (∀ m name, (run env (.rm order system m image name) w).1 ≠ .timeout) ∧
    (∀ t ow a name source, (run env (.put order system t ow a image name source) w).1 ≠ .timeout) := by
  refine ⟨fun short dir => ?_, fun name => ?_, fun m name => ?_, fun t ow a name source => ?_⟩
  · change (ls env order system short image dir w).1 ≠ _
    unfold ls
    rw [bind_run (openDisk_finds h)]
    dsimp only
    split
    · exact Ne.symm (by intro e; cases e)
    · exact act_bind_ends (by unfold AnyOp.catalog; simp [lift, Supermon.Operator.catalog]) fun _ _ _ => by unfold print; simp
  · change (dump env order system image name w).1 ≠ _
    unfold dump
    rw [bind_run (openDisk_finds h)]
    exact act_bind_ends (Supermon.getFile_ends _ _) fun _ _ _ => by unfold print; simp
  · change (rm env _ order system m image name w).1 ≠ _
    unfold rm
    rw [bind_run (openDisk_finds h)]
    dsimp only
    refine act_bind_ends (delete_ends _ _) fun b w'' _ => ?_
    split
    · exact Ne.symm (by intro e; cases e)
    · exact writeDisk_ends _ _ _ _
  · change (putCmd env _ order system t ow a image name source w).1 ≠ _
    unfold putCmd
    split
    · exact Ne.symm (by intro e; cases e)
    · rw [bind_run (openDisk_finds h)]
      dsimp only
      refine act_bind_ends (contentsOf_ends _ _) fun c w2 _ => ?_
      refine act_bind_ends (filetypeForName_ends _) fun ft w3 _ => ?_
      exact act_bind_ends (putFile_ends _ _ _) fun _ _ _ => writeDisk_ends _ _ _ _

/-- C80, C87: on a NakedOS disk, whatever is on it, `ls`, `dump` and `rm` succeed or report an error, and so does `put` of anything that
is not empty. -/
theorem C80_nakedos_returns (h : Finds env w image order system (.nakedos o) ord) :
    (∀ short dir, (run env (.ls order system short image dir) w).1 = .ok () ∨ (run env (.ls order system short image dir) w).1.isErr = true) ∧
    (∀ name, (run env (.dump order system image name) w).1 = .ok () ∨ (run env (.dump order system image name) w).1.isErr = true) ∧
    (∀ m name, (run env (.rm order system m image name) w).1 = .ok () ∨ (run env (.rm order system m image name) w).1.isErr = true) ∧
    (∀ t ow a name source, given w source ≠ some [] → (run env (.put order system t ow a image name source) w).1 = .ok () ∨
      (run env (.put order system t ow a image name source) w).1.isErr = true) := by
  obtain ⟨e1, e2, e3, e4⟩ := C87_nakedos h
  refine ⟨fun short dir => ?_, fun name => ?_, fun m name => ?_, fun t ow a name source hs => ?_⟩
  · rcases returns_of (C80_sturdy_partial env (.ls order system short image dir) trivial w) (e1 short dir) with ⟨⟨⟩, h⟩ | h
    · exact Or.inl h
    · exact Or.inr h
  · refine (returns_of ?_ (e2 name)).imp (fun ⟨_, h⟩ => h) id
    intro hp
    obtain ⟨o', ord', fd, s, hf, _⟩ := (C80_dump env order system image name w).1 hp
    obtain ⟨r1, g1, p1⟩ := h
    obtain ⟨r2, g2, p2⟩ := hf
    rw [g1] at g2
    cases g2
    rw [p1] at p2
    cases p2
  · rcases returns_of (C80_sturdy_partial env (.rm order system m image name) trivial w) (e3 m name) with ⟨⟨⟩, h⟩ | h
    · exact Or.inl h
    · exact Or.inr h
  · refine (returns_of ?_ (e4 t ow a name source)).imp (fun ⟨_, h⟩ => h) id
    intro hp
    exact hs (C80_put env order system t ow a image name source w hp).2

/-- C73: without `--missingok`, removing a file that is not there is an error, and nothing changes. -/
theorem C73_missing_error (hi : image ≠ str "-") (h : Finds env w image order system (.nakedos o) ord) (name : Str) (f : UInt8)
    (hn : Supermon.fileForName o.table name = .ok f) (hf : fileOnDisk o.data f = []) :
    (run env (.rm order system false image name) w).1.isErr = true ∧
      SameOutside (run env (.rm order system false image name) w).2 w := by
  obtain ⟨h1, h2⟩ := C73_missing hi h name f hn hf
  exact ⟨((C80_nakedos_returns h).2.2.1 false name).resolve_left h1, h2⟩

end

end Verif.Cmd
