import Verif.Props.ListNames

/-!
# C99: exactly which lines of a NakedOS listing are names
-/

set_option autoImplicit false

namespace Verif.Cmd
open Disk Spec

variable {env : Env} {w : World} {image : Str} {order : DiskOrder} {system : Str} {ord : DiskOrder}

/-- What `dump` prints is determined, and it does not both succeed and fail. -/
theorem dumps_same {name : Str} {a b : Bytes} (h1 : Dumps env w order system image name a) (h2 : Dumps env w order system image name b) :
    a = b := by
  obtain ⟨w1, e1, _, o1⟩ := h1
  obtain ⟨w2, e2, _, o2⟩ := h2
  rw [e1, Prod.mk.injEq] at e2
  rw [← e2.2, o1] at o2
  exact List.append_cancel_left o2

theorem fails_not_dumps {name : Str} {a : Bytes} (h1 : DumpFails env w order system image name) : ¬ Dumps env w order system image name a := by
  rintro ⟨w1, e1, _⟩
  have := h1.1
  rw [e1] at this
  cases this

/-- `dump` of a name prints exactly the files that it is read as. -/
theorem dumps_read_iff {o : Supermon.Operator} (h : Finds env w image order system (.nakedos o) ord) (name : Str) (b : Bytes) (hb : b ≠ []) :
    Dumps env w order system image name b ↔ ∃ g, ReadAs o.table name g ∧ fileOnDisk o.data g = b := by
  obtain ⟨d1, d2, d3, d4⟩ := C72_dump_nakedos h name
  constructor
  · intro hd
    rcases d4 with ⟨g, hg⟩ | ⟨k, hk⟩
    · refine ⟨g, (Supermon.C34_resolves_iff _ _ _).1 hg, ?_⟩
      by_cases he : fileOnDisk o.data g = []
      · exact absurd hd (fails_not_dumps (d2 g hg he))
      · exact dumps_same (d1 g hg he) hd
    · exact absurd hd (fails_not_dumps (d3 k hk))
  · rintro ⟨g, hg, rfl⟩
    exact d1 g ((Supermon.C34_resolves_iff _ _ _).2 hg) hb

/-- C99, NakedOS, `ls --short`, exactly: a line can be given to `dump` and prints the file listed there if and only if it is read as
this file, or as one with the same contents; otherwise it prints another file, or fails. -/
theorem C99_short_exact {o : Supermon.Operator} (h : Finds env w image order system (.nakedos o) ord) :
    ∃ w', ∃ listed : List UInt8, ∃ line : UInt8 → Str, run env (.ls order system true image []) w = (.ok (), w') ∧
      w'.stdout = w.stdout ++ listed.flatMap (fun f => line f ++ [0x0A]) ∧ listed.Pairwise (· < ·) ∧
      (∀ f, f ∈ listed ↔ IsFileNumber f ∧ fileOnDisk o.data f ≠ []) ∧
      ∀ f ∈ listed, ShortName o.table f (line f) ∧
        (Dumps env w order system image (line f) (fileOnDisk o.data f) ↔
          ∃ g, ReadAs o.table (line f) g ∧ fileOnDisk o.data g = fileOnDisk o.data f) ∧
        ((∃ g, ReadAs o.table (line f) g ∧ g ∈ listed ∧ Dumps env w order system image (line f) (fileOnDisk o.data g)) ∨
          DumpFails env w order system image (line f)) := by
  obtain ⟨w', listed, h1, h2, h3, h4⟩ := ls_lists h true
  refine ⟨w', listed, _, h1, h2, h3, h4, fun f hf => ⟨?_, dumps_read_iff h _ _ ((h4 f).1 hf).2, ?_⟩⟩
  · unfold nakedName
    cases hx : o.table.find? (fun s => decide (s.address.toNat = 0xDF00 + f.toNat)) with
    | none =>
      refine Or.inr ⟨fun s hs e => ?_, rfl⟩
      have := List.find?_eq_none.1 hx s hs
      simp [e] at this
    | some s => exact Or.inl ⟨s, hx, rfl⟩
  · obtain ⟨d1, d2, d3, d4⟩ := C72_dump_nakedos h (nakedName o.table true f)
    rcases d4 with ⟨g, hg⟩ | ⟨k, hk⟩
    · by_cases he : fileOnDisk o.data g = []
      · exact Or.inr (d2 g hg he)
      · have hr := (Supermon.C34_resolves_iff _ _ _).1 hg
        refine Or.inl ⟨g, hr, (h4 g).2 ⟨?_, he⟩, d1 g hg he⟩
        rcases hr with hr | hr
        · exact hr.1
        · exact hr.2.1
    · exact Or.inr (d3 k hk)

/-- C99, NakedOS, `ls`, exactly: a line of the full listing can be given to `dump` if and only if the file has no symbol; then `dump` prints
the file listed there, and otherwise it fails. -/
theorem C99_full_exact {o : Supermon.Operator} (h : Finds env w image order system (.nakedos o) ord) :
    ∃ w', ∃ listed : List UInt8, ∃ line : UInt8 → Str, run env (.ls order system false image []) w = (.ok (), w') ∧
      w'.stdout = w.stdout ++ listed.flatMap (fun f => line f ++ [0x0A]) ∧ listed.Pairwise (· < ·) ∧
      (∀ f, f ∈ listed ↔ IsFileNumber f ∧ fileOnDisk o.data f ≠ []) ∧
      ∀ f ∈ listed,
        ((∀ s ∈ o.table, s.address.toNat ≠ 0xDF00 + f.toNat) → Dumps env w order system image (line f) (fileOnDisk o.data f)) ∧
        ((∃ s ∈ o.table, s.address.toNat = 0xDF00 + f.toNat) → DumpFails env w order system image (line f)) := by
  obtain ⟨w', listed, h1, h2, h3, h4⟩ := ls_lists h false
  refine ⟨w', listed, _, h1, h2, h3, h4, fun f hf => ?_⟩
  obtain ⟨hn, hne⟩ := (h4 f).1 hf
  unfold nakedName
  cases hx : o.table.find? (fun s => decide (s.address.toNat = 0xDF00 + f.toNat)) with
  | none =>
    refine ⟨fun _ => (C72_dump_nakedos h _).1 f (Supermon.fileForName_dfName hn _) hne, ?_⟩
    rintro ⟨s, hs, e⟩
    have := List.find?_eq_none.1 hx s hs
    simp [e] at this
  | some s =>
    have ha : s.address.toNat = 0xDF00 + f.toNat := by simpa using List.find?_some hx
    refine ⟨fun hno => absurd ha (hno s (List.mem_of_find?_eq_some hx)), fun _ => ?_⟩
    have hc : str ":" = [0x3A] := by decide +kernel
    refine (C99_compound_unknown h ?_).1
    rw [hc]
    simp

end Verif.Cmd
