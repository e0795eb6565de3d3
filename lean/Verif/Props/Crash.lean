import Verif.Proofs.Crash
import Verif.Props.Decode
import Verif.Props.HistoryWit
import Verif.Proofs.Sd

/-!
# C80: which commands can crash, and on what

A crash is a run-time panic.  A computation that does not end (including one that overflows the stack) is
not a crash here; see C16, C47 and C51 for those.
-/

set_option autoImplicit false

namespace Verif.Dos3
open Disk Spec

theorem C80_get_file (o : Operator) (name : Str) :
    o.getFile name = .panic ↔ ∃ fd s, o.fileForFilename name = .ok fd ∧ contents fd o.data = .ok s ∧
      Deadly (fd.filetype &&& 0x7f) s.data (s.data.length + s.spare) := by
  constructor
  · intro h
    cases h1 : o.fileForFilename name with
    | err k => unfold Operator.getFile at h; rw [h1] at h; simp at h
    | panic => exact absurd h1 (fileForFilename_ne_panic o name)
    | timeout => unfold Operator.getFile at h; rw [h1] at h; simp at h
    | ok fd =>
      cases h2 : contents fd o.data with
      | err k => unfold Operator.getFile at h; rw [h1, Out.bind_ok, h2] at h; simp at h
      | panic => have := C17_terminates fd o.data; rw [h2] at this; simp at this
      | timeout => unfold Operator.getFile at h; rw [h1, Out.bind_ok, h2] at h; simp at h
      | ok s =>
        refine ⟨fd, s, rfl, h2, ?_⟩
        obtain ⟨hl, _⟩ := C19_contents_size h1 h2
        by_cases t0 : fd.filetype &&& 0x7f = 0x00
        · left
          refine ⟨t0, ?_⟩
          by_contra hc
          push Not at hc
          rw [C19_text_partial h1 h2 t0 hc] at h
          simp at h
        · by_cases t1 : fd.filetype &&& 0x7f = 0x01 ∨ fd.filetype &&& 0x7f = 0x02
          · right; left
            refine ⟨t1, ?_⟩
            by_cases hf : 2 + word s.data 0 ≤ s.data.length
            · rw [C19_basic_partial h1 h2 t1 (by omega) (word s.data 0) rfl hf] at h
              simp at h
            · rw [C19_basic_long h1 h2 t1 (by omega) (word s.data 0) rfl (by omega)] at h
              split at h
              · simp at h
              · omega
          · by_cases t4 : fd.filetype &&& 0x7f = 0x04
            · right; right
              refine ⟨t4, ?_⟩
              by_cases hf : 4 + word s.data 2 ≤ s.data.length
              · rw [C19_binary_partial h1 h2 t4 (by omega) (word s.data 2) rfl hf] at h
                simp at h
              · rw [C19_binary_long h1 h2 t4 (by omega) (word s.data 2) rfl (by omega)] at h
                split at h
                · simp at h
                · omega
            · push Not at t1
              have := C19_other_types h1 h2 ⟨t0, t1.1, t1.2, t4⟩
              rw [h] at this
              simp at this
  · rintro ⟨fd, s, h1, h2, hd⟩
    obtain ⟨hl, _⟩ := C19_contents_size h1 h2
    rcases hd with ⟨t, hz⟩ | ⟨t, hr⟩ | ⟨t, hr⟩
    · exact C19_text_all_zero h1 h2 t hz
    · rw [C19_basic_long h1 h2 t (by omega) (word s.data 0) rfl (by omega), if_neg (by omega)]
    · rw [C19_binary_long h1 h2 t (by omega) (word s.data 2) rfl (by omega), if_neg (by omega)]

end Verif.Dos3

namespace Verif.Applesoft
open Spec Spec.Basic

theorem decodeLoop_panic {d : Bytes} {loc : Nat} : ∀ n k, decodeLoop d (loc : Int) n (lineAddr d loc k : Int) = .panic →
    ∃ j, lineAddr d loc j + 1 = loc := by
  intro n
  induction n with
  | zero =>
    intro k h
    rw [decodeLoop.eq_def] at h
    split at h <;> simp at h
  | succ n ih =>
    intro k h
    by_cases h0 : lineAddr d loc k = 0
    · rw [h0, decodeLoop.eq_def] at h
      simp at h
    · by_cases hb : lineAddr d loc k + 1 = loc
      · exact ⟨k, hb⟩
      · by_cases hin : InData d loc (lineAddr d loc k)
        · rcases decodeLoop_step d loc _ n h0 hb hin with h' | h' | ⟨l, h'⟩
          · rw [h'] at h; simp at h
          · rw [h'] at h; simp at h
          · refine ih (k + 1) ?_
            have e : lineAddr d loc (k + 1) = storedAt d loc (lineAddr d loc k) := rfl
            rw [e]
            rw [h'] at h
            cases hr : decodeLoop d (loc : Int) n (storedAt d loc (lineAddr d loc k) : Int) with
            | ok r => rw [hr] at h; simp at h
            | err e => rw [hr] at h; simp at h
            | panic => rfl
            | timeout => rw [hr] at h; simp at h
        · rw [decodeLoop_outside d loc _ n h0 hb hin] at h; simp at h

end Verif.Applesoft

namespace Verif.Cmd
open Disk Spec Spec.Basic

theorem finds_of_open {env : Env} {image : Str} {order : DiskOrder} {system : Str} {w w' : World} {op : AnyOp} {ord : DiskOrder}
    (h : openDisk env image order system w = (.ok (op, ord), w')) : Finds env w image order system op ord ∧ w' = afterReading w image := by
  have h2 := h
  unfold openDisk openFilename at h2
  have hf : Finds env w image order system op ord := by
    unfold Finds given
    split at h2
    · rename_i hi
      refine ⟨w.stdin, by rw [if_pos hi], ?_⟩
      rw [if_pos hi]
      exact (Prod.mk.inj h2).1
    · rename_i hi
      split at h2
      · simp at h2
      · rename_i bb hb
        refine ⟨bb, by rw [if_neg hi]; exact hb, ?_⟩
        rw [if_neg hi]
        exact (Prod.mk.inj h2).1
  refine ⟨hf, ?_⟩
  rw [openDisk_finds hf] at h
  exact (Prod.mk.inj h).2.symm

theorem finds_naked {env : Env} {image : Str} {order : DiskOrder} {system : Str} {w : World} {o : Supermon.Operator} {ord : DiskOrder}
    (h : Finds env w image order system (.nakedos o) ord) : Supermon.Good o.sm o.data ∧ o.table.length ≤ 819 := by
  obtain ⟨raw, _, h⟩ := h
  have hn := open_naked h
  refine ⟨hn.good, ?_⟩
  have ho := hn.opened
  rw [← hn.data] at ho
  unfold Supermon.Operator.table
  rw [Supermon.opened_table hn.good ho]
  unfold Supermon.tableOn
  rw [Supermon.readSymbolTable_eq hn.good.len]
  split
  · rename_i t e
    unfold Supermon.tableOf at e
    split at e
    · split at e
      · rename_i h1 h2
        rcases Supermon.parseSymbols_cases ⟨(fileBytes (own o.sm) o.data 3).toArray, by simpa using h1⟩
          ⟨(fileBytes (own o.sm) o.data 4).toArray, by simpa using h2⟩ 819 (Nat.le_refl _) with ⟨st, e2, hl, _⟩ | e2
        · rw [e2, Out.bind_ok] at e
          obtain ⟨_, _, e⟩ := Out.bind_eq_ok.1 e
          rw [← Out.ok.inj e]
          exact Nat.le_of_eq hl
        · rw [e2] at e; simp at e
      · simp at e
    · simp at e
  · exact Nat.zero_le _

/-- C80: no command but `put`, `dump` and `decode` ever crashes, whatever the files contain. -/
theorem C80_sturdy_partial (env : Env) (c : Command) (hc : Sturdy c) (w : World) : (run env c w).1 ≠ .panic := by
  cases c with
  | put => exact hc.elim
  | dump => exact hc.elim
  | decode => exact hc.elim
  | filetypes a =>
    change (filetypes a w).1 ≠ .panic
    unfold filetypes print; simp
  | ls o s sh i d =>
    change (ls env o s sh i d w).1 ≠ .panic
    unfold ls
    refine act_bind_ne_panic (openDisk_ne_panic _ _ _ _ _) fun x w' h => ?_
    obtain ⟨op, ord⟩ := x
    obtain ⟨hf, _⟩ := finds_of_open h
    dsimp only
    split
    · simp [lift]
    · refine act_bind_ne_panic ?_ fun _ _ _ => by simp [print]
      cases op with
      | dos3 o => exact Dos3.catalog_ne_panic o d
      | nakedos o => simp [lift, AnyOp.catalog]
      | prodos o =>
        obtain ⟨raw, _, hr⟩ := hf
        have hs := open_size hr
        have : o.data.length = raw.length := (writeBackBytes_length (C06_open_write_back_identity (factories_lawful env) hr).1).symm
        obtain ⟨img⟩ := o
        exact Prodos.catalog_ne_panic (by simp only at this; omega) _ _ d
  | reorder o n ow i j =>
    change (reorder World.writeOutput o n ow i j w).1 ≠ .panic
    unfold reorder reorderVia
    have hg : getOrders i o j n ≠ .panic := by
      unfold getOrders
      split
      · simp
      · split
        · simp
        · split
          · simp
          · split
            · simp
            · dsimp only
              split
              · simp
              · split
                · simp
                · split <;> simp
    split
    · simp
    · rename_i e; exact absurd e hg
    · simp
    · have hcon := contentsOf_ne_panic i w
      unfold contentsOf at hcon
      split
      · simp
      · rename_i e; rw [e] at hcon; exact absurd rfl hcon
      · simp
      · split
        · simp
        · rename_i e
          exfalso
          unfold reorderBytes at e
          split at e
          · simp at e
          · split at e
            · simp at e
            · exact Out.bind_ne_panic (swizzle_ne_panic _ _) (fun _ _ => swizzle_ne_panic _ _) e
        · simp
        · split
          · exact writeOutput_ne_panic _ _ _ _
          · exact writeOutput_ne_panic _ _ _ _
  | rm o s m i n =>
    change (rm env World.writeOutput o s m i n w).1 ≠ .panic
    unfold rm
    refine act_bind_ne_panic (openDisk_ne_panic _ _ _ _ _) fun x w' h => ?_
    obtain ⟨op, ord⟩ := x
    obtain ⟨hf, _⟩ := finds_of_open h
    dsimp only
    refine act_bind_ne_panic ?_ fun r w2 _ => ?_
    · cases op with
      | dos3 o => simp [lift, AnyOp.delete, Dos3.Operator.delete]
      | prodos o => simp [lift, AnyOp.delete, Prodos.Operator.delete]
      | nakedos o =>
        obtain ⟨hg, hl⟩ := finds_naked hf
        have := Supermon.delete_ne_panic hg hl n
        unfold lift AnyOp.delete
        dsimp only
        split <;> simp_all
    · split
      · simp [lift]
      · exact writeDisk_ne_panic _ _ _ _
  | mkhello o i n a s =>
    change (mkhello env World.writeOutput o i n a s w).1 ≠ .panic
    unfold mkhello
    dsimp only
    split
    · simp [lift]
    · split
      · simp [lift]
      · refine act_bind_ne_panic (openDisk_ne_panic _ _ _ _ _) fun x w' h => ?_
        obtain ⟨op, ord⟩ := x
        obtain ⟨hf, _⟩ := finds_of_open h
        cases op with
        | dos3 o => simp [lift]
        | prodos o => simp [lift]
        | nakedos o =>
          obtain ⟨hg, hl⟩ := finds_naked hf
          dsimp only
          refine act_bind_ne_panic (Supermon.filesForCompoundName_ne_panic _ _) fun y w2 _ => ?_
          obtain ⟨addr, sa, _⟩ := y
          dsimp only
          split
          · simp [lift]
          · refine act_bind_ne_panic ?_ fun _ _ _ => writeDisk_ne_panic _ _ _ _
            have hr := fun fi hd ow => Supermon.C37_put_returns_partial hg hl fi hd ow
            unfold lift AnyOp.putFile
            dsimp only
            split
            · simp
            · simp
            · rename_i e
              exact absurd e (Out.returns_ne_panic (hr _ (by simp [helloProgram]) _))
            · simp
  | mksd o i b a s =>
    change (mksd World.writeOutput o i b a s w).1 ≠ .panic
    unfold mksd
    refine act_bind_ne_panic (contentsOf_ne_panic _ _) fun contents w1 _ => ?_
    refine act_bind_ne_panic ?_ fun disk w2 _ => ?_
    · unfold lift
      dsimp only
      by_cases hs : SdOk contents a (effectiveStart a s)
      · obtain ⟨img, e⟩ := sdImage_iff.2 hs
        rw [e]; simp
      · rw [sdImage_err hs]; simp
    · refine act_bind_ne_panic (swizzle_ne_panic _ _) fun _ w3 _ => writeOutput_ne_panic _ _ _ _

/-- C80: `dump` crashes exactly if the disk is a DOS 3.3 disk and the file named is a deadly one. -/
theorem C80_dump (env : Env) (order : DiskOrder) (system image name : Str) (w : World) :
    (run env (.dump order system image name) w).1 = .panic ↔
      ∃ o ord fd s, Finds env w image order system (.dos3 o) ord ∧ o.fileForFilename name = .ok fd ∧
        Dos3.contents fd o.data = .ok s ∧ Deadly (fd.filetype &&& 0x7f) s.data (s.data.length + s.spare) := by
  constructor
  · intro h
    have : (dump env order system image name w).1 = .panic := h
    rcases ho : openDisk env image order system w with ⟨r, w'⟩
    have hn := openDisk_ne_panic env image order system w
    rw [ho] at hn
    unfold dump at this
    rw [bind_apply] at this
    unfold Act.bind at this
    rw [ho] at this
    cases r with
    | err k => simp at this
    | timeout => simp at this
    | panic => exact absurd rfl hn
    | ok x =>
      obtain ⟨op, ord⟩ := x
      obtain ⟨hf, _⟩ := finds_of_open ho
      rw [dump_eq hf] at h
      have hg : op.getFile name = .panic := by
        cases hg : op.getFile name <;> rw [hg] at h <;> simp at h ⊢
      cases op with
      | dos3 o =>
        obtain ⟨fd, s, h1, h2, h3⟩ := (Dos3.C80_get_file o name).1 hg
        exact ⟨o, ord, fd, s, hf, h1, h2, h3⟩
      | nakedos o => exact absurd hg (Supermon.getFile_ne_panic (finds_naked hf).1 name)
      | prodos o => simp [AnyOp.getFile, Prodos.Operator.getFile] at hg
  · rintro ⟨o, ord, fd, s, hf, h1, h2, h3⟩
    rw [dump_eq hf]
    have : (AnyOp.dos3 o).getFile name = .panic := (Dos3.C80_get_file o name).2 ⟨fd, s, h1, h2, h3⟩
    rw [this]

/-- C80: `put` crashes only if the disk is a NakedOS disk and the file put is empty. -/
theorem C80_put (env : Env) (order : DiskOrder) (system t : Str) (ow : Bool) (a : UInt16) (image name source : Str)
    (w : World) (h : (run env (.put order system t ow a image name source) w).1 = .panic) :
    (∃ o ord, Finds env w image order system (.nakedos o) ord) ∧ given w source = some [] := by
  by_contra hc
  refine absurd h ?_
  change (putCmd env World.writeOutput order system t ow a image name source w).1 ≠ .panic
  unfold putCmd
  split
  · simp [lift]
  · rename_i hio
    refine act_bind_ne_panic (openDisk_ne_panic _ _ _ _ _) fun x w' h => ?_
    obtain ⟨op, ord⟩ := x
    obtain ⟨hf, hw'⟩ := finds_of_open h
    dsimp only
    refine act_bind_ne_panic (contentsOf_ne_panic _ _) fun contents w2 hcon => ?_
    refine act_bind_ne_panic ?_ fun ft w3 _ => ?_
    · unfold lift Types.filetypeForName
      split <;> simp
    · refine act_bind_ne_panic ?_ fun _ _ _ => writeDisk_ne_panic _ _ _ _
      cases op with
      | dos3 o => simp [lift, AnyOp.putFile, Dos3.Operator.putFile]
      | prodos o => simp [lift, AnyOp.putFile, Prodos.Operator.putFile]
      | nakedos o =>
        obtain ⟨hg, hl⟩ := finds_naked hf
        have hne : contents ≠ [] := by
          rintro rfl
          refine hc ⟨⟨o, ord, hf⟩, ?_⟩
          unfold contentsOf World.fileContentsOrStdIn at hcon
          unfold given
          rw [hw'] at hcon
          unfold afterReading at hcon
          split at hcon
          · rename_i hs
            rw [if_pos hs]
            rw [if_neg (fun hi => hio ⟨hi, hs⟩)] at hcon
            simp at hcon
            rw [hcon.1]
          · rename_i hs
            rw [if_neg hs]
            split at hcon
            · split at hcon <;> simp_all
            · split at hcon <;> simp_all
        have hr := fun fi hd => Supermon.C37_put_returns_partial hg hl fi hd ow
        unfold lift AnyOp.putFile
        dsimp only
        split
        · simp
        · simp
        · rename_i e
          exact absurd e (Out.returns_ne_panic (hr _ hne))
        · simp

/-- C80: `decode` crashes only if a chain of line addresses leads to the byte just below the program. -/
theorem C80_decode (env : Env) (filename : Str) (loc : UInt16) (raw : Bool) (w : World)
    (h : (run env (.decode filename loc raw) w).1 = .panic) :
    ∃ b d, given w filename = some b ∧ Body b d ∧ ∃ k, lineAddr d loc.toNat k + 1 = loc.toNat := by
  rcases hc : contentsOf filename w with ⟨r, w'⟩
  have hn := contentsOf_ne_panic filename w
  rw [hc] at hn
  have hd : (decodeCmd env filename loc raw w).1 = .panic := h
  unfold decodeCmd at hd
  rw [bind_apply] at hd
  unfold Act.bind at hd
  rw [hc] at hd
  cases r with
  | err k => simp at hd
  | timeout => simp at hd
  | panic => exact absurd rfl hn
  | ok b =>
    rw [decode_eq hc] at h
    have hg : given w filename = some b := by
      unfold contentsOf World.fileContentsOrStdIn at hc
      unfold given
      split at hc
      · rename_i hs; rw [if_pos hs]; simp at hc; rw [hc.1]
      · rename_i hs
        rw [if_neg hs]
        split at hc
        · rename_i e; simp at hc; rw [← hc.1]; exact e
        · simp at hc
    have hp : Applesoft.decode env.budget b loc = .panic := by
      cases e : Applesoft.decode env.budget b loc <;> rw [e] at h <;> simp at h ⊢
    have hbody : ∃ d, Body b d := by
      by_cases hl : LooksHeadered b
      · exact ⟨_, Or.inl ⟨hl, rfl⟩⟩
      · exact ⟨_, Or.inr ⟨hl, rfl⟩⟩
    obtain ⟨d, hb⟩ := hbody
    refine ⟨b, d, hg, hb, ?_⟩
    unfold Applesoft.decode at hp
    rw [Applesoft.body_eq hb] at hp
    exact Applesoft.decodeLoop_panic env.budget 0 hp

end Verif.Cmd
