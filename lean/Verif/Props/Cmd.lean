import Verif.Proofs.Cmd
import Verif.Props.Types

/-!
# C59, C60: what commands do to files, and what a crash leaves
-/

set_option autoImplicit false

namespace Verif.Cmd
open Disk Spec

/-! ## Every command -/

theorem reorderBytes_lengths {a b : DiskOrder} {img r : Bytes} (hb : reorderBytes a b img = .ok r) :
    img.length = 143360 ∧ r.length = 143360 := by
  unfold reorderBytes at hb
  split at hb
  · simp at hb
  · split at hb
    · simp at hb
    · obtain ⟨r, h1, h2⟩ := Out.bind_eq_ok.1 hb
      obtain ⟨l1, s1, e1⟩ := swizzle_ok_iff.1 h1
      obtain ⟨l2, s2, e2⟩ := swizzle_ok_iff.1 h2
      refine ⟨l1, ?_⟩
      rw [e2]; exact swizzled_length l2 s2

theorem reorder_cases (wo : Output) (w : World) (o n : DiskOrder) (f : Bool) (i j : Str) :
    ((reorder wo o n f i j w).1 ≠ .ok () ∧ SameOutside (reorder wo o n f i j w).2 w) ∨
    ∃ b w' old, SameOutside w' w ∧ (i ≠ str "-" → w.files i = some old) ∧ old.length = 143360 ∧ b.length = 143360 ∧
      ∀ wo', reorder wo' o n f i j w = wo' w' (if j = [] then i else j) b (if j = [] then true else f) := by
  unfold reorder reorderVia
  cases hg : getOrders i o j n with
  | err k => exact Or.inl ⟨by simp, rfl, rfl⟩
  | panic => exact Or.inl ⟨by simp, rfl, rfl⟩
  | timeout => exact Or.inl ⟨by simp, rfl, rfl⟩
  | ok p =>
    obtain ⟨a, b⟩ := p
    dsimp only
    have hq := Quiet.contentsOf i w
    unfold contentsOf at hq
    rcases hc : w.fileContentsOrStdIn i with ⟨r, w'⟩
    rw [hc] at hq
    cases r with
    | err k => exact Or.inl ⟨by simp, hq⟩
    | panic => exact Or.inl ⟨by simp, hq⟩
    | timeout => exact Or.inl ⟨by simp, hq⟩
    | ok img =>
      dsimp only
      cases hb : reorderBytes a b img with
      | err k => exact Or.inl ⟨by simp, hq⟩
      | panic => exact Or.inl ⟨by simp, hq⟩
      | timeout => exact Or.inl ⟨by simp, hq⟩
      | ok tob =>
        refine Or.inr ⟨tob, w', img, hq, ?_, ?_, ?_, ?_⟩
        · intro hi
          unfold World.fileContentsOrStdIn at hc
          rw [if_neg hi] at hc
          cases hf : w.files i with
          | none => rw [hf] at hc; simp at hc
          | some x => rw [hf] at hc; simp at hc; rw [hc.1]
        · exact (reorderBytes_lengths hb).1
        · exact (reorderBytes_lengths hb).2
        · intro wo'
          dsimp only
          split <;> simp_all

/-- C59: a command that does not succeed changes no file and prints nothing. -/
theorem C59_failure_changes_nothing (env : Env) (c : Command) (w : World) (h : (run env c w).1 ≠ .ok ()) :
    (run env c w).2.files = w.files ∧ (run env c w).2.stdout = w.stdout := by
  have key : AllOrNothing (run env c) := by
    unfold run runVia
    cases c with
    | ls o s sh i d =>
      refine AllOrNothing.bind (Quiet.openDisk _ _ _ _) fun p => ?_
      obtain ⟨op, _⟩ := p
      dsimp only
      split
      · exact AllOrNothing.lift _
      · exact AllOrNothing.bind (Quiet.lift _) fun _ => AllOrNothing.print _
    | reorder o n ow i j =>
      intro w h
      rcases reorder_cases World.writeOutput w o n ow i j with ⟨_, h2⟩ | ⟨b, w', old, hs, _, _, _, e⟩
      · exact h2
      · dsimp only at h ⊢
        rw [e] at h ⊢
        rw [allOrNothing_writeOutput _ _ _ _ h]
        exact hs
    | filetypes a => exact AllOrNothing.print _
    | put o s t ow a i x y =>
      dsimp only
      unfold putCmd
      split
      · exact AllOrNothing.lift _
      · refine AllOrNothing.bind (Quiet.openDisk _ _ _ _) fun p => ?_
        obtain ⟨op, dord⟩ := p
        refine AllOrNothing.bind (Quiet.contentsOf _) fun contents => ?_
        refine AllOrNothing.bind (Quiet.lift _) fun ft => ?_
        dsimp only
        refine AllOrNothing.bind (Quiet.lift _) fun _ => writeDisk_allOrNothing _ _ _
    | rm o s m i n =>
      refine AllOrNothing.bind (Quiet.openDisk _ _ _ _) fun p => ?_
      obtain ⟨op, dord⟩ := p
      dsimp only
      refine AllOrNothing.bind (Quiet.lift _) fun d => ?_
      split
      · exact AllOrNothing.lift _
      · exact writeDisk_allOrNothing _ _ _
    | dump o s i n =>
      refine AllOrNothing.bind (Quiet.openDisk _ _ _ _) fun p => ?_
      obtain ⟨op, dord⟩ := p
      exact AllOrNothing.bind (Quiet.lift _) fun _ => AllOrNothing.print _
    | mkhello o i n a s =>
      dsimp only
      unfold mkhello
      dsimp only
      split
      · exact AllOrNothing.lift _
      · split
        · exact AllOrNothing.lift _
        · refine AllOrNothing.bind (Quiet.openDisk _ _ _ _) fun p => ?_
          obtain ⟨op, dord⟩ := p
          cases op with
          | dos3 o => exact AllOrNothing.lift _
          | prodos o => exact AllOrNothing.lift _
          | nakedos o =>
            refine AllOrNothing.bind (Quiet.lift _) fun q => ?_
            obtain ⟨addr, sa, _⟩ := q
            dsimp only
            split
            · exact AllOrNothing.lift _
            · exact AllOrNothing.bind (Quiet.lift _) fun _ => writeDisk_allOrNothing _ _ _
    | mksd o i b a s =>
      refine AllOrNothing.bind (Quiet.contentsOf _) fun contents => ?_
      refine AllOrNothing.bind (Quiet.lift _) fun disk => ?_
      refine AllOrNothing.bind (Quiet.lift _) fun raw => ?_
      intro w h
      dsimp only at h ⊢
      rw [allOrNothing_writeOutput _ _ _ _ h]
      exact ⟨rfl, rfl⟩
    | decode f l r =>
      refine AllOrNothing.bind (Quiet.contentsOf _) fun contents => ?_
      refine AllOrNothing.bind (Quiet.lift _) fun listing => ?_
      try dsimp only
      split <;> exact AllOrNothing.print _
  exact key w h

/-- C59: whatever its outcome, a command changes no file but the one it is told to write; `ls`,
`dump`, `decode` and `filetypes` change none. -/
theorem C59_other_files_untouched (env : Env) (c : Command) (w : World) (q : Str) (hq : target c ≠ some q) :
    (run env c w).2.files q = w.files q := by
  have key : Only (target c) (run env c) := by
    unfold run runVia
    cases c with
    | ls o s sh i d =>
      refine Only.bind (Quiet.openDisk _ _ _ _) fun p => ?_
      obtain ⟨op, _⟩ := p
      dsimp only
      split
      · exact Only.lift _ _
      · exact Only.bind (Quiet.lift _) fun _ => Only.print _ _
    | reorder o n ow i j =>
      intro w q hq
      dsimp only
      rcases reorder_cases World.writeOutput w o n ow i j with ⟨_, h2⟩ | ⟨b, w', old, hs, _, _, _, e⟩
      · rw [h2.1]
      · rw [e, only_writeOutput _ _ _ _ _ (fun h => hq (by rw [h]; rfl)), hs.1]
    | filetypes a => exact Only.print _ _
    | put o s t ow a i x y =>
      dsimp only
      unfold putCmd
      split
      · exact Only.lift _ _
      · refine Only.bind (Quiet.openDisk _ _ _ _) fun p => ?_
        obtain ⟨op, dord⟩ := p
        refine Only.bind (Quiet.contentsOf _) fun contents => ?_
        refine Only.bind (Quiet.lift _) fun ft => ?_
        dsimp only
        refine Only.bind (Quiet.lift _) fun _ => writeDisk_only _ _ _
    | rm o s m i n =>
      refine Only.bind (Quiet.openDisk _ _ _ _) fun p => ?_
      obtain ⟨op, dord⟩ := p
      dsimp only
      refine Only.bind (Quiet.lift _) fun d => ?_
      split
      · exact Only.lift _ _
      · exact writeDisk_only _ _ _
    | dump o s i n =>
      refine Only.bind (Quiet.openDisk _ _ _ _) fun p => ?_
      obtain ⟨op, dord⟩ := p
      exact Only.bind (Quiet.lift _) fun _ => Only.print _ _
    | mkhello o i n a s =>
      dsimp only
      unfold mkhello
      dsimp only
      split
      · exact Only.lift _ _
      · split
        · exact Only.lift _ _
        · refine Only.bind (Quiet.openDisk _ _ _ _) fun p => ?_
          obtain ⟨op, dord⟩ := p
          cases op with
          | dos3 o => exact Only.lift _ _
          | prodos o => exact Only.lift _ _
          | nakedos o =>
            refine Only.bind (Quiet.lift _) fun q => ?_
            obtain ⟨addr, sa, _⟩ := q
            dsimp only
            split
            · exact Only.lift _ _
            · exact Only.bind (Quiet.lift _) fun _ => writeDisk_only _ _ _
    | mksd o i b a s =>
      refine Only.bind (Quiet.contentsOf _) fun contents => ?_
      refine Only.bind (Quiet.lift _) fun disk => ?_
      refine Only.bind (Quiet.lift _) fun raw => ?_
      intro w q hq
      exact only_writeOutput _ _ _ _ _ (fun h => hq (by rw [h]; rfl))
    | decode f l r =>
      refine Only.bind (Quiet.contentsOf _) fun contents => ?_
      refine Only.bind (Quiet.lift _) fun listing => ?_
      try dsimp only
      split <;> exact Only.print _ _
  exact key w q (fun h => hq h.symm)

/-! ## Sizes -/

/-- The image was read from this path with this content. -/
theorem openDisk_ok {env : Env} {i : Str} {o : DiskOrder} {s : Str} {w w' : World} {x : AnyOp × DiskOrder}
    (h : openDisk env i o s w = (.ok x, w')) :
    SameOutside w' w ∧ ∃ raw name, openImage raw name o s (factories env) = .ok x ∧ (i ≠ str "-" → w.files i = some raw ∧ name = i) := by
  have hq := Quiet.openDisk env i o s w
  rw [h] at hq
  refine ⟨hq, ?_⟩
  unfold openDisk openFilename at h
  split at h
  · rename_i hi
    simp only [Prod.mk.injEq] at h
    exact ⟨_, _, h.1, fun hne => absurd hi hne⟩
  · split at h
    · simp at h
    · rename_i bb hb
      simp only [Prod.mk.injEq] at h
      exact ⟨_, _, h.1, fun _ => ⟨hb, rfl⟩⟩

theorem writeBackBytes_length {op : AnyOp} {o : DiskOrder} {b : Bytes} (h : writeBackBytes op o = .ok b) :
    b.length = (OperatorLike.getBytes op).length := by
  unfold writeBackBytes at h
  simp only [show floppyDiskBytes = 143360 from rfl] at h
  split at h
  · cases h; rfl
  · rename_i hl
    obtain ⟨p, h1, h2⟩ := Out.bind_eq_ok.1 h
    obtain ⟨l1, s1, e1⟩ := swizzle_ok_iff.1 h1
    obtain ⟨l2, s2, e2⟩ := swizzle_ok_iff.1 h2
    rw [l1, e2]
    exact swizzled_length l2 s2

theorem writeDisk_ok {p : Str} {op : AnyOp} {o : DiskOrder} {w w' : World}
    (h : writeDisk World.writeOutput p op o w = (.ok (), w')) (hp : p ≠ str "-") :
    ∃ b, writeBackBytes op o = .ok b ∧ w'.files p = some b := by
  unfold writeDisk at h
  rcases writeBack_cases World.writeOutput w p op o true with ⟨b, hb, e⟩ | ⟨_, hne, _⟩
  · rw [e] at h
    refine ⟨b, hb, ?_⟩
    have := (C58_writes_exactly w p b true hp (Or.inl rfl)).2.1
    rw [h] at this
    exact this
  · rw [h] at hne; exact absurd rfl hne

/-- A successful put is on a NakedOS disk and keeps the size. -/
theorem putFile_ok {op : AnyOp} {fi : FileInfo} {ow : Bool} {x : Bool} (h : (op.putFile fi ow).1 = .ok x) :
    ∃ o, op = .nakedos o ∧ (o.putFile fi ow).out = .ok () ∧ (op.putFile fi ow).2 = .nakedos (o.putFile fi ow).op := by
  cases op with
  | dos3 o => simp [AnyOp.putFile, Dos3.Operator.putFile] at h
  | prodos o => simp [AnyOp.putFile, Prodos.Operator.putFile] at h
  | nakedos o =>
    refine ⟨o, rfl, ?_, rfl⟩
    unfold AnyOp.putFile at h
    dsimp only at h
    split at h
    · assumption
    · simp at h
    · simp at h
    · simp at h

theorem delete_ok {op : AnyOp} {n : Str} {x : Bool} (h : (op.delete n).1 = .ok x) :
    ∃ o, op = .nakedos o ∧ (o.delete n).out = .ok () ∧ x = (o.delete n).existed ∧ (op.delete n).2 = .nakedos (o.delete n).op := by
  cases op with
  | dos3 o => simp [AnyOp.delete, Dos3.Operator.delete] at h
  | prodos o => simp [AnyOp.delete, Prodos.Operator.delete] at h
  | nakedos o =>
    refine ⟨o, rfl, ?_, ?_, rfl⟩
    all_goals
      unfold AnyOp.delete at h
      dsimp only at h
      split at h
      · first | assumption | (cases h; rfl)
      · simp at h
      · simp at h
      · simp at h

/-- C59: a command that rewrites an image in place and succeeds keeps the size of the file. -/
theorem C59_size_kept (env : Env) (c : Command) (w : World) (p : Str) (hp : p ≠ str "-") (hc : inPlace c = some p)
    (h : (run env c w).1 = .ok ()) :
    ∃ old new, w.files p = some old ∧ (run env c w).2.files p = some new ∧ new.length = old.length := by
  have hput : ∀ {raw name : _} {o s : _} {op : AnyOp} {dord : DiskOrder} {fi : FileInfo} {ow x : Bool} {b : Bytes},
      openImage raw name o s (factories env) = .ok (op, dord) → (op.putFile fi ow).1 = .ok x →
      writeBackBytes (op.putFile fi ow).2 dord = .ok b → b.length = raw.length := by
    intro raw name o s op dord fi ow x b ho hpu hb
    obtain ⟨no, rfl, hok, e2⟩ := putFile_ok hpu
    have hn := open_naked ho
    obtain ⟨f, hk⟩ := Supermon.keep_op_put hn.good (fi := fi) (ow := ow) (by rw [hok]; simp)
    rw [writeBackBytes_length hb, e2, hn.len]
    exact hk.good.len
  rcases hr : run env c w with ⟨out, w2⟩
  rw [hr] at h
  simp only at h
  subst h
  cases c with
  | ls o s sh i d => simp [inPlace] at hc
  | filetypes a => simp [inPlace] at hc
  | dump o s i n => simp [inPlace] at hc
  | mksd o i b a s => simp [inPlace] at hc
  | decode f l r => simp [inPlace] at hc
  | reorder o n ow i j =>
    change (if j = [] then some i else none) = some p at hc
    by_cases hj : j = []
    · rw [if_pos hj] at hc
      cases hc
      rcases reorder_cases World.writeOutput w o n ow p j with ⟨h1, _⟩ | ⟨b, w', old, hs, hold, lo, lb, e⟩
      · exfalso
        apply h1
        have : run env (.reorder o n ow p j) w = reorder World.writeOutput o n ow p j w := rfl
        rw [← this, hr]
      · have h2 : run env (.reorder o n ow p j) w = reorder World.writeOutput o n ow p j w := rfl
        rw [h2, e, if_pos hj, if_pos hj] at hr
        refine ⟨old, b, hold hp, ?_, by rw [lb, lo]⟩
        have := (C58_writes_exactly w' p b true hp (Or.inl rfl)).2.1
        rw [hr] at this
        exact this
    · rw [if_neg hj] at hc; simp at hc
  | put o s t ow a i x y =>
    simp only [inPlace, Option.some.injEq] at hc
    subst hc
    change putCmd env World.writeOutput o s t ow a i x y w = _ at hr
    unfold putCmd at hr
    rw [if_neg (fun h => hp h.1)] at hr
    obtain ⟨⟨op, dord⟩, w1, ho, hr⟩ := bind_ok_iff.1 hr
    obtain ⟨contents, w3, hcon, hr⟩ := bind_ok_iff.1 hr
    obtain ⟨ft, w4, _, hr⟩ := bind_ok_iff.1 hr
    dsimp only at hr
    obtain ⟨ex, w5, hpu, hr⟩ := bind_ok_iff.1 hr
    obtain ⟨hs, raw, name, hopen, hfile⟩ := openDisk_ok ho
    obtain ⟨b, hb, hnew⟩ := writeDisk_ok hr hp
    simp only [lift, Prod.mk.injEq] at hpu
    exact ⟨raw, b, (hfile hp).1, hnew, hput hopen hpu.1 hb⟩
  | rm o s m i n =>
    simp only [inPlace, Option.some.injEq] at hc
    subst hc
    obtain ⟨⟨op, dord⟩, w1, ho, hr⟩ := bind_ok_iff.1 (show (openDisk env i o s >>= _) w = _ from hr)
    dsimp only at hr
    obtain ⟨ex, w5, hpu, hr⟩ := bind_ok_iff.1 hr
    obtain ⟨hs, raw, name, hopen, hfile⟩ := openDisk_ok ho
    simp only [lift, Prod.mk.injEq] at hpu
    try dsimp only at hr
    split at hr
    · simp [lift] at hr
    · obtain ⟨b, hb, hnew⟩ := writeDisk_ok hr hp
      obtain ⟨no, rfl, hok, _, e2⟩ := delete_ok hpu.1
      have hn := open_naked hopen
      refine ⟨raw, b, (hfile hp).1, hnew, ?_⟩
      rw [writeBackBytes_length hb, e2, hn.len]
      exact (Supermon.good_op_delete hn.good n).1.len
  | mkhello o i n a s =>
    simp only [inPlace, Option.some.injEq] at hc
    subst hc
    change mkhello env World.writeOutput o i n a s w = _ at hr
    unfold mkhello at hr
    dsimp only at hr
    split at hr
    · simp [lift] at hr
    · split at hr
      · simp [lift] at hr
      · obtain ⟨⟨op, dord⟩, w1, ho, hr⟩ := bind_ok_iff.1 hr
        dsimp only at hr
        cases op with
        | dos3 o => simp [lift] at hr
        | prodos o => simp [lift] at hr
        | nakedos no =>
          obtain ⟨⟨addr, sa, _⟩, w3, hf, hr⟩ := bind_ok_iff.1 hr
          dsimp only at hr
          split at hr
          · simp [lift] at hr
          · obtain ⟨ex, w5, hpu, hr⟩ := bind_ok_iff.1 hr
            obtain ⟨hs, raw, name, hopen, hfile⟩ := openDisk_ok ho
            obtain ⟨b, hb, hnew⟩ := writeDisk_ok hr hp
            simp only [lift, Prod.mk.injEq] at hpu
            exact ⟨raw, b, (hfile hp).1, hnew, hput hopen hpu.1 hb⟩

/-! ## C60 -/

theorem torn_run (env : Env) (k : Nat) (c : Command) : Torn (target c) k (runVia env (interrupted k) c) (run env c) := by
  unfold run runVia
  cases c with
  | ls o s sh i d =>
    refine Torn.bind (Quiet.openDisk _ _ _ _) fun p => ?_
    obtain ⟨op, _⟩ := p
    dsimp only
    split
    · exact Torn.quiet fun _ => rfl
    · exact Torn.bind (Quiet.lift _) fun _ => Torn.quiet fun _ => rfl
  | reorder o n ow i j =>
    intro w q
    dsimp only
    rcases reorder_cases (interrupted k) w o n ow i j with ⟨_, h2⟩ | ⟨b, w', old, hs, _, _, _, e⟩
    · rw [h2.1]; exact ⟨fun _ => rfl, Or.inl rfl⟩
    · rw [e, e]
      have := torn_output k (if j = [] then i else j) b (if j = [] then true else ow) w' q
      rw [hs.1] at this
      exact this
  | filetypes a => exact Torn.quiet fun _ => rfl
  | put o s t ow a i x y =>
    dsimp only
    unfold putCmd
    split
    · exact Torn.quiet fun _ => rfl
    · refine Torn.bind (Quiet.openDisk _ _ _ _) fun p => ?_
      obtain ⟨op, dord⟩ := p
      refine Torn.bind (Quiet.contentsOf _) fun contents => ?_
      refine Torn.bind (Quiet.lift _) fun ft => ?_
      dsimp only
      refine Torn.bind (Quiet.lift _) fun _ => torn_writeDisk _ _ _ _
  | rm o s m i n =>
    refine Torn.bind (Quiet.openDisk _ _ _ _) fun p => ?_
    obtain ⟨op, dord⟩ := p
    dsimp only
    refine Torn.bind (Quiet.lift _) fun d => ?_
    split
    · exact Torn.quiet fun _ => rfl
    · exact torn_writeDisk _ _ _ _
  | dump o s i n =>
    refine Torn.bind (Quiet.openDisk _ _ _ _) fun p => ?_
    obtain ⟨op, dord⟩ := p
    exact Torn.bind (Quiet.lift _) fun _ => Torn.quiet fun _ => rfl
  | mkhello o i n a s =>
    dsimp only
    unfold mkhello
    dsimp only
    split
    · exact Torn.quiet fun _ => rfl
    · split
      · exact Torn.quiet fun _ => rfl
      · refine Torn.bind (Quiet.openDisk _ _ _ _) fun p => ?_
        obtain ⟨op, dord⟩ := p
        cases op with
        | dos3 o => exact Torn.quiet fun _ => rfl
        | prodos o => exact Torn.quiet fun _ => rfl
        | nakedos o =>
          refine Torn.bind (Quiet.lift _) fun q => ?_
          obtain ⟨addr, sa, _⟩ := q
          dsimp only
          split
          · exact Torn.quiet fun _ => rfl
          · exact Torn.bind (Quiet.lift _) fun _ => torn_writeDisk _ _ _ _
  | mksd o i b a s =>
    refine Torn.bind (Quiet.contentsOf _) fun contents => ?_
    refine Torn.bind (Quiet.lift _) fun disk => ?_
    exact Torn.bind (Quiet.lift _) fun raw => torn_output _ _ _ _
  | decode f l r =>
    refine Torn.bind (Quiet.contentsOf _) fun contents => ?_
    refine Torn.bind (Quiet.lift _) fun listing => ?_
    try dsimp only
    split <;> exact Torn.quiet fun _ => rfl

/-- C60, what holds: at every crash point of every command all files but the one being written are
as they were, and that one is as it was, complete, or a prefix of what it was to become; the latter
only if the command would have succeeded. -/
theorem C60_crash_partial (env : Env) (c : Command) (w w' : World) (h : CrashState env c w w') (q : Str) :
    (target c ≠ some q → w'.files q = w.files q) ∧
    (w'.files q = w.files q ∨ w'.files q = (run env c w).2.files q ∨
      ∃ new k, (run env c w).1 = .ok () ∧ (run env c w).2.files q = some new ∧ w'.files q = some (new.take k)) := by
  cases h with
  | before w' h => rw [h.1]; exact ⟨fun _ => rfl, Or.inl rfl⟩
  | during k =>
    have := torn_run env k c w q
    refine ⟨fun hne => this.1 (fun h => hne h.symm), ?_⟩
    rcases this.2 with h | ⟨new, h0, h1, h2⟩
    · exact Or.inl h
    · exact Or.inr (Or.inr ⟨new, k, h0, h1, h2⟩)
  | after => exact ⟨C59_other_files_untouched env c w q, Or.inr (Or.inl rfl)⟩

/-- C60 fails in what a user would want: for every image there is a crash point of an in-place
reorder at which the file is empty, so neither the old image nor the new one is left. -/
theorem C60_violated (env : Env) (w : World) (p : Str) (hp : p ≠ str "-") (img : Bytes)
    (hf : w.files p = some img) (hi : img.length = 143360) :
    ∃ w', CrashState env (.reorder (str "do") (str "po") false p []) w w' ∧ w'.files p = some [] ∧
      (∃ new, (run env (.reorder (str "do") (str "po") false p []) w).2.files p = some new ∧ new ≠ []) ∧ img ≠ [] := by
  refine ⟨_, CrashState.during 0, ?_⟩
  obtain ⟨w1, _, h1, _⟩ := C09_reorder_command_round_trip w p img hp hf hi
  rcases reorder_cases (interrupted 0) w (str "do") (str "po") false p [] with ⟨_, _⟩ | ⟨b, w', old, hs, _, _, lb, e⟩
  · rename_i h2
    exfalso
    rcases reorder_cases World.writeOutput w (str "do") (str "po") false p [] with ⟨h3, _⟩ | ⟨b, w', old, hs, _, _, lb, e⟩
    · exact h3 (by unfold reorder; unfold reorderRun at h1; rw [h1])
    · have := h2.1
      rw [e, if_pos rfl] at h2
      have h4 : w'.files p = some img := by rw [hs.1, hf]
      unfold interrupted at h2
      rw [if_neg hp, if_neg (by simp)] at h2
      have := congrFun h2.1 p
      simp [World.writeFile, hf] at this
      subst this
      simp at hi
  · have e1 : runVia env (interrupted 0) (.reorder (str "do") (str "po") false p []) w =
        reorder (interrupted 0) (str "do") (str "po") false p [] w := rfl
    have e2 : run env (.reorder (str "do") (str "po") false p []) w =
        reorder World.writeOutput (str "do") (str "po") false p [] w := rfl
    rw [e1, e2, e, e, if_pos rfl, if_pos rfl]
    refine ⟨?_, ⟨b, ?_, ?_⟩, ?_⟩
    · unfold interrupted
      rw [if_neg hp, if_neg (by simp)]
      simp [World.writeFile]
    · exact (C58_writes_exactly w' p b true hp (Or.inl rfl)).2.1
    · rintro rfl; simp at lb
    · rintro rfl; simp at hi

example : ∃ (w : World) (p : Str) (img : Bytes), p ≠ str "-" ∧ w.files p = some img ∧ img.length = 143360 :=
  ⟨⟨fun _ => some (zeros 143360), [], []⟩, str "a.dsk", zeros 143360, by decide, rfl, zeros_length _⟩

end Verif.Cmd
