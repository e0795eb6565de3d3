import Verif.Proofs.Values
import Verif.Proofs.HeapDos3
import Verif.Model.HeapOpen

/-!
# Lemmas for C114: opening images in memory is opening them as values
-/

set_option autoImplicit false

namespace Verif.HeapOpen
open Disk Heap Cmd

/-- A computation in memory only adds arrays, and comes out like one on values. -/
def Runs {α β : Type} (R : Mem → α → β → Prop) (m : Mem) (x : M α) (y : Out β) : Prop :=
  (∃ b, y = .ok b ∧ ∃ z a, x m = (.ok a, m ++ z) ∧ R (m ++ z) a b) ∨
    ∃ k : Out Unit, (∀ a, k ≠ .ok a) ∧ outcome y = k ∧ ∃ z, outcome (x m).1 = k ∧ (x m).2 = m ++ z

theorem Runs.mono {α β : Type} {R S : Mem → α → β → Prop} {m : Mem} {x : M α} {y : Out β} (h : Runs R m x y)
    (hs : ∀ z a b, R (m ++ z) a b → S (m ++ z) a b) : Runs S m x y := by
  rcases h with ⟨b, h1, z, a, h2, h3⟩ | h
  · exact Or.inl ⟨b, h1, z, a, h2, hs z a b h3⟩
  · exact Or.inr h

theorem Runs.ok {α β : Type} {R : Mem → α → β → Prop} {m : Mem} {a : α} {b : β} (h : R m a b) : Runs R m (pure a : M α) (.ok b) :=
  Or.inl ⟨b, rfl, [], a, by rw [List.append_nil]; rfl, by rw [List.append_nil]; exact h⟩

theorem Runs.fail {α β : Type} {R : Mem → α → β → Prop} (m : Mem) {e : Out α} {e' : Out β} (he : outcome e = outcome e') (h : ∀ a, e ≠ .ok a) :
    Runs R m (lift e) e' := by
  refine Or.inr ⟨outcome e, ?_, he.symm, [], rfl, (List.append_nil m).symm⟩
  intro a
  cases e with
  | ok b => exact absurd rfl (h b)
  | err k => simp [outcome]
  | panic => simp [outcome]
  | timeout => simp [outcome]

theorem Runs.bind {α β γ δ : Type} {R : Mem → α → β → Prop} {S : Mem → γ → δ → Prop} {m : Mem} {x : M α} {y : Out β} {f : α → M γ} {g : β → Out δ}
    (h : Runs R m x y) (hf : ∀ z a b, R (m ++ z) a b → Runs S (m ++ z) (f a) (g b)) : Runs S m (x >>= f) (y >>= g) := by
  rcases h with ⟨b, h1, z, a, h2, h3⟩ | ⟨k, hk, h1, z, h2, h3⟩
  · rw [h1, Out.bind_ok]
    have e : (x >>= f) m = f a (m ++ z) := bind_ok h2
    rcases hf z a b h3 with ⟨d, g1, z', c, g2, g3⟩ | ⟨k, hk, g1, z', g2, g3⟩
    · exact Or.inl ⟨d, g1, z ++ z', c, by rw [e, g2, List.append_assoc], by rw [← List.append_assoc]; exact g3⟩
    · exact Or.inr ⟨k, hk, g1, z ++ z', by rw [e]; exact g2, by rw [e, g3, List.append_assoc]⟩
  · exact Or.inr ⟨k, hk, out_bind_fail hk h1, z, bind_fail hk h2 h3⟩

/-- A slice in an array made since `m`. -/
def FreshSlice (m : Mem) (m' : Mem) (r : Slice) (b : Bytes) : Prop := Valid m' r ∧ m.length ≤ r.arr ∧ bytesOf m' r = b

theorem swizzle_runs {m : Mem} {d : Slice} (order : List Int) (hd : Valid m d) :
    Runs (FreshSlice m) m (Heap.swizzle d order) (Disk.swizzle (bytesOf m d) order) :=
  swizzle_run order hd rfl

/-! ## Operators in memory -/

/-- The arrays that an operator writes to. -/
def HOp.arrays : HOp → List Nat
  | .dos3 d => [d.arr]
  | .nakedos o => [o.data.arr, o.sm.arr]
  | .prodos d => [d.arr]

/-- An operator in memory is one on values. -/
def Is (m : Mem) : HOp → AnyOp → Prop
  | .dos3 d, .dos3 O => Valid m d ∧ bytesOf m d = O.data
  | .nakedos o, .nakedos O => Rep m o O
  | .prodos d, .prodos O => Valid m d ∧ bytesOf m d = O.data
  | _, _ => False

theorem Is.append {m : Mem} {h : HOp} {O : AnyOp} (hi : Is m h O) (x : Mem) : Is (m ++ x) h O := by
  cases h <;> cases O <;> first | (exact hi.elim) | skip
  · exact ⟨hi.1.append x, (bytesOf_append hi.1.arr x).trans hi.2⟩
  · exact ⟨hi.disks.append x, hi.st⟩
  · exact ⟨hi.1.append x, (bytesOf_append hi.1.arr x).trans hi.2⟩

/-- A factory in memory does what one on values does; the operator uses the slice it is given and new arrays. -/
structure Like (hf : HFactory) (f : Factory AnyOp) : Prop where
  name : hf.name = f.name
  order : hf.diskOrder = f.diskOrder
  seems : ∀ {m : Mem} {d : Slice}, Valid m d → Runs (fun _ a b => a = b) m (hf.seemsToMatch d) (f.seemsToMatch (bytesOf m d))
  operator : ∀ {m : Mem} {d : Slice}, Valid m d →
    Runs (fun m' h O => Is m' h O ∧ h.getBytes = d ∧ ∀ a ∈ h.arrays, a = d.arr ∨ m.length ≤ a) m (hf.operator d) (f.operator (bytesOf m d))

def AllLike : List HFactory → List (Factory AnyOp) → Prop
  | [], [] => True
  | a :: as, b :: bs => Like a b ∧ AllLike as bs
  | _, _ => False

theorem ask_runs {α : Type} {m : Mem} {d : Slice} (f : Bytes → Out α) : Runs (fun _ a b => a = b) m (ask f d) (f (bytesOf m d)) := by
  unfold Runs ask
  cases h : f (bytesOf m d) with
  | ok b => exact Or.inl ⟨b, rfl, [], b, by rw [List.append_nil], rfl⟩
  | err k => exact Or.inr ⟨.err k, (fun _ => by simp), rfl, [], rfl, (List.append_nil m).symm⟩
  | panic => exact Or.inr ⟨.panic, (fun _ => by simp), rfl, [], rfl, (List.append_nil m).symm⟩
  | timeout => exact Or.inr ⟨.timeout, (fun _ => by simp), rfl, [], rfl, (List.append_nil m).symm⟩

theorem nakedosMatches_runs {m : Mem} {d : Slice} (hd : Valid m d) :
    Runs (fun _ a b => a = b) m (nakedosMatches d) (Supermon.seemsToMatch (bytesOf m d)) := by
  unfold nakedosMatches Supermon.seemsToMatch Runs
  dsimp only
  rcases loadSectorMap_run hd rfl with ⟨v, h1, x, sm, h2, ha, hD⟩ | ⟨k, h1, x, h2⟩
  · rw [h1, bind_ok h2, bind_ok (theMap_run hD)]
    dsimp only
    cases Supermon.verify v with
    | ok _ => exact Or.inl ⟨true, rfl, x, true, rfl, rfl⟩
    | err k => exact Or.inl ⟨false, rfl, x, false, rfl, rfl⟩
    | panic => exact Or.inr ⟨.panic, (fun _ => by simp), rfl, x, rfl, rfl⟩
    | timeout => exact Or.inr ⟨.timeout, (fun _ => by simp), rfl, x, rfl, rfl⟩
  · rw [h1, bind_err h2]
    exact Or.inl ⟨false, rfl, x, false, rfl, rfl⟩

theorem factories_like (grow : Nat → Nat → Nat) (env : Env) : AllLike (HeapOpen.factories grow env) (Cmd.factories env) := by
  refine ⟨⟨rfl, rfl, ?_, ?_⟩, ⟨rfl, rfl, ?_, ?_⟩, ⟨rfl, rfl, ?_, ?_⟩, trivial⟩
  · intro m d _
    have e : (Factory.map AnyOp.dos3 Dos3.factory).seemsToMatch = Dos3.seemsToMatch := by dsimp only [Factory.map, Dos3.factory]
    rw [e]
    exact ask_runs Dos3.seemsToMatch
  · intro m d hd
    exact Runs.ok ⟨⟨hd, rfl⟩, rfl, fun a ha => Or.inl (List.mem_singleton.1 ha)⟩
  · intro m d hd
    have e : (Factory.map AnyOp.nakedos Supermon.factory).seemsToMatch = Supermon.seemsToMatch := by dsimp only [Factory.map, Supermon.factory]
    rw [e]
    dsimp only
    exact nakedosMatches_runs hd
  · intro m d hd
    dsimp only [Factory.map, Supermon.factory]
    rcases openOperator_run (grow := grow) hd rfl with ⟨O, h1, x, o, h2, h3, h4, h5⟩ | ⟨k, hk, h1, x, h2, h3⟩
    · rw [h1]
      refine Or.inl ⟨_, rfl, x, .nakedos o, bind_ok h2, h5, h3, ?_⟩
      intro a ha
      rcases List.mem_cons.1 ha with ha | ha
      · exact Or.inl (by rw [ha, h3])
      · rw [List.mem_singleton.1 ha]; exact Or.inr h4
    · refine Or.inr ⟨k, hk, ?_, x, bind_fail hk h2 h3⟩
      cases hq : Supermon.openOperator (bytesOf m d) <;> rw [hq] at h1
      · exact absurd h1.symm (hk ())
      all_goals exact h1
  · intro m d _
    have e : (Factory.map AnyOp.prodos (Prodos.factory env.budget env.order)).seemsToMatch = Prodos.seemsToMatch env.budget env.order := by dsimp only [Factory.map, Prodos.factory]
    rw [e]
    exact ask_runs _
  · intro m d hd
    exact Runs.ok ⟨⟨hd, rfl⟩, rfl, fun a ha => Or.inl (List.mem_singleton.1 ha)⟩

/-! ## Opening -/

/-- A disk that has been opened: in new arrays only. -/
def Opened (m : Mem) (m' : Mem) (p : HOp × DiskOrder) (q : AnyOp × DiskOrder) : Prop :=
  p.2 = q.2 ∧ Is m' p.1 q.1 ∧ ∀ a ∈ p.1.arrays, m.length ≤ a

theorem Opened.mono {m m' : Mem} {x : Mem} {p : HOp × DiskOrder} {q : AnyOp × DiskOrder} (h : Opened (m ++ x) m' p q) : Opened m m' p q :=
  ⟨h.1, h.2.1, fun a ha => by have := h.2.2 a ha; rw [List.length_append] at this; omega⟩

/-- The option of the loop over factories. -/
def OpenedOpt (m : Mem) (m' : Mem) : Option (HOp × DiskOrder) → Option (AnyOp × DiskOrder) → Prop
  | some p, some q => Opened m m' p q
  | none, none => True
  | _, _ => False

theorem OpenedOpt.mono {m m' : Mem} {x : Mem} {p : Option (HOp × DiskOrder)} {q : Option (AnyOp × DiskOrder)} (h : OpenedOpt (m ++ x) m' p q) : OpenedOpt m m' p q := by
  cases p <;> cases q <;> first | exact h | skip
  exact Opened.mono h

theorem openInner_runs (explicit : Bool) (order : DiskOrder) {m : Mem} {s : Slice} {b : Bytes} (hs : Valid m s) (hb : bytesOf m s = b) {hfs : List HFactory}
    {fs : List (Factory AnyOp)} (hl : AllLike hfs fs) :
    Runs (OpenedOpt m) m (openInner explicit order s hfs) (Disk.openInner explicit order b fs) := by
  induction hfs generalizing fs m with
  | nil =>
    cases fs with
    | nil => exact Runs.ok trivial
    | cons f fs => exact hl.elim
  | cons hf hfs ih =>
    cases fs with
    | nil => exact hl.elim
    | cons f fs =>
      obtain ⟨hlf, hl⟩ := hl
      unfold openInner Disk.openInner
      rw [hlf.order]
      subst hb
      refine (swizzle_runs _ hs).bind ?_
      rintro z d _ ⟨hv, ha, rfl⟩
      have again : ∀ y, Runs (OpenedOpt m) ((m ++ z) ++ y) (openInner explicit order s hfs) (Disk.openInner explicit order (bytesOf m s) fs) := by
        intro y
        have := ih ((hs.append z).append y) (by rw [bytesOf_append (hs.append z).arr, bytesOf_append hs.arr]) hl
        exact this.mono fun z' a b h => OpenedOpt.mono (m := m) (x := z ++ y) (by rw [← List.append_assoc]; exact h)
      cases explicit with
      | true =>
        rw [if_pos rfl, if_pos rfl]
        refine (hlf.operator hv).bind ?_
        rintro y h O ⟨hi, _, harr⟩
        refine Runs.ok ⟨rfl, hi, fun a ha' => ?_⟩
        rcases harr a ha' with e | e
        · rw [e]; exact ha
        · rw [List.length_append] at e; omega
      | false =>
        rw [if_neg (by simp), if_neg (by simp)]
        refine (hlf.seems hv).bind ?_
        rintro y ok _ rfl
        cases ok with
        | false =>
          rw [if_neg (by simp), if_neg (by simp)]
          exact again y
        | true =>
          rw [if_pos rfl, if_pos rfl]
          have hop := hlf.operator (hv.append y)
          rw [bytesOf_append hv.arr] at hop
          unfold Runs at hop ⊢
          unfold orNext
          rcases hop with ⟨O, h1, w, h, h2, hi, _, harr⟩ | ⟨k, hk, h1, w, h2, h3⟩
          · rw [h1, h2]
            refine Or.inl ⟨_, rfl, w, _, rfl, rfl, hi, fun a ha' => ?_⟩
            rcases harr a ha' with e | e
            · rw [e]; exact ha
            · rw [List.length_append, List.length_append] at e; omega
          · generalize hf.operator d (m ++ z ++ y) = r at h2 h3
            obtain ⟨o, m'⟩ := r
            dsimp only at h2 h3
            subst h3
            cases hq : f.operator (bytesOf (m ++ z) d) with
            | ok O => rw [hq] at h1; exact absurd h1.symm (hk ())
            | err e =>
              rw [hq] at h1
              cases o with
              | ok _ => exact absurd h2.symm (hk ())
              | panic => rw [← h1] at h2; cases h2
              | timeout => rw [← h1] at h2; cases h2
              | err e' =>
                dsimp only
                have := again (y ++ w)
                rw [← List.append_assoc] at this
                rcases this with ⟨b, g1, z', a, g2, g3⟩ | ⟨k', hk', g1, z', g2, g3⟩
                · exact Or.inl ⟨b, g1, w ++ z', a, by rw [g2]; simp only [List.append_assoc], by simp only [List.append_assoc] at g3 ⊢; exact g3⟩
                · exact Or.inr ⟨k', hk', g1, w ++ z', g2, by rw [g3]; simp only [List.append_assoc]⟩
            | panic =>
              rw [hq] at h1
              cases o <;> first | (exact absurd h2.symm (hk ())) | (rw [← h1] at h2; cases h2; done) | exact Or.inr ⟨.panic, (fun _ => by simp), rfl, w, rfl, rfl⟩
            | timeout =>
              rw [hq] at h1
              cases o <;> first | (exact absurd h2.symm (hk ())) | (rw [← h1] at h2; cases h2; done) | exact Or.inr ⟨.timeout, (fun _ => by simp), rfl, w, rfl, rfl⟩

theorem openOuter_runs (explicit : Bool) {m : Mem} {raw : Slice} {b : Bytes} (hr : Valid m raw) (hb : bytesOf m raw = b) {hfs : List HFactory}
    {fs : List (Factory AnyOp)} (hl : AllLike hfs fs) (orders : List DiskOrder) :
    Runs (Opened m) m (openOuter explicit raw hfs orders) (Disk.openOuter explicit b fs orders) := by
  induction orders generalizing m with
  | nil => exact Runs.fail m rfl (fun _ => by simp)
  | cons o os ih =>
    unfold openOuter Disk.openOuter
    subst hb
    refine (swizzle_runs _ hr).bind ?_
    rintro z s _ ⟨hv, ha, rfl⟩
    refine (openInner_runs explicit o hv rfl hl).bind ?_
    intro y p q hpq
    match p, q, hpq with
    | some p, some q, hpq => exact Runs.ok (Opened.mono hpq)
    | none, none, _ =>
      have := ih ((hr.append z).append y) (by rw [bytesOf_append (hr.append z).arr, bytesOf_append hr.arr])
      exact this.mono fun z' a b h => Opened.mono (m := m) (x := z ++ y) (by rw [← List.append_assoc]; exact h)

theorem AllLike.filter {hfs : List HFactory} {fs : List (Factory AnyOp)} (h : AllLike hfs fs) (system : Str) :
    AllLike (hfs.filter fun f => system = str "auto" ∨ system = f.name) (fs.filter fun f => system = str "auto" ∨ system = f.name) := by
  induction hfs generalizing fs with
  | nil =>
    cases fs with
    | nil => trivial
    | cons f fs => exact h.elim
  | cons hf hfs ih =>
    cases fs with
    | nil => exact h.elim
    | cons f fs =>
      obtain ⟨h1, h2⟩ := h
      rw [List.filter_cons, List.filter_cons, h1.name]
      split
      · exact ⟨h1, ih h2⟩
      · exact ih h2

theorem AllLike.length {hfs : List HFactory} {fs : List (Factory AnyOp)} (h : AllLike hfs fs) : hfs.length = fs.length := by
  induction hfs generalizing fs with
  | nil =>
    cases fs with
    | nil => rfl
    | cons f fs => exact h.elim
  | cons hf hfs ih =>
    cases fs with
    | nil => exact h.elim
    | cons f fs => rw [List.length_cons, List.length_cons, ih h.2]

theorem openDoOrPo_runs {m : Mem} {raw : Slice} {b : Bytes} (hr : Valid m raw) (hb : bytesOf m raw = b) (order : DiskOrder) (system ext : Str)
    {hfs : List HFactory} {fs : List (Factory AnyOp)} (hl : AllLike hfs fs) :
    Runs (Opened m) m (openDoOrPo raw order system ext hfs) (Disk.openDoOrPo b order system ext fs) := by
  unfold openDoOrPo Disk.openDoOrPo
  have hl' := hl.filter system
  dsimp only
  rw [hl'.length]
  split
  · exact Runs.fail m rfl (fun _ => by simp)
  · cases ordersToTry order ext with
    | none => exact Runs.fail m rfl (fun _ => by simp)
    | some orders => exact openOuter_runs _ hr hb hl' orders

theorem openHDVLoop_runs {m : Mem} {raw : Slice} {b : Bytes} (hr : Valid m raw) (hb : bytesOf m raw = b) {hfs : List HFactory} {fs : List (Factory AnyOp)}
    (hl : AllLike hfs fs) :
    Runs (fun m' p q => p.2 = q.2 ∧ Is m' p.1 q.1 ∧ p.1.getBytes = raw ∧ ∀ a ∈ p.1.arrays, a = raw.arr ∨ m.length ≤ a) m (openHDVLoop raw hfs) (Disk.openHDVLoop b fs) := by
  induction hfs generalizing fs with
  | nil =>
    cases fs with
    | nil => exact Runs.fail m rfl (fun _ => by simp)
    | cons f fs => exact hl.elim
  | cons hf hfs ih =>
    cases fs with
    | nil => exact hl.elim
    | cons f fs =>
      obtain ⟨h1, h2⟩ := hl
      unfold openHDVLoop Disk.openHDVLoop
      rw [h1.name]
      split
      · subst hb
        refine (h1.operator hr).bind ?_
        rintro z h O ⟨hi, hg, ha⟩
        exact Runs.ok ⟨rfl, hi, hg, ha⟩
      · exact ih h2

/-- `OpenImage`: the disk is in new arrays, or (a `.hdv` image) it is the slice of the caller. -/
theorem openImage_runs {m : Mem} {raw : Slice} (hr : Valid m raw) (filename : Str) (order : DiskOrder) (system : Str) {hfs : List HFactory}
    {fs : List (Factory AnyOp)} (hl : AllLike hfs fs) :
    Runs (fun m' p q => p.2 = q.2 ∧ Is m' p.1 q.1 ∧ ∀ a ∈ p.1.arrays, toLower (pathExt filename) = str ".hdv" ∧ a = raw.arr ∨ m.length ≤ a) m
      (openImage raw filename order system hfs) (Disk.openImage (bytesOf m raw) filename order system fs) := by
  have hlen := bytesOf_length hr
  unfold openImage Disk.openImage
  dsimp only
  rw [hlen]
  split
  · exact (openDoOrPo_runs hr rfl order system _ hl).mono fun z p q h => ⟨h.1, h.2.1, fun a ha => Or.inr (h.2.2 a ha)⟩
  split
  · exact Runs.fail m rfl (fun _ => by simp)
  split
  case isTrue hx =>
    unfold openHDV Disk.openHDV
    dsimp only
    rw [hlen]
    split
    · exact Runs.fail m rfl (fun _ => by simp)
    split
    · exact Runs.fail m rfl (fun _ => by simp)
    split
    · exact Runs.fail m rfl (fun _ => by simp)
    split
    · exact Runs.fail m rfl (fun _ => by simp)
    exact (openHDVLoop_runs hr rfl hl).mono fun z p q h => ⟨h.1, h.2.1, fun a ha => (h.2.2.2 a ha).imp (fun e => ⟨hx, e⟩) id⟩
  · exact Runs.fail m rfl (fun _ => by simp)

end Verif.HeapOpen
