import Verif.Spec.Cmd
import Verif.Props.Open
import Verif.Props.SupermonOp

/-!
# Lemmas about commands
-/

set_option autoImplicit false

namespace Verif.Cmd
open Disk Spec

variable {α β : Type}

/-- Changes neither files nor standard output. -/
def Quiet (m : Act α) : Prop := ∀ w, SameOutside (m w).2 w
/-- Changes something only when it succeeds. -/
def AllOrNothing (m : Act Unit) : Prop := ∀ w, (m w).1 ≠ .ok () → SameOutside (m w).2 w
/-- Changes no file but the given one. -/
def Only (p : Option Str) (m : Act Unit) : Prop := ∀ w q, some q ≠ p → (m w).2.files q = w.files q

theorem bind_apply (m : Act α) (f : α → Act β) (w : World) : (m >>= f) w = Act.bind m f w := rfl

theorem bind_ok {m : Act α} {w w' : World} {a : α} (h : m w = (.ok a, w')) (f : α → Act β) :
    (m >>= f) w = f a w' := by
  rw [bind_apply]; unfold Act.bind; rw [h]

theorem bind_ok_iff {m : Act α} {f : α → Act β} {w : World} {b : β} {w2 : World} :
    (m >>= f) w = (.ok b, w2) ↔ ∃ a w', m w = (.ok a, w') ∧ f a w' = (.ok b, w2) := by
  constructor
  · intro h
    rw [bind_apply] at h
    unfold Act.bind at h
    split at h
    · exact ⟨_, _, by assumption, h⟩
    · simp at h
    · simp at h
    · simp at h
  · rintro ⟨a, w', h1, h2⟩
    rw [bind_ok h1, h2]

theorem Quiet.lift (o : Out α) : Quiet (lift o) := fun _ => ⟨rfl, rfl⟩

theorem Quiet.contentsOf (p : Str) : Quiet (contentsOf p) := by
  intro w
  unfold Cmd.contentsOf World.fileContentsOrStdIn
  split
  · exact ⟨rfl, rfl⟩
  · split <;> exact ⟨rfl, rfl⟩

theorem Quiet.openDisk (env : Env) (f : Str) (o : DiskOrder) (s : Str) : Quiet (openDisk env f o s) := by
  intro w
  unfold Cmd.openDisk openFilename
  split
  · exact ⟨rfl, rfl⟩
  · split <;> exact ⟨rfl, rfl⟩

theorem AllOrNothing.lift (o : Out Unit) : AllOrNothing (lift o) := fun _ _ => ⟨rfl, rfl⟩

theorem AllOrNothing.print (t : Bytes) : AllOrNothing (print t) := fun _ h => absurd rfl h

theorem AllOrNothing.bind {m : Act α} {f : α → Act Unit} (hm : Quiet m) (hf : ∀ a, AllOrNothing (f a)) :
    AllOrNothing (m >>= f) := by
  intro w h
  have hw := hm w
  rw [bind_apply] at h ⊢
  unfold Act.bind at h ⊢
  rcases e : m w with ⟨o, w'⟩
  rw [e] at h hw
  cases o with
  | ok a =>
    simp only at h hw ⊢
    have := hf a w' h
    exact ⟨this.1.trans hw.1, this.2.trans hw.2⟩
  | err k => exact hw
  | panic => exact hw
  | timeout => exact hw

theorem Only.lift (p : Option Str) (o : Out Unit) : Only p (lift o) := fun _ _ _ => rfl

theorem Only.print (p : Option Str) (t : Bytes) : Only p (print t) := fun _ _ _ => rfl

theorem Only.bind {p : Option Str} {m : Act α} {f : α → Act Unit} (hm : Quiet m) (hf : ∀ a, Only p (f a)) :
    Only p (m >>= f) := by
  intro w q hq
  have hw := (hm w).1
  rw [bind_apply]
  unfold Act.bind
  rcases e : m w with ⟨o, w'⟩
  rw [e] at hw
  cases o with
  | ok a => simp only at hw ⊢; rw [hf a w' q hq, hw]
  | err k => simp only at hw ⊢; rw [hw]
  | panic => simp only at hw ⊢; rw [hw]
  | timeout => simp only at hw ⊢; rw [hw]

theorem only_writeOutput (w : World) (p : Str) (b : Bytes) (f : Bool) (q : Str) (hq : q ≠ p) :
    (w.writeOutput p b f).2.files q = w.files q := by
  unfold World.writeOutput
  split
  · rfl
  · split
    · rfl
    · simp [World.writeFile, hq]

theorem allOrNothing_writeOutput (w : World) (p : Str) (b : Bytes) (f : Bool)
    (h : (w.writeOutput p b f).1 ≠ .ok ()) : (w.writeOutput p b f).2 = w := by
  unfold World.writeOutput at h ⊢
  split
  · rename_i hp; rw [if_pos hp] at h; exact absurd rfl h
  · rename_i hp
    rw [if_neg hp] at h
    split
    · rfl
    · rename_i hx; rw [if_neg hx] at h; exact absurd rfl h

theorem writeBack_cases (wo : Output) (w : World) (p : Str) (op : AnyOp) (o : DiskOrder) (ow : Bool) :
    (∃ b, writeBackBytes op o = .ok b ∧ writeBackVia wo w p op o ow = wo w p b ow) ∨
    ((∀ b, writeBackBytes op o ≠ .ok b) ∧ (writeBackVia wo w p op o ow).1 ≠ .ok () ∧
      (writeBackVia wo w p op o ow).2 = w) := by
  unfold writeBackVia
  cases h : writeBackBytes op o with
  | ok b => exact Or.inl ⟨b, rfl, rfl⟩
  | err k => exact Or.inr ⟨by simp, by simp, rfl⟩
  | panic => exact Or.inr ⟨by simp, by simp, rfl⟩
  | timeout => exact Or.inr ⟨by simp, by simp, rfl⟩

theorem writeDisk_allOrNothing (p : Str) (op : AnyOp) (o : DiskOrder) :
    AllOrNothing (writeDisk World.writeOutput p op o) := by
  intro w h
  unfold writeDisk at h ⊢
  rcases writeBack_cases World.writeOutput w p op o true with ⟨b, _, e⟩ | ⟨_, _, e⟩
  · rw [e] at h ⊢
    rw [allOrNothing_writeOutput w p b true h]
    exact ⟨rfl, rfl⟩
  · rw [e]; exact ⟨rfl, rfl⟩

theorem writeDisk_only (p : Str) (op : AnyOp) (o : DiskOrder) :
    Only (some p) (writeDisk World.writeOutput p op o) := by
  intro w q hq
  have hq' : q ≠ p := fun h => hq (by rw [h])
  unfold writeDisk
  rcases writeBack_cases World.writeOutput w p op o true with ⟨b, _, e⟩ | ⟨_, _, e⟩
  · rw [e]; exact only_writeOutput w p b true q hq'
  · rw [e]

/-! ## Interrupted writes -/

/-- What an interrupted run leaves, compared with the complete run, for one path. -/
def Torn (p : Option Str) (k : Nat) (m1 m2 : Act Unit) : Prop := ∀ w q,
  (some q ≠ p → (m1 w).2.files q = w.files q) ∧
  ((m1 w).2.files q = w.files q ∨
    ∃ new, (m2 w).1 = .ok () ∧ (m2 w).2.files q = some new ∧ (m1 w).2.files q = some (new.take k))

theorem Torn.quiet {p : Option Str} {k : Nat} {m1 m2 : Act Unit} (h : ∀ w, (m1 w).2.files = w.files) : Torn p k m1 m2 :=
  fun w q => ⟨fun _ => by rw [h], Or.inl (by rw [h])⟩

theorem Torn.bind {p : Option Str} {k : Nat} {m : Act α} {f g : α → Act Unit} (hm : Quiet m)
    (hf : ∀ a, Torn p k (f a) (g a)) : Torn p k (m >>= f) (m >>= g) := by
  intro w q
  have hw := (hm w).1
  rw [bind_apply, bind_apply]
  unfold Act.bind
  rcases e : m w with ⟨o, w'⟩
  rw [e] at hw
  cases o with
  | ok a =>
    simp only at hw ⊢
    have := hf a w' q
    rw [hw] at this
    exact this
  | err k => exact ⟨fun _ => by simp only at hw ⊢; rw [hw], Or.inl (by simp only at hw ⊢; rw [hw])⟩
  | panic => exact ⟨fun _ => by simp only at hw ⊢; rw [hw], Or.inl (by simp only at hw ⊢; rw [hw])⟩
  | timeout => exact ⟨fun _ => by simp only at hw ⊢; rw [hw], Or.inl (by simp only at hw ⊢; rw [hw])⟩

theorem torn_output (k : Nat) (p : Str) (b : Bytes) (f : Bool) :
    Torn (some p) k (fun w => interrupted k w p b f) (fun w => World.writeOutput w p b f) := by
  intro w q
  unfold interrupted World.writeOutput
  dsimp only
  split
  · exact ⟨fun _ => rfl, Or.inl rfl⟩
  · split
    · exact ⟨fun _ => rfl, Or.inl rfl⟩
    · by_cases hq : q = p
      · subst hq
        refine ⟨fun h => absurd rfl h, Or.inr ⟨b, rfl, ?_, ?_⟩⟩ <;> simp [World.writeFile]
      · refine ⟨fun _ => ?_, Or.inl ?_⟩ <;> simp [World.writeFile, hq]

theorem torn_writeDisk (k : Nat) (p : Str) (op : AnyOp) (o : DiskOrder) :
    Torn (some p) k (writeDisk (interrupted k) p op o) (writeDisk World.writeOutput p op o) := by
  unfold writeDisk writeBackVia
  cases h : writeBackBytes op o with
  | ok b => exact torn_output k p b true
  | err k => exact Torn.quiet fun _ => rfl
  | panic => exact Torn.quiet fun _ => rfl
  | timeout => exact Torn.quiet fun _ => rfl

/-! ## The registered systems -/

theorem map_operator {Ω Ω' : Type} {g : Ω → Ω'} {f : Factory Ω} {b : Bytes} {x : Ω'} :
    (Factory.map g f).operator b = .ok x ↔ ∃ o, f.operator b = .ok o ∧ x = g o := by
  unfold Factory.map
  simp only
  cases f.operator b with
  | ok o => simp [eq_comm]
  | err k => simp
  | panic => simp
  | timeout => simp

theorem supermon_open_data {img : Bytes} {o : Supermon.Operator} (h : Supermon.openOperator img = .ok o) : o.data = img := by
  unfold Supermon.openOperator at h
  obtain ⟨sm, hs, h⟩ := Out.bind_eq_ok.1 h
  obtain ⟨u, hv, h⟩ := Out.bind_eq_ok.1 h
  split at h <;> simp at h <;> subst h <;> rfl

/-- The three registered systems are well behaved. -/
theorem factories_lawful (env : Env) : ∀ f ∈ factories env, Lawful f := by
  intro f hf
  simp only [factories, List.mem_cons, List.not_mem_nil, or_false] at hf
  rcases hf with rfl | rfl | rfl
  · refine ⟨Or.inl rfl, fun b op h => ?_⟩
    obtain ⟨o, ho, rfl⟩ := map_operator.1 h
    have ho' : Out.ok (⟨b⟩ : Dos3.Operator) = .ok o := ho
    cases ho'
    exact ⟨rfl, rfl⟩
  · refine ⟨Or.inr (Or.inr rfl), fun b op h => ?_⟩
    obtain ⟨o, ho, rfl⟩ := map_operator.1 h
    exact ⟨supermon_open_data ho, rfl⟩
  · refine ⟨Or.inr (Or.inl rfl), fun b op h => ?_⟩
    obtain ⟨o, ho, rfl⟩ := map_operator.1 h
    have ho' : Out.ok (⟨b⟩ : Prodos.Operator) = .ok o := ho
    cases ho'
    exact ⟨rfl, rfl⟩

theorem openInner_order {Ω : Type} {e : Bool} {o : DiskOrder} {s : Bytes} {fs : List (Factory Ω)} {x : Ω × DiskOrder}
    (h : openInner e o s fs = .ok (some x)) : x.2 = o := by
  induction fs with
  | nil => simp [openInner] at h
  | cons f fs ih =>
    rw [openInner] at h
    obtain ⟨d, _, h⟩ := Out.bind_eq_ok.1 h
    split at h
    · obtain ⟨op, _, h⟩ := Out.bind_eq_ok.1 h
      simp only [Out.ok.injEq, Option.some.injEq] at h
      rw [← h]
    · obtain ⟨m, _, h⟩ := Out.bind_eq_ok.1 h
      split at h
      · split at h
        · simp only [Out.ok.injEq, Option.some.injEq] at h
          rw [← h]
        · exact ih h
        · simp at h
        · simp at h
      · exact ih h

theorem openOuter_order {Ω : Type} {e : Bool} {raw : Bytes} {fs : List (Factory Ω)} {os : List DiskOrder}
    {x : Ω × DiskOrder} (h : openOuter e raw fs os = .ok x) : x.2 ∈ os := by
  induction os with
  | nil => simp [openOuter] at h
  | cons o os ih =>
    rw [openOuter] at h
    obtain ⟨d, _, h⟩ := Out.bind_eq_ok.1 h
    obtain ⟨r, hr, h⟩ := Out.bind_eq_ok.1 h
    cases r with
    | none => exact List.mem_cons_of_mem _ (ih h)
    | some y =>
      simp only [Out.ok.injEq] at h
      subst h
      rw [openInner_order hr]
      exact List.mem_cons_self

theorem openDoOrPo_order {Ω : Type} {raw : Bytes} {order : DiskOrder} {system ext : Str} {fs : List (Factory Ω)}
    {x : Ω × DiskOrder} (h : openDoOrPo raw order system ext fs = .ok x) : x.2 = orderDO ∨ x.2 = orderPO := by
  unfold openDoOrPo at h
  simp only at h
  split at h
  · simp at h
  split at h
  · simp at h
  · rename_i os ho
    have := openOuter_order h
    have hc := (ordersToTry_iff _ _ _).1 ho
    cases hc <;> simp only [List.mem_cons, List.not_mem_nil, or_false] at this
    · exact Or.inl this
    · exact Or.inr this
    · exact Or.inr this
    · exact Or.inl this
    · exact this
    · exact this

/-- What is known about an opened NakedOS disk. -/
structure OpenedNaked (raw : Bytes) (o : Supermon.Operator) (ord : DiskOrder) : Prop where
  len : raw.length = 143360
  order : ord = orderDO ∨ ord = orderPO
  data : o.data = viewOf ord orderRaw raw
  opened : Supermon.openOperator (viewOf ord orderRaw raw) = .ok o
  good : Supermon.Good o.sm o.data

theorem order_named {ord : DiskOrder} (h : ord = orderDO ∨ ord = orderPO) : ord ∈ [orderDO, orderPO, orderRaw] := by
  rcases h with rfl | rfl <;> simp

theorem raw_named : orderRaw ∈ [orderDO, orderPO, orderRaw] := by simp

theorem open_naked {env : Env} {raw : Bytes} {filename : Str} {order : DiskOrder} {system : Str}
    {o : Supermon.Operator} {ord : DiskOrder}
    (h : openImage raw filename order system (factories env) = .ok (.nakedos o, ord)) : OpenedNaked raw o ord := by
  have hf := factories_lawful env
  unfold openImage at h
  simp only [show floppyDiskBytes = 143360 from rfl] at h
  split at h
  · rename_i hr
    have hord := openDoOrPo_order h
    obtain ⟨f, hm, ho, _, hop⟩ := openDoOrPo_ok hr (fun f hf' => lawful_factOk (hf f hf')) h
    simp only at hord
    simp only [factories, List.mem_cons, List.not_mem_nil, or_false] at hm
    rcases hm with rfl | rfl | rfl
    · obtain ⟨_, _, e⟩ := map_operator.1 hop
      cases e
    · obtain ⟨o', ho', e⟩ := map_operator.1 hop
      cases e
      have hopen : Supermon.openOperator (viewOf ord orderRaw raw) = .ok o := ho'
      have := Supermon.open_good (viewOf_length (order_named hord) raw_named hr) hopen
      exact ⟨hr, hord, this.2, hopen, this.1⟩
    · obtain ⟨_, _, e⟩ := map_operator.1 hop
      cases e
  · split at h
    · simp at h
    · split at h
      · unfold openHDV at h
        simp only at h
        repeat' (split at h; · simp at h)
        obtain ⟨f, hm, hn, hop, rfl⟩ := openHDVLoop_ok h
        simp only [factories, List.mem_cons, List.not_mem_nil, or_false] at hm
        rcases hm with rfl | rfl | rfl
        · obtain ⟨_, _, e⟩ := map_operator.1 hop
          cases e
        · exact absurd hn (by decide)
        · obtain ⟨_, _, e⟩ := map_operator.1 hop
          cases e
      · simp at h

end Verif.Cmd
