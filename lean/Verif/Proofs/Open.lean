import Verif.Proofs.Disk
import Verif.Spec.Open
import Verif.Model.Reorder

/-! # Lemmas about opening images -/

set_option autoImplicit false

namespace Verif.Disk
open Spec

variable {Ω : Type}

theorem named_orders {o : DiskOrder} (h : o ∈ [orderDO, orderPO, orderRaw]) :
    IsSectorOrder (logicalToPhysicalByName o) ∧ IsSectorOrder (physicalToLogicalByName o) ∧
    (∀ s, s < 16 → dest (physicalToLogicalByName o) (dest (logicalToPhysicalByName o) s) = s) ∧
    (∀ s, s < 16 → dest (logicalToPhysicalByName o) (dest (physicalToLogicalByName o) s) = s) := by
  unfold IsSectorOrder
  simp only [List.mem_cons, List.not_mem_nil, or_false] at h
  rcases h with rfl | rfl | rfl <;> decide +kernel

/-- File order to system order. -/
def viewOf (o fo : DiskOrder) (raw : Bytes) : Bytes :=
  swizzled (swizzled raw (logicalToPhysicalByName o)) (physicalToLogicalByName fo)

theorem swizzle_named_l2p {o : DiskOrder} (h : o ∈ [orderDO, orderPO, orderRaw]) {raw : Bytes}
    (hr : raw.length = 143360) :
    swizzle raw (logicalToPhysicalByName o) = .ok (swizzled raw (logicalToPhysicalByName o)) ∧
    (swizzled raw (logicalToPhysicalByName o)).length = 143360 :=
  ⟨swizzle_ok_iff.2 ⟨hr, (named_orders h).1, rfl⟩, swizzled_length hr (named_orders h).1⟩

theorem swizzle_named_p2l {o : DiskOrder} (h : o ∈ [orderDO, orderPO, orderRaw]) {raw : Bytes}
    (hr : raw.length = 143360) :
    swizzle raw (physicalToLogicalByName o) = .ok (swizzled raw (physicalToLogicalByName o)) ∧
    (swizzled raw (physicalToLogicalByName o)).length = 143360 :=
  ⟨swizzle_ok_iff.2 ⟨hr, (named_orders h).2.1, rfl⟩, swizzled_length hr (named_orders h).2.1⟩

theorem viewOf_length {o fo : DiskOrder} (h : o ∈ [orderDO, orderPO, orderRaw])
    (hf : fo ∈ [orderDO, orderPO, orderRaw]) {raw : Bytes} (hr : raw.length = 143360) :
    (viewOf o fo raw).length = 143360 :=
  (swizzle_named_p2l hf (swizzle_named_l2p h hr).2).2

theorem viewOf_viewOf {o fo : DiskOrder} (h : o ∈ [orderDO, orderPO, orderRaw])
    (hf : fo ∈ [orderDO, orderPO, orderRaw]) {raw : Bytes} (hr : raw.length = 143360) :
    viewOf fo o (viewOf o fo raw) = raw := by
  obtain ⟨h1, h2, h3, h4⟩ := named_orders h
  obtain ⟨f1, f2, f3, f4⟩ := named_orders hf
  unfold viewOf
  rw [swizzled_swizzled (swizzled_length hr h1) f2 f1 f4, swizzled_swizzled hr h1 h2 h3]

theorem dest_surj {o : List Int} (h : IsSectorOrder o) {d : Nat} (hd : d < 16) :
    ∃ s, s < 16 ∧ dest o s = d := by
  have hm : (d : Int) ∈ o := by
    rw [h.mem_iff]; simp; omega
  obtain ⟨s, hs, e⟩ := List.mem_iff_getElem.1 hm
  have hl := ((perm16_iff o).1 h).1
  refine ⟨s, by omega, ?_⟩
  simp [dest, List.getElem?_eq_getElem hs, e]

theorem eq_swizzled {o : List Int} (h : IsSectorOrder o) {img r : Bytes}
    (hi : img.length = 143360) (hr : r.length = 143360) (hm : SectorsMoved o img r) :
    r = swizzled img o := by
  apply ext_of_sectors hr (swizzled_length hi h)
  intro t ht d hd
  obtain ⟨s, hs, rfl⟩ := dest_surj h hd
  rw [sectorAt_swizzled hi h ht hs]
  exact hm t ht s hs _ (getElem?_order h hs)

theorem sectorsMoved_swizzled {o : List Int} (h : IsSectorOrder o) {img : Bytes}
    (hi : img.length = 143360) : SectorsMoved o img (swizzled img o) := by
  intro t ht s hs d hd
  rw [getElem?_order h hs] at hd
  have : d = dest o s := by simp at hd; omega
  rw [this]
  exact sectorAt_swizzled hi h ht hs

theorem view_iff {o fo : DiskOrder} (h : o ∈ [orderDO, orderPO, orderRaw])
    (hf : fo ∈ [orderDO, orderPO, orderRaw]) {raw v : Bytes} (hr : raw.length = 143360) :
    View o fo raw v ↔ v = viewOf o fo raw := by
  obtain ⟨h1, _⟩ := named_orders h
  obtain ⟨_, f2, _⟩ := named_orders hf
  constructor
  · rintro ⟨hv, p, hp, m1, m2⟩
    have := eq_swizzled h1 hr (hp.trans hr) m1
    subst this
    exact eq_swizzled f2 (hp.trans hr) (hv.trans hr) m2
  · rintro rfl
    exact ⟨(viewOf_length h hf hr).trans hr.symm, _, (swizzled_length hr h1).trans hr.symm,
      sectorsMoved_swizzled h1 hr, sectorsMoved_swizzled f2 (swizzled_length hr h1)⟩

/-- Probing a list of candidate pairs. -/
def scan (raw : Bytes) : List (DiskOrder × Factory Ω) → Out (Ω × DiskOrder)
  | [] => .err .other
  | (o, f) :: rest =>
    match f.seemsToMatch (viewOf o f.diskOrder raw) with
    | .ok true =>
      match f.operator (viewOf o f.diskOrder raw) with
      | .ok op => .ok (op, o)
      | .err _ => scan raw rest
      | .panic => .panic
      | .timeout => .timeout
    | .ok false => scan raw rest
    | .err k => .err k
    | .panic => .panic
    | .timeout => .timeout

def factOk (f : Factory Ω) : Prop := f.diskOrder ∈ [orderDO, orderPO, orderRaw]

theorem openInner_scan {o : DiskOrder} (ho : o ∈ [orderDO, orderPO, orderRaw]) {raw : Bytes}
    (hr : raw.length = 143360) (fs : List (Factory Ω)) (hf : ∀ f ∈ fs, factOk f)
    (rest : List (DiskOrder × Factory Ω)) (k : Out (Ω × DiskOrder)) (hk : k = scan raw rest) :
    (openInner false o (swizzled raw (logicalToPhysicalByName o)) fs >>= fun r =>
      match r with
      | some x => .ok x
      | none => k) = scan raw (fs.map (fun f => (o, f)) ++ rest) := by
  induction fs with
  | nil => exact hk
  | cons f fs ih =>
    have ih := ih (fun g hg => hf g (by simp [hg]))
    have hf1 := hf f (by simp)
    have hsw := (swizzle_named_p2l hf1 (swizzle_named_l2p ho hr).2).1
    unfold openInner
    rw [hsw]
    simp only [Out.bind_ok, Bool.false_eq_true, if_false, List.map_cons, List.cons_append]
    unfold scan
    show (((f.seemsToMatch (viewOf o f.diskOrder raw)) >>= _) >>= _) = _
    cases hm : f.seemsToMatch (viewOf o f.diskOrder raw) with
    | err k => rfl
    | panic => rfl
    | timeout => rfl
    | ok m =>
      cases m with
      | false => exact ih
      | true =>
        simp only [Out.bind_ok, if_true]
        show ((match f.operator (viewOf o f.diskOrder raw) with
          | .ok op => Out.ok (some (op, o))
          | .err _ => openInner false o _ fs
          | .panic => .panic
          | .timeout => .timeout) >>= _) = _
        cases f.operator (viewOf o f.diskOrder raw) with
        | err k => exact ih
        | panic => rfl
        | timeout => rfl
        | ok op => rfl

theorem openOuter_scan {raw : Bytes} (hr : raw.length = 143360) (fs : List (Factory Ω))
    (hf : ∀ f ∈ fs, factOk f) (os : List DiskOrder)
    (ho : ∀ o ∈ os, o ∈ [orderDO, orderPO, orderRaw]) :
    openOuter false raw fs os = scan raw (os.flatMap fun o => fs.map fun f => (o, f)) := by
  induction os with
  | nil => rfl
  | cons o os ih =>
    unfold openOuter
    rw [(swizzle_named_l2p (ho o (by simp)) hr).1, Out.bind_ok, List.flatMap_cons]
    exact openInner_scan (ho o (by simp)) hr fs hf _ _ (ih (fun x hx => ho x (by simp [hx])))

theorem scan_ok_iff {raw : Bytes} (cs : List (DiskOrder × Factory Ω)) (op : Ω) (o : DiskOrder) :
    scan raw cs = .ok (op, o) ↔
      ∃ pre f post, cs = pre ++ (o, f) :: post ∧ Accepts f (viewOf o f.diskOrder raw) op ∧
        ∀ p ∈ pre, Rejects p.2 (viewOf p.1 p.2.diskOrder raw) := by
  induction cs with
  | nil => simp [scan]
  | cons c cs ih =>
    obtain ⟨o', f'⟩ := c
    have skip : Rejects f' (viewOf o' f'.diskOrder raw) →
        (scan raw cs = .ok (op, o) ↔ ∃ pre f post, (o', f') :: cs = pre ++ (o, f) :: post ∧
          Accepts f (viewOf o f.diskOrder raw) op ∧
          ∀ p ∈ pre, Rejects p.2 (viewOf p.1 p.2.diskOrder raw)) := by
      intro hrej
      rw [ih]
      constructor
      · rintro ⟨pre, f, post, e, ha, hp⟩
        refine ⟨(o', f') :: pre, f, post, by rw [e]; rfl, ha, ?_⟩
        intro p hp'
        rcases List.mem_cons.1 hp' with rfl | hp'
        · exact hrej
        · exact hp p hp'
      · rintro ⟨pre, f, post, e, ha, hp⟩
        cases pre with
        | nil =>
          simp only [List.nil_append, List.cons.injEq, Prod.mk.injEq] at e
          obtain ⟨⟨rfl, rfl⟩, rfl⟩ := e
          exfalso
          rcases hrej with h | ⟨_, h⟩
          · rw [ha.1] at h; simp at h
          · rw [ha.2] at h; simp at h
        | cons q pre =>
          simp only [List.cons_append, List.cons.injEq] at e
          exact ⟨pre, f, post, e.2, ha, fun p hp' => hp p (by simp [hp'])⟩
    have stop : (∀ op, ¬ Accepts f' (viewOf o' f'.diskOrder raw) op) →
        ¬ Rejects f' (viewOf o' f'.diskOrder raw) →
        ¬ ∃ pre f post, (o', f') :: cs = pre ++ (o, f) :: post ∧
          Accepts f (viewOf o f.diskOrder raw) op ∧
          ∀ p ∈ pre, Rejects p.2 (viewOf p.1 p.2.diskOrder raw) := by
      rintro h1 h2 ⟨pre, f, post, e, ha, hp⟩
      cases pre with
      | nil =>
        simp only [List.nil_append, List.cons.injEq, Prod.mk.injEq] at e
        obtain ⟨⟨rfl, rfl⟩, rfl⟩ := e
        exact h1 _ ha
      | cons q pre =>
        simp only [List.cons_append, List.cons.injEq] at e
        exact h2 (by have := hp q (by simp); rwa [← e.1] at this)
    unfold scan
    cases hm : f'.seemsToMatch (viewOf o' f'.diskOrder raw) with
    | err k => simp only [reduceCtorEq, false_iff]; exact stop (by simp [Accepts, hm]) (by simp [Rejects, hm])
    | panic => simp only [reduceCtorEq, false_iff]; exact stop (by simp [Accepts, hm]) (by simp [Rejects, hm])
    | timeout => simp only [reduceCtorEq, false_iff]; exact stop (by simp [Accepts, hm]) (by simp [Rejects, hm])
    | ok m =>
      cases m with
      | false => exact skip (Or.inl hm)
      | true =>
        simp only
        cases hop : f'.operator (viewOf o' f'.diskOrder raw) with
        | err k => exact skip (Or.inr ⟨hm, by rw [hop]; rfl⟩)
        | panic => simp only [reduceCtorEq, false_iff]; exact stop (by simp [Accepts, hop]) (by simp [Rejects, hm, hop])
        | timeout => simp only [reduceCtorEq, false_iff]; exact stop (by simp [Accepts, hop]) (by simp [Rejects, hm, hop])
        | ok op' =>
          simp only [Out.ok.injEq, Prod.mk.injEq]
          constructor
          · rintro ⟨rfl, rfl⟩
            exact ⟨[], f', cs, rfl, ⟨hm, hop⟩, by simp⟩
          · rintro ⟨pre, f, post, e, ha, hp⟩
            cases pre with
            | nil =>
              simp only [List.nil_append, List.cons.injEq, Prod.mk.injEq] at e
              obtain ⟨⟨rfl, rfl⟩, rfl⟩ := e
              rw [ha.2] at hop
              exact ⟨by simpa using hop.symm, rfl⟩
            | cons q pre =>
              exfalso
              simp only [List.cons_append, List.cons.injEq] at e
              have := hp q (by simp)
              rw [← e.1] at this
              rcases this with h | ⟨_, h⟩
              · rw [hm] at h; simp at h
              · rw [hop] at h; simp at h

theorem ordersToTry_iff (order : DiskOrder) (ext : Str) (os : List DiskOrder) :
    ordersToTry order ext = some os ↔ CandidateOrders order ext os := by
  constructor
  · intro h
    unfold ordersToTry at h
    split at h
    · rename_i h1
      simp only [Option.some.injEq] at h
      subst h
      rcases h1 with rfl | rfl
      · exact .explicitDO ext
      · exact .explicitPO ext
    · split at h
      · rename_i h1 h2
        subst h2
        split at h
        · rename_i h3; subst h3
          simp only [Option.some.injEq] at h
          subst h; exact .byExtPO
        · split at h
          · rename_i h3; subst h3
            simp only [Option.some.injEq] at h
            subst h; exact .byExtDO
          · split at h
            · rename_i h3
              simp only [Option.some.injEq] at h
              subst h
              rcases h3 with rfl | rfl
              · exact .byExtDsk
              · exact .noExt
            · simp at h
      · simp at h
  · intro h
    cases h with
    | explicitDO => simp [ordersToTry, orderDO]
    | explicitPO => simp [ordersToTry, orderPO]
    | byExtPO => decide
    | byExtDO => decide
    | byExtDsk => decide
    | noExt => decide

theorem candidateOrders_named {order : DiskOrder} {ext : Str} {os : List DiskOrder}
    (h : CandidateOrders order ext os) : os ≠ [] ∧ ∀ o ∈ os, o ∈ [orderDO, orderPO, orderRaw] := by
  cases h <;> (constructor; · simp); all_goals (simp [orderDO, orderPO, orderRaw])

end Verif.Disk
