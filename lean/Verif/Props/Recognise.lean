import Verif.Props.Reopen
import Verif.Props.History
import Verif.Props.ProdosRecog
import Verif.Props.Dos3
import Verif.Spec.Recognise

/-!
# C84: which system an image is opened with
-/

set_option autoImplicit false

namespace Verif.Disk
open Spec

variable {Ω : Type}

theorem openImage_scan {raw : Bytes} (hr : raw.length = 143360) {filename : Str}
    {order : DiskOrder} {system : Str} {fs : List (Factory Ω)}
    (hf : ∀ f ∈ fs, f.diskOrder = str "do" ∨ f.diskOrder = str "po" ∨ f.diskOrder = str "raw")
    {os : List DiskOrder} (hos : CandidateOrders order (toLower (pathExt filename)) os)
    (hauto : system = str "auto" ∨ os.length ≠ 1) :
    openImage raw filename order system fs = scan raw (candidates os system fs) := by
  have hff : ∀ f ∈ fs.filter (fun f => decide (system = str "auto" ∨ system = f.name)), factOk f := by
    intro f hf'
    have := hf f (List.mem_filter.1 hf').1
    simp only [factOk, List.mem_cons, List.not_mem_nil, or_false]
    exact this
  have hnamed := (candidateOrders_named hos).2
  have hcand : candidates os system fs = os.flatMap fun o =>
      (fs.filter (fun f => decide (system = str "auto" ∨ system = f.name))).map fun f => (o, f) := rfl
  unfold openImage
  simp only [show floppyDiskBytes = 143360 from rfl]
  rw [if_pos hr]
  unfold openDoOrPo
  simp only [(ordersToTry_iff _ _ _).2 hos]
  split
  · rename_i h0
    rw [hcand, List.eq_nil_of_length_eq_zero h0]
    have : (os.flatMap fun o => ([] : List (Factory Ω)).map fun f => (o, f)) = [] := by simp
    rw [this]; rfl
  · have hx : ¬ (os.length = 1 ∧ system ≠ str "auto") := by
      rintro ⟨h1, h2⟩; rcases hauto with h | h
      · exact h2 h
      · exact h h1
    rw [decide_eq_false hx, openOuter_scan hr _ hff _ hnamed, hcand]

theorem scan_isErr {raw : Bytes} (cs : List (DiskOrder × Factory Ω))
    (h : ∀ p ∈ cs, Rejects p.2 (viewOf p.1 p.2.diskOrder raw)) : (scan raw cs).isErr := by
  induction cs with
  | nil => rfl
  | cons c cs ih =>
    obtain ⟨o, f⟩ := c
    have ih := ih fun p hp => h p (List.mem_cons_of_mem _ hp)
    unfold scan
    rcases h (o, f) List.mem_cons_self with e | ⟨e, e2⟩
    · simp only at e
      rw [e]; exact ih
    · simp only at e e2
      rw [e]
      cases hx : f.operator (viewOf o f.diskOrder raw) with
      | err k => exact ih
      | ok x => rw [hx] at e2; cases e2
      | panic => rw [hx] at e2; cases e2
      | timeout => rw [hx] at e2; cases e2

end Verif.Disk

namespace Verif.Cmd
open Disk Spec

/-- The program's implementation of a system. -/
def factoryOf (env : Env) : System → Factory AnyOp
  | .dos3 => Factory.map .dos3 Dos3.factory
  | .nakedos => Factory.map .nakedos Supermon.factory
  | .prodos => Factory.map .prodos (Prodos.factory env.budget env.order)

theorem factoryOf_order (env : Env) (k : System) : (factoryOf env k).diskOrder = k.order := by cases k <;> rfl
theorem factoryOf_name (env : Env) (k : System) : (factoryOf env k).name = k.name := by cases k <;> rfl
theorem system_order_named (k : System) : k.order ∈ [orderDO, orderPO, orderRaw] := by cases k <;> decide

theorem dos_seems (env : Env) : (factoryOf env .dos3).seemsToMatch = Dos3.seemsToMatch := by
  simp only [factoryOf, Factory.map, Dos3.factory]
theorem naked_seems (env : Env) : (factoryOf env .nakedos).seemsToMatch = Supermon.seemsToMatch := by
  simp only [factoryOf, Factory.map, Supermon.factory]
theorem prodos_seems (env : Env) : (factoryOf env .prodos).seemsToMatch = Prodos.seemsToMatch env.budget env.order := by
  simp only [factoryOf, Factory.map, Prodos.factory]

theorem candidates_attempts (env : Env) (os : List DiskOrder) (system : Str) :
    candidates os system (factories env) = (attempts os system).map fun p => (p.1, factoryOf env p.2) := by
  have e : factories env = [System.dos3, .nakedos, .prodos].map (factoryOf env) := rfl
  unfold candidates attempts
  rw [e, List.map_flatMap, List.filter_map]
  have e2 : ((fun f : Factory AnyOp => decide (system = str "auto" ∨ system = f.name)) ∘ factoryOf env) =
      fun k : System => decide (system = str "auto" ∨ system = k.name) := by
    funext k
    simp only [Function.comp_apply, factoryOf_name]
  rw [e2]
  congr 1
  funext o
  rw [List.map_map, List.map_map]
  rfl

theorem attempts_order {os : List DiskOrder} {system : Str} {p : DiskOrder × System} (h : p ∈ attempts os system) : p.1 ∈ os := by
  unfold attempts at h
  simp only [List.mem_flatMap, List.mem_map] at h
  obtain ⟨o, ho, _, _, rfl⟩ := h
  exact ho

/-! ### What the three systems recognise -/

theorem dos_true (v : Bytes) : Dos3.seemsToMatch v = .ok true ↔ DosDisk v := by
  unfold Dos3.seemsToMatch
  constructor
  · intro h
    cases e : Dos3.readCatalog v with
    | ok x =>
      obtain ⟨a, chain, c, _⟩ := Dos3.C15_catalog v x.1 x.2 e
      exact ⟨a, chain, c⟩
    | err k => rw [e] at h; simp at h
    | panic => rw [e] at h; simp at h
    | timeout => rw [e] at h; simp at h
  · rintro ⟨hv, chain, hc⟩
    obtain ⟨f, d, e, _⟩ := Dos3.C15_catalog_complete v hv chain hc
    rw [e]

theorem dos_decides {v : Bytes} (h : ¬ EndlessCatalog v) :
    Dos3.seemsToMatch v = .ok true ∨ Dos3.seemsToMatch v = .ok false := by
  have hr := ((Dos3.C16_terminates_partial v).1 h).1
  unfold Dos3.seemsToMatch
  cases e : Dos3.readCatalog v with
  | ok x => exact Or.inl rfl
  | err k => exact Or.inr rfl
  | panic => rw [e] at hr; simp at hr
  | timeout => rw [e] at hr; simp at hr

theorem dos_endless {v : Bytes} (h : EndlessCatalog v) : Dos3.seemsToMatch v = .timeout := by
  have := (Dos3.C16_terminates_partial v).2 h 561
  unfold Dos3.seemsToMatch Dos3.readCatalog
  rw [this]

theorem naked_true {v : Bytes} (hl : v.length = 143360) :
    (NakedOS v → Supermon.seemsToMatch v = .ok true) ∧ (¬ NakedOS v → Supermon.seemsToMatch v = .ok false) := by
  have hs : ∃ sm, Supermon.loadSectorMap v = .ok sm := by
    have hs : (slice v 2512 560).length = 560 := slice_length_of_le (by omega)
    exact ⟨⟨(slice v 2512 560).toArray, by simpa using hs⟩, (Supermon.loadSectorMap_eq _ _).2 ⟨by omega, by simp⟩⟩
  obtain ⟨sm, hsm⟩ := hs
  have e := (Supermon.loaded_iff (by omega) sm).1 hsm
  have hiff : NakedOS v ↔ Supermon.verify sm = .ok () := by
    rw [Supermon.verify_ok_iff]
    constructor
    · rintro ⟨_, h1, h2⟩
      exact ⟨fun n hn => by rw [e n (by omega)]; exact h1 n hn, fun n hn => by rw [e n hn]; exact h2 n hn⟩
    · rintro ⟨h1, h2⟩
      exact ⟨hl, fun n hn => by rw [← e n (by omega)]; exact h1 n hn, fun n hn => by rw [← e n hn]; exact h2 n hn⟩
  unfold Supermon.seemsToMatch
  rw [hsm, hiff]
  simp only
  constructor
  · intro h; rw [h]
  · intro h
    rw [(Supermon.verify_cases sm).resolve_left h]

theorem naked_opens {v : Bytes} (h : NakedOS v) : ∃ o, Supermon.openOperator v = .ok o ∧ o.data = v := by
  obtain ⟨sm, hg⟩ := nakedOS_good h
  exact ⟨_, Supermon.open_of_good hg, rfl⟩

/-- What a system accepts is one of its disks. -/
theorem accepts_disk {env : Env} {k : System} {v : Bytes} (hl : v.length = 143360) {op : AnyOp} (h : Accepts (factoryOf env k) v op) :
    k.IsDisk v ∧ Opened k v op := by
  obtain ⟨h1, h2⟩ := h
  cases k with
  | dos3 =>
    rw [dos_seems] at h1
    obtain ⟨o, ho, rfl⟩ := map_operator.1 h2
    cases ho
    exact ⟨(dos_true v).1 h1, rfl⟩
  | nakedos =>
    rw [naked_seems] at h1
    obtain ⟨o, ho, rfl⟩ := map_operator.1 h2
    refine ⟨?_, (Supermon.open_good hl ho).2⟩
    by_contra hn
    rw [(naked_true hl).2 hn] at h1
    simp at h1
  | prodos =>
    rw [prodos_seems] at h1
    obtain ⟨o, ho, rfl⟩ := map_operator.1 h2
    cases ho
    exact ⟨(Prodos.C70_answers _ _ v (by omega)).1 h1, rfl⟩

/-- What a system rejects is not one of its disks. -/
theorem rejects_disk {env : Env} {k : System} {v : Bytes} (hl : v.length = 143360) (h : Rejects (factoryOf env k) v) :
    ¬ k.IsDisk v := by
  cases k with
  | dos3 =>
    intro hd
    rcases h with h | ⟨_, h⟩
    · rw [dos_seems, (dos_true v).2 hd] at h; simp at h
    · simp [factoryOf, Factory.map, Dos3.factory, Out.isErr] at h
  | nakedos =>
    intro hd
    rcases h with h | ⟨_, h⟩
    · rw [naked_seems, (naked_true hl).1 hd] at h; simp at h
    · obtain ⟨o, ho, _⟩ := naked_opens hd
      rw [show (factoryOf env .nakedos).operator v = .ok (.nakedos o) from map_open ho] at h
      cases h
  | prodos =>
    rcases h with h | ⟨_, h⟩
    · rw [prodos_seems] at h
      exact (Prodos.C70_answers _ _ v (by omega)).2 h
    · simp [factoryOf, Factory.map, Prodos.factory, Out.isErr] at h

/-- Given time, a system accepts its disks and rejects all others that do not make it run in circles. -/
theorem decides {k : System} {v : Bytes} (hl : v.length = 143360) (h : ¬ EndlessCatalog v ∨ k ≠ .dos3)
    (hp : ¬ EndlessDirectories v ∨ k ≠ .prodos) :
    ∃ n₀, ∀ env : Env, n₀ ≤ env.budget → (k.IsDisk v → ∃ op, Accepts (factoryOf env k) v op) ∧ (¬ k.IsDisk v → Rejects (factoryOf env k) v) := by
  cases k with
  | dos3 =>
    refine ⟨0, fun env _ => ⟨fun hd => ⟨.dos3 ⟨v⟩, ?_, rfl⟩, fun hd => Or.inl ?_⟩⟩
    · rw [dos_seems]; exact (dos_true v).2 hd
    · rw [dos_seems]
      exact (dos_decides (h.resolve_right (by simp))).resolve_left fun e => hd ((dos_true v).1 e)
  | nakedos =>
    refine ⟨0, fun env _ => ⟨fun hd => ?_, fun hd => Or.inl ?_⟩⟩
    · obtain ⟨o, ho, _⟩ := naked_opens hd
      exact ⟨_, by rw [naked_seems]; exact (naked_true hl).1 hd, map_open ho⟩
    · rw [naked_seems]; exact (naked_true hl).2 hd
  | prodos =>
    have hp := hp.resolve_right (by simp)
    unfold EndlessDirectories at hp
    simp only [not_or, not_exists, not_and] at hp
    obtain ⟨n₀, hn⟩ := Prodos.C70_recognised_partial v (by omega) hp.1 hp.2.1 hp.2.2
    refine ⟨n₀, fun env he => ⟨fun hd => ⟨.prodos ⟨v⟩, ?_, rfl⟩, fun hd => Or.inl ?_⟩⟩
    · rw [prodos_seems]; exact (hn _ he _).1 hd
    · rw [prodos_seems]; exact (hn _ he _).2 hd

/-! ### C84 -/

theorem carries_iff {raw : Bytes} (hr : raw.length = 143360) {p : DiskOrder × System} (h : p.1 ∈ [orderDO, orderPO, orderRaw]) :
    Carries raw p ↔ p.2.IsDisk (viewOf p.1 p.2.order raw) := by
  unfold Carries
  constructor
  · rintro ⟨v, hv, hd⟩
    rw [(view_iff h (system_order_named p.2) hr).1 hv] at hd
    exact hd
  · exact fun hd => ⟨_, (view_iff h (system_order_named p.2) hr).2 rfl, hd⟩

theorem split_map {α β : Type} {f : α → β} {l : List α} {pre post : List β} {b : β} (h : l.map f = pre ++ b :: post) :
    ∃ pre' a post', l = pre' ++ a :: post' ∧ pre'.map f = pre ∧ f a = b ∧ post'.map f = post := by
  obtain ⟨l1, l2, rfl, h1, h2⟩ := List.map_eq_append_iff.1 h
  obtain ⟨a, l3, rfl, h3, h4⟩ := List.map_eq_cons_iff.1 h2
  exact ⟨l1, a, l3, rfl, h1, h3, h4⟩

/-- C84: if an image opens and there was a choice, it is opened as the first of the disks it can be taken for: it is such a disk, and
it cannot be taken for any of those tried before. -/
theorem C84_opened_as_first {env : Env} {raw : Bytes} (hr : raw.length = 143360) {filename : Str} {order : DiskOrder} {system : Str}
    {os : List DiskOrder} (hos : CandidateOrders order (toLower (pathExt filename)) os) (hauto : system = str "auto" ∨ os.length ≠ 1)
    {op : AnyOp} {o : DiskOrder} (h : openImage raw filename order system (factories env) = .ok (op, o)) :
    ∃ pre k post, attempts os system = pre ++ (o, k) :: post ∧ Carries raw (o, k) ∧ (∀ p ∈ pre, ¬ Carries raw p) ∧
      ∃ v, View o k.order raw v ∧ Opened k v op := by
  have hnamed := (candidateOrders_named hos).2
  rw [openImage_scan hr (factories_orders env) hos hauto, candidates_attempts, scan_ok_iff] at h
  obtain ⟨pre, f, post, em, ha, hp⟩ := h
  obtain ⟨pre, ⟨o', k⟩, post, e, rfl, e2, rfl⟩ := split_map em
  clear em
  simp only [Prod.mk.injEq] at e2
  obtain ⟨rfl, rfl⟩ := e2
  rw [factoryOf_order] at ha
  have hmem : ∀ p ∈ pre ++ (o', k) :: post, p.1 ∈ [orderDO, orderPO, orderRaw] := fun p hp => hnamed _ (attempts_order (by rw [e]; exact hp))
  have hk := hmem (o', k) (by simp)
  obtain ⟨h1, h2⟩ := accepts_disk (viewOf_length hk (system_order_named k) hr) ha
  refine ⟨pre, k, post, e, (carries_iff hr hk).2 h1, ?_, _, (view_iff hk (system_order_named k) hr).2 rfl, h2⟩
  intro p hpp hc
  have hn := hmem p (by simp [hpp])
  have := hp (p.1, factoryOf env p.2) (List.mem_map.2 ⟨p, hpp, rfl⟩)
  simp only [factoryOf_order] at this
  exact rejects_disk (viewOf_length hn (system_order_named p.2) hr) this ((carries_iff hr hn).1 hc)

theorem all_decide {raw : Bytes} (hr : raw.length = 143360) (l : List (DiskOrder × System)) (hn : ∀ p ∈ l, p.1 ∈ [orderDO, orderPO, orderRaw])
    (he : ∀ p ∈ l, Ending raw p.1) : ∃ n₀, ∀ env : Env, n₀ ≤ env.budget → ∀ p ∈ l,
      (Carries raw p → ∃ op, Accepts (factoryOf env p.2) (viewOf p.1 p.2.order raw) op) ∧
      (¬ Carries raw p → Rejects (factoryOf env p.2) (viewOf p.1 p.2.order raw)) := by
  induction l with
  | nil => exact ⟨0, fun _ _ p hp => by simp at hp⟩
  | cons q l ih =>
    obtain ⟨n, hn'⟩ := ih (fun p hp => hn p (by simp [hp])) (fun p hp => he p (by simp [hp]))
    have hq := hn q (by simp)
    have hE := he q (by simp)
    have hl := viewOf_length hq (system_order_named q.2) hr
    obtain ⟨m, hm⟩ := decides (k := q.2) hl
      (by
        by_cases hk : q.2 = .dos3
        · refine Or.inl (hE.1 _ ((view_iff hq (by simp [orderDO]) hr).2 ?_))
          rw [hk]; rfl
        · exact Or.inr hk)
      (by
        by_cases hk : q.2 = .prodos
        · refine Or.inl (hE.2 _ ((view_iff hq (by simp [orderPO]) hr).2 ?_))
          rw [hk]; rfl
        · exact Or.inr hk)
    refine ⟨max n m, fun env hb p hp => ?_⟩
    rcases List.mem_cons.1 hp with rfl | hp
    · rw [carries_iff hr hq]
      exact hm env (by omega)
    · exact hn' env (by omega) p hp

/-- C84 (what holds): an image that can be taken for some disk asked for opens as the first of them, and one that cannot is refused
with an error, given that no catalog and no directory tried goes round in a circle. -/
theorem C84_finds_first_partial {raw : Bytes} (hr : raw.length = 143360) {filename : Str} {order : DiskOrder} {system : Str}
    {os : List DiskOrder} (hos : CandidateOrders order (toLower (pathExt filename)) os) (hauto : system = str "auto" ∨ os.length ≠ 1) :
    (∀ pre o k post, attempts os system = pre ++ (o, k) :: post → (∀ p ∈ pre ++ [(o, k)], Ending raw p.1) →
      Carries raw (o, k) → (∀ p ∈ pre, ¬ Carries raw p) → ∃ n₀, ∀ env : Env, n₀ ≤ env.budget →
        ∃ op v, openImage raw filename order system (factories env) = .ok (op, o) ∧ View o k.order raw v ∧ Opened k v op) ∧
    ((∀ o ∈ os, Ending raw o) → (∀ p ∈ attempts os system, ¬ Carries raw p) → ∃ n₀, ∀ env : Env, n₀ ≤ env.budget →
      (openImage raw filename order system (factories env)).isErr) := by
  have hnamed := (candidateOrders_named hos).2
  constructor
  · intro pre o k post e hE hc hp
    have hmem : ∀ p ∈ pre ++ (o, k) :: post, p.1 ∈ [orderDO, orderPO, orderRaw] := fun p hp => hnamed _ (attempts_order (by rw [e]; exact hp))
    have hk := hmem (o, k) (by simp)
    obtain ⟨n, hn⟩ := all_decide hr (pre ++ [(o, k)]) (fun p hp => hmem p (by
      rw [List.mem_append] at hp ⊢
      exact hp.imp_right fun h => by simp_all)) hE
    refine ⟨n, fun env hb => ?_⟩
    obtain ⟨op, ha⟩ := (hn env hb (o, k) (by simp)).1 hc
    refine ⟨op, _, ?_, (view_iff hk (system_order_named k) hr).2 rfl, (accepts_disk (viewOf_length hk (system_order_named k) hr) ha).2⟩
    rw [openImage_scan hr (factories_orders env) hos hauto, candidates_attempts, scan_ok_iff]
    refine ⟨pre.map fun p => (p.1, factoryOf env p.2), factoryOf env k, post.map fun p => (p.1, factoryOf env p.2), by rw [e]; simp, ?_, ?_⟩
    · rw [factoryOf_order]; exact ha
    · intro p hpp
      obtain ⟨q, hq, rfl⟩ := List.mem_map.1 hpp
      simp only [factoryOf_order]
      exact (hn env hb q (by simp [hq])).2 (hp q hq)
  · intro hE hc
    obtain ⟨n, hn⟩ := all_decide hr (attempts os system) (fun p hp => hnamed _ (attempts_order hp)) (fun p hp => hE _ (attempts_order hp))
    refine ⟨n, fun env hb => ?_⟩
    rw [openImage_scan hr (factories_orders env) hos hauto, candidates_attempts]
    apply scan_isErr
    intro p hpp
    obtain ⟨q, hq, rfl⟩ := List.mem_map.1 hpp
    simp only [factoryOf_order]
    exact (hn env hb q hq).2 (hc q hq)

/-- C84: if the order is given (or follows from the name) and a system is named, the image is taken for a disk of that system: DOS 3.3 and
ProDOS are not checked, for NakedOS it is an error if the disk is not one. -/
theorem C84_named {env : Env} {raw : Bytes} (hr : raw.length = 143360) {filename : Str} {order o : DiskOrder}
    (hos : CandidateOrders order (toLower (pathExt filename)) [o]) (k : System) :
    ∃ v, View o k.order raw v ∧
      ((k = .nakedos → NakedOS v) → ∃ op, openImage raw filename order k.name (factories env) = .ok (op, o) ∧ Opened k v op) ∧
      (k = .nakedos → ¬ NakedOS v → (openImage raw filename order k.name (factories env)).isErr) := by
  have ho := (candidateOrders_named hos).2 o (by simp)
  have C := C07_explicit_choice_obeyed hr (factories_orders env) hos (system := k.name) (by cases k <;> decide)
  have hl := viewOf_length ho (system_order_named k) hr
  have e : ∃ v, View o k.order raw v ∧ openImage raw filename order k.name (factories env) = ((factoryOf env k).operator v >>= fun op => Out.ok (op, o)) := by
    cases k with
    | dos3 => exact C.1 [] (factoryOf env .dos3) [factoryOf env .nakedos, factoryOf env .prodos] rfl rfl (by simp)
    | nakedos => exact C.1 [factoryOf env .dos3] (factoryOf env .nakedos) [factoryOf env .prodos] rfl rfl (by
        intro g hg
        simp only [List.mem_cons, List.not_mem_nil, or_false] at hg
        subst hg
        rw [factoryOf_name]; decide)
    | prodos => exact C.1 [factoryOf env .dos3, factoryOf env .nakedos] (factoryOf env .prodos) [] rfl rfl (by
        intro g hg
        simp only [List.mem_cons, List.not_mem_nil, or_false] at hg
        rcases hg with rfl | rfl <;> (rw [factoryOf_name]; decide))
  obtain ⟨v, hv, e⟩ := e
  refine ⟨v, hv, ?_⟩
  rw [← (view_iff ho (system_order_named k) hr).1 hv] at hl
  rw [e]
  cases k with
  | dos3 => exact ⟨fun _ => ⟨.dos3 ⟨v⟩, rfl, rfl⟩, fun h => by cases h⟩
  | prodos => exact ⟨fun _ => ⟨.prodos ⟨v⟩, rfl, rfl⟩, fun h => by cases h⟩
  | nakedos =>
    refine ⟨fun h => ?_, fun _ h => ?_⟩
    · obtain ⟨op, h1, h2⟩ := naked_opens (h rfl)
      exact ⟨.nakedos op, by rw [show (factoryOf env .nakedos).operator v = .ok (.nakedos op) from map_open h1]; rfl, h2⟩
    · have h1 := (naked_true hl).2 h
      have : (Supermon.openOperator v).isErr := by
        unfold Supermon.seemsToMatch at h1
        unfold Supermon.openOperator
        cases hx : Supermon.loadSectorMap v with
        | ok sm =>
          rw [hx] at h1
          rw [Out.bind_ok]
          rcases Supermon.verify_cases sm with hy | hy
          · simp only [hy] at h1; simp at h1
          · rw [hy]; rfl
        | err k => rfl
        | panic => rw [hx] at h1; simp at h1
        | timeout => rw [hx] at h1; simp at h1
      cases hx : Supermon.openOperator v with
      | err k =>
        have : (factoryOf env .nakedos).operator v = .err k := by
          simp only [factoryOf, Factory.map, Supermon.factory, hx]
        rw [this]; rfl
      | ok x => rw [hx] at this; cases this
      | panic => rw [hx] at this; cases this
      | timeout => rw [hx] at this; cases this

/-- C84 fails for a disk whose DOS catalog goes round in a circle: opening it never ends. -/
theorem C84_hangs {env : Env} {raw : Bytes} (hr : raw.length = 143360) {filename : Str} {order o : DiskOrder} {os : List DiskOrder}
    (hos : CandidateOrders order (toLower (pathExt filename)) (o :: os)) {v : Bytes} (hv : View o (str "do") raw v) (h : EndlessCatalog v) :
    openImage raw filename order (str "auto") (factories env) = .timeout := by
  have ho := (candidateOrders_named hos).2 o (by simp)
  rw [openImage_scan hr (factories_orders env) hos (Or.inl rfl), candidates_attempts]
  have e : attempts (o :: os) (str "auto") = (o, .dos3) :: (o, .nakedos) :: (o, .prodos) :: attempts os (str "auto") := by
    unfold attempts
    simp
  rw [e, List.map_cons]
  unfold scan
  simp only
  rw [factoryOf_order, dos_seems, dos_endless]
  rw [(view_iff ho (system_order_named .dos3) hr).1 hv] at h
  exact h

/-- C84: a DOS 3.3 disk is opened as one, if DOS 3.3 is asked for or nothing, and its sector order is the first one tried. -/
theorem C84_dos {env : Env} {raw : Bytes} (hr : raw.length = 143360) {filename : Str} {order o : DiskOrder} {os : List DiskOrder} {system : Str}
    (hos : CandidateOrders order (toLower (pathExt filename)) (o :: os)) (hs : system = str "auto" ∨ system = str "dos3") {v : Bytes}
    (hv : View o (str "do") raw v) (h : DosDisk v) :
    openImage raw filename order system (factories env) = .ok (.dos3 ⟨v⟩, o) := by
  have ho := (candidateOrders_named hos).2 o (by simp)
  by_cases hx : system = str "auto" ∨ (o :: os).length ≠ 1
  · rw [openImage_scan hr (factories_orders env) hos hx, candidates_attempts]
    have e : ∃ rest, attempts (o :: os) system = (o, .dos3) :: rest := by
      unfold attempts
      rw [List.flatMap_cons, List.filter_cons, if_pos (decide_eq_true (p := system = str "auto" ∨ system = System.name .dos3) hs), List.map_cons]
      exact ⟨_, rfl⟩
    obtain ⟨rest, e⟩ := e
    rw [e, List.map_cons]
    have hv' := (view_iff ho (system_order_named .dos3) hr).1 hv
    rw [hv'] at h ⊢
    unfold scan
    simp only
    rw [factoryOf_order, dos_seems, (dos_true _).2 h]
    rfl
  · obtain ⟨h1, h2⟩ := not_or.1 hx
    have h2 : os = [] := by
      simp only [List.length_cons, ne_eq, Nat.add_eq_right, Decidable.not_not] at h2
      exact List.eq_nil_of_length_eq_zero h2
    subst h2
    obtain ⟨v', hv', h3, _⟩ := C84_named (env := env) hr hos .dos3
    obtain ⟨op, h4, h5⟩ := h3 (fun h => by cases h)
    have e1 := (view_iff ho (system_order_named .dos3) hr).1 hv
    have e2 := (view_iff ho (system_order_named .dos3) hr).1 hv'
    rw [hs.resolve_left h1]
    rw [show str "dos3" = System.name .dos3 from rfl, h4]
    cases op with
    | dos3 o =>
      change o.data = v' at h5
      obtain ⟨d⟩ := o
      simp only at h5
      rw [h5, e1, e2]
    | nakedos o => exact h5.elim
    | prodos o => exact h5.elim

/-- C84: a NakedOS disk is opened as one if no system is named and its sector order is the first one tried, unless it can be taken for a
DOS 3.3 disk or has an endless catalog. -/
theorem C84_nakedos {env : Env} {raw : Bytes} (hr : raw.length = 143360) {filename : Str} {order o : DiskOrder} {os : List DiskOrder}
    (hos : CandidateOrders order (toLower (pathExt filename)) (o :: os)) {v d : Bytes}
    (hv : View o (str "raw") raw v) (h : NakedOS v) (hd : View o (str "do") raw d) (h1 : ¬ DosDisk d) (h2 : ¬ EndlessCatalog d) :
    ∃ op, openImage raw filename order (str "auto") (factories env) = .ok (.nakedos op, o) ∧ op.data = v := by
  have ho := (candidateOrders_named hos).2 o (by simp)
  rw [openImage_scan hr (factories_orders env) hos (Or.inl rfl), candidates_attempts]
  have e : attempts (o :: os) (str "auto") = (o, .dos3) :: (o, .nakedos) :: (o, .prodos) :: attempts os (str "auto") := by
    unfold attempts
    simp
  obtain ⟨op, h3, h4⟩ := naked_opens h
  refine ⟨op, ?_, h4⟩
  rw [e, List.map_cons, List.map_cons]
  have hs1 : (factoryOf env .dos3).seemsToMatch (viewOf o (System.order .dos3) raw) = .ok false := by
    rw [dos_seems, ← (view_iff ho (system_order_named .dos3) hr).1 hd]
    exact (dos_decides h2).resolve_left fun e => h1 ((dos_true d).1 e)
  have hl : v.length = 143360 := h.1
  have hs2 : (factoryOf env .nakedos).seemsToMatch (viewOf o (System.order .nakedos) raw) = .ok true := by
    rw [naked_seems, ← (view_iff ho (system_order_named .nakedos) hr).1 hv]
    exact (naked_true hl).1 h
  have hs3 : (factoryOf env .nakedos).operator (viewOf o (System.order .nakedos) raw) = .ok (.nakedos op) := by
    rw [← (view_iff ho (system_order_named .nakedos) hr).1 hv]
    exact map_open h3
  unfold scan
  simp only
  rw [factoryOf_order, hs1]
  unfold scan
  simp only
  rw [factoryOf_order, hs2]
  simp only [hs3]

end Verif.Cmd
