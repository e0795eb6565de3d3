import Verif.Props.Recognise
import Verif.Props.Endless
import Verif.Props.Ends
import Verif.Props.Lines
import Verif.Spec.Hang

/-!
# C84 and C87: exactly when opening an image, and when a command, may never end
-/

set_option autoImplicit false

namespace Verif.Disk
open Spec
variable {Ω : Type}

theorem scan_timeout {raw : Bytes} (pre : List (DiskOrder × Factory Ω)) (o : DiskOrder) (f : Factory Ω) (post : List (DiskOrder × Factory Ω))
    (h : ∀ p ∈ pre, Rejects p.2 (viewOf p.1 p.2.diskOrder raw) ∨ p.2.seemsToMatch (viewOf p.1 p.2.diskOrder raw) = .timeout)
    (hf : f.seemsToMatch (viewOf o f.diskOrder raw) = .timeout) : scan raw (pre ++ (o, f) :: post) = .timeout := by
  induction pre with
  | nil => rw [List.nil_append, scan, hf]
  | cons c pre ih =>
    obtain ⟨o', f'⟩ := c
    have ih := ih fun p hp => h p (List.mem_cons_of_mem _ hp)
    rw [List.cons_append, scan]
    rcases h (o', f') List.mem_cons_self with (e | ⟨e, e2⟩) | e
    · simp only at e
      rw [e]; exact ih
    · simp only at e e2
      rw [e]
      cases hx : f'.operator (viewOf o' f'.diskOrder raw) with
      | err k => exact ih
      | ok x => rw [hx] at e2; cases e2
      | panic => rw [hx] at e2; cases e2
      | timeout => rfl
    · simp only at e
      rw [e]

end Verif.Disk

namespace Verif.Cmd
open Disk Spec

theorem mayHang_iff {raw : Bytes} (hr : raw.length = 143360) {p : DiskOrder × System} (h : p.1 ∈ [orderDO, orderPO, orderRaw]) :
    MayHang raw p ↔ p.2.MayHang (viewOf p.1 p.2.order raw) := by
  unfold MayHang
  constructor
  · rintro ⟨v, hv, hd⟩
    rw [(view_iff h (system_order_named p.2) hr).1 hv] at hd
    exact hd
  · exact fun hd => ⟨_, (view_iff h (system_order_named p.2) hr).2 rfl, hd⟩

/-- A ProDOS volume whose reading may not end can be given a map order in which it does not. -/
theorem prodos_hangs {v : Bytes} (hl : v.length < 2 ^ 36) (h : Prodos.EndlessVolume v) :
    ∃ ord, ∀ n, Prodos.readVolume n ord v 2 = .timeout := (Prodos.C47_can_be_endless hl).2 h

theorem prodos_settles {v : Bytes} (hl : v.length < 2 ^ 36) (h : ¬ Prodos.EndlessVolume v) :
    ∃ n₀, ∀ n, n₀ ≤ n → ∀ ord, (Prodos.readVolume n ord v 2).returns := by
  unfold Prodos.EndlessVolume at h
  simp only [not_or, not_and, not_exists] at h
  by_cases hb : Prodos.BitmapOnDevice v
  · exact Prodos.readVolume_settles hl h.1 fun ha k hk => h.2 hb ha k hk
  · refine ⟨0, fun n _ ord => ?_⟩
    rcases Prodos.readVolume_split hl n ord with ⟨h1, _⟩ | ⟨_, _, h1, _⟩ | ⟨_, _, _, h1, _⟩
    · cases e : Prodos.readVolume n ord v 2 with
      | err k => rfl
      | ok x => rw [e] at h1; cases h1
      | panic => rw [e] at h1; cases h1
      | timeout => rw [e] at h1; cases h1
    · exact absurd h1 hb
    · exact absurd h1 hb

/-- A disk on which a system may run for ever. -/
theorem system_hangs {k : System} {v : Bytes} (hl : v.length < 2 ^ 36) (h : k.MayHang v) :
    ∃ ord, ∀ n, (factoryOf ⟨n, ord⟩ k).seemsToMatch v = .timeout := by
  cases k with
  | dos3 => exact ⟨.stored, fun n => by rw [dos_seems]; exact dos_endless h⟩
  | nakedos => exact h.elim
  | prodos =>
    obtain ⟨ord, ho⟩ := prodos_hangs hl h
    refine ⟨ord, fun n => ?_⟩
    rw [prodos_seems]
    unfold Prodos.seemsToMatch
    rw [ho]

/-- Otherwise, given time, it accepts its disks and rejects all others. -/
theorem system_settles {k : System} {v : Bytes} (hl : v.length = 143360) (h : ¬ k.MayHang v) :
    ∃ n₀, ∀ env : Env, n₀ ≤ env.budget → (k.IsDisk v → ∃ op, Accepts (factoryOf env k) v op) ∧ (¬ k.IsDisk v → Rejects (factoryOf env k) v) := by
  cases k with
  | dos3 => exact decides (k := .dos3) hl (Or.inl h) (Or.inr (by simp))
  | nakedos => exact decides (k := .nakedos) hl (Or.inr (by simp)) (Or.inr (by simp))
  | prodos =>
    obtain ⟨n₀, hn⟩ := prodos_settles (by omega) h
    refine ⟨n₀, fun env hb => ?_⟩
    have hr := hn env.budget hb env.order
    have ha := Prodos.C70_answers env.budget env.order v (by omega)
    have hb : Prodos.seemsToMatch env.budget env.order v = .ok true ∨ Prodos.seemsToMatch env.budget env.order v = .ok false := by
      unfold Prodos.seemsToMatch
      cases e : Prodos.readVolume env.budget env.order v 2 with
      | ok x => exact Or.inl rfl
      | err x => exact Or.inr rfl
      | panic => rw [e] at hr; simp at hr
      | timeout => rw [e] at hr; simp at hr
    refine ⟨fun hd => ⟨.prodos ⟨v⟩, ?_, rfl⟩, fun hd => Or.inl ?_⟩
    · rw [prodos_seems]
      exact hb.resolve_right fun e => ha.2 e hd
    · rw [prodos_seems]
      exact hb.resolve_left fun e => hd (ha.1 e)

/-- With any budget, a system that finds no disk either rejects it or is still looking. -/
theorem not_disk {env : Env} {k : System} {v : Bytes} (hl : v.length = 143360) (h : ¬ k.MayHang v) (hd : ¬ k.IsDisk v) :
    Rejects (factoryOf env k) v ∨ (factoryOf env k).seemsToMatch v = .timeout := by
  cases k with
  | dos3 =>
    obtain ⟨n, hn⟩ := decides (k := .dos3) hl (Or.inl h) (Or.inr (by simp))
    exact Or.inl ((hn ⟨n, env.order⟩ (le_refl n)).2 hd)
  | nakedos =>
    obtain ⟨n, hn⟩ := decides (k := .nakedos) (v := v) hl (Or.inr (by simp)) (Or.inr (by simp))
    exact Or.inl ((hn ⟨n, env.order⟩ (le_refl n)).2 hd)
  | prodos =>
    have ha := Prodos.C70_answers env.budget env.order v (by omega)
    have : Prodos.seemsToMatch env.budget env.order v ≠ .panic := by
      unfold Prodos.seemsToMatch
      rcases Prodos.readVolume_split (img := v) (by omega) env.budget env.order with ⟨h1, _⟩ | ⟨h1, _⟩ | ⟨bb, f, g, _, _, _, h1⟩
      · cases e : Prodos.readVolume env.budget env.order v 2 with
        | panic => rw [e] at h1; cases h1
        | ok x => simp
        | err x => simp
        | timeout => simp
      · rw [h1]; simp
      · rw [h1]
        have := Prodos.nameLoop_two_ne_panic env.budget bb f (env.order.visit bb) []
        cases e : Prodos.nameLoop env.budget 2 bb f (env.order.visit bb) [] with
        | panic => exact absurd e this
        | ok x => simp
        | err x => simp
        | timeout => simp
    have hk := this
    rw [← prodos_seems] at hk ha
    cases e : (factoryOf env .prodos).seemsToMatch v with
    | ok b =>
      cases b with
      | true => exact absurd (ha.1 e) hd
      | false => exact Or.inl (Or.inl e)
    | err x =>
      exfalso
      rw [prodos_seems] at e
      unfold Prodos.seemsToMatch at e
      split at e <;> simp at e
    | panic => exact absurd e hk
    | timeout => exact Or.inr rfl

theorem first_or_none {α : Type} (P : α → Prop) (l : List α) :
    (∃ pre p post, l = pre ++ p :: post ∧ P p ∧ ∀ q ∈ pre, ¬ P q) ∨ ∀ q ∈ l, ¬ P q := by
  induction l with
  | nil => exact Or.inr (by simp)
  | cons a l ih =>
    by_cases ha : P a
    · exact Or.inl ⟨[], a, l, rfl, ha, by simp⟩
    · rcases ih with ⟨pre, p, post, rfl, hp, hq⟩ | h
      · refine Or.inl ⟨a :: pre, p, post, rfl, hp, fun q hq' => ?_⟩
        rcases List.mem_cons.1 hq' with rfl | hq'
        · exact ha
        · exact hq q hq'
      · refine Or.inr fun q hq' => ?_
        rcases List.mem_cons.1 hq' with rfl | hq'
        · exact ha
        · exact h q hq'

theorem all_settle {raw : Bytes} (hr : raw.length = 143360) (l : List (DiskOrder × System)) (hn : ∀ p ∈ l, p.1 ∈ [orderDO, orderPO, orderRaw])
    (he : ∀ p ∈ l, ¬ MayHang raw p) : ∃ n₀, ∀ env : Env, n₀ ≤ env.budget → ∀ p ∈ l,
      (Carries raw p → ∃ op, Accepts (factoryOf env p.2) (viewOf p.1 p.2.order raw) op) ∧
      (¬ Carries raw p → Rejects (factoryOf env p.2) (viewOf p.1 p.2.order raw)) := by
  induction l with
  | nil => exact ⟨0, fun _ _ p hp => by simp at hp⟩
  | cons q l ih =>
    obtain ⟨n, hn'⟩ := ih (fun p hp => hn p (by simp [hp])) (fun p hp => he p (by simp [hp]))
    have hq := hn q (by simp)
    obtain ⟨m, hm⟩ := system_settles (viewOf_length hq (system_order_named q.2) hr) fun h => he q (by simp) ((mayHang_iff hr hq).2 h)
    refine ⟨max n m, fun env hb p hp => ?_⟩
    rcases List.mem_cons.1 hp with rfl | hp
    · rw [carries_iff hr hq]
      exact hm env (by omega)
    · exact hn' env (by omega) p hp

section
variable {raw : Bytes} {filename : Str} {order : DiskOrder} {system : Str} {os : List DiskOrder}

/-- Opening never ends in some map order, if the first attempt that means something may not end. -/
theorem tries_hang (ht : Tries filename order system raw os) {p : DiskOrder × System} (hp : ComesFirst raw (attempts os system) p)
    (hm : MayHang raw p) : ∃ rord, ∀ n, openImage raw filename order system (factories ⟨n, rord⟩) = .timeout := by
  obtain ⟨hr, hos, hauto⟩ := ht
  obtain ⟨pre, post, e, hq⟩ := hp
  have hnamed := (candidateOrders_named hos).2
  have hmem : ∀ p ∈ attempts os system, p.1 ∈ [orderDO, orderPO, orderRaw] := fun p hp => hnamed _ (attempts_order hp)
  rw [e] at hmem
  have hpn := hmem p (by simp)
  obtain ⟨ord, ho⟩ := system_hangs (by rw [viewOf_length hpn (system_order_named p.2) hr]; omega) ((mayHang_iff hr hpn).1 hm)
  refine ⟨ord, fun n => ?_⟩
  rw [openImage_scan hr (factories_orders _) hos hauto, candidates_attempts, e, List.map_append, List.map_cons]
  apply scan_timeout
  · intro c hc
    obtain ⟨q, hqp, rfl⟩ := List.mem_map.1 hc
    have hqn := hmem q (by simp [hqp])
    simp only [factoryOf_order]
    exact not_disk (viewOf_length hqn (system_order_named q.2) hr) (fun h => (hq q hqp).2 ((mayHang_iff hr hqn).2 h))
      fun h => (hq q hqp).1 ((carries_iff hr hqn).2 h)
  · rw [factoryOf_order]; exact ho n

/-- Given time, the image opens as the first disk it can be taken for, if no attempt up to there may go on for ever. -/
theorem tries_open (ht : Tries filename order system raw os) {o : DiskOrder} {k : System} (hp : ComesFirst raw (attempts os system) (o, k))
    (hm : ¬ MayHang raw (o, k)) (hc : Carries raw (o, k)) : ∃ n₀, ∀ env : Env, n₀ ≤ env.budget →
      ∃ op v, openImage raw filename order system (factories env) = .ok (op, o) ∧ View o k.order raw v ∧ Accepts (factoryOf env k) v op := by
  obtain ⟨hr, hos, hauto⟩ := ht
  obtain ⟨pre, post, e, hq⟩ := hp
  have hnamed := (candidateOrders_named hos).2
  have hmem : ∀ p ∈ attempts os system, p.1 ∈ [orderDO, orderPO, orderRaw] := fun p hp => hnamed _ (attempts_order hp)
  rw [e] at hmem
  have hpn := hmem (o, k) (by simp)
  obtain ⟨n, hn⟩ := all_settle hr (pre ++ [(o, k)]) (fun p hp => hmem p (by
      rw [List.mem_append] at hp ⊢
      exact hp.imp_right fun h => by simp_all)) (by
    intro p hp
    rcases List.mem_append.1 hp with hp | hp
    · exact (hq p hp).2
    · rw [List.mem_singleton.1 hp]; exact hm)
  refine ⟨n, fun env hb => ?_⟩
  obtain ⟨op, ha⟩ := (hn env hb (o, k) (by simp)).1 hc
  refine ⟨op, _, ?_, (view_iff hpn (system_order_named k) hr).2 rfl, ha⟩
  rw [openImage_scan hr (factories_orders env) hos hauto, candidates_attempts, scan_ok_iff]
  refine ⟨pre.map fun p => (p.1, factoryOf env p.2), factoryOf env k, post.map fun p => (p.1, factoryOf env p.2), by rw [e]; simp, ?_, ?_⟩
  · rw [factoryOf_order]; exact ha
  · intro p hpp
    obtain ⟨q, hq', rfl⟩ := List.mem_map.1 hpp
    simp only [factoryOf_order]
    exact (hn env hb q (by simp [hq'])).2 (hq q hq').1

/-- Given time, the image is refused, if no attempt finds a disk or may go on for ever. -/
theorem tries_fail (ht : Tries filename order system raw os) (h : ∀ p ∈ attempts os system, ¬ Carries raw p ∧ ¬ MayHang raw p) :
    ∃ n₀, ∀ env : Env, n₀ ≤ env.budget → (openImage raw filename order system (factories env)).isErr := by
  obtain ⟨hr, hos, hauto⟩ := ht
  have hnamed := (candidateOrders_named hos).2
  obtain ⟨n, hn⟩ := all_settle hr (attempts os system) (fun p hp => hnamed _ (attempts_order hp)) (fun p hp => (h p hp).2)
  refine ⟨n, fun env hb => ?_⟩
  rw [openImage_scan hr (factories_orders env) hos hauto, candidates_attempts]
  apply scan_isErr
  intro p hpp
  obtain ⟨q, hq, rfl⟩ := List.mem_map.1 hpp
  simp only [factoryOf_order]
  exact (hn env hb q hq).2 (h q hq).1

/-- One of the three happens. -/
theorem tries_cases (raw : Bytes) (l : List (DiskOrder × System)) :
    (∃ p, ComesFirst raw l p ∧ MayHang raw p) ∨ (∃ p, ComesFirst raw l p ∧ ¬ MayHang raw p ∧ Carries raw p) ∨
      ∀ p ∈ l, ¬ Carries raw p ∧ ¬ MayHang raw p := by
  rcases first_or_none (fun p => Carries raw p ∨ MayHang raw p) l with ⟨pre, p, post, e, hp, hq⟩ | h
  · have hf : ComesFirst raw l p := ⟨pre, post, e, fun q h => not_or.1 (hq q h)⟩
    by_cases hm : MayHang raw p
    · exact Or.inl ⟨p, hf, hm⟩
    · exact Or.inr (Or.inl ⟨p, hf, hm, hp.resolve_right hm⟩)
  · exact Or.inr (Or.inr fun p hp => not_or.1 (h p hp))

theorem opened_system {k k' : System} {v v' : Bytes} {op : AnyOp} (h : Opened k v op) (h' : Opened k' v' op) : k = k' := by
  cases k <;> cases k' <;> cases op <;> first | rfl | exact h.elim | exact h'.elim

/-- C84, exactly: given time and whatever the order of maps, the image opens with the bytes in order `o`, as a disk of system `k`, if and only if this
is the first attempt that means something, finds a disk and can not go on for ever. -/
theorem C84_opens_exact (ht : Tries filename order system raw os) (o : DiskOrder) (k : System) :
    (∃ n₀, ∀ env : Env, n₀ ≤ env.budget → ∃ op v, openImage raw filename order system (factories env) = .ok (op, o) ∧
      View o k.order raw v ∧ Opened k v op) ↔
    ComesFirst raw (attempts os system) (o, k) ∧ Carries raw (o, k) ∧ ¬ MayHang raw (o, k) := by
  constructor
  · rintro ⟨n, hn⟩
    rcases tries_cases raw (attempts os system) with ⟨p, hf, hm⟩ | ⟨⟨o', k'⟩, hf, hm, hc⟩ | h
    · obtain ⟨ord, ho⟩ := tries_hang ht hf hm
      obtain ⟨op, v, e, _⟩ := hn ⟨n, ord⟩ (le_refl n)
      rw [ho] at e; cases e
    · obtain ⟨m, hm'⟩ := tries_open ht hf hm hc
      obtain ⟨op, v, e, _, h2⟩ := hn ⟨max n m, .stored⟩ (le_max_left _ _)
      obtain ⟨op', v', e', hv', h2'⟩ := hm' ⟨max n m, .stored⟩ (le_max_right _ _)
      rw [e] at e'
      simp only [Out.ok.injEq, Prod.mk.injEq] at e'
      obtain ⟨rfl, rfl⟩ := e'
      have hn' := (candidateOrders_named ht.2.1).2 o (by obtain ⟨_, _, e, _⟩ := hf; exact attempts_order (p := (o, k')) (by rw [e]; simp))
      have hl : v'.length = 143360 := by
        rw [(view_iff hn' (system_order_named k') ht.1).1 hv']; exact viewOf_length hn' (system_order_named k') ht.1
      obtain rfl := opened_system h2 (accepts_disk hl h2').2
      exact ⟨hf, hc, hm⟩
    · obtain ⟨m, hm'⟩ := tries_fail ht h
      obtain ⟨op, v, e, _⟩ := hn ⟨max n m, .stored⟩ (le_max_left _ _)
      have := hm' ⟨max n m, .stored⟩ (le_max_right _ _)
      rw [e] at this; cases this
  · rintro ⟨hf, hc, hm⟩
    obtain ⟨n, hn⟩ := tries_open ht hf hm hc
    refine ⟨n, fun env hb => ?_⟩
    obtain ⟨op, v, e, hv, ha⟩ := hn env hb
    have hn' := (candidateOrders_named ht.2.1).2 o (by obtain ⟨_, _, e, _⟩ := hf; exact attempts_order (p := (o, k)) (by rw [e]; simp))
    have hl : v.length = 143360 := by
      rw [(view_iff hn' (system_order_named k) ht.1).1 hv]; exact viewOf_length hn' (system_order_named k) ht.1
    exact ⟨op, v, e, hv, (accepts_disk hl ha).2⟩

/-- C84, exactly: given time and whatever the order of maps, the image is refused if and only if no attempt finds a disk or may go on for ever. -/
theorem C84_refused_exact (ht : Tries filename order system raw os) :
    (∃ n₀, ∀ env : Env, n₀ ≤ env.budget → (openImage raw filename order system (factories env)).isErr) ↔
    ∀ p ∈ attempts os system, ¬ Carries raw p ∧ ¬ MayHang raw p := by
  constructor
  · rintro ⟨n, hn⟩
    rcases tries_cases raw (attempts os system) with ⟨p, hf, hm⟩ | ⟨⟨o', k'⟩, hf, hm, hc⟩ | h
    · obtain ⟨ord, ho⟩ := tries_hang ht hf hm
      have := hn ⟨n, ord⟩ (le_refl n)
      rw [ho] at this; cases this
    · obtain ⟨m, hm'⟩ := tries_open ht hf hm hc
      obtain ⟨op, v, e, _⟩ := hm' ⟨max n m, .stored⟩ (le_max_right _ _)
      have := hn ⟨max n m, .stored⟩ (le_max_left _ _)
      rw [e] at this; cases this
    · exact h
  · exact tries_fail ht

end

/-! ### Images that are believed -/

/-- A believed image opens as what it is believed to be, except that a NakedOS disk has to be one. -/
theorem believed_opens {raw : Bytes} {filename : Str} {order : DiskOrder} {system : Str} {k : System} {v : Bytes}
    (h : Believed filename order system raw k v) (env : Env) :
    (∃ op o, openImage raw filename order system (factories env) = .ok (op, o) ∧ Opened k v op) ∨
    (k = .nakedos ∧ (openImage raw filename order system (factories env)).isErr) := by
  cases h with
  | named hr hos hs hv =>
    rename_i o
    subst hs
    obtain ⟨v', hv', h1, h2⟩ := C84_named (env := env) hr hos k
    have hn := (candidateOrders_named hos).2 o (by simp)
    have e : v' = v := ((view_iff hn (system_order_named k) hr).1 hv').trans ((view_iff hn (system_order_named k) hr).1 hv).symm
    rw [e] at h1 h2
    by_cases hk : k = .nakedos → NakedOS v
    · obtain ⟨op, e1, e2⟩ := h1 hk
      exact Or.inl ⟨op, _, e1, e2⟩
    · push Not at hk
      exact Or.inr ⟨hk.1, h2 hk.1 hk.2⟩
  | hdv h1 h2 h3 h4 h5 h6 h7 =>
    refine Or.inl ⟨.prodos ⟨raw⟩, orderPO, ?_, rfl⟩
    unfold openImage
    simp only [show floppyDiskBytes = 143360 from rfl, show floppyDiskBytes13Sector = 116480 from rfl]
    rw [if_neg h1, if_neg h2, if_pos h3]
    unfold openHDV
    dsimp only
    rw [if_neg (by omega), if_neg (by omega), if_neg (by rintro ⟨a, b⟩; exact h6.elim a b), if_neg (by rintro ⟨a, b⟩; exact h7.elim a b)]
    rfl

/-- An image is tried, or believed, or refused. -/
theorem opening_cases (raw : Bytes) (filename : Str) (order : DiskOrder) (system : Str) :
    (∃ os, Tries filename order system raw os) ∨ (∃ k v, Believed filename order system raw k v) ∨
      ∀ env : Env, (openImage raw filename order system (factories env)).isErr := by
  by_cases hr : raw.length = 143360
  · by_cases hos : ∃ os, CandidateOrders order (toLower (pathExt filename)) os
    · obtain ⟨os, hos⟩ := hos
      by_cases ha : system = str "auto" ∨ os.length ≠ 1
      · exact Or.inl ⟨os, hr, hos, ha⟩
      · push Not at ha
        obtain ⟨o, rfl⟩ := List.length_eq_one_iff.1 ha.2
        right
        by_cases hk : ∃ k : System, system = k.name
        · obtain ⟨k, hk⟩ := hk
          have hn := (candidateOrders_named hos).2 o (by simp)
          exact Or.inl ⟨k, _, .named hr hos hk ((view_iff hn (system_order_named k) hr).2 rfl)⟩
        · refine Or.inr fun env => (C07_explicit_choice_obeyed hr (factories_orders env) hos ha.1).2 ?_
          rw [show factories env = [System.dos3, .nakedos, .prodos].map (factoryOf env) from rfl]
          intro f hf
          obtain ⟨k, _, rfl⟩ := List.mem_map.1 hf
          rw [factoryOf_name]
          exact fun e => hk ⟨k, e.symm⟩
    · refine Or.inr (Or.inr fun env => ?_)
      unfold openImage
      simp only [show floppyDiskBytes = 143360 from rfl]
      rw [if_pos hr]
      unfold openDoOrPo
      cases e : ordersToTry order (toLower (pathExt filename)) with
      | some os => exact absurd ⟨os, (ordersToTry_iff _ _ _).1 e⟩ hos
      | none =>
        dsimp only
        split
        · rfl
        · rfl
  · right
    by_cases hb : Believed filename order system raw .prodos raw
    · exact Or.inl ⟨_, _, hb⟩
    · refine Or.inr fun env => ?_
      unfold openImage
      simp only [show floppyDiskBytes = 143360 from rfl, show floppyDiskBytes13Sector = 116480 from rfl]
      rw [if_neg hr]
      split
      · rfl
      · rename_i h13
        split
        · rename_i hx
          unfold openHDV
          dsimp only
          split
          · rfl
          · split
            · rfl
            · split
              · rfl
              · split
                · rfl
                · rename_i c1 c2 c3 c4
                  refine absurd (Believed.hdv hr h13 hx (by omega) (by omega) ?_ ?_) hb
                  · by_contra hc; exact c3 ⟨fun h => hc (Or.inl h), fun h => hc (Or.inr h)⟩
                  · by_contra hc; exact c4 ⟨fun h => hc (Or.inl h), fun h => hc (Or.inr h)⟩
        · rfl

/-- What was accepted can be asked anything. -/
theorem accepts_answers {env : Env} {k : System} {v : Bytes} {op : AnyOp} (h : Accepts (factoryOf env k) v op) : Answers env op := by
  obtain ⟨h1, h2⟩ := h
  cases k with
  | dos3 =>
    rw [dos_seems] at h1
    obtain ⟨o, ho, rfl⟩ := map_operator.1 h2
    cases ho
    have : Dos3.readCatalog v ≠ .timeout := by
      intro e
      unfold Dos3.seemsToMatch at h1
      rw [e] at h1; simp at h1
    exact ⟨fun d => Dos3.catalog_ends this d, fun n => Dos3.getFile_ends this n⟩
  | nakedos =>
    obtain ⟨o, ho, rfl⟩ := map_operator.1 h2
    exact nakedos_answers env o
  | prodos =>
    rw [prodos_seems] at h1
    obtain ⟨o, ho, rfl⟩ := map_operator.1 h2
    cases ho
    refine ⟨fun d => ?_, fun n => by unfold AnyOp.getFile Prodos.Operator.getFile; simp⟩
    change Prodos.Operator.catalog env.budget env.order ⟨v⟩ d ≠ _
    unfold Prodos.Operator.catalog
    refine Out.bind_ends ?_ fun vol _ => ?_
    · intro e
      unfold Prodos.seemsToMatch at h1
      dsimp only at e
      rw [e] at h1; simp at h1
    · split
      · simp
      · split <;> simp

/-- Given time, opening an image ends unless it may hang; what it was not just believed to be can be asked anything. -/
theorem opening_settles {raw : Bytes} {filename : Str} {order : DiskOrder} {system : Str} (h : ¬ OpeningMayHang filename order system raw) :
    ∃ n₀, ∀ env : Env, n₀ ≤ env.budget → Fine (fun x => Answers env x.1 ∨ ∃ k v, Believed filename order system raw k v ∧ Opened k v x.1)
      (openImage raw filename order system (factories env)) := by
  have herr : ∀ {α : Type} {Q : α → Prop} {x : Out α}, x.isErr → Fine Q x := by
    intro α Q x hx
    cases x with
    | err k => exact Fine.err k
    | ok a => cases hx
    | panic => cases hx
    | timeout => cases hx
  rcases opening_cases raw filename order system with ⟨os, ht⟩ | ⟨k, v, hb⟩ | he
  · rcases tries_cases raw (attempts os system) with ⟨p, hf, hm⟩ | ⟨⟨o, k⟩, hf, hm, hc⟩ | hn
    · exact absurd ⟨os, p, ht, hf, hm⟩ h
    · obtain ⟨n, hn⟩ := tries_open ht hf hm hc
      refine ⟨n, fun env hb => ?_⟩
      obtain ⟨op, v, e, _, ha⟩ := hn env hb
      rw [e]
      exact Fine.ok (Or.inl (accepts_answers ha))
    · obtain ⟨n, hn⟩ := tries_fail ht hn
      exact ⟨n, fun env hb => herr (hn env hb)⟩
  · refine ⟨0, fun env _ => ?_⟩
    rcases believed_opens hb env with ⟨op, o, e, ho⟩ | ⟨_, e⟩
    · rw [e]
      exact Fine.ok (Or.inr ⟨k, v, hb, ho⟩)
    · exact herr e
  · exact ⟨0, fun env _ => herr (he env)⟩

/-- C84, exactly: opening an image may never end, in some map order and however much time it is given, if and only if the first attempt that means something
may go on for ever. -/
theorem C84_endless (raw : Bytes) (filename : Str) (order : DiskOrder) (system : Str) :
    (∃ rord, ∀ n, openImage raw filename order system (factories ⟨n, rord⟩) = .timeout) ↔ OpeningMayHang filename order system raw := by
  constructor
  · rintro ⟨rord, h⟩
    by_contra hc
    obtain ⟨n, hn⟩ := opening_settles hc
    exact (hn ⟨n, rord⟩ (le_refl n)).1 (h n)
  · rintro ⟨os, p, ht, hf, hm⟩
    exact tries_hang ht hf hm

end Verif.Cmd
