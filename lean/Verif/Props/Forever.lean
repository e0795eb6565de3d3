import Verif.Props.Hang

/-!
# C87: exactly which commands may run for ever
-/

set_option autoImplicit false

namespace Verif.Cmd
open Disk Spec

theorem bind_timeout {α β : Type} {m : Act α} {f : α → Act β} {w : World} (h : (m w).1 = .timeout) : ((m >>= f) w).1 = .timeout := by
  rw [bind_apply]
  unfold Act.bind
  rcases e : m w with ⟨r, w'⟩
  rw [e] at h
  cases h
  rfl

theorem bind_to {α β : Type} {m : Act α} {f : α → Act β} {w w' : World} {a : α} (h : m w = (.ok a, w')) : (m >>= f) w = f a w' := by
  rw [bind_apply]
  unfold Act.bind
  rw [h]

/-- Opening an image file is opening what is in it, under the name it is judged by. -/
theorem openDisk_some {env : Env} {image : Str} {order : DiskOrder} {system : Str} {w : World} {raw : Bytes} (h : contentOf w image = some raw) :
    (openDisk env image order system w).1 = openImage raw (judgedBy image) order system (factories env) := by
  unfold contentOf at h
  unfold judgedBy openDisk openFilename
  by_cases hi : image = str "-"
  · rw [if_pos hi] at h ⊢
    rw [if_pos hi, Option.some.inj h]
  · rw [if_neg hi] at h ⊢
    rw [if_neg hi, h]

theorem openDisk_none {env : Env} {image : Str} {order : DiskOrder} {system : Str} {w : World} (h : contentOf w image = none) :
    (openDisk env image order system w).1 = .err .other := by
  unfold contentOf at h
  unfold openDisk openFilename
  by_cases hi : image = str "-"
  · rw [if_pos hi] at h; cases h
  · rw [if_neg hi] at h ⊢
    rw [h]

/-- If opening the image can not hang, then given time it ends. -/
theorem openDisk_settles {w : World} {image : Str} {order : DiskOrder} {system : Str}
    (h : ¬ ∃ raw, contentOf w image = some raw ∧ OpeningMayHang (judgedBy image) order system raw) :
    ∃ n₀, ∀ env : Env, n₀ ≤ env.budget → Fine (fun x => Answers env x.1 ∨
      ∃ raw k v, contentOf w image = some raw ∧ Believed (judgedBy image) order system raw k v ∧ Opened k v x.1) (openDisk env image order system w).1 := by
  cases hc : contentOf w image with
  | none =>
    refine ⟨0, fun env _ => ?_⟩
    rw [openDisk_none hc]
    exact Fine.err _
  | some raw =>
    obtain ⟨n, hn⟩ := opening_settles fun hx => h ⟨raw, hc, hx⟩
    refine ⟨n, fun env hb => ?_⟩
    rw [openDisk_some hc]
    obtain ⟨h1, h2⟩ := hn env hb
    refine ⟨h1, fun a e => (h2 a e).imp_right ?_⟩
    rintro ⟨k, v, hb, ho⟩
    exact ⟨raw, k, v, rfl, hb, ho⟩

theorem openDisk_hangs {w : World} {image : Str} {order : DiskOrder} {system : Str} {raw : Bytes} (hc : contentOf w image = some raw)
    (h : OpeningMayHang (judgedBy image) order system raw) : ∃ rord, ∀ n, (openDisk ⟨n, rord⟩ image order system w).1 = .timeout := by
  obtain ⟨rord, hr⟩ := (C84_endless raw (judgedBy image) order system).2 h
  exact ⟨rord, fun n => (openDisk_some hc).trans (hr n)⟩

theorem believed_length {name : Str} {order : DiskOrder} {system : Str} {raw : Bytes} {k : System} {v : Bytes}
    (h : Believed name order system raw k v) : v.length < 2 ^ 36 := by
  cases h with
  | named hr hos hs hv =>
    rename_i o
    have hn := (candidateOrders_named hos).2 o (by simp)
    rw [(view_iff hn (system_order_named k) hr).1 hv, viewOf_length hn (system_order_named k) hr]
    omega
  | hdv => omega

/-- What may not go on for ever can be asked anything. -/
theorem opened_answers {k : System} {v : Bytes} (hl : v.length < 2 ^ 36) (h : ¬ k.MayHang v) :
    ∃ n₀, ∀ env : Env, n₀ ≤ env.budget → ∀ op, Opened k v op → Answers env op := by
  cases k with
  | dos3 =>
    refine ⟨0, fun env _ op ho => ?_⟩
    cases op with
    | dos3 o => rw [show o = ⟨v⟩ by (cases o; cases ho; rfl)]; exact dos3_answers env h
    | nakedos o => exact ho.elim
    | prodos o => exact ho.elim
  | nakedos =>
    refine ⟨0, fun env _ op ho => ?_⟩
    cases op with
    | nakedos o => exact nakedos_answers env o
    | dos3 o => exact ho.elim
    | prodos o => exact ho.elim
  | prodos =>
    obtain ⟨n, hn⟩ := prodos_settles hl h
    refine ⟨n, fun env hb op ho => ?_⟩
    cases op with
    | prodos o =>
      rw [show o = ⟨v⟩ by (cases o; cases ho; rfl)]
      refine ⟨fun d => ?_, fun n => by unfold AnyOp.getFile Prodos.Operator.getFile; simp⟩
      change Prodos.Operator.catalog env.budget env.order ⟨v⟩ d ≠ _
      unfold Prodos.Operator.catalog
      refine Out.bind_ends (Out.returns_ends (hn _ hb _)) fun vol _ => ?_
      split
      · simp
      · split <;> simp
    | dos3 o => exact ho.elim
    | nakedos o => exact ho.elim

theorem contentOf_given (w : World) (p : Str) : contentOf w p = given w p := rfl

/-- The pairs of what an image may be believed to be are few: what holds of each eventually holds of all. -/
theorem believed_unique {name : Str} {order : DiskOrder} {system : Str} {raw : Bytes} {k k' : System} {v v' : Bytes}
    (h : Believed name order system raw k v) (h' : Believed name order system raw k' v') : k = k' ∧ v = v' := by
  cases h with
  | named hr hos hs hv =>
    rename_i o
    cases h' with
    | named hr' hos' hs' hv' =>
      rename_i o'
      have e : k = k' := by
        rw [hs] at hs'
        revert hs'
        cases k <;> cases k' <;> first | (intro _; rfl) | (intro h; exact absurd h (by decide))
      subst e
      have e : o = o' := by
        have a := (ordersToTry_iff _ _ _).2 hos
        rw [(ordersToTry_iff _ _ _).2 hos'] at a
        simp only [Option.some.injEq, List.cons.injEq, and_true] at a
        exact a.symm
      subst e
      have hn := (candidateOrders_named hos).2 o (by simp)
      exact ⟨rfl, ((view_iff hn (system_order_named k) hr).1 hv).trans ((view_iff hn (system_order_named k) hr).1 hv').symm⟩
    | hdv h1 => exact absurd hr h1
  | hdv h1 =>
    cases h' with
    | named hr => exact absurd hr h1
    | hdv => exact ⟨rfl, rfl⟩

/-- C87, exactly: a command may never end, in some map order and however much time it is given, if and only if finding out what the image is may
never end, or the image is believed to be something whose catalog or directories the command reads without end, or the command lists a program
without end. -/
theorem C87_exact (c : Command) (w : World) : (∃ rord, ∀ n, (run ⟨n, rord⟩ c w).1 = .timeout) ↔ MayRunForEver c w := by
  cases c with
  | ls o s sh i d =>
    constructor
    · rintro ⟨rord, h⟩
      by_contra hc
      have hop : ¬ ∃ raw, contentOf w i = some raw ∧ OpeningMayHang (judgedBy i) o s raw := by
        rintro ⟨raw, h1, h2⟩; exact hc ⟨raw, h1, Or.inl h2⟩
      obtain ⟨n₁, h1⟩ := openDisk_settles hop
      have h2 : ∃ n₂, ∀ env : Env, n₂ ≤ env.budget → ∀ raw k v op, contentOf w i = some raw → Believed (judgedBy i) o s raw k v → Opened k v op →
          Answers env op ∨ (d ≠ [] ∧ op.hasSubdirs = false) := by
        by_cases hx : ∃ raw k v, contentOf w i = some raw ∧ Believed (judgedBy i) o s raw k v
        · obtain ⟨raw, k, v, hr, hb⟩ := hx
          have : ∃ n₂, ∀ env : Env, n₂ ≤ env.budget → ∀ op, Opened k v op → Answers env op ∨ (d ≠ [] ∧ op.hasSubdirs = false) := by
            by_cases hm : k.MayHang v
            · have hd : ¬ (d = [] ∨ k = .prodos) := fun hd => hc ⟨raw, hr, Or.inr ⟨k, v, hb, hm, hd⟩⟩
              rw [not_or] at hd
              refine ⟨0, fun env _ op ho => Or.inr ⟨hd.1, ?_⟩⟩
              cases op with
              | prodos x =>
                cases k with
                | prodos => exact absurd rfl hd.2
                | dos3 => exact ho.elim
                | nakedos => exact ho.elim
              | dos3 x => rfl
              | nakedos x => rfl
            · obtain ⟨n, hn⟩ := opened_answers (believed_length hb) hm
              exact ⟨n, fun env hb op ho => Or.inl (hn env hb op ho)⟩
          obtain ⟨n, hn⟩ := this
          refine ⟨n, fun env hbu raw' k' v' op hr' hb' ho => ?_⟩
          rw [hr] at hr'
          obtain rfl := Option.some.inj hr'
          obtain ⟨rfl, rfl⟩ := believed_unique hb hb'
          exact hn env hbu op ho
        · exact ⟨0, fun env _ raw k v op hr hb _ => absurd ⟨raw, k, v, hr, hb⟩ hx⟩
      obtain ⟨n₂, h2⟩ := h2
      have hr := h (max n₁ n₂)
      change (ls _ o s sh i d w).1 = _ at hr
      revert hr
      unfold ls
      have hF := h1 ⟨max n₁ n₂, rord⟩ (le_max_left _ _)
      refine act_bind_ends hF.1 fun x w' hx => ?_
      obtain ⟨op, ord⟩ := x
      have ha : Answers ⟨max n₁ n₂, rord⟩ op ∨ (d ≠ [] ∧ op.hasSubdirs = false) := by
        rcases hF.2 (op, ord) (by rw [hx]) with ha | ⟨raw, k, v, hr, hb, ho⟩
        · exact Or.inl ha
        · exact h2 _ (le_max_right _ _) raw k v op hr hb ho
      dsimp only
      split
      · exact Ne.symm (by intro e; cases e)
      · rename_i hn
        exact act_bind_ends ((ha.resolve_right hn).1 d) fun _ _ _ => by unfold print; simp
    · rintro ⟨raw, hr, hop | ⟨k, v, hb, hm, hd⟩⟩
      · obtain ⟨rord, h⟩ := openDisk_hangs hr hop
        exact ⟨rord, fun n => bind_timeout (h n)⟩
      · have key : ∃ rord, ∀ n, ∀ op, Opened k v op → op.catalog ⟨n, rord⟩ d = .timeout ∧ ¬ (d ≠ [] ∧ op.hasSubdirs = false) := by
          cases k with
          | nakedos => exact hm.elim
          | dos3 =>
            refine ⟨.stored, fun n op ho => ?_⟩
            have hd := hd.resolve_right (by simp)
            refine ⟨?_, fun h => h.1 hd⟩
            cases op with
            | dos3 x =>
              rw [show x = ⟨v⟩ by (cases x; cases ho; rfl)]
              have := dos_endless hm
              unfold Dos3.seemsToMatch at this
              change Dos3.Operator.catalog ⟨v⟩ d = _
              unfold Dos3.Operator.catalog
              cases e : Dos3.readCatalog v with
              | timeout => rfl
              | ok x => rw [e] at this; cases this
              | err x => rw [e] at this; cases this
              | panic => rw [e] at this; cases this
            | nakedos x => exact ho.elim
            | prodos x => exact ho.elim
          | prodos =>
            obtain ⟨ord, ho⟩ := prodos_hangs (believed_length hb) hm
            refine ⟨ord, fun n op hop => ?_⟩
            cases op with
            | prodos x =>
              rw [show x = ⟨v⟩ by (cases x; cases hop; rfl)]
              refine ⟨?_, fun h => by cases h.2⟩
              change Prodos.Operator.catalog n ord ⟨v⟩ d = _
              unfold Prodos.Operator.catalog
              dsimp only
              rw [ho]; rfl
            | nakedos x => exact hop.elim
            | dos3 x => exact hop.elim
        obtain ⟨rord, hk⟩ := key
        refine ⟨rord, fun n => ?_⟩
        rcases believed_opens hb ⟨n, rord⟩ with ⟨op, ord, e, ho⟩ | ⟨rfl, _⟩
        · obtain ⟨h1, h2⟩ := hk n op ho
          change (ls _ o s sh i d w).1 = _
          unfold ls
          rcases e' : openDisk ⟨n, rord⟩ i o s w with ⟨r, w'⟩
          have : r = .ok (op, ord) := by
            rw [← openDisk_some (order := o) (system := s) hr, e'] at e
            exact e
          subst this
          rw [bind_to e']
          dsimp only
          rw [if_neg h2]
          apply bind_timeout
          exact h1
        · exact hm.elim
  | dump o s i name =>
    constructor
    · rintro ⟨rord, h⟩
      by_contra hc
      have hop : ¬ ∃ raw, contentOf w i = some raw ∧ OpeningMayHang (judgedBy i) o s raw := by
        rintro ⟨raw, h1, h2⟩; exact hc ⟨raw, h1, Or.inl h2⟩
      obtain ⟨n₁, h1⟩ := openDisk_settles hop
      have hr := h n₁
      change (dump _ o s i name w).1 = _ at hr
      revert hr
      unfold dump
      have hF := h1 ⟨n₁, rord⟩ (le_refl _)
      refine act_bind_ends hF.1 fun x w' hx => ?_
      obtain ⟨op, ord⟩ := x
      refine act_bind_ends ?_ fun _ _ _ => by unfold print; simp
      rcases hF.2 (op, ord) (by rw [hx]) with ha | ⟨raw, k, v, hr, hb, ho⟩
      · exact ha.2 name
      · have hk : k = .dos3 → ¬ EndlessCatalog v := by
          rintro rfl he; exact hc ⟨raw, hr, Or.inr ⟨v, hb, he⟩⟩
        cases k with
        | dos3 =>
          cases op with
          | dos3 x => rw [show x = ⟨v⟩ by (cases x; cases ho; rfl)]; exact (dos3_answers ⟨0, .stored⟩ (hk rfl)).2 name
          | nakedos x => exact ho.elim
          | prodos x => exact ho.elim
        | nakedos =>
          cases op with
          | nakedos x => exact (nakedos_answers ⟨0, .stored⟩ x).2 name
          | dos3 x => exact ho.elim
          | prodos x => exact ho.elim
        | prodos =>
          cases op with
          | prodos x => exact Ne.symm (by intro e; cases e)
          | dos3 x => exact ho.elim
          | nakedos x => exact ho.elim
    · rintro ⟨raw, hr, hop | ⟨v, hb, hm⟩⟩
      · obtain ⟨rord, h⟩ := openDisk_hangs hr hop
        exact ⟨rord, fun n => bind_timeout (h n)⟩
      · refine ⟨.stored, fun n => ?_⟩
        rcases believed_opens hb ⟨n, .stored⟩ with ⟨op, ord, e, ho⟩ | ⟨h0, _⟩
        · change (dump _ o s i name w).1 = _
          unfold dump
          rcases e' : openDisk ⟨n, .stored⟩ i o s w with ⟨r, w'⟩
          have : r = .ok (op, ord) := by
            rw [← openDisk_some (order := o) (system := s) hr, e'] at e
            exact e
          subst this
          rw [bind_to e']
          apply bind_timeout
          cases op with
          | dos3 x =>
            rw [show x = ⟨v⟩ by (cases x; cases ho; rfl)]
            have := dos_endless hm
            unfold Dos3.seemsToMatch at this
            change Dos3.Operator.getFile ⟨v⟩ name = _
            unfold Dos3.Operator.getFile Dos3.Operator.fileForFilename
            cases e : Dos3.readCatalog v with
            | timeout => rfl
            | ok x => rw [e] at this; cases this
            | err x => rw [e] at this; cases this
            | panic => rw [e] at this; cases this
          | nakedos x => exact ho.elim
          | prodos x => exact ho.elim
        · cases h0
  | rm o s m i name =>
    constructor
    · rintro ⟨rord, h⟩
      by_contra hc
      obtain ⟨n₁, h1⟩ := openDisk_settles (w := w) (image := i) (order := o) (system := s) hc
      have hr := h n₁
      change (rm _ _ o s m i name w).1 = _ at hr
      revert hr
      unfold rm
      refine act_bind_ends (h1 ⟨n₁, rord⟩ (le_refl _)).1 fun x w' hx => ?_
      obtain ⟨op, ord⟩ := x
      dsimp only
      refine act_bind_ends (delete_ends op name) fun b w'' _ => ?_
      split
      · exact Ne.symm (by intro e; cases e)
      · exact writeDisk_ends _ _ _ _
    · rintro ⟨raw, hr, hop⟩
      obtain ⟨rord, h⟩ := openDisk_hangs hr hop
      exact ⟨rord, fun n => bind_timeout (h n)⟩
  | put o s t ow a i x y =>
    constructor
    · rintro ⟨rord, h⟩
      by_contra hc
      by_cases hm : i = str "-" ∧ y = str "-"
      · have hr := h 0
        change (putCmd _ _ o s t ow a i x y w).1 = _ at hr
        unfold putCmd at hr
        rw [if_pos hm] at hr
        cases hr
      · have hop : ¬ ∃ raw, contentOf w i = some raw ∧ OpeningMayHang (judgedBy i) o s raw := by
          rintro ⟨raw, h1, h2⟩; exact hc ⟨raw, h1, h2, hm⟩
        obtain ⟨n₁, h1⟩ := openDisk_settles hop
        have hr := h n₁
        change (putCmd _ _ o s t ow a i x y w).1 = _ at hr
        revert hr
        unfold putCmd
        rw [if_neg hm]
        refine act_bind_ends (h1 ⟨n₁, rord⟩ (le_refl _)).1 fun z w' hx => ?_
        obtain ⟨op, ord⟩ := z
        dsimp only
        refine act_bind_ends (contentsOf_ends _ _) fun c w2 _ => ?_
        refine act_bind_ends (filetypeForName_ends _) fun ft w3 _ => ?_
        exact act_bind_ends (putFile_ends _ _ _) fun _ _ _ => writeDisk_ends _ _ _ _
    · rintro ⟨raw, hr, hop, hm⟩
      obtain ⟨rord, h⟩ := openDisk_hangs hr hop
      refine ⟨rord, fun n => ?_⟩
      change (putCmd _ _ o s t ow a i x y w).1 = _
      unfold putCmd
      rw [if_neg hm]
      exact bind_timeout (h n)
  | mkhello o i name a s =>
    have hcond : (¬ a % 256 ≠ 0 ∧ ¬ effectiveStart a s < a) ↔ (a.toNat % 256 = 0 ∧ a ≤ s) := by
      have h1 : (¬ a % 256 ≠ 0) ↔ a.toNat % 256 = 0 := by
        rw [not_not, ← UInt16.toNat_inj, UInt16.toNat_mod]
        rfl
      have h2 : (¬ effectiveStart a s < a) ↔ a ≤ s := by
        unfold effectiveStart
        split
        · rename_i e
          subst e
          constructor
          · intro _
            rw [UInt16.le_iff_toNat_le]
            have := a.toNat_lt
            have e : (0xFFFF : UInt16).toNat = 65535 := rfl
            omega
          · intro _ h
            rw [UInt16.lt_iff_toNat_lt] at h
            omega
        · rw [UInt16.lt_iff_toNat_lt, UInt16.le_iff_toNat_le]
          omega
      rw [h1, h2]
    constructor
    · rintro ⟨rord, h⟩
      by_contra hc
      by_cases hx : ¬ a % 256 ≠ 0 ∧ ¬ effectiveStart a s < a
      · have hop : ¬ ∃ raw, contentOf w i = some raw ∧ OpeningMayHang (judgedBy i) o (str "auto") raw := by
          rintro ⟨raw, h1, h2⟩; exact hc ⟨raw, h1, h2, hcond.1 hx⟩
        obtain ⟨n₁, h1⟩ := openDisk_settles hop
        have hr := h n₁
        change (mkhello _ _ o i name a s w).1 = _ at hr
        revert hr
        unfold mkhello
        dsimp only
        rw [if_neg hx.1, if_neg hx.2]
        refine act_bind_ends (h1 ⟨n₁, rord⟩ (le_refl _)).1 fun z w' hx => ?_
        obtain ⟨op, ord⟩ := z
        cases op with
        | dos3 o => exact Ne.symm (by intro e; cases e)
        | prodos o => exact Ne.symm (by intro e; cases e)
        | nakedos op =>
          dsimp only
          refine act_bind_ends (Supermon.filesForCompoundName_ends _ _) fun z w2 _ => ?_
          obtain ⟨a1, a2, a3⟩ := z
          dsimp only
          split
          · exact Ne.symm (by intro e; cases e)
          · exact act_bind_ends (putFile_ends _ _ _) fun _ _ _ => writeDisk_ends _ _ _ _
      · have hr := h 0
        change (mkhello _ _ o i name a s w).1 = _ at hr
        revert hr
        unfold mkhello
        dsimp only
        split
        · exact Ne.symm (by intro e; cases e)
        · rename_i c1
          split
          · exact Ne.symm (by intro e; cases e)
          · rename_i c2
            exact absurd ⟨c1, c2⟩ hx
    · rintro ⟨raw, hr, hop, hx⟩
      have hx := hcond.2 hx
      obtain ⟨rord, h⟩ := openDisk_hangs hr hop
      refine ⟨rord, fun n => ?_⟩
      change (mkhello _ _ o i name a s w).1 = _
      unfold mkhello
      dsimp only
      rw [if_neg hx.1, if_neg hx.2]
      exact bind_timeout (h n)
  | decode f l r =>
    have hD := C87_decode f l r w
    constructor
    · rintro ⟨rord, h⟩
      obtain ⟨b, d, h1, h2, h3⟩ := hD.1 fun env => by
        have := h env.budget
        exact this
      exact ⟨b, d, h1, h2, h3⟩
    · rintro ⟨b, d, h1, h2, h3⟩
      exact ⟨.stored, fun n => hD.2 ⟨b, d, h1, h2, h3⟩ _⟩
  | filetypes a => exact ⟨fun ⟨rord, h⟩ => C87_always (.filetypes a) rfl rfl ⟨0, rord⟩ w (h 0), fun h => h.elim⟩
  | mksd o i b a s => exact ⟨fun ⟨rord, h⟩ => C87_always (.mksd o i b a s) rfl rfl ⟨0, rord⟩ w (h 0), fun h => h.elim⟩
  | reorder o n ow i j => exact ⟨fun ⟨rord, h⟩ => C87_always (.reorder o n ow i j) rfl rfl ⟨0, rord⟩ w (h 0), fun h => h.elim⟩

end Verif.Cmd
