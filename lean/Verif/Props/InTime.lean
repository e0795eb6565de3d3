import Verif.Spec.InTime
import Verif.Proofs.InTime

/-!
# C115: how long a command takes
-/

set_option autoImplicit false
set_option maxRecDepth 20000

namespace Verif.Disk
variable {Ω : Type}

/-- Factories that do the same, except that they may recognize other disks than those in `P`. -/
structure AlikeOn (P : DiskOrder → Bytes → Prop) (f g : Factory Ω) : Prop where
  name : f.name = g.name
  diskOrder : f.diskOrder = g.diskOrder
  operator : f.operator = g.operator
  matches_ : ∀ img, P f.diskOrder img → f.seemsToMatch img = g.seemsToMatch img

variable {P : DiskOrder → Bytes → Prop}

theorem openInner_alike (ex : Bool) (order : DiskOrder) (sw : Bytes) {fs gs : List (Factory Ω)} (h : List.Forall₂ (AlikeOn P) fs gs)
    (hP : ∀ fo b, fo ∈ fs.map (·.diskOrder) → swizzle sw (physicalToLogicalByName fo) = .ok b → P fo b) :
    openInner ex order sw fs = openInner ex order sw gs := by
  induction h with
  | nil => rfl
  | @cons f g fs gs h _ ih =>
    have ih := ih fun fo b hf => hP fo b (by simp only [List.map_cons, List.mem_cons]; exact Or.inr hf)
    unfold openInner
    rw [← h.diskOrder, ← h.operator]
    cases hb : swizzle sw (physicalToLogicalByName f.diskOrder) with
    | err k => rfl
    | panic => rfl
    | timeout => rfl
    | ok b =>
      rw [Out.bind_ok, Out.bind_ok, h.matches_ b (hP _ b (by simp) hb), ih]

theorem openOuter_alike (ex : Bool) (raw : Bytes) {fs gs : List (Factory Ω)} (h : List.Forall₂ (AlikeOn P) fs gs) (os : List DiskOrder)
    (hP : ∀ o ∈ os, ∀ s, swizzle raw (logicalToPhysicalByName o) = .ok s → ∀ fo b, fo ∈ fs.map (·.diskOrder) →
      swizzle s (physicalToLogicalByName fo) = .ok b → P fo b) :
    openOuter ex raw fs os = openOuter ex raw gs os := by
  induction os with
  | nil => rfl
  | cons o os ih =>
    have ih := ih fun o' ho' => hP o' (by simp [ho'])
    unfold openOuter
    cases hs : swizzle raw (logicalToPhysicalByName o) with
    | err k => rfl
    | panic => rfl
    | timeout => rfl
    | ok s =>
      rw [Out.bind_ok, Out.bind_ok, openInner_alike ex o s h (hP o (by simp) s hs), ih]

theorem alikeOn_filter (q : Str → Bool) {fs gs : List (Factory Ω)} (h : List.Forall₂ (AlikeOn P) fs gs) :
    List.Forall₂ (AlikeOn P) (fs.filter fun f => q f.name) (gs.filter fun f => q f.name) := by
  induction h with
  | nil => exact .nil
  | @cons f g fs gs h _ ih =>
    by_cases hp : q f.name
    · have hq : q g.name := h.name ▸ hp
      simp only [List.filter_cons, hp, hq, if_true]
      exact .cons h ih
    · have hq : ¬ q g.name := h.name ▸ hp
      simp only [List.filter_cons, hp, hq]
      exact ih

theorem openHDVLoop_alike (raw : Bytes) {fs gs : List (Factory Ω)} (h : List.Forall₂ (AlikeOn P) fs gs) :
    openHDVLoop raw fs = openHDVLoop raw gs := by
  induction h with
  | nil => rfl
  | cons h _ ih =>
    unfold openHDVLoop
    rw [h.name, h.operator, ih]

theorem openImage_alike (raw : Bytes) (filename : Str) (order : DiskOrder) (system : Str) {fs gs : List (Factory Ω)} (h : List.Forall₂ (AlikeOn P) fs gs)
    (hP : raw.length = 143360 → ∀ os, ordersToTry order (toLower (pathExt filename)) = some os → ∀ o ∈ os, ∀ s, swizzle raw (logicalToPhysicalByName o) = .ok s →
      ∀ fo b, fo ∈ fs.map (·.diskOrder) → swizzle s (physicalToLogicalByName fo) = .ok b → P fo b) :
    openImage raw filename order system fs = openImage raw filename order system gs := by
  unfold openImage
  dsimp only
  split
  · rename_i hl
    unfold openDoOrPo
    have hf := alikeOn_filter (fun n => decide (system = str "auto" ∨ system = n)) h
    dsimp only
    rw [hf.length_eq]
    split
    · rfl
    · split
      · rfl
      · rename_i os hos
        refine openOuter_alike _ _ hf _ fun o ho s hs fo b hfo => hP hl os hos o ho s hs fo b ?_
        obtain ⟨f, hf, rfl⟩ := List.mem_map.1 hfo
        exact List.mem_map.2 ⟨f, (List.mem_filter.1 hf).1, rfl⟩
  · split
    · rfl
    · split
      · unfold openHDV
        dsimp only
        rw [openHDVLoop_alike _ h]
      · rfl

end Verif.Disk

namespace Verif.Cmd
open Disk Spec Spec.Prodos

theorem blockCount_le {v : Bytes} {n : Nat} (h : v.length < n) : blockCount v ≤ n := by unfold blockCount; omega

theorem seemsToMatch_settled {v : Bytes} (ho : ListedOnce v) {n m : Nat} (hn : blockCount v ≤ n) (hm : n ≤ m) (ord : RangeOrder UInt16 Prodos.Subdirectory) :
    Prodos.seemsToMatch n ord v = Prodos.seemsToMatch m ord v := by
  unfold Prodos.seemsToMatch
  rw [Prodos.readVolume_settled ho hn hm ord]

theorem catalog_settled {v : Bytes} (ho : ListedOnce v) {n m : Nat} (hn : blockCount v ≤ n) (hm : n ≤ m) (ord : RangeOrder UInt16 Prodos.Subdirectory)
    (path : Str) : Prodos.Operator.catalog n ord ⟨v⟩ path = Prodos.Operator.catalog m ord ⟨v⟩ path := by
  unfold Prodos.Operator.catalog
  dsimp only
  rw [Prodos.readVolume_settled ho hn hm ord]

theorem factories_on (n m : Nat) (ord : RangeOrder UInt16 Prodos.Subdirectory) {P : DiskOrder → Bytes → Prop}
    (h : ∀ b, P orderPO b → Prodos.seemsToMatch n ord b = Prodos.seemsToMatch m ord b) :
    List.Forall₂ (AlikeOn P) (factories ⟨n, ord⟩) (factories ⟨m, ord⟩) := by
  unfold factories
  refine .cons ⟨rfl, rfl, rfl, fun _ _ => rfl⟩ (.cons ⟨rfl, rfl, rfl, fun _ _ => rfl⟩ (.cons ⟨?_, ?_, ?_, fun b hb => ?_⟩ .nil))
  · simp only [Factory.map, Prodos.factory]
  · simp only [Factory.map, Prodos.factory]
  · simp only [Factory.map, Prodos.factory]
  · simp only [Factory.map, Prodos.factory] at hb ⊢; exact h b hb

theorem opening_settled {raw : Bytes} {name : Str} {order : DiskOrder} (ht : TreesOnly name order raw) (system : Str) {n m : Nat} (hn : raw.length < n)
    (hm : n ≤ m) (ord : RangeOrder UInt16 Prodos.Subdirectory) :
    openImage raw name order system (factories ⟨n, ord⟩) = openImage raw name order system (factories ⟨m, ord⟩) := by
  refine openImage_alike (P := fun fo b => fo = orderPO → ListedOnce b ∧ blockCount b ≤ n) raw name order system
    (factories_on n m ord fun b hb => seemsToMatch_settled (hb rfl).1 (hb rfl).2 hm ord) ?_
  intro hl os hos o ho s hs fo b hfo hb hpo
  subst hpo
  have hos := (ordersToTry_iff _ _ _).1 hos
  have hon := (candidateOrders_named hos).2 o ho
  have hp : orderPO ∈ [orderDO, orderPO, orderRaw] := by simp
  have hv := dos_view hl hon hp hs hb
  refine ⟨ht.1 hl os hos o ho b hv, ?_⟩
  have := (view_iff hon hp hl).1 hv
  unfold blockCount
  rw [this, viewOf_length hon hp hl]
  omega

/-- A ProDOS volume found in the image is one of those looked at. -/
theorem found_prodos {env : Env} {raw : Bytes} {name : Str} {order : DiskOrder} {system : Str} {o : Prodos.Operator} {ord : DiskOrder}
    (h : openImage raw name order system (factories env) = .ok (.prodos o, ord)) (ht : TreesOnly name order raw) :
    ListedOnce o.data ∧ o.data.length = raw.length := by
  have hf := factories_lawful env
  unfold openImage at h
  simp only [show floppyDiskBytes = 143360 from rfl] at h
  split at h
  · rename_i hr
    obtain ⟨f, hm, ho, _, hop⟩ := openDoOrPo_ok hr (fun f hf' => lawful_factOk (hf f hf')) h
    have : ∃ os, CandidateOrders order (toLower (pathExt name)) os ∧ ord ∈ os := by
      unfold openDoOrPo at h
      simp only at h
      split at h
      · simp at h
      split at h
      · simp at h
      · rename_i os hos
        exact ⟨os, (ordersToTry_iff _ _ _).1 hos, openOuter_order h⟩
    obtain ⟨os, hos, hmem⟩ := this
    have hp : orderPO ∈ [orderDO, orderPO, orderRaw] := by simp
    simp only [factories, List.mem_cons, List.not_mem_nil, or_false] at hm
    rcases hm with rfl | rfl | rfl
    · obtain ⟨_, _, e⟩ := map_operator.1 hop
      cases e
    · obtain ⟨_, _, e⟩ := map_operator.1 hop
      cases e
    · obtain ⟨o', ho', e⟩ := map_operator.1 hop
      cases e
      have e : (⟨viewOf ord orderPO raw⟩ : Prodos.Operator) = o := Out.ok.inj ho'
      rw [← e]
      exact ⟨ht.1 hr os hos ord hmem _ ((view_iff ho hp hr).2 rfl), by rw [viewOf_length ho hp hr, hr]⟩
  · rename_i hr
    split at h
    · simp at h
    · split at h
      · unfold openHDV at h
        dsimp only at h
        split at h
        · simp at h
        · split at h
          · simp at h
          · split at h
            · simp at h
            · split at h
              · simp at h
              · obtain ⟨f, hm, _, hop, _⟩ := openHDVLoop_ok h
                simp only [factories, List.mem_cons, List.not_mem_nil, or_false] at hm
                rcases hm with rfl | rfl | rfl
                · obtain ⟨_, _, e⟩ := map_operator.1 hop
                  cases e
                · obtain ⟨_, _, e⟩ := map_operator.1 hop
                  cases e
                · obtain ⟨o', ho', e⟩ := map_operator.1 hop
                  cases e
                  have e : (⟨raw⟩ : Prodos.Operator) = o := Out.ok.inj ho'
                  rw [← e]
                  exact ⟨ht.2 hr, rfl⟩
      · simp at h

variable {α β : Type}

theorem bind_same {m m' : Act α} {f f' : α → Act β} {w : World} (h : m w = m' w) (hf : ∀ x w', m w = (.ok x, w') → f x w' = f' x w') :
    (m >>= f) w = (m' >>= f') w := by
  simp only [bind_apply]
  unfold Act.bind
  rw [← h]
  rcases hm : m w with ⟨o, w'⟩
  cases o with
  | ok x => exact hf x w' hm
  | err k => rfl
  | panic => rfl
  | timeout => rfl

theorem openDisk_settled {w : World} {image : Str} {order : DiskOrder} {n m : Nat}
    (ht : ∀ raw, contentOf w image = some raw → TreesOnly (judgedBy image) order raw) (hn : ∀ raw, contentOf w image = some raw → raw.length < n)
    (hm : n ≤ m) (system : Str) (ord : RangeOrder UInt16 Prodos.Subdirectory) :
    openDisk ⟨n, ord⟩ image order system w = openDisk ⟨m, ord⟩ image order system w := by
  unfold contentOf judgedBy at ht
  unfold contentOf at hn
  unfold openDisk openFilename
  by_cases hi : image = str "-"
  · simp only [if_pos hi] at ht hn ⊢
    rw [opening_settled (ht _ rfl) system (hn _ rfl) hm ord]
  · simp only [if_neg hi] at ht hn ⊢
    cases hw : w.files image with
    | none => rfl
    | some bb => simp only [opening_settled (ht bb hw) system (hn bb hw) hm ord]

/-- **C115 (partial).**  If no directory in the image is listed twice, then after as many rounds of a loop as the files read have bytes, a command
is over or will never be: more time does not change what it does.  (Missing: ProDOS images that list a directory twice.  See `C115_violated_ls`.) -/
theorem C115_settled_partial (c : Command) (w : World) (ht : OpensTrees c w) {n m : Nat} (hn : Shorter c w n) (hm : n ≤ m)
    (ord : RangeOrder UInt16 Prodos.Subdirectory) : run ⟨n, ord⟩ c w = run ⟨m, ord⟩ c w := by
  have hopen : ∀ {image order}, imageOf c = some (image, order) → ∀ system,
      openDisk ⟨n, ord⟩ image order system w = openDisk ⟨m, ord⟩ image order system w :=
    fun e system => openDisk_settled (fun raw => ht _ _ raw e) (fun raw => hn.1 _ _ raw e) hm system ord
  cases c with
  | ls o s sh i d =>
    change ls ⟨n, ord⟩ o s sh i d w = ls ⟨m, ord⟩ o s sh i d w
    unfold ls
    refine bind_same (hopen rfl s) fun x w' hx => ?_
    obtain ⟨op, dord⟩ := x
    dsimp only
    by_cases hc : d ≠ [] ∧ op.hasSubdirs = false
    · rw [if_pos hc, if_pos hc]
    · rw [if_neg hc, if_neg hc]
      cases op with
      | dos3 o => rfl
      | nakedos o => rfl
      | prodos o =>
        obtain ⟨raw, hr, hfd⟩ := finds_of_openDisk hx
        have hr : contentOf w i = some raw := hr
        obtain ⟨h1, h2⟩ := found_prodos hfd (ht _ _ raw rfl hr)
        have := hn.1 _ _ raw rfl hr
        refine bind_same ?_ fun _ _ _ => rfl
        unfold AnyOp.catalog
        dsimp only
        obtain ⟨v⟩ := o
        rw [catalog_settled h1 (blockCount_le (by rw [h2]; exact this)) hm ord d]
  | put o s t ow a i x y =>
    change putCmd ⟨n, ord⟩ _ o s t ow a i x y w = putCmd ⟨m, ord⟩ _ o s t ow a i x y w
    unfold putCmd
    split
    · rfl
    · exact bind_same (hopen rfl s) fun _ _ _ => rfl
  | rm o s mi i k =>
    change rm ⟨n, ord⟩ _ o s mi i k w = rm ⟨m, ord⟩ _ o s mi i k w
    unfold rm
    exact bind_same (hopen rfl s) fun _ _ _ => rfl
  | dump o s i k =>
    change dump ⟨n, ord⟩ o s i k w = dump ⟨m, ord⟩ o s i k w
    unfold dump
    exact bind_same (hopen rfl s) fun _ _ _ => rfl
  | mkhello o i k a s =>
    change mkhello ⟨n, ord⟩ _ o i k a s w = mkhello ⟨m, ord⟩ _ o i k a s w
    unfold mkhello
    dsimp only
    split
    · rfl
    · split
      · rfl
      · exact bind_same (hopen rfl _) fun _ _ _ => rfl
  | decode f l r =>
    change decodeCmd ⟨n, ord⟩ f l r w = decodeCmd ⟨m, ord⟩ f l r w
    unfold decodeCmd
    refine bind_same rfl fun x w' hx => ?_
    refine bind_same ?_ fun _ _ _ => rfl
    unfold lift
    rw [Applesoft.decode_settled (hn.2 f l x rfl (contentsOf_content hx)) hm]
  | reorder o k ow i j => rfl
  | filetypes a => rfl
  | mksd o i b a s => rfl

/-- **C115 (partial).**  A command ends within as many rounds as the files it reads have bytes, if nothing it reads goes round in a circle and no
directory in the image is listed twice. -/
theorem C115_in_time_partial (c : Command) (w : World) (hs : Straight c w) (ht : OpensTrees c w) {n : Nat} (hn : Shorter c w n)
    (ord : RangeOrder UInt16 Prodos.Subdirectory) : (run ⟨n, ord⟩ c w).1 ≠ .timeout := by
  obtain ⟨n₀, h⟩ := C87_ends_partial c w hs
  rw [C115_settled_partial c w ht hn (Nat.le_max_left n n₀) ord]
  exact h ⟨max n n₀, ord⟩ (Nat.le_max_right n n₀)

/-- `decode`, `reorder`, `filetypes` and `mksd`: after as many rounds as the program listed has bytes they are over or never will be. -/
theorem C115_no_image (c : Command) (w : World) (hc : imageOf c = none) {n m : Nat} (hn : Shorter c w n) (hm : n ≤ m)
    (ord : RangeOrder UInt16 Prodos.Subdirectory) : run ⟨n, ord⟩ c w = run ⟨m, ord⟩ c w :=
  C115_settled_partial c w (fun _ _ _ h => by rw [hc] at h; cases h) hn hm ord

/-- A DOS 3.3 or NakedOS disk is found without reading it as a ProDOS volume. -/
theorem opening_plain {raw : Bytes} {name : Str} {order : DiskOrder} {system : Str} (h : PlainFloppy name order system raw) :
    ∃ op o, (∀ env : Env, openImage raw name order system (factories env) = .ok (op, o)) ∧ ∀ p, op ≠ .prodos p := by
  obtain ⟨hl, o, os, hos, ⟨hs, v, hv, hd⟩ | ⟨rfl, ⟨v, hv, hd⟩, hno⟩⟩ := h
  · exact ⟨_, o, fun env => C84_dos hl hos hs hv hd, fun p h => by cases h⟩
  · have hon := (candidateOrders_named hos).2 o List.mem_cons_self
    have hp : orderDO ∈ [orderDO, orderPO, orderRaw] := by simp
    have hview : View o (str "do") raw (viewOf o orderDO raw) := (view_iff hon hp hl).2 rfl
    have key := fun env : Env => C84_nakedos (env := env) hl hos hv hd hview (hno _ hview).1 (hno _ hview).2
    obtain ⟨op, h1, _⟩ := key ⟨0, .stored⟩
    refine ⟨.nakedos op, o, fun env => ?_, fun p h => by cases h⟩
    obtain ⟨op', h2, _⟩ := key env
    have e1 := (open_naked h1).opened
    have e2 := (open_naked h2).opened
    rw [e1] at e2
    cases e2
    exact h2

theorem openDisk_plain {w : World} {image : Str} {order : DiskOrder} {system : Str}
    (h : ∀ raw, contentOf w image = some raw → PlainFloppy (judgedBy image) order system raw) (env env' : Env) :
    openDisk env image order system w = openDisk env' image order system w ∧
    ∀ x w', openDisk env image order system w = (.ok x, w') → ∀ p, x.1 ≠ .prodos p := by
  unfold contentOf judgedBy at h
  unfold openDisk openFilename
  by_cases hi : image = str "-"
  · simp only [if_pos hi] at h ⊢
    obtain ⟨op, o, h1, h2⟩ := opening_plain (h _ rfl)
    rw [h1, h1]
    refine ⟨rfl, fun x w' e => ?_⟩
    cases e; exact h2
  · simp only [if_neg hi] at h ⊢
    cases hw : w.files image with
    | none => exact ⟨rfl, fun x w' e => by cases e⟩
    | some bb =>
      obtain ⟨op, o, h1, h2⟩ := opening_plain (h _ hw)
      simp only [h1]
      refine ⟨trivial, fun x w' e => ?_⟩
      cases e; exact h2

/-- C115 for DOS 3.3 and NakedOS disks: how much time it is given makes no difference to a command, nor does the order of maps. -/
theorem C115_plain_floppies (c : Command) (w : World) (hc : programOf c = none)
    (h : ∀ path order raw, imageOf c = some (path, order) → contentOf w path = some raw → PlainFloppy (judgedBy path) order (saidToBe c) raw)
    (env env' : Env) : run env c w = run env' c w := by
  have hopen : ∀ {image order}, imageOf c = some (image, order) → _ := fun {image order} e => openDisk_plain (fun raw => h image order raw e) env env'
  cases c with
  | ls o s sh i d =>
    change ls env o s sh i d w = ls env' o s sh i d w
    unfold ls
    obtain ⟨h1, h2⟩ := hopen rfl
    refine bind_same h1 fun x w' hx => ?_
    obtain ⟨op, dord⟩ := x
    have := h2 _ _ hx
    cases op with
    | dos3 o => rfl
    | nakedos o => rfl
    | prodos o => exact absurd rfl (this o)
  | put o s t ow a i x y =>
    change putCmd env _ o s t ow a i x y w = putCmd env' _ o s t ow a i x y w
    unfold putCmd
    split
    · rfl
    · exact bind_same (hopen rfl).1 fun _ _ _ => rfl
  | rm o s mi i k =>
    change rm env _ o s mi i k w = rm env' _ o s mi i k w
    unfold rm
    exact bind_same (hopen rfl).1 fun _ _ _ => rfl
  | dump o s i k =>
    change dump env o s i k w = dump env' o s i k w
    unfold dump
    exact bind_same (hopen rfl).1 fun _ _ _ => rfl
  | mkhello o i k a s =>
    change mkhello env _ o i k a s w = mkhello env' _ o i k a s w
    unfold mkhello
    dsimp only
    split
    · rfl
    · split
      · rfl
      · exact bind_same (hopen rfl).1 fun _ _ _ => rfl
  | decode f l r => cases hc
  | reorder o k ow i j => rfl
  | filetypes a => rfl
  | mksd o i b a s => rfl

end Verif.Cmd
