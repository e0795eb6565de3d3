import Verif.Spec.Ends
import Verif.Proofs.Ends
import Verif.Props.Same
import Verif.Props.Basic

/-!
# C87: every command ends
-/

set_option autoImplicit false

namespace Verif

/-- The computation ends, and a result satisfies `Q`. -/
def Fine {α : Type} (Q : α → Prop) (x : Out α) : Prop := x ≠ .timeout ∧ ∀ a, x = .ok a → Q a

theorem Fine.bind {α β : Type} {P : α → Prop} {Q : β → Prop} {x : Out α} {f : α → Out β} (hx : Fine P x)
    (hf : ∀ a, x = .ok a → P a → Fine Q (f a)) : Fine Q (x >>= f) := by
  cases x with
  | ok a => exact hf a rfl (hx.2 a rfl)
  | err k => exact ⟨by simp, by simp⟩
  | panic => exact ⟨by simp, by simp⟩
  | timeout => exact absurd rfl hx.1

theorem Fine.err {α : Type} {Q : α → Prop} (k : ErrKind) : Fine Q (.err k) := ⟨by simp, by simp⟩

theorem Fine.ok {α : Type} {Q : α → Prop} {a : α} (h : Q a) : Fine Q (.ok a) := ⟨by simp, fun b e => by cases e; exact h⟩

theorem Fine.ends {α : Type} {x : Out α} (h : x ≠ .timeout) : Fine (fun _ => True) x := ⟨h, fun _ _ => trivial⟩

namespace Disk
variable {Ω : Type} {Q : Ω → Prop}

theorem openInner_fine (e : Bool) (o : DiskOrder) (s : Bytes) (fs : List (Factory Ω))
    (h : ∀ f ∈ fs, ∀ b, swizzle s (physicalToLogicalByName f.diskOrder) = .ok b → f.seemsToMatch b ≠ .timeout ∧ Fine Q (f.operator b)) :
    Fine (fun r => ∀ x, r = some x → Q x.1) (openInner e o s fs) := by
  induction fs with
  | nil => exact Fine.ok (by simp)
  | cons f fs ih =>
    have ih := ih fun g hg => h g (by simp [hg])
    unfold openInner
    refine (Fine.ends (swizzle_ends _ _)).bind fun b hb _ => ?_
    obtain ⟨h1, h2⟩ := h f (by simp) b hb
    split
    · refine h2.bind fun op _ hq => Fine.ok ?_
      rintro x ⟨⟩; exact hq
    · refine (Fine.ends h1).bind fun m _ _ => ?_
      split
      · split
        · rename_i op ho
          refine Fine.ok ?_
          rintro x ⟨⟩; exact h2.2 _ ho
        · exact ih
        · exact ⟨by simp, by simp⟩
        · rename_i ho; exact absurd ho h2.1
      · exact ih

theorem openOuter_fine (e : Bool) (raw : Bytes) (fs : List (Factory Ω)) (os : List DiskOrder)
    (h : ∀ o ∈ os, ∀ f ∈ fs, ∀ s, swizzle raw (logicalToPhysicalByName o) = .ok s → ∀ b, swizzle s (physicalToLogicalByName f.diskOrder) = .ok b →
      f.seemsToMatch b ≠ .timeout ∧ Fine Q (f.operator b)) :
    Fine (fun x => Q x.1) (openOuter e raw fs os) := by
  induction os with
  | nil => exact Fine.err _
  | cons o os ih =>
    unfold openOuter
    refine (Fine.ends (swizzle_ends _ _)).bind fun s hs _ => ?_
    refine (openInner_fine e o s fs fun f hf b hb => h o (by simp) f hf s hs b hb).bind fun r _ hr => ?_
    cases r with
    | none => exact ih fun o ho => h o (by simp [ho])
    | some x => exact Fine.ok (hr x rfl)

theorem openHDVLoop_fine (raw : Bytes) (fs : List (Factory Ω)) (h : ∀ f ∈ fs, f.name = str "prodos" → Fine Q (f.operator raw)) :
    Fine (fun x => Q x.1) (openHDVLoop raw fs) := by
  induction fs with
  | nil => exact Fine.err _
  | cons f fs ih =>
    unfold openHDVLoop
    split
    · rename_i hn
      exact (h f (by simp) hn).bind fun _ _ hq => Fine.ok hq
    · exact ih fun g hg => h g (by simp [hg])

theorem openImage_fine (raw : Bytes) (filename : Str) (order : DiskOrder) (system : Str) (fs : List (Factory Ω))
    (h : raw.length = 143360 → ∀ os, ordersToTry order (toLower (pathExt filename)) = some os → ∀ o ∈ os, ∀ f ∈ fs, ∀ s,
      swizzle raw (logicalToPhysicalByName o) = .ok s → ∀ b, swizzle s (physicalToLogicalByName f.diskOrder) = .ok b →
      f.seemsToMatch b ≠ .timeout ∧ Fine Q (f.operator b))
    (h' : raw.length ≠ 143360 → raw.length < 2 ^ 36 → ∀ f ∈ fs, f.name = str "prodos" → Fine Q (f.operator raw)) :
    Fine (fun x => Q x.1) (openImage raw filename order system fs) := by
  unfold openImage
  dsimp only
  split
  · rename_i hl
    unfold openDoOrPo
    dsimp only
    split
    · exact Fine.err _
    · split
      · exact Fine.err _
      · rename_i os hos
        exact openOuter_fine _ _ _ _ fun o ho f hf => h hl os hos o ho f (List.mem_filter.1 hf).1
  · rename_i hl
    split
    · exact Fine.err _
    · split
      · unfold openHDV
        dsimp only
        split
        · exact Fine.err _
        · split
          · exact Fine.err _
          · rename_i hb
            split
            · exact Fine.err _
            · split
              · exact Fine.err _
              · exact openHDVLoop_fine _ _ (h' hl (by omega))
      · exact Fine.err _

end Disk

namespace Cmd
open Disk Spec

/-- Whatever is asked of the opened disk, it ends. -/
def Answers (env : Env) (op : AnyOp) : Prop := (∀ d, op.catalog env d ≠ .timeout) ∧ ∀ n, op.getFile n ≠ .timeout

theorem nakedos_answers (env : Env) (o : Supermon.Operator) : Answers env (.nakedos o) :=
  ⟨fun _ => by unfold AnyOp.catalog; simp, fun n => Supermon.getFile_ends o n⟩

theorem dos3_answers (env : Env) {v : Bytes} (h : ¬ EndlessCatalog v) : Answers env (.dos3 ⟨v⟩) := by
  have hr : Dos3.readCatalog v ≠ .timeout := Out.returns_ends ((Dos3.C16_terminates_partial v).1 h).1
  exact ⟨fun d => Dos3.catalog_ends hr d, fun n => Dos3.getFile_ends hr n⟩

theorem prodos_answers {v : Bytes} (hl : v.length < 2 ^ 36) (h : ¬ EndlessDirectories v) :
    ∃ n₀, ∀ env : Env, n₀ ≤ env.budget → Answers env (.prodos ⟨v⟩) ∧ Prodos.seemsToMatch env.budget env.order v ≠ .timeout := by
  unfold EndlessDirectories at h
  simp only [not_or, not_exists, not_and] at h
  obtain ⟨n₀, hn⟩ := Prodos.C47_terminates_partial v hl h.1 h.2.1 h.2.2
  refine ⟨n₀, fun env hb => ?_⟩
  obtain ⟨_, h2, h3⟩ := hn env.budget hb env.order
  refine ⟨⟨fun d => Out.returns_ends (h2 d), fun n => ?_⟩, ?_⟩
  · unfold AnyOp.getFile Prodos.Operator.getFile; simp
  · intro e; rw [e] at h3; cases h3

theorem map_fine {Ω Ω' : Type} {g : Ω → Ω'} {f : Factory Ω} {b : Bytes} {Q : Ω' → Prop} (h : Fine (fun o => Q (g o)) (f.operator b)) :
    Fine Q ((Factory.map g f).operator b) := by
  unfold Factory.map
  dsimp only
  cases e : f.operator b with
  | ok o => exact Fine.ok (h.2 o e)
  | err k => exact Fine.err k
  | panic => exact ⟨by simp, by simp⟩
  | timeout => exact absurd e h.1

theorem dos_view {raw : Bytes} (hl : raw.length = 143360) {o fo : DiskOrder} (ho : o ∈ [orderDO, orderPO, orderRaw]) (hf : fo ∈ [orderDO, orderPO, orderRaw])
    {s b : Bytes} (hs : swizzle raw (logicalToPhysicalByName o) = .ok s) (hb : swizzle s (physicalToLogicalByName fo) = .ok b) :
    View o fo raw b := by
  refine (view_iff ho hf hl).2 ?_
  unfold viewOf
  rw [(swizzle_ok_iff.1 hb).2.2, (swizzle_ok_iff.1 hs).2.2]

/-- Opening an image without circles ends, and so does asking for its catalog or a file. -/
theorem opening_ends {raw : Bytes} {name : Str} {order : DiskOrder} (h : NoCircles name order raw) :
    ∃ n₀, ∀ env : Env, n₀ ≤ env.budget → ∀ system, Fine (fun x => Answers env x.1) (openImage raw name order system (factories env)) := by
  have key : ∃ n₀, ∀ env : Env, n₀ ≤ env.budget →
      (raw.length = 143360 → ∀ os, CandidateOrders order (toLower (pathExt name)) os → ∀ o ∈ os, ∀ v, View o (str "po") raw v →
        Answers env (.prodos ⟨v⟩) ∧ Prodos.seemsToMatch env.budget env.order v ≠ .timeout) ∧
      (raw.length ≠ 143360 → raw.length < 2 ^ 36 → Answers env (.prodos ⟨raw⟩)) := by
    by_cases hl : raw.length = 143360
    · by_cases hos : ∃ os, CandidateOrders order (toLower (pathExt name)) os
      · obtain ⟨os, hos⟩ := hos
        have hu : ∀ os', CandidateOrders order (toLower (pathExt name)) os' → os' = os := by
          intro os' h'
          have a := (ordersToTry_iff _ _ _).2 hos
          rw [(ordersToTry_iff _ _ _).2 h'] at a
          exact Option.some.inj a
        have hE := h.1 hl os hos
        have hN := (candidateOrders_named hos).2
        have : ∃ n₀, ∀ env : Env, n₀ ≤ env.budget → ∀ o ∈ os, ∀ v, View o (str "po") raw v →
            Answers env (.prodos ⟨v⟩) ∧ Prodos.seemsToMatch env.budget env.order v ≠ .timeout := by
          clear hu hos
          induction os with
          | nil => exact ⟨0, fun _ _ o ho => by simp at ho⟩
          | cons o os ih =>
            obtain ⟨n, hn⟩ := ih (fun o ho => hE o (by simp [ho])) (fun o ho => hN o (by simp [ho]))
            have hon := hN o (by simp)
            have hpo : orderPO ∈ [orderDO, orderPO, orderRaw] := by simp
            have hv := (view_iff hon hpo hl).2 rfl
            have hlen : (viewOf o orderPO raw).length < 2 ^ 36 := by rw [viewOf_length hon hpo hl]; omega
            obtain ⟨m, hm⟩ := prodos_answers hlen ((hE o (by simp)).2 _ hv)
            refine ⟨max n m, fun env hb o' ho' v hv' => ?_⟩
            rcases List.mem_cons.1 ho' with rfl | ho'
            · rw [(view_iff hon hpo hl).1 hv']
              exact hm env (by omega)
            · exact hn env (by omega) o' ho' v hv'
        obtain ⟨n, hn⟩ := this
        exact ⟨n, fun env hb => ⟨fun _ os' h' => by rw [hu os' h']; exact hn env hb, fun hc => absurd hl hc⟩⟩
      · exact ⟨0, fun env _ => ⟨fun _ os h' => absurd ⟨os, h'⟩ hos, fun hc => absurd hl hc⟩⟩
    · by_cases hb : raw.length < 2 ^ 36
      · obtain ⟨n, hn⟩ := prodos_answers hb (h.2 hl)
        exact ⟨n, fun env he => ⟨fun hc => absurd hc hl, fun _ _ => (hn env he).1⟩⟩
      · exact ⟨0, fun env _ => ⟨fun hc => absurd hc hl, fun _ hc => absurd hc hb⟩⟩
  obtain ⟨n₀, hn⟩ := key
  refine ⟨n₀, fun env hb system => openImage_fine raw name order system _ ?_ ?_⟩
  · intro hl os hos o ho f hf s hs b hbb
    have hos := (ordersToTry_iff _ _ _).1 hos
    have hon := (candidateOrders_named hos).2 o ho
    simp only [factories, List.mem_cons, List.not_mem_nil, or_false] at hf
    rcases hf with rfl | rfl | rfl
    · have hd : orderDO ∈ [orderDO, orderPO, orderRaw] := by simp
      have hE := (h.1 hl os hos o ho).1 b (dos_view hl hon hd hs hbb)
      refine ⟨?_, map_fine (Fine.ok (dos3_answers env hE))⟩
      simp only [Factory.map, Dos3.factory]
      rcases dos_decides hE with e | e <;> rw [e] <;> simp
    · refine ⟨?_, map_fine ⟨?_, fun o _ => nakedos_answers env o⟩⟩
      · simp only [Factory.map, Supermon.factory]; exact Supermon.seemsToMatch_ends b
      · simp only [Supermon.factory]; exact Supermon.openOperator_ends b
    · have hp : orderPO ∈ [orderDO, orderPO, orderRaw] := by simp
      obtain ⟨h1, h2⟩ := (hn env hb).1 hl os hos o ho b (dos_view hl hon hp hs hbb)
      refine ⟨?_, map_fine (Fine.ok h1)⟩
      simp only [Factory.map, Prodos.factory]; exact h2
  · intro hl hl2 f hf hname
    simp only [factories, List.mem_cons, List.not_mem_nil, or_false] at hf
    rcases hf with rfl | rfl | rfl
    · exact absurd hname (by decide)
    · exact absurd hname (by decide)
    · exact map_fine (Fine.ok ((hn env hb).2 hl hl2))

/-! ### Applesoft programs -/

theorem decodeLoop_step_ends {d : Bytes} {loc a n : Nat} (h : Spec.Basic.InData d loc a → Applesoft.decodeLoop d (loc : Int) n (Spec.Basic.storedAt d loc a : Int) ≠ .timeout) :
    Applesoft.decodeLoop d (loc : Int) (n + 1) (a : Int) ≠ .timeout := by
  rw [Applesoft.decodeLoop.eq_def]
  split
  · simp
  · dsimp only
    split
    · simp
    · rename_i hb
      split
      · simp
      · rename_i hz
        split
        · simp
        · split
          · simp
          · have ho : ((a : Int) - (loc : Int)).toNat = a - loc := by omega
            have hin : Spec.Basic.InData d loc a := ⟨by omega, by omega⟩
            have e : (((d.getD ((a : Int) - (loc : Int)).toNat 0).toNat : Int) + 256 * ((d.getD (((a : Int) - (loc : Int)).toNat + 1) 0).toNat : Int)) =
                (Spec.Basic.storedAt d loc a : Int) := by
              rw [ho]; unfold Spec.Basic.storedAt; generalize (d.getD (a - loc) 0).toNat = x; generalize (d.getD (a - loc + 1) 0).toNat = y; omega
            refine Out.bind_ends ?_ fun _ _ => Out.bind_ends ?_ fun _ _ => by simp
            · rcases Applesoft.lineBytes_cases (d.drop (((a : Int) - (loc : Int)).toNat + 4)) with ⟨_, _, _, h, _⟩ | h <;> rw [h] <;> simp
            · rw [e]; exact h hin

theorem decode_ends {raw : Bytes} {loc : UInt16} (h : ¬ EndlessProgram raw loc.toNat) :
    ∃ n₀, ∀ n, n₀ ≤ n → Applesoft.decode n raw loc ≠ .timeout := by
  have hb : Spec.Basic.Body raw (Verif.Basic.stripHeader raw) := by
    by_cases hh : Spec.Basic.LooksHeadered raw
    · exact Or.inl ⟨hh, (Verif.Basic.stripHeader_spec _).1 hh⟩
    · exact Or.inr ⟨hh, (Verif.Basic.stripHeader_spec _).2 hh⟩
  have : ∃ k, Spec.Basic.lineAddr (Verif.Basic.stripHeader raw) loc.toNat k = 0 ∨
      ¬ Spec.Basic.InData (Verif.Basic.stripHeader raw) loc.toNat (Spec.Basic.lineAddr (Verif.Basic.stripHeader raw) loc.toNat k) := by
    by_contra hc
    simp only [not_exists, not_or, not_not] at hc
    exact h ⟨_, hb, hc⟩
  obtain ⟨k, hk⟩ := this
  refine ⟨k + 1, fun n hn => ?_⟩
  unfold Applesoft.decode
  generalize Verif.Basic.stripHeader raw = d at hk
  have key : ∀ j i, (Spec.Basic.lineAddr d loc.toNat (i + j) = 0 ∨ ¬ Spec.Basic.InData d loc.toNat (Spec.Basic.lineAddr d loc.toNat (i + j))) → ∀ n, j < n →
      Applesoft.decodeLoop d (loc.toNat : Int) n (Spec.Basic.lineAddr d loc.toNat i : Int) ≠ .timeout := by
    intro j
    induction j with
    | zero =>
      intro i hi n hn
      obtain ⟨m, rfl⟩ : ∃ m, n = m + 1 := ⟨n - 1, by omega⟩
      rcases hi with h0 | h0
      · rw [Nat.add_zero] at h0
        rw [h0, Applesoft.decodeLoop.eq_def]
        simp
      · exact decodeLoop_step_ends fun hin => absurd hin h0
    | succ j ih =>
      intro i hi n hn
      obtain ⟨m, rfl⟩ : ∃ m, n = m + 1 := ⟨n - 1, by omega⟩
      exact decodeLoop_step_ends fun _ => ih (i + 1) (by rwa [Nat.add_assoc, Nat.add_comm 1 j]) m (by omega)
  exact key k 0 (by rwa [Nat.zero_add]) n (by omega)

/-! ### Commands -/

theorem act_bind_ends {α β : Type} {m : Act α} {f : α → Act β} {w : World} (hm : (m w).1 ≠ .timeout)
    (hf : ∀ a w', m w = (.ok a, w') → (f a w').1 ≠ .timeout) : ((m >>= f) w).1 ≠ .timeout := by
  rw [bind_apply]
  unfold Act.bind
  rcases h : m w with ⟨r, w'⟩
  cases r with
  | ok a => exact hf a w' h
  | err k => simp
  | panic => simp
  | timeout => rw [h] at hm; exact absurd rfl hm

theorem writeOutput_ends (w : World) (f : Str) (b : Bytes) (ow : Bool) : (w.writeOutput f b ow).1 ≠ .timeout := by
  unfold World.writeOutput
  split
  · simp
  · split <;> simp

theorem writeDisk_ends (p : Str) (op : AnyOp) (o : DiskOrder) (w : World) : (writeDisk World.writeOutput p op o w).1 ≠ .timeout := by
  unfold writeDisk writeBackVia
  have : writeBackBytes op o ≠ .timeout := by
    unfold writeBackBytes
    dsimp only
    split
    · simp
    · exact Out.bind_ends (swizzle_ends _ _) fun _ _ => swizzle_ends _ _
  split
  · exact writeOutput_ends _ _ _ _
  · simp
  · simp
  · rename_i e; exact absurd e this

theorem contentsOf_ends (p : Str) (w : World) : (contentsOf p w).1 ≠ .timeout := by
  unfold contentsOf World.fileContentsOrStdIn
  split
  · simp
  · split <;> simp

theorem contentsOf_content {p : Str} {w w' : World} {b : Bytes} (h : contentsOf p w = (.ok b, w')) : contentOf w p = some b := by
  unfold contentsOf World.fileContentsOrStdIn at h
  unfold contentOf
  split at h
  · rename_i hp
    simp only [Prod.mk.injEq, Out.ok.injEq] at h
    rw [if_pos hp, h.1]
  · rename_i hp
    rw [if_neg hp]
    split at h
    · rename_i hw
      simp only [Prod.mk.injEq, Out.ok.injEq] at h
      rw [hw, h.1]
    · simp at h

theorem openDisk_fine {w : World} {image : Str} {order : DiskOrder} (h : ∀ raw, contentOf w image = some raw → NoCircles (judgedBy image) order raw) :
    ∃ n₀, ∀ env : Env, n₀ ≤ env.budget → ∀ system, Fine (fun x => Answers env x.1) (openDisk env image order system w).1 := by
  unfold contentOf judgedBy at h
  unfold openDisk openFilename
  by_cases hi : image = str "-"
  · simp only [if_pos hi] at h ⊢
    exact opening_ends (h _ rfl)
  · simp only [if_neg hi] at h ⊢
    cases hw : w.files image with
    | none => exact ⟨0, fun _ _ _ => Fine.err _⟩
    | some bb => exact opening_ends (h bb hw)

theorem delete_ends (op : AnyOp) (n : Str) : (op.delete n).1 ≠ .timeout := by
  cases op with
  | dos3 o => simp [AnyOp.delete, Dos3.Operator.delete]
  | prodos o => simp [AnyOp.delete, Prodos.Operator.delete]
  | nakedos o =>
    have := Supermon.delete_ends o n
    unfold AnyOp.delete
    dsimp only
    split
    · simp
    · simp
    · simp
    · rename_i e; exact absurd e this

theorem putFile_ends (op : AnyOp) (fi : FileInfo) (ow : Bool) : (op.putFile fi ow).1 ≠ .timeout := by
  cases op with
  | dos3 o => simp [AnyOp.putFile, Dos3.Operator.putFile]
  | prodos o => simp [AnyOp.putFile, Prodos.Operator.putFile]
  | nakedos o =>
    have := Supermon.putFile_ends o fi ow
    unfold AnyOp.putFile
    dsimp only
    split
    · simp
    · simp
    · simp
    · rename_i e; exact absurd e this

theorem sdLoop_ends (c : Bytes) (a n i : Nat) (t s : UInt8) (l d : Bytes) : sdLoop c a n i t s l d ≠ .timeout := by
  induction n generalizing i t s l d with
  | zero => simp [sdLoop]
  | succ n ih =>
    rw [sdLoop]
    cases nextSector t s with
    | none => simp
    | some ts =>
      obtain ⟨t', s'⟩ := ts
      dsimp only
      have h := writeSector_ends d t' s' (slice c i 256)
      split
      · exact ih _ _ _ _ _
      · simp
      · simp
      · rename_i e; rw [e] at h; exact absurd rfl h

theorem sdImage_ends (c : Bytes) (a s : UInt16) : sdImage c a s ≠ .timeout := by
  unfold sdImage
  split
  · simp
  · split
    · simp
    · split
      · simp
      · split
        · simp
        · dsimp only
          split
          · simp
          · refine Out.bind_ends (sdLoop_ends _ _ _ _ _ _ _ _) fun x _ => ?_
            obtain ⟨l, d⟩ := x
            dsimp only
            have h := writeSector_ends d 0 0 (padTo 256 (l ++ [0xC0]))
            split
            · simp
            · simp
            · simp
            · rename_i e; rw [e] at h; exact absurd rfl h

theorem filetypeForName_ends (n : Str) : Types.filetypeForName n ≠ .timeout := by
  unfold Types.filetypeForName
  split <;> simp

theorem getOrders_ends (a b c d : Str) : getOrders a b c d ≠ .timeout := by
  unfold getOrders
  repeat' first | split | simp

theorem reorderBytes_ends (a b : DiskOrder) (d : Bytes) : reorderBytes a b d ≠ .timeout := by
  unfold reorderBytes
  split
  · simp
  · split
    · simp
    · exact Out.bind_ends (swizzle_ends _ _) fun _ _ => swizzle_ends _ _

theorem reorder_ends (w : World) (o n : DiskOrder) (ow : Bool) (i j : Str) : (reorderVia World.writeOutput w o n ow i j).1 ≠ .timeout := by
  unfold reorderVia
  split
  · simp
  · simp
  · rename_i e; exact absurd e (getOrders_ends _ _ _ _)
  · have h := contentsOf_ends i w
    unfold contentsOf at h
    split
    · simp
    · simp
    · rename_i e; rw [e] at h; exact absurd rfl h
    · split
      · simp
      · simp
      · rename_i e; exact absurd e (reorderBytes_ends _ _ _)
      · split <;> exact writeOutput_ends _ _ _ _

/-- `reorder`, `filetypes` and `mksd` always end, whatever they are given. -/
theorem C87_always (c : Command) (h : imageOf c = none) (h' : programOf c = none) (env : Env) (w : World) : (run env c w).1 ≠ .timeout := by
  cases c with
  | filetypes a =>
    change (filetypes a w).1 ≠ _
    unfold filetypes print
    simp
  | mksd o i b a s =>
    change (mksd _ o i b a s w).1 ≠ _
    unfold mksd
    refine act_bind_ends (contentsOf_ends _ _) fun c w2 hc => ?_
    refine act_bind_ends (sdImage_ends _ _ _) fun d w3 _ => ?_
    exact act_bind_ends (swizzle_ends _ _) fun d w3 _ => writeOutput_ends _ _ _ _
  | reorder o n ow i j => exact reorder_ends w o n ow i j
  | ls => cases h
  | dump => cases h
  | rm => cases h
  | put => cases h
  | mkhello => cases h
  | decode => cases h'

/-- **C87 (partial).** Every command ends: given time enough, however maps are visited, it is over,
if nothing it reads goes round in a circle.  (Missing: disks and programs that do.  See
`C87_violated_catalog`, `C87_violated_directory`, `C87_violated_program`.) -/
theorem C87_ends_partial (c : Command) (w : World) (h : Straight c w) : ∃ n₀, ∀ env : Env, n₀ ≤ env.budget → (run env c w).1 ≠ .timeout := by
  have hopen : ∀ {image order}, imageOf c = some (image, order) →
      ∃ n₀, ∀ env : Env, n₀ ≤ env.budget → ∀ system, Fine (fun x => Answers env x.1) (openDisk env image order system w).1 :=
    fun e => openDisk_fine fun raw hr => h.1 _ _ raw e hr
  cases c with
  | ls o s sh i d =>
    obtain ⟨n₀, hn⟩ := hopen (image := i) (order := o) rfl
    refine ⟨n₀, fun env hb => ?_⟩
    change (ls env o s sh i d w).1 ≠ _
    unfold ls
    refine act_bind_ends (hn env hb s).1 fun x w' hx => ?_
    obtain ⟨op, ord⟩ := x
    have ha : Answers env op := (hn env hb s).2 (op, ord) (by rw [hx])
    dsimp only
    split
    · exact Ne.symm (by intro e; cases e)
    · exact act_bind_ends (ha.1 d) fun _ _ _ => by unfold print; simp
  | dump o s i n =>
    obtain ⟨n₀, hn⟩ := hopen (image := i) (order := o) rfl
    refine ⟨n₀, fun env hb => ?_⟩
    change (dump env o s i n w).1 ≠ _
    unfold dump
    refine act_bind_ends (hn env hb s).1 fun x w' hx => ?_
    obtain ⟨op, ord⟩ := x
    have ha : Answers env op := (hn env hb s).2 (op, ord) (by rw [hx])
    exact act_bind_ends (ha.2 n) fun _ _ _ => by unfold print; simp
  | rm o s m i n =>
    obtain ⟨n₀, hn⟩ := hopen (image := i) (order := o) rfl
    refine ⟨n₀, fun env hb => ?_⟩
    change (rm env _ o s m i n w).1 ≠ _
    unfold rm
    refine act_bind_ends (hn env hb s).1 fun x w' hx => ?_
    obtain ⟨op, ord⟩ := x
    dsimp only
    refine act_bind_ends (delete_ends op n) fun b w'' _ => ?_
    split
    · exact Ne.symm (by intro e; cases e)
    · exact writeDisk_ends _ _ _ _
  | put o s t ow a i x y =>
    obtain ⟨n₀, hn⟩ := hopen (image := i) (order := o) rfl
    refine ⟨n₀, fun env hb => ?_⟩
    change (putCmd env _ o s t ow a i x y w).1 ≠ _
    unfold putCmd
    split
    · exact Ne.symm (by intro e; cases e)
    · refine act_bind_ends (hn env hb s).1 fun z w' hx => ?_
      obtain ⟨op, ord⟩ := z
      dsimp only
      refine act_bind_ends (contentsOf_ends _ _) fun c w2 _ => ?_
      refine act_bind_ends (filetypeForName_ends _) fun ft w3 _ => ?_
      exact act_bind_ends (putFile_ends _ _ _) fun _ _ _ => writeDisk_ends _ _ _ _
  | mkhello o i n a s =>
    obtain ⟨n₀, hn⟩ := hopen (image := i) (order := o) rfl
    refine ⟨n₀, fun env hb => ?_⟩
    change (mkhello env _ o i n a s w).1 ≠ _
    unfold mkhello
    dsimp only
    split
    · exact Ne.symm (by intro e; cases e)
    · split
      · exact Ne.symm (by intro e; cases e)
      · refine act_bind_ends (hn env hb _).1 fun z w' hx => ?_
        obtain ⟨op, ord⟩ := z
        cases op with
        | dos3 o => exact Ne.symm (by intro e; cases e)
        | prodos o => exact Ne.symm (by intro e; cases e)
        | nakedos op =>
          dsimp only
          refine act_bind_ends (Supermon.filesForCompoundName_ends _ _) fun z w2 _ => ?_
          obtain ⟨a1, a2, a3⟩ := z
          dsimp only
          split
          · exact Ne.symm (by intro e; cases e)
          · exact act_bind_ends (putFile_ends _ _ _) fun _ _ _ => writeDisk_ends _ _ _ _
  | decode f l r =>
    by_cases hf : ∃ raw, contentOf w f = some raw
    · obtain ⟨raw, hf⟩ := hf
      obtain ⟨n₀, hn⟩ := decode_ends (h.2 f l raw rfl hf)
      refine ⟨n₀, fun env hb => ?_⟩
      change (decodeCmd env f l r w).1 ≠ _
      unfold decodeCmd
      refine act_bind_ends (contentsOf_ends _ _) fun c w2 hc => ?_
      have e : c = raw := by rw [contentsOf_content hc] at hf; exact Option.some.inj hf
      rw [e]
      refine act_bind_ends (hn _ hb) fun li w3 _ => ?_
      split <;> (unfold print; simp)
    · refine ⟨0, fun env _ => ?_⟩
      change (decodeCmd env f l r w).1 ≠ _
      unfold decodeCmd
      exact act_bind_ends (contentsOf_ends _ _) fun c w2 hc => absurd ⟨c, contentsOf_content hc⟩ hf
  | filetypes a => exact ⟨0, fun env _ => C87_always _ rfl rfl env w⟩
  | mksd o i b a s => exact ⟨0, fun env _ => C87_always _ rfl rfl env w⟩
  | reorder o n ow i j => exact ⟨0, fun env _ => C87_always _ rfl rfl env w⟩

end Cmd
end Verif
