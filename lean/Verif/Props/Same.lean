import Verif.Proofs.Same
import Verif.Props.CmdFiles

/-!
# C86: the same command on the same files gives the same result

What a run does not control is in `Env`: how many steps a loop may take before it is given up, and
the order in which Go visits a map.
-/

set_option autoImplicit false

namespace Verif.Cmd
open Disk Prodos Spec

variable {α β : Type}

/-- Run from `w`, the two computations do the same, unless the first was given up, or, if `p` allows it, the second. -/
def AgreeAt (p : Prop) (m m' : Act α) (w : World) : Prop := (m w).1 = .timeout ∨ (p ∧ (m' w).1 = .timeout) ∨ m w = m' w

variable {p : Prop}

theorem AgreeAt.refl (m : Act α) (w : World) : AgreeAt p m m w := Or.inr (Or.inr rfl)

theorem AgreeAt.bind {m m' : Act α} {f f' : α → Act β} {w : World} (h : AgreeAt p m m' w)
    (hf : ∀ x w', m w = (.ok x, w') → AgreeAt p (f x) (f' x) w') : AgreeAt p (m >>= f) (m' >>= f') w := by
  unfold AgreeAt at h ⊢
  simp only [bind_apply]
  unfold Act.bind
  rcases hm : m w with ⟨o, w1⟩
  rcases hm' : m' w with ⟨o', w1'⟩
  rw [hm, hm'] at h
  rcases h with h | ⟨hp, h⟩ | h
  · dsimp only at h; subst h; exact Or.inl rfl
  · dsimp only at h; subst h; exact Or.inr (Or.inl ⟨hp, rfl⟩)
  · obtain ⟨rfl, rfl⟩ := Prod.mk.inj h
    cases o with
    | ok x => exact hf x w1 hm
    | err k => exact Or.inr (Or.inr rfl)
    | panic => exact Or.inr (Or.inr rfl)
    | timeout => exact Or.inl rfl

theorem agree_lift {o o' : Out α} (h : Rel p o o') (w : World) : AgreeAt p (lift o) (lift o') w := by
  rcases h with h | ⟨hp, h⟩ | h
  · exact Or.inl h
  · exact Or.inr (Or.inl ⟨hp, h⟩)
  · rw [h]; exact .refl _ _

/-- Unless `p`, the second run visits maps as the first does and is given at least as much time. -/
def Compared (p : Prop) (env env' : Env) : Prop := ¬ p → env.order = env'.order ∧ env.budget ≤ env'.budget

theorem prodos_rel {env env' : Env} (he : Compared p env env') (img : Bytes) :
    Rel p (Prodos.seemsToMatch env.budget env.order img) (Prodos.seemsToMatch env'.budget env'.order img) := by
  refine .of (fun hp => ?_) fun _ => seemsToMatch_same _ _ _ _ _
  rw [(he hp).1, seemsToMatch_eq, seemsToMatch_eq]
  exact verdict_upto (readVolume_mono (he hp).2 _ _ _)

theorem map_alike {Ω Ω' : Type} (g : Ω → Ω') {f f' : Factory Ω} (h : Alike p f f') : Alike p (Factory.map g f) (Factory.map g f') := by
  refine ⟨h.name, h.diskOrder, ?_, h.matches_⟩
  unfold Factory.map
  rw [h.operator]

theorem alike_refl {Ω : Type} (f : Factory Ω) : Alike p f f := ⟨rfl, rfl, rfl, fun _ => .refl _⟩

theorem prodos_alike {env env' : Env} (he : Compared p env env') :
    Alike p (Prodos.factory env.budget env.order) (Prodos.factory env'.budget env'.order) := by
  refine ⟨?_, ?_, ?_, fun img => ?_⟩
  · simp only [Prodos.factory]
  · simp only [Prodos.factory]
  · simp only [Prodos.factory]
  · simp only [Prodos.factory]; exact prodos_rel he img

theorem factories_alike {env env' : Env} (he : Compared p env env') : List.Forall₂ (Alike p) (factories env) (factories env') := by
  unfold factories
  exact .cons (alike_refl _) (.cons (alike_refl _) (.cons (map_alike _ (prodos_alike he)) .nil))

theorem openDisk_agree {env env' : Env} (he : Compared p env env') (image : Str) (order : DiskOrder) (system : Str) (w : World) :
    AgreeAt p (openDisk env image order system) (openDisk env' image order system) w := by
  have h := fun raw filename => openImage_same raw filename order system (factories_alike he)
  unfold AgreeAt openDisk openFilename
  by_cases hi : image = str "-"
  · simp only [if_pos hi]
    rcases h w.stdin (str "/dev/stdin") with e | e | e
    · exact Or.inl e
    · exact Or.inr (Or.inl e)
    · exact Or.inr (Or.inr (by rw [e]))
  · simp only [if_neg hi]
    cases w.files image with
    | none => exact Or.inr (Or.inr rfl)
    | some bb =>
      rcases h bb image with e | e | e
      · exact Or.inl e
      · exact Or.inr (Or.inl e)
      · exact Or.inr (Or.inr (by simp only [e]))

theorem finds_of_openDisk {env : Env} {w w' : World} {image : Str} {order : DiskOrder} {system : Str} {op : AnyOp} {ord : DiskOrder}
    (h : openDisk env image order system w = (.ok (op, ord), w')) : Finds env w image order system op ord := by
  unfold openDisk openFilename at h
  unfold Finds given
  by_cases hi : image = str "-"
  · rw [if_pos hi] at h
    simp only [if_pos hi]
    exact ⟨_, rfl, (Prod.mk.inj h).1⟩
  · rw [if_neg hi] at h
    simp only [if_neg hi]
    cases hw : w.files image with
    | none => rw [hw] at h; exact absurd (Prod.mk.inj h).1 (by simp)
    | some bb => rw [hw] at h; exact ⟨bb, rfl, (Prod.mk.inj h).1⟩

theorem ls_agree {env env' : Env} (he : Compared p env env') (order : DiskOrder) (system : Str) (short : Bool) (image directory : Str)
    (w : World) (hd : p → directory ≠ [] → ∀ o ord, Finds env w image order system (.prodos o) ord → DistinctPaths o.data) :
    AgreeAt p (ls env order system short image directory) (ls env' order system short image directory) w := by
  unfold ls
  refine (openDisk_agree he image order system w).bind fun x w' hx => ?_
  obtain ⟨op, ord⟩ := x
  dsimp only
  by_cases hc : directory ≠ [] ∧ op.hasSubdirs = false
  · rw [if_pos hc, if_pos hc]; exact .refl _ _
  · rw [if_neg hc, if_neg hc]
    refine AgreeAt.bind (agree_lift ?_ w') fun _ _ _ => .refl _ _
    cases op with
    | dos3 o => exact .refl _
    | nakedos o => exact .refl _
    | prodos o =>
      refine .of (fun hp => ?_) fun hp => ?_
      · unfold AnyOp.catalog
        rw [(he hp).1]
        exact catalog_mono (he hp).2 _ _ _
      · exact catalog_same env.budget env'.budget env.order env'.order o.data directory fun hne => hd hp hne o ord (finds_of_openDisk hx)

/-- No two subdirectories of the ProDOS volume in the image have the same full path. -/
def UnambiguousIn (w : World) (order : DiskOrder) (system image : Str) : Prop :=
  ∀ env o ord, Finds env w image order system (.prodos o) ord → DistinctPaths o.data

theorem runVia_agree {env env' : Env} (he : Compared p env env') (wo : Output) (c : Command) (w : World)
    (hls : p → ∀ order system short image directory, c = .ls order system short image directory → directory ≠ [] →
      UnambiguousIn w order system image) :
    AgreeAt p (runVia env wo c) (runVia env' wo c) w := by
  cases c with
  | ls o s sh i d => exact ls_agree he o s sh i d w fun hp hne => hls hp o s sh i d rfl hne env
  | reorder o n ow i j => exact .refl _ _
  | filetypes a => exact .refl _ _
  | put o s t ow a i x y =>
    change AgreeAt p (putCmd env wo o s t ow a i x y) (putCmd env' wo o s t ow a i x y) w
    unfold putCmd
    split
    · exact .refl _ _
    · exact (openDisk_agree he i o s w).bind fun _ _ _ => .refl _ _
  | rm o s m i n =>
    change AgreeAt p (rm env wo o s m i n) (rm env' wo o s m i n) w
    unfold rm
    exact (openDisk_agree he i o s w).bind fun _ _ _ => .refl _ _
  | dump o s i n =>
    change AgreeAt p (dump env o s i n) (dump env' o s i n) w
    unfold dump
    exact (openDisk_agree he i o s w).bind fun _ _ _ => .refl _ _
  | mkhello o i n a s =>
    change AgreeAt p (mkhello env wo o i n a s) (mkhello env' wo o i n a s) w
    unfold mkhello
    dsimp only
    split
    · exact .refl _ _
    · split
      · exact .refl _ _
      · exact (openDisk_agree he i o _ w).bind fun _ _ _ => .refl _ _
  | mksd o i b a s => exact .refl _ _
  | decode f l r =>
    change AgreeAt p (decodeCmd env f l r) (decodeCmd env' f l r) w
    unfold decodeCmd
    refine (AgreeAt.refl _ _).bind fun x w' _ => ?_
    refine AgreeAt.bind (agree_lift (.of (fun hp => ?_) fun _ => Applesoft.decode_same _ _ _ _) w') fun _ _ _ => .refl _ _
    unfold Applesoft.decode
    exact Applesoft.decodeLoop_mono _ _ (he hp).2 _

/-- **C86 (partial).** If a command ends under two ways of visiting maps, then its outcome, what it
prints and the files it leaves are the same under both.  (Missing: `ls` of a subdirectory, where two
subdirectories of the volume have the same full path; and that it also ends under both. See
`C86_violated_twins` and `C86_violated_ends`.) -/
theorem C86_same_result_partial (env env' : Env) (c : Command) (w : World)
    (hls : ∀ order system short image directory, c = .ls order system short image directory → directory ≠ [] →
      UnambiguousIn w order system image)
    (h : (run env c w).1 ≠ .timeout) (h' : (run env' c w).1 ≠ .timeout) : run env c w = run env' c w := by
  rcases runVia_agree (p := True) (env := env) (env' := env') (fun h => absurd trivial h) World.writeOutput c w (fun _ => hls) with e | e | e
  · exact absurd e h
  · exact absurd e.2 h'
  · exact e

/-- The commands other than `ls` of a subdirectory give the same result, whatever is in the files. -/
theorem C86_other_commands (env env' : Env) (c : Command) (w : World)
    (hls : ∀ order system short image directory, c = .ls order system short image directory → directory = [])
    (h : (run env c w).1 ≠ .timeout) (h' : (run env' c w).1 ≠ .timeout) : run env c w = run env' c w :=
  C86_same_result_partial env env' c w (fun o s sh i d e hne => absurd (hls o s sh i d e) hne) h h'

/-- Being given more time changes nothing for a command that ends. -/
theorem C86_more_time {n m : Nat} (hnm : n ≤ m) (ord : RangeOrder UInt16 Subdirectory) (c : Command) (w : World)
    (h : (run ⟨n, ord⟩ c w).1 ≠ .timeout) : run ⟨m, ord⟩ c w = run ⟨n, ord⟩ c w := by
  rcases runVia_agree (p := False) (env := ⟨n, ord⟩) (env' := ⟨m, ord⟩) (fun _ => ⟨rfl, hnm⟩) World.writeOutput c w (fun h => h.elim) with e | e | e
  · exact absurd e h
  · exact e.1.elim
  · exact e.symm

end Verif.Cmd
