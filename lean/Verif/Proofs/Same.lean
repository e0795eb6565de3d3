import Mathlib.Data.List.Forall2
import Verif.Props.ProdosVolume
import Verif.Proofs.Cmd

/-!
# What depends on budgets and on the order of map iteration
-/

set_option autoImplicit false

namespace Verif

/-- `a` and `b` are the same, unless the budget of `a` was used up, or, if `p` allows it, that of `b`. -/
def Rel {α : Type} (p : Prop) (a b : Out α) : Prop := a = .timeout ∨ (p ∧ b = .timeout) ∨ a = b

/-- `a` is what `b` is, unless its budget was used up. -/
abbrev Upto {α : Type} (a b : Out α) : Prop := Rel False a b

/-- `a` and `b` are the same, unless the budget of one of them was used up. -/
abbrev Same {α : Type} (a b : Out α) : Prop := Rel True a b

theorem Rel.refl {α : Type} {p : Prop} (a : Out α) : Rel p a a := Or.inr (Or.inr rfl)

theorem Rel.bind {α β : Type} {p : Prop} {a b : Out α} {f g : α → Out β} (h : Rel p a b) (hf : ∀ x, b = .ok x → Rel p (f x) (g x)) :
    Rel p (a >>= f) (b >>= g) := by
  rcases h with rfl | ⟨hp, rfl⟩ | rfl
  · exact Or.inl rfl
  · exact Or.inr (Or.inl ⟨hp, rfl⟩)
  · cases a with
    | ok x => exact hf x rfl
    | err k => exact Or.inr (Or.inr rfl)
    | panic => exact Or.inr (Or.inr rfl)
    | timeout => exact Or.inl rfl

theorem Rel.timeout_left {α : Type} {p : Prop} (b : Out α) : Rel p .timeout b := Or.inl rfl

theorem Rel.timeout_right {α : Type} (a : Out α) : Rel True a .timeout := Or.inr (Or.inl ⟨trivial, rfl⟩)

theorem Upto.cases {α : Type} {a b : Out α} (h : Upto a b) : a = .timeout ∨ a = b :=
  h.imp_right fun h => h.resolve_left fun h => h.1

theorem Same.cases {α : Type} {a b : Out α} (h : Same a b) : a = .timeout ∨ b = .timeout ∨ a = b :=
  h.imp_right fun h => h.imp_left fun h => h.2

/-- From what holds in the two cases to what holds in general. -/
theorem Rel.of {α : Type} {p : Prop} {a b : Out α} (hu : ¬ p → Upto a b) (hs : p → Same a b) : Rel p a b := by
  by_cases h : p
  · rcases (hs h).cases with e | e | e
    · exact Or.inl e
    · exact Or.inr (Or.inl ⟨h, e⟩)
    · exact Or.inr (Or.inr e)
  · rcases (hu h).cases with e | e
    · exact Or.inl e
    · exact Or.inr (Or.inr e)

/-- Two budgets are compared by way of their maximum. -/
theorem same_of_upto {α : Type} {a b c d : Out α} (h1 : Upto a c) (h2 : Upto b d) (h : Same c d) : Same a b := by
  rcases h1.cases with rfl | rfl
  · exact .timeout_left _
  · rcases h2.cases with rfl | rfl
    · exact .timeout_right _
    · exact h

namespace Prodos
open Disk Spec

theorem chainLoop_mono {β : Type} (read : UInt16 → Out β) (next : β → UInt16) {n m : Nat} (h : n ≤ m) (b : UInt16) :
    Upto (chainLoop read next n b) (chainLoop read next m b) := by
  induction n generalizing m b with
  | zero =>
    by_cases h0 : b = 0
    · rw [chainLoop.eq_def, chainLoop.eq_def read next m, if_pos h0, if_pos h0]; exact .refl _
    · rw [chainLoop, if_neg h0]; exact Or.inl rfl
  | succ n ih =>
    obtain ⟨m, rfl⟩ : ∃ k, m = k + 1 := ⟨m - 1, by omega⟩
    by_cases h0 : b = 0
    · rw [chainLoop.eq_def, chainLoop.eq_def read next (m + 1), if_pos h0, if_pos h0]; exact .refl _
    · rw [chainLoop, chainLoop, if_neg h0, if_neg h0]
      exact (Rel.refl _).bind fun x _ => (ih (by omega) _).bind fun _ _ => .refl _

theorem readSubdirectory_mono {n m : Nat} (h : n ≤ m) (img : Bytes) (fd : FileDescriptor) :
    Upto (readSubdirectory n img fd) (readSubdirectory m img fd) := by
  unfold readSubdirectory
  exact (Rel.refl _).bind fun x _ => (chainLoop_mono _ _ h _).bind fun _ _ => .refl _

theorem subdirLoop_mono {c d : Nat} (hc : c ≤ d) {n m : Nat} (h : n ≤ m) (img : Bytes) (l : List FileDescriptor)
    (bb : GoMap UInt16 Subdirectory) (f : GoMap UInt16 UInt16) : Upto (subdirLoop c n img l bb f) (subdirLoop d m img l bb f) := by
  induction n generalizing m l bb f with
  | zero =>
    cases l with
    | nil => rw [subdirLoop.eq_def, subdirLoop.eq_def d m]; exact .refl _
    | cons e l => rw [subdirLoop]; exact Or.inl rfl
  | succ n ih =>
    obtain ⟨m, rfl⟩ : ∃ k, m = k + 1 := ⟨m - 1, by omega⟩
    cases l with
    | nil => rw [subdirLoop.eq_def, subdirLoop.eq_def d (m + 1)]; exact .refl _
    | cons e l =>
      rw [subdirLoop, subdirLoop]
      exact (readSubdirectory_mono hc _ _).bind fun x _ => ih (by omega) _ _ _

theorem parentDirName_mono {n m : Nat} (h : n ≤ m) (p kb : UInt16) (bb : GoMap UInt16 Subdirectory) (f : GoMap UInt16 UInt16) :
    Upto (parentDirName n p kb bb f) (parentDirName m p kb bb f) := by
  induction n generalizing m p with
  | zero =>
    rw [parentDirName.eq_def, parentDirName.eq_def m]
    by_cases h0 : p = kb ∨ (f.get? p).getD 0 = kb
    · rw [if_pos h0, if_pos h0]; exact .refl _
    · rw [if_neg h0, if_neg h0]
      cases findParent bb f p with
      | none => exact .refl _
      | some sd => exact Or.inl rfl
  | succ n ih =>
    obtain ⟨m, rfl⟩ : ∃ k, m = k + 1 := ⟨m - 1, by omega⟩
    rw [parentDirName.eq_def, parentDirName.eq_def (m + 1)]
    by_cases h0 : p = kb ∨ (f.get? p).getD 0 = kb
    · rw [if_pos h0, if_pos h0]; exact .refl _
    · rw [if_neg h0, if_neg h0]
      cases findParent bb f p with
      | none => exact .refl _
      | some sd => exact (ih (by omega) _).bind fun x _ => .refl _

theorem nameLoop_mono {n m : Nat} (h : n ≤ m) (kb : UInt16) (bb : GoMap UInt16 Subdirectory) (f : GoMap UInt16 UInt16)
    (l : List (UInt16 × Subdirectory)) (k : GoMap Str Subdirectory) : Upto (nameLoop n kb bb f l k) (nameLoop m kb bb f l k) := by
  induction l generalizing k with
  | nil => exact .refl _
  | cons e l ih =>
    obtain ⟨b, sd⟩ := e
    rw [nameLoop, nameLoop]
    exact (parentDirName_mono h _ _ _ _).bind fun x _ => ih _

theorem readVolume_mono {n m : Nat} (h : n ≤ m) (ord : RangeOrder UInt16 Subdirectory) (img : Bytes) (kb : UInt16) :
    Upto (readVolume n ord img kb) (readVolume m ord img kb) := by
  unfold readVolume
  refine (Rel.refl _).bind fun key _ => (Rel.refl _).bind fun vbm _ => (chainLoop_mono _ _ h _).bind fun bs _ => ?_
  refine (subdirLoop_mono h h _ _ _ _).bind fun x _ => ?_
  exact (nameLoop_mono h _ _ _ _ _).bind fun _ _ => .refl _

theorem parentDirName_kind (n : Nat) (p kb : UInt16) (bb : GoMap UInt16 Subdirectory) (f : GoMap UInt16 UInt16) :
    (∃ s, parentDirName n p kb bb f = .ok s) ∨ parentDirName n p kb bb f = .err .other ∨ parentDirName n p kb bb f = .timeout := by
  induction n generalizing p with
  | zero =>
    rw [parentDirName.eq_def]
    split
    · exact Or.inl ⟨_, rfl⟩
    · split
      · exact Or.inr (Or.inl rfl)
      · exact Or.inr (Or.inr rfl)
  | succ n ih =>
    rw [parentDirName.eq_def]
    split
    · exact Or.inl ⟨_, rfl⟩
    · split
      · exact Or.inr (Or.inl rfl)
      · rename_i sd _
        rcases ih sd.keyBlock.header.parentPointer with ⟨s, e⟩ | e | e
        · dsimp only
          rw [e, Out.bind_ok]
          split <;> exact Or.inl ⟨_, rfl⟩
        · dsimp only; rw [e]; exact Or.inr (Or.inl rfl)
        · dsimp only; rw [e]; exact Or.inr (Or.inr rfl)

theorem nameLoop_kind (n : Nat) (kb : UInt16) (bb : GoMap UInt16 Subdirectory) (f : GoMap UInt16 UInt16)
    (l : List (UInt16 × Subdirectory)) (k : GoMap Str Subdirectory) :
    (∃ m, nameLoop n kb bb f l k = .ok m) ∨ nameLoop n kb bb f l k = .err .other ∨ nameLoop n kb bb f l k = .timeout := by
  induction l generalizing k with
  | nil => exact Or.inl ⟨_, rfl⟩
  | cons e l ih =>
    obtain ⟨b, sd⟩ := e
    rw [nameLoop]
    rcases parentDirName_kind n sd.keyBlock.header.parentPointer kb bb f with ⟨s, e⟩ | e | e
    · dsimp only; rw [e, Out.bind_ok]; exact ih _
    · dsimp only; rw [e]; exact Or.inr (Or.inl rfl)
    · dsimp only; rw [e]; exact Or.inr (Or.inr rfl)

/-- The order of map iteration can decide whether the budget is used up, but not otherwise whether the volume can be read. -/
theorem readVolume_order (n : Nat) (ord ord' : RangeOrder UInt16 Subdirectory) (img : Bytes) :
    Same (readVolume n ord img 2) (readVolume n ord' img 2) ∨ ((readVolume n ord img 2).isOk ∧ (readVolume n ord' img 2).isOk) := by
  have hs := C48_success n ord ord' img
  by_cases h : (readVolume n ord img 2).isOk
  · exact Or.inr ⟨h, hs ▸ h⟩
  · have h' : ¬ (readVolume n ord' img 2).isOk := hs ▸ h
    left
    unfold readVolume at h h' ⊢
    rcases hk : unmarshalVolumeKey img 2 with key | _ | _ | _
    · simp only [hk, Out.bind_ok] at h h' ⊢
      rcases hb : readVolumeBitMap img key.header.bitMapPointer with vbm | _ | _ | _
      · simp only [hb, Out.bind_ok] at h h' ⊢
        rcases hc : chainLoop (unmarshalVolumeBlock img) VolumeDirectoryBlock.next n key.next with bs | _ | _ | _
        · simp only [hc, Out.bind_ok] at h h' ⊢
          generalize subdirLoop n n img (subdirDescriptors (volumeDescriptors key bs)) [] (bs.foldl (fun m b => m.set b.block 2) []) = r at h h' ⊢
          rcases r with ⟨bb, f⟩ | _ | _ | _
          · simp only [Out.bind_ok] at h h' ⊢
            rcases nameLoop_kind n 2 bb f (ord.visit bb) [] with ⟨m, e⟩ | e | e
            · exfalso; apply h; rw [e]; rfl
            · rcases nameLoop_kind n 2 bb f (ord'.visit bb) [] with ⟨m, e'⟩ | e' | e'
              · exfalso; apply h'; rw [e']; rfl
              · rw [e, e']; exact .refl _
              · rw [e']; exact .timeout_right _
            · rw [e]; exact Or.inl rfl
          · exact Or.inr (Or.inr rfl)
          · exact Or.inr (Or.inr rfl)
          · exact Or.inr (Or.inr rfl)
        · exact Or.inr (Or.inr rfl)
        · exact Or.inr (Or.inr rfl)
        · exact Or.inr (Or.inr rfl)
      · exact Or.inr (Or.inr rfl)
      · exact Or.inr (Or.inr rfl)
      · exact Or.inr (Or.inr rfl)
    · exact Or.inr (Or.inr rfl)
    · exact Or.inr (Or.inr rfl)
    · exact Or.inr (Or.inr rfl)

/-- What `SeemsToMatch` makes of the attempt to read a volume. -/
def verdict : Out Volume → Out Bool
  | .ok _ => .ok true
  | .err _ => .ok false
  | .panic => .panic
  | .timeout => .timeout

theorem seemsToMatch_eq (n : Nat) (ord : RangeOrder UInt16 Subdirectory) (img : Bytes) :
    seemsToMatch n ord img = verdict (readVolume n ord img 2) := by
  unfold seemsToMatch
  split <;> rename_i h <;> rw [h] <;> rfl

theorem verdict_upto {a b : Out Volume} (h : Upto a b) : Upto (verdict a) (verdict b) := by
  rcases h.cases with rfl | rfl
  · exact Or.inl rfl
  · exact .refl _

theorem verdict_same {a b : Out Volume} (h : Same a b ∨ a.isOk ∧ b.isOk) : Same (verdict a) (verdict b) := by
  rcases h with (rfl | ⟨_, rfl⟩ | rfl) | ⟨h, h'⟩
  · exact Or.inl rfl
  · exact .timeout_right _
  · exact .refl _
  · obtain ⟨v, rfl⟩ := Out.isOk_iff.1 h
    obtain ⟨v', rfl⟩ := Out.isOk_iff.1 h'
    exact .refl _

theorem seemsToMatch_same (n n' : Nat) (ord ord' : RangeOrder UInt16 Subdirectory) (img : Bytes) :
    Same (seemsToMatch n ord img) (seemsToMatch n' ord' img) := by
  rw [seemsToMatch_eq, seemsToMatch_eq]
  exact same_of_upto (verdict_upto (readVolume_mono (Nat.le_max_left n n') ord img 2))
    (verdict_upto (readVolume_mono (Nat.le_max_right n n') ord' img 2)) (verdict_same (readVolume_order (max n n') ord ord' img))

theorem catalog_mono {n m : Nat} (h : n ≤ m) (ord : RangeOrder UInt16 Subdirectory) (o : Operator) (path : Str) :
    Upto (o.catalog n ord path) (o.catalog m ord path) := by
  unfold Operator.catalog
  exact (readVolume_mono h ord o.data 2).bind fun _ _ => .refl _

theorem catalog_same (n n' : Nat) (ord ord' : RangeOrder UInt16 Subdirectory) (img : Bytes) (path : Str)
    (hd : path ≠ [] → DistinctPaths img) : Same (Operator.catalog n ord ⟨img⟩ path) (Operator.catalog n' ord' ⟨img⟩ path) := by
  refine same_of_upto (catalog_mono (Nat.le_max_left n n') ord ⟨img⟩ path) (catalog_mono (Nat.le_max_right n n') ord' ⟨img⟩ path) ?_
  generalize max n n' = N
  have key : ∀ o o' ds, Operator.catalog N o ⟨img⟩ path = .ok ds → Operator.catalog N o' ⟨img⟩ path = .ok ds := by
    intro o o' ds h
    by_cases hp : path = []
    · subst hp; exact C48_root N o o' img ds h
    · exact C48_lookup N o o' img (hd hp) path ds h
  rcases readVolume_order N ord ord' img with (h | ⟨_, h⟩ | h) | ⟨h, h'⟩
  · unfold Operator.catalog; dsimp only; rw [h]; exact Or.inl rfl
  · unfold Operator.catalog; dsimp only; rw [h]; exact .timeout_right _
  · unfold Operator.catalog; dsimp only; rw [h]; exact .refl _
  · obtain ⟨v, hv⟩ := Out.isOk_iff.1 h
    obtain ⟨v', hv'⟩ := Out.isOk_iff.1 h'
    have c : ∀ (o : RangeOrder UInt16 Subdirectory) v, readVolume N o img 2 = .ok v →
        (∃ ds, Operator.catalog N o ⟨img⟩ path = .ok ds) ∨ Operator.catalog N o ⟨img⟩ path = .err .other := by
      intro o v hv
      unfold Operator.catalog
      dsimp only
      rw [hv, Out.bind_ok]
      split
      · exact Or.inl ⟨_, rfl⟩
      · split
        · exact Or.inr rfl
        · exact Or.inl ⟨_, rfl⟩
    rcases c ord v hv with ⟨ds, e⟩ | e
    · rw [e, key ord ord' ds e]; exact .refl _
    · rcases c ord' v' hv' with ⟨ds, e'⟩ | e'
      · have := key ord' ord ds e'
        rw [e] at this; simp at this
      · rw [e, e']; exact .refl _

end Prodos

namespace Applesoft

theorem decodeLoop_mono (raw : Bytes) (location : Int) {n m : Nat} (h : n ≤ m) (next : Int) :
    Upto (decodeLoop raw location n next) (decodeLoop raw location m next) := by
  induction n generalizing m next with
  | zero =>
    rw [decodeLoop.eq_def, decodeLoop.eq_def raw location m]
    by_cases h0 : next = 0
    · rw [if_pos h0, if_pos h0]; exact .refl _
    · rw [if_neg h0]; exact Or.inl rfl
  | succ n ih =>
    obtain ⟨m, rfl⟩ : ∃ k, m = k + 1 := ⟨m - 1, by omega⟩
    rw [decodeLoop.eq_def, decodeLoop.eq_def raw location (m + 1)]
    by_cases h0 : next = 0
    · rw [if_pos h0, if_pos h0]; exact .refl _
    · rw [if_neg h0, if_neg h0]
      dsimp only
      split
      · exact .refl _
      · split
        · exact .refl _
        · split
          · exact .refl _
          · split
            · exact .refl _
            · exact (Rel.refl _).bind fun x _ => (ih (by omega) _).bind fun _ _ => .refl _

theorem decode_same (n n' : Nat) (raw : Bytes) (location : UInt16) : Same (decode n raw location) (decode n' raw location) := by
  unfold decode
  exact same_of_upto (decodeLoop_mono _ _ (Nat.le_max_left n n') _) (decodeLoop_mono _ _ (Nat.le_max_right n n') _) (.refl _)

end Applesoft

namespace Disk

/-- Factories that differ at most in the budget and the map order they use for recognizing a disk. -/
structure Alike {Ω : Type} (p : Prop) (f g : Factory Ω) : Prop where
  name : f.name = g.name
  diskOrder : f.diskOrder = g.diskOrder
  operator : f.operator = g.operator
  matches_ : ∀ img, Rel p (f.seemsToMatch img) (g.seemsToMatch img)

variable {Ω : Type} {p : Prop}

theorem openHDVLoop_same (raw : Bytes) {fs gs : List (Factory Ω)} (h : List.Forall₂ (Alike p) fs gs) :
    openHDVLoop raw fs = openHDVLoop raw gs := by
  induction h with
  | nil => rfl
  | cons h _ ih =>
    unfold openHDVLoop
    rw [h.name, h.operator, ih]

theorem openInner_same (ex : Bool) (order : DiskOrder) (sw : Bytes) {fs gs : List (Factory Ω)} (h : List.Forall₂ (Alike p) fs gs) :
    Rel p (openInner ex order sw fs) (openInner ex order sw gs) := by
  induction h with
  | nil => exact .refl _
  | @cons f g fs gs h _ ih =>
    unfold openInner
    rw [h.diskOrder, h.operator]
    refine (Rel.refl _).bind fun b _ => ?_
    split
    · exact .refl _
    · refine (h.matches_ b).bind fun m _ => ?_
      split
      · split
        · exact .refl _
        · exact ih
        · exact .refl _
        · exact .refl _
      · exact ih

theorem openOuter_same (ex : Bool) (raw : Bytes) {fs gs : List (Factory Ω)} (h : List.Forall₂ (Alike p) fs gs) (os : List DiskOrder) :
    Rel p (openOuter ex raw fs os) (openOuter ex raw gs os) := by
  induction os with
  | nil => exact .refl _
  | cons o os ih =>
    unfold openOuter
    refine (Rel.refl _).bind fun b _ => (openInner_same ex o b h).bind fun r _ => ?_
    cases r with
    | some x => exact .refl _
    | none => exact ih

theorem alike_filter (q : Str → Bool) {fs gs : List (Factory Ω)} (h : List.Forall₂ (Alike p) fs gs) :
    List.Forall₂ (Alike p) (fs.filter fun f => q f.name) (gs.filter fun f => q f.name) := by
  induction h with
  | nil => exact .nil
  | @cons f g fs gs h _ ih =>
    by_cases hp : q f.name
    · have hq : q g.name := h.name ▸ hp
      simp only [List.filter_cons, hp, hq, if_true]
      exact .cons h ih
    · have hq : ¬ q g.name := h.name ▸ hp
      simp only [List.filter_cons, hp, hq]
      exact ih

theorem openImage_same (raw : Bytes) (filename : Str) (order : DiskOrder) (system : Str) {fs gs : List (Factory Ω)}
    (h : List.Forall₂ (Alike p) fs gs) : Rel p (openImage raw filename order system fs) (openImage raw filename order system gs) := by
  unfold openImage
  dsimp only
  split
  · unfold openDoOrPo
    have hf := alike_filter (fun n => decide (system = str "auto" ∨ system = n)) h
    dsimp only
    rw [hf.length_eq]
    split
    · exact .refl _
    · split
      · exact .refl _
      · exact openOuter_same _ _ hf _
  · split
    · exact .refl _
    · split
      · unfold openHDV
        dsimp only
        rw [openHDVLoop_same _ h]
        exact .refl _
      · exact .refl _

end Disk
end Verif
