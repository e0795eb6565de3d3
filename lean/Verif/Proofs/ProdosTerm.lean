import Verif.Proofs.ProdosTree
import Verif.Props.Prodos

/-!
# Termination of reading a ProDOS volume
-/

set_option autoImplicit false
set_option maxRecDepth 20000

namespace Verif.Prodos

open Verif Verif.Disk Verif.Spec Verif.Spec.Prodos

/-- Finitely many eventually true statements are eventually true together. -/
theorem eventually_all (P : Nat → Nat → Prop) (N : Nat) (h : ∀ j, j < N → ∃ n₀, ∀ n, n₀ ≤ n → P j n) :
    ∃ n₀, ∀ j, j < N → ∀ n, n₀ ≤ n → P j n := by
  induction N with
  | zero => exact ⟨0, fun j hj => absurd hj (Nat.not_lt_zero j)⟩
  | succ N ih =>
    obtain ⟨a, ha⟩ := ih fun j hj => h j (by omega)
    obtain ⟨b, hb⟩ := h N (by omega)
    refine ⟨a + b, fun j hj n hn => ?_⟩
    by_cases hjN : j = N
    · subst hjN; exact hb n (by omega)
    · exact ha j (by omega) n (by omega)

theorem transGen_imp {r s : Nat → Nat → Prop} (h : ∀ a b, r a b → s a b) {a b : Nat} (hr : Relation.TransGen r a b) :
    Relation.TransGen s a b := by
  induction hr with
  | single h1 => exact .single (h _ _ h1)
  | tail _ h1 ih => exact .tail ih (h _ _ h1)

/-- An acyclic relation between finitely many numbers is well founded, downwards. -/
theorem wf_of_acyclic (N : Nat) (R : Nat → Nat → Prop) (hR : ∀ a b, R a b → a < N ∧ b < N)
    (hac : ∀ k, ¬ Relation.TransGen R k k) : WellFounded fun a b => R b a := by
  let r : Fin N → Fin N → Prop := fun a b => Relation.TransGen R b.val a.val
  haveI : IsTrans (Fin N) r := ⟨fun a b c h1 h2 => Relation.TransGen.trans h2 h1⟩
  haveI : Std.Irrefl r := ⟨fun a h => hac a.val h⟩
  have wf : WellFounded r := Finite.wellFounded_of_trans_of_irrefl r
  have key : ∀ x : Fin N, Acc (fun a b => R b a) x.val := by
    intro x
    induction x using wf.induction with
    | _ x ih =>
      refine Acc.intro _ fun y hy => ?_
      exact ih ⟨y, (hR _ _ hy).2⟩ (.single hy)
  refine ⟨fun b => Acc.intro _ fun a ha => ?_⟩
  exact key ⟨a, (hR _ _ ha).2⟩

/-! ## Directories -/

open Classical in
/-- The key blocks of the subdirectories of `k`, with repetitions. -/
noncomputable def kids (img : Bytes) (k : Nat) : List Nat :=
  if h : ∃ l, DirBlocks img k l then
    (subdirDescriptors ((dirEntries img k h.choose).map fdOf)).map fun d => d.keyPointer.toNat
  else []

theorem kids_eq {img : Bytes} {k : Nat} {l : List Nat} (h : DirBlocks img k l) :
    kids img k = (subdirDescriptors ((dirEntries img k l).map fdOf)).map fun d => d.keyPointer.toNat := by
  have he : ∃ l, DirBlocks img k l := ⟨l, h⟩
  unfold kids
  rw [dif_pos he, he.choose_spec.unique h]

theorem child_of_kids {img : Bytes} {k j : Nat} (h : j ∈ kids img k) : Child img k j := by
  unfold kids at h
  split at h
  · rename_i he
    obtain ⟨d, hd, rfl⟩ := List.mem_map.1 h
    exact subdirDescriptors_mem he.choose_spec d hd
  · simp at h

/-- Every subdirectory can be given a weight above the total weight of its subdirectories. -/
theorem weight_exists {img : Bytes} (hac : ∀ k, Subdir img k → ¬ Relation.TransGen (Child img) k k) :
    ∃ w : Nat → Nat, ∀ k, Subdir img k → w k = 1 + ((kids img k).map w).sum := by
  have wf := wf_of_acyclic 65536 (fun a b => Subdir img a ∧ Child img a b)
    (fun a b h => ⟨h.1.lt, h.2.lt⟩) (fun k hk => by
      have hs : Subdir img k := by
        cases hk with
        | single h => exact h.1
        | tail _ h => exact Subdir.child h.1 h.2
      exact hac k hs (transGen_imp (fun _ _ h => h.2) hk))
  classical
  refine ⟨wf.fix fun k ih => 1 + ((kids img k).attach.map fun j =>
      if hk : Subdir img k then ih j.val ⟨hk, child_of_kids j.property⟩ else 0).sum, fun k hk => ?_⟩
  rw [wf.fix_eq]
  refine congrArg (fun x => 1 + List.sum x) ?_
  simp only [dif_pos hk]
  rw [List.attach_map_val (f := fun j => wf.fix _ j)]

theorem subdirLoop_returns {img : Bytes} {c : Nat} (hread : ∀ fd : FileDescriptor, Subdir img fd.keyPointer.toNat →
    (readSubdirectory c img fd).returns) {w : Nat → Nat} (hw : ∀ k, Subdir img k → w k = 1 + ((kids img k).map w).sum)
    (n : Nat) (q : List FileDescriptor) (hq : ∀ d ∈ q, Subdir img d.keyPointer.toNat)
    (hn : (q.map fun d => w d.keyPointer.toNat).sum ≤ n) (bb : GoMap UInt16 Subdirectory) (f : GoMap UInt16 UInt16) :
    (subdirLoop c n img q bb f).returns := by
  induction n generalizing q bb f with
  | zero =>
    cases q with
    | nil => rw [subdirLoop]; rfl
    | cons d q =>
      have := hw _ (hq d List.mem_cons_self)
      rw [List.map_cons, List.sum_cons] at hn
      omega
  | succ n ih =>
    cases q with
    | nil => rw [subdirLoop]; rfl
    | cons d q =>
      have hd := hq d List.mem_cons_self
      rw [subdirLoop]
      have hr := hread d hd
      cases hs : readSubdirectory c img d with
      | err e => rfl
      | panic => rw [hs] at hr; simp at hr
      | timeout => rw [hs] at hr; simp at hr
      | ok s =>
        obtain ⟨l, hl, rfl⟩ := readSubdirectory_ok hs
        rw [Out.bind_ok, subOf_descriptors hl]
        refine ih _ (fun e he => ?_) ?_ _ _
        · rcases List.mem_append.1 he with he | he
          · exact hq e (List.mem_cons_of_mem _ he)
          · exact Subdir.child hd (subdirDescriptors_mem hl e he)
        · have h1 := hw _ hd
          rw [kids_eq hl, List.map_map] at h1
          rw [List.map_cons, List.sum_cons] at hn
          rw [List.map_append, List.sum_append]
          have h2 : (List.map (w ∘ fun d : FileDescriptor => d.keyPointer.toNat)
            (subdirDescriptors ((dirEntries img d.keyPointer.toNat l).map fdOf))) =
            (List.map (fun d : FileDescriptor => w d.keyPointer.toNat)
            (subdirDescriptors ((dirEntries img d.keyPointer.toNat l).map fdOf))) := rfl
          rw [h2] at h1
          omega

/-! ## Parents -/

theorem parentDirName_returns {img : Bytes} (hac : ∀ k, Subdir img k → ¬ Relation.TransGen (Parent img) k k) :
    ∀ k, Subdir img k → ∃ n₀, ∀ n, n₀ ≤ n → ∀ bb f, Known img bb f → ∀ p : UInt16, p.toNat = parentPointer img k →
      (parentDirName n p 2 bb f).returns := by
  have wf := wf_of_acyclic 65536 (fun a b => Subdir img a ∧ Parent img a b)
    (fun a b h => ⟨h.1.lt, h.2.1.lt⟩) (fun k hk => by
      have hs : Subdir img k := by
        cases hk with
        | single h => exact h.1
        | tail _ h => exact h.2.1
      exact hac k hs (transGen_imp (fun _ _ h => h.2) hk))
  intro k
  induction k using wf.induction with
  | _ k ih =>
    intro hs
    obtain ⟨n₀, h0⟩ := eventually_all (fun j n => Parent img k j → ∀ bb f, Known img bb f → ∀ p : UInt16,
        p.toNat = parentPointer img j → (parentDirName n p 2 bb f).returns) 65536 (fun j _ => by
      by_cases hp : Parent img k j
      · obtain ⟨n₀, h⟩ := ih j ⟨hs, hp⟩ hp.1
        exact ⟨n₀, fun n hn _ => h n hn⟩
      · exact ⟨0, fun n _ h => absurd h hp⟩)
    refine ⟨n₀ + 1, fun n hn bb f hk p hp => ?_⟩
    obtain ⟨m, rfl⟩ : ∃ m, n = m + 1 := ⟨n - 1, by omega⟩
    rw [parentDirName]
    by_cases h2 : p = 2 ∨ (f.get? p).getD 0 = 2
    · rw [if_pos h2]; rfl
    · rw [if_neg h2]
      cases hf : findParent bb f p with
      | none => rfl
      | some sd =>
        obtain ⟨j, l, h1, hd, rfl, hin⟩ := findParent_sound hk hf
        have := h0 j.toNat h1.lt m (by omega) ⟨h1, by rw [← hp]; exact hin⟩ bb f hk
          (subOf img j l).keyBlock.header.parentPointer (subKey_parent img j)
        simp only
        cases hr : parentDirName m (subOf img j l).keyBlock.header.parentPointer 2 bb f with
        | ok r => rw [Out.bind_ok, joinPath_eq]; rfl
        | err e => rfl
        | panic => rw [hr] at this; simp at this
        | timeout => rw [hr] at this; simp at this

theorem nameLoop_returns {n : Nat} {bb : GoMap UInt16 Subdirectory} {f : GoMap UInt16 UInt16}
    {l : List (UInt16 × Subdirectory)} (h : ∀ e ∈ l, (parentDirName n e.2.keyBlock.header.parentPointer 2 bb f).returns)
    (m : GoMap Str Subdirectory) : (nameLoop n 2 bb f l m).returns := by
  induction l generalizing m with
  | nil => rfl
  | cons e l ih =>
    rw [nameLoop_cons]
    have he := h e List.mem_cons_self
    unfold pathName
    cases hr : parentDirName n e.2.keyBlock.header.parentPointer 2 bb f with
    | ok r => exact ih (fun x hx => h x (List.mem_cons_of_mem _ hx)) _
    | err e => rfl
    | panic => rw [hr] at he; simp at he
    | timeout => rw [hr] at he; simp at he

theorem readVolumeBitMap_returns {img : Bytes} (h : img.length < 2 ^ 36) (start : UInt16) :
    (readVolumeBitMap img start).returns := by
  unfold readVolumeBitMap
  have hlt : img.length / 512 / 4096 < 32768 := by
    rw [Nat.div_div_eq_div_mul]; omega
  have hb : (UInt16.ofNat (img.length / 512 / 4096)).toNat ≤ 61440 := by
    rw [toNat_ofNat (by omega)]; omega
  obtain ⟨v0, h0, _⟩ := C42_new_partial start (UInt16.ofNat (img.length / 512 / 4096)) hb
  dsimp only
  rw [h0, Out.bind_ok]
  obtain ⟨h1, h2⟩ := readParts_ok img v0
  by_cases hon : ∀ p ∈ v0, OnDevice img p.block.toNat
  · rw [(h1 _).2 ⟨hon, rfl⟩]; rfl
  · rw [h2 (by simpa using hon)]; rfl

theorem readVolume_returns {img : Bytes} (hlen : img.length < 2 ^ 36)
    (hch : ∀ k, k = 2 ∨ Subdir img k → ¬ Endless img (nextOf img k))
    (hac : ∀ k, Subdir img k → ¬ Relation.TransGen (Child img) k k)
    (hpa : ∀ k, Subdir img k → ¬ Relation.TransGen (Parent img) k k) :
    ∃ n₀, ∀ n, n₀ ≤ n → ∀ ord, (readVolume n ord img 2).returns := by
  obtain ⟨nv, hnv⟩ := chainLoop_terminates (reads_volume img) (volKey img 2).next
    (by rw [volKey_next]; exact hch 2 (Or.inl rfl))
  obtain ⟨nc, hnc⟩ := eventually_all (fun j n => Subdir img j → ∀ fd : FileDescriptor, fd.keyPointer.toNat = j →
      (readSubdirectory n img fd).returns) 65536 (fun j hj => by
    by_cases hs : Subdir img j
    · obtain ⟨n₀, h⟩ := readSubdirectory_terminates (img := img) (k := UInt16.ofNat j)
        (by rw [toNat_ofNat hj]; exact hch j (Or.inr hs))
      refine ⟨n₀, fun n hn _ fd hfd => h n hn fd ?_⟩
      rw [← hfd]; simp
    · exact ⟨0, fun n _ h => absurd h hs⟩)
  obtain ⟨np, hnp⟩ := eventually_all (fun k n => Subdir img k → ∀ bb f, Known img bb f → ∀ p : UInt16,
      p.toNat = parentPointer img k → (parentDirName n p 2 bb f).returns) 65536 (fun k _ => by
    by_cases hs : Subdir img k
    · obtain ⟨n₀, h⟩ := parentDirName_returns hpa k hs
      exact ⟨n₀, fun n hn _ => h n hn⟩
    · exact ⟨0, fun n _ h => absurd h hs⟩)
  obtain ⟨w, hw⟩ := weight_exists hac
  refine ⟨nv + nc + np + ((kids img 2).map w).sum, fun n hn ord => ?_⟩
  unfold readVolume
  by_cases ho : OnDevice img 2
  · rw [unmarshalVolumeKey_eq img 2 ho, Out.bind_ok]
    have hb := readVolumeBitMap_returns hlen (volKey img 2).header.bitMapPointer
    cases hv : readVolumeBitMap img (volKey img 2).header.bitMapPointer with
    | err e => rfl
    | panic => rw [hv] at hb; simp at hb
    | timeout => rw [hv] at hb; simp at hb
    | ok vbm =>
      rw [Out.bind_ok]
      rcases chainLoop_cases (reads_volume img) n (volKey img 2).next with ⟨bs, h⟩ | h | ⟨h, _⟩
      · rw [h, Out.bind_ok]
        obtain ⟨l, hl1, hl2⟩ := chainLoop_ok (reads_volume img) h
        rw [volKey_next] at hl1
        have hdb : DirBlocks img 2 l := ⟨ho, hl1⟩
        have hdesc := vol_descriptors (k := 2) hdb
        obtain ⟨q1, _⟩ := volume_root img l hdb
        have hk0 := known_root img l hdb
        dsimp only
        rw [hl2, hdesc]
        have hret := subdirLoop_returns (c := n) (fun fd hfd => hnc _ hfd.lt n (by omega) hfd fd rfl) hw n _ q1 (by
            have := kids_eq hdb
            rw [this, List.map_map] at hn
            refine Nat.le_trans ?_ hn
            exact Nat.le_add_left _ _) []
          ((l.map fun c => volBlock img (UInt16.ofNat c)).foldl (fun m b => m.set b.block 2) [])
        cases hs : subdirLoop n n img (subdirDescriptors ((dirEntries img 2 l).map fdOf)) []
          ((l.map fun c => volBlock img (UInt16.ofNat c)).foldl (fun m b => m.set b.block 2) []) with
        | err e => exact (congrArg (fun x => Out.returns (x >>= _)) hs).trans rfl
        | panic => rw [hs] at hret; simp at hret
        | timeout => rw [hs] at hret; simp at hret
        | ok r =>
          obtain ⟨bb, f⟩ := r
          obtain ⟨k1, _, _, _⟩ := subdirLoop_ok q1 hk0 (fun k hk => by simp [GoMap.keys] at hk) hs
          refine (congrArg (fun x => Out.returns (x >>= _)) hs).trans ?_
          rw [Out.bind_ok]
          dsimp only
          have hnl := nameLoop_returns (n := n) (bb := bb) (f := f) (l := ord.visit bb) (fun e he => by
            obtain ⟨h1, l, h2, h3⟩ := k1.mem (mem_visit.1 he)
            rw [h3]
            exact hnp e.1.toNat h1.lt n (by omega) h1 bb f k1 _ (subKey_parent img e.1)) []
          cases hm : nameLoop n 2 bb f (ord.visit bb) [] with
          | ok m => rfl
          | err e => rfl
          | panic => rw [hm] at hnl; simp at hnl
          | timeout => rw [hm] at hnl; simp at hnl
      · rw [h]; rfl
      · exact absurd h (hnv n (by omega))
  · rw [unmarshalVolumeKey_err img 2 ho]; rfl

end Verif.Prodos
