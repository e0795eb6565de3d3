import Verif.Spec.Steps
import Verif.Props.Endless
import Mathlib.Data.Fintype.Pigeonhole

/-!
# How many rounds the loops of the ProDOS reader take
-/

set_option autoImplicit false
set_option maxRecDepth 20000

namespace Verif.Prodos

open Verif Verif.Disk Verif.Spec Verif.Spec.Prodos

theorem onDevice_lt {img : Bytes} {b : Nat} (h : OnDevice img b) : b < blockCount img := by
  unfold OnDevice at h
  unfold blockCount
  omega

/-- Among more numbers below `B` than there are, one comes twice. -/
theorem twice {B n : Nat} (s : Nat → Nat) (h : ∀ i, i < n → s i < B) (hn : B < n) : ∃ i j, i < j ∧ j < n ∧ s i = s j := by
  let f : Fin n → Fin B := fun i => ⟨s i.1, h i.1 i.2⟩
  obtain ⟨x, y, hne, hxy⟩ := Fintype.exists_ne_map_eq_of_card_lt f (by simpa using hn)
  have e : s x.1 = s y.1 := congrArg Fin.val hxy
  rcases Nat.lt_or_gt_of_ne (fun h => hne (Fin.ext h)) with hlt | hlt
  · exact ⟨x.1, y.1, hlt, y.2, e⟩
  · exact ⟨y.1, x.1, hlt, x.2, e.symm⟩

theorem nodup_le {l : List Nat} {B : Nat} (hn : l.Nodup) (h : ∀ b ∈ l, b < B) : l.length ≤ B := by
  have : l.toFinset ⊆ Finset.range B := by
    intro b hb
    rw [Finset.mem_range]
    exact h b (List.mem_toFinset.1 hb)
  have := Finset.card_le_card this
  rwa [List.toFinset_card_of_nodup hn, Finset.card_range] at this

/-- A walk over links that stays on the device for as many steps as there are blocks goes on for ever. -/
theorem endless_of_long {img : Bytes} {b n : Nat} (hB : 0 < blockCount img) (hn : blockCount img ≤ n)
    (h : ∀ k, k < n → blockWalk img b k ≠ 0 ∧ OnDevice img (blockWalk img b k)) : Endless img b := by
  obtain ⟨i, j, hij, hj, e⟩ := twice (B := blockCount img - 1) (n := n) (fun k => blockWalk img b k - 1)
    (fun k hk => by have := h k hk; have := onDevice_lt this.2; omega) (by omega)
  have e' : blockWalk img b i = blockWalk img b j := by
    have h1 := (h i (by omega)).1
    have h2 := (h j hj).1
    omega
  have shift : ∀ t, blockWalk img b (i + t) = blockWalk img b (j + t) := by
    intro t
    induction t with
    | zero => exact e'
    | succ t ih => show nextOf img (blockWalk img b (i + t)) = nextOf img (blockWalk img b (j + t)); rw [ih]
  intro t
  induction t using Nat.strongRecOn with
  | _ t ih =>
    by_cases ht : t < n
    · exact h t ht
    · have := shift (t - j)
      rw [show j + (t - j) = t by omega] at this
      rw [← this]
      exact ih _ (by omega)

/-- Directories whose blocks do not go on for ever are read in as many rounds as there are blocks on the device. -/
theorem chainLoop_in_time {β : Type} {img : Bytes} {read : UInt16 → Out β} {next : β → UInt16} {mk : UInt16 → β}
    (R : ReadsBlocks img read next mk) (x : UInt16) (h : ¬ Endless img x.toNat) (hB : 0 < blockCount img) {n : Nat} (hn : blockCount img ≤ n) :
    chainLoop read next n x ≠ .timeout := by
  intro he
  rcases chainLoop_cases R n x with ⟨bs, h1⟩ | h1 | ⟨_, hw⟩
  · rw [h1] at he; simp at he
  · rw [h1] at he; simp at he
  · exact h (endless_of_long hB hn fun k hk => ⟨(hw k (by omega)).1, (hw k (by omega)).2 hk⟩)

theorem readSubdirectory_in_time {img : Bytes} {fd : FileDescriptor} (h : ¬ (OnDevice img fd.keyPointer.toNat ∧ Endless img (nextOf img fd.keyPointer.toNat)))
    (hB : 0 < blockCount img) {n : Nat} (hn : blockCount img ≤ n) : (readSubdirectory n img fd).returns := by
  unfold readSubdirectory
  by_cases ho : OnDevice img fd.keyPointer.toNat
  · rw [unmarshalSubdirKey_eq _ _ ho, Out.bind_ok]
    have ht := chainLoop_in_time (reads_subdir img) (subKey img fd.keyPointer).next (by rw [subKey_next]; exact fun hc => h ⟨ho, hc⟩) hB hn
    rcases chainLoop_cases (reads_subdir img) n (subKey img fd.keyPointer).next with ⟨bs, h⟩ | h | ⟨h, _⟩
    · rw [h]; rfl
    · rw [h]; rfl
    · exact absurd h ht
  · rw [unmarshalSubdirKey_err _ _ ho]; rfl

/-! ## Parents -/

theorem up_of_timeout {img : Bytes} {bb : GoMap UInt16 Subdirectory} {f : GoMap UInt16 UInt16} (hr : ReadAll img bb f) (n : Nat) :
    ∀ (k : Nat) (p : UInt16), p.toNat = parentPointer img k → parentDirName n p 2 bb f = .timeout →
      ∃ s : Nat → Nat, s 0 = k ∧ ∀ i, i < n + 1 → Up img (s i) (s (i + 1)) := by
  induction n with
  | zero =>
    intro k p hp h
    rw [parentDirName] at h
    by_cases ht : AtTop img k
    · rw [if_pos ((atTop_iff hr hp).2 ht)] at h; simp at h
    · rw [if_neg fun c => ht ((atTop_iff hr hp).1 c)] at h
      cases hf : findParent bb f p with
      | none => rw [hf] at h; simp at h
      | some sd =>
        obtain ⟨x, l, hx, hl, rfl⟩ := findParent_some hr hp ht hf
        refine ⟨fun i => if i = 0 then k else x.toNat, rfl, fun i hi => ?_⟩
        obtain rfl : i = 0 := by omega
        exact hx
  | succ n ih =>
    intro k p hp h
    rw [parentDirName] at h
    by_cases ht : AtTop img k
    · rw [if_pos ((atTop_iff hr hp).2 ht)] at h; simp at h
    · rw [if_neg fun c => ht ((atTop_iff hr hp).1 c)] at h
      cases hf : findParent bb f p with
      | none => rw [hf] at h; simp at h
      | some sd =>
        rw [hf] at h
        obtain ⟨x, l, hx, hl, rfl⟩ := findParent_some hr hp ht hf
        dsimp only at h
        obtain ⟨s, hs0, hs⟩ := ih x.toNat (subOf img x l).keyBlock.header.parentPointer (subKey_parent img x) (by
          cases hq : parentDirName n (subOf img x l).keyBlock.header.parentPointer 2 bb f with
          | ok r => rw [hq, Out.bind_ok, joinPath_eq] at h; simp at h
          | err e => rw [hq] at h; simp at h
          | timeout => rfl
          | panic => rw [hq] at h; simp at h)
        refine ⟨fun i => if i = 0 then k else s (i - 1), rfl, fun i hi => ?_⟩
        cases i with
        | zero => dsimp only; rw [if_pos rfl, if_neg (by omega), hs0]; exact hx
        | succ i => dsimp only; rw [if_neg (by omega), if_neg (by omega)]; exact hs i (by omega)

theorem reach {img : Bytes} {s : Nat → Nat} {n : Nat} (hs : ∀ i, i < n → Up img (s i) (s (i + 1))) (i : Nat) :
    ∀ d, i + d ≤ n → Relation.ReflTransGen (Up img) (s i) (s (i + d)) := by
  intro d
  induction d with
  | zero => intro _; exact .refl
  | succ d ih => intro h; exact (ih (by omega)).tail (hs (i + d) (by omega))

/-- Names whose parents do not go on for ever are found in as many rounds as there are blocks on the device. -/
theorem parentDirName_in_time {img : Bytes} {bb : GoMap UInt16 Subdirectory} {f : GoMap UInt16 UInt16} (hr : ReadAll img bb f)
    (hd : ∀ k, Subdir img k → OnDevice img k) {k : Nat} (hk : Subdir img k) (h : ¬ EndlessUp img k) {p : UInt16} (hp : p.toNat = parentPointer img k)
    {n : Nat} (hn : blockCount img ≤ n) : (parentDirName n p 2 bb f).returns := by
  cases hx : parentDirName n p 2 bb f with
  | ok r => rfl
  | err e => rfl
  | panic => exact absurd hx (parentDirName_two_ne_panic n bb f p)
  | timeout =>
    obtain ⟨s, hs0, hs⟩ := up_of_timeout hr n k p hp hx
    have hsub : ∀ i, i < n + 1 → Subdir img (s i) := by
      intro i hi
      cases i with
      | zero => rw [hs0]; exact hk
      | succ i => exact (hs i (by omega)).2.1
    obtain ⟨i, j, hij, hj, e⟩ := twice (B := blockCount img) (n := n + 1) s (fun i hi => onDevice_lt (hd _ (hsub i hi))) (by omega)
    refine absurd ⟨s i, ?_, ?_⟩ h
    · have := reach hs 0 i (by omega)
      rwa [hs0, Nat.zero_add] at this
    · have := reach hs (i + 1) (j - (i + 1)) (by omega)
      rw [show i + 1 + (j - (i + 1)) = j by omega, ← e] at this
      exact Relation.TransGen.head' (hs i (by omega)) this

/-! ## Directories -/

/-- The loop over directories takes a round for each. -/
theorem subdirLoop_count {c : Nat} {img : Bytes} (n : Nat) : ∀ (m : Nat) (q : List FileDescriptor) (bb : GoMap UInt16 Subdirectory) (f : GoMap UInt16 UInt16)
    (r : GoMap UInt16 Subdirectory × GoMap UInt16 UInt16),
    ToRead img m (q.map fun d => d.keyPointer.toNat) → subdirLoop c n img q bb f = .ok r → ∃ m', m' ≤ m + n ∧ ToRead img m' [] := by
  induction n with
  | zero =>
    intro m q bb f r hq h
    cases q with
    | nil => exact ⟨m, by omega, hq⟩
    | cons d q => rw [subdirLoop] at h; cases h
  | succ n ih =>
    intro m q bb f r hq h
    cases q with
    | nil => exact ⟨m, by omega, hq⟩
    | cons d q =>
      rw [subdirLoop, Out.bind_eq_ok] at h
      obtain ⟨sub, hs, h⟩ := h
      obtain ⟨l, hl, rfl⟩ := readSubdirectory_ok hs
      obtain ⟨m', h1, h2⟩ := ih (m + 1) _ _ _ _ (by
        rw [List.map_append, subOf_descriptors hl, subdirKeys_eq]
        exact .step hq hl) h
      exact ⟨m', by omega, h2⟩

/-- If all directories are read after `M`, the loop over them needs no more rounds than that. -/
theorem subdirLoop_enough {c : Nat} {img : Bytes} {M : Nat} (hend : ToRead img M [])
    (hc : ∀ m k, ComesTo img m k → ∀ fd : FileDescriptor, fd.keyPointer.toNat = k → (readSubdirectory c img fd).returns) (n : Nat) :
    ∀ (m : Nat) (q : List FileDescriptor) (bb : GoMap UInt16 Subdirectory) (f : GoMap UInt16 UInt16),
    ToRead img m (q.map fun d => d.keyPointer.toNat) → M ≤ m + n → (subdirLoop c n img q bb f).returns := by
  induction n with
  | zero =>
    intro m q bb f hq hn
    cases q with
    | nil => rw [subdirLoop]; rfl
    | cons d q =>
      rcases Nat.eq_or_lt_of_le hn with h | h
      · subst h; cases toRead_unique hend hq
      · obtain ⟨k, _, ⟨q', hq'⟩, _⟩ := toRead_before hq M h
        cases toRead_unique hend hq'
  | succ n ih =>
    intro m q bb f hq hn
    cases q with
    | nil => rw [subdirLoop]; rfl
    | cons d q =>
      rw [subdirLoop]
      have hr := hc m _ ⟨_, hq⟩ d rfl
      cases hs : readSubdirectory c img d with
      | ok s =>
        obtain ⟨l, hl, rfl⟩ := readSubdirectory_ok hs
        rw [Out.bind_ok, subOf_descriptors hl]
        refine ih (m + 1) _ _ _ ?_ (by omega)
        rw [List.map_append, subdirKeys_eq]
        exact .step hq hl
      | err e => rfl
      | timeout => rw [hs] at hr; simp at hr
      | panic => exact absurd hs (readSubdirectory_ne_panic _ _ _)

/-- No directory is read twice if each is listed once. -/
theorem toRead_nodup {img : Bytes} (ho : ListedOnce img) {m : Nat} {q : List Nat} (h : ToRead img m q) :
    ∃ V : List Nat, V.length = m ∧ (V ++ q).Nodup ∧ (∀ k ∈ V ++ q, DirOf img k) ∧ (∀ k ∈ V, OnDevice img k) ∧
      ∀ j ∈ V ++ q, j = 2 ∨ ∃ k ∈ V, Child img k j := by
  induction h with
  | start => exact ⟨[], rfl, by simp, by simp [DirOf], by simp, by simp⟩
  | @step n k q l h1 h2 ih =>
    obtain ⟨V, hV, hnd, hdir, hon, hch⟩ := ih
    have hk : DirOf img k := hdir k (by simp)
    have hkV : k ∉ V := fun hc => (List.nodup_append.1 hnd).2.2 k hc k List.mem_cons_self rfl
    have hchild : ∀ j, j ∈ subdirKeys img k l → Child img k j := by
      intro j hj
      unfold subdirKeys at hj
      obtain ⟨e, he, rfl⟩ := List.mem_map.1 hj
      rw [List.mem_filter] at he
      exact ⟨l, e, h2, he.1, by simpa using he.2, rfl⟩
    have hnew : ∀ j, j ∈ subdirKeys img k l → j ∉ V ++ k :: q := by
      intro j hj hm
      have hc := hchild j hj
      rcases hch j hm with rfl | ⟨k', hk', hc'⟩
      · exact ho.2.2 k hk hc
      · obtain rfl := ho.2.1 _ _ _ (hdir k' (List.mem_append_left _ hk')) hk hc' hc
        exact hkV hk'
    refine ⟨V ++ [k], by simp [hV], ?_, ?_, ?_, ?_⟩
    · have e : V ++ [k] ++ (q ++ subdirKeys img k l) = (V ++ k :: q) ++ subdirKeys img k l := by simp
      rw [e, List.nodup_append]
      exact ⟨hnd, ho.1 k l hk h2, fun a ha b hb hab => hnew b hb (hab ▸ ha)⟩
    · intro j hj
      rw [show V ++ [k] ++ (q ++ subdirKeys img k l) = (V ++ k :: q) ++ subdirKeys img k l by simp, List.mem_append] at hj
      rcases hj with hj | hj
      · exact hdir j hj
      · rcases hk with rfl | hk
        · exact Or.inr (.single (hchild j hj))
        · exact Or.inr (Subdir.child hk (hchild j hj))
    · intro j hj
      rcases List.mem_append.1 hj with hj | hj
      · exact hon j hj
      · rw [List.mem_singleton] at hj; subst hj; exact h2.1
    · intro j hj
      rw [show V ++ [k] ++ (q ++ subdirKeys img k l) = (V ++ k :: q) ++ subdirKeys img k l by simp, List.mem_append] at hj
      rcases hj with hj | hj
      · rcases hch j hj with h | ⟨k', hk', hc⟩
        · exact Or.inl h
        · exact Or.inr ⟨k', List.mem_append_left _ hk', hc⟩
      · exact Or.inr ⟨k, by simp, hchild j hj⟩

theorem toRead_le {img : Bytes} (ho : ListedOnce img) {m : Nat} {q : List Nat} (h : ToRead img m q) : m ≤ blockCount img := by
  obtain ⟨V, hV, hnd, _, hon, _⟩ := toRead_nodup ho h
  rw [← hV]
  exact nodup_le (List.nodup_append.1 hnd).1 fun b hb => onDevice_lt (hon b hb)

end Verif.Prodos
