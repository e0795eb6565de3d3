import Verif.Spec.Endless
import Verif.Proofs.ProdosRecog

/-!
# Going through the directories of a ProDOS volume that is not known to be well-formed
-/

set_option autoImplicit false
set_option maxRecDepth 20000

namespace Verif.Prodos

open Verif Verif.Disk Verif.Spec Verif.Spec.Prodos

/-! ## The order of reading -/

theorem toRead_unique {img : Bytes} {n : Nat} {q q' : List Nat} (h : ToRead img n q) (h' : ToRead img n q') : q = q' := by
  induction h generalizing q' with
  | start => cases h'; rfl
  | step h1 h2 ih =>
    cases h' with
    | step h3 h4 =>
      have e := ih h3
      injection e with e1 e2
      subst e1; subst e2
      rw [h2.unique h4]

theorem comesTo_unique {img : Bytes} {n k k' : Nat} (h : ComesTo img n k) (h' : ComesTo img n k') : k = k' := by
  obtain ⟨q, hq⟩ := h
  obtain ⟨q', hq'⟩ := h'
  have := toRead_unique hq hq'
  injection this

/-- Every directory before one that is reached has been read whole. -/
theorem toRead_before {img : Bytes} {n : Nat} {q : List Nat} (h : ToRead img n q) : ∀ m, m < n → ∃ k l, ComesTo img m k ∧ DirBlocks img k l := by
  induction h with
  | start => intro m hm; omega
  | @step n k q l h1 h2 ih =>
    intro m hm
    by_cases e : m = n
    · subst e; exact ⟨k, l, ⟨q, h1⟩, h2⟩
    · exact ih m (by omega)

theorem comesTo_zero (img : Bytes) : ComesTo img 0 2 := ⟨[], .start⟩

theorem endless_no_chain {img : Bytes} {b : Nat} (h : Endless img b) {l : List Nat} (hc : BlockChain img b l) : False := by
  induction hc with
  | done => exact (h 0).1 rfl
  | step h0 h1 _ ih => exact ih fun n => by rw [← blockWalk_succ]; exact h (n + 1)

theorem endless_no_blocks {img : Bytes} {k : Nat} {l : List Nat} (h : Endless img (nextOf img k)) (hd : DirBlocks img k l) : False :=
  endless_no_chain h hd.2

theorem subdirKeys_eq (img : Bytes) (k : Nat) (l : List Nat) :
    (subdirDescriptors ((dirEntries img k l).map fdOf)).map (fun d => d.keyPointer.toNat) = subdirKeys img k l := by
  unfold subdirDescriptors subdirKeys
  induction dirEntries img k l with
  | nil => rfl
  | cons e es ih =>
    rw [List.map_cons, List.filter_cons, List.filter_cons]
    by_cases h : storageType e = 13
    · rw [if_pos (by simpa using (type_subdir e).2 h), if_pos (by simpa using h), List.map_cons, List.map_cons, ih, fdOf_keyPointer]
    · rw [if_neg (by simpa using fun x => h ((type_subdir e).1 x)), if_neg (by simpa using h), ih]

/-- Everything waiting to be read is a subdirectory. -/
theorem toRead_subdir {img : Bytes} {n : Nat} {q : List Nat} (h : ToRead img n q) : ∀ k ∈ q, (n = 0 ∧ k = 2) ∨ Subdir img k := by
  induction h with
  | start => intro k hk; rw [List.mem_singleton] at hk; exact Or.inl ⟨rfl, hk⟩
  | @step n k q l h1 h2 ih =>
    intro j hj
    right
    rcases List.mem_append.1 hj with hj | hj
    · rcases ih j (List.mem_cons_of_mem _ hj) with ⟨rfl, rfl⟩ | h
      · have e := toRead_unique h1 .start
        injection e with _ e
        subst e; cases hj
      · exact h
    · rw [← subdirKeys_eq] at hj
      obtain ⟨d, hd, rfl⟩ := List.mem_map.1 hj
      have hc := subdirDescriptors_mem h2 d hd
      rcases ih k List.mem_cons_self with ⟨_, rfl⟩ | h
      · exact .single hc
      · exact Subdir.child h hc

/-! ## The loop -/

/-- Neither can the directory be read nor does reading it go on for ever. -/
def Broken (img : Bytes) (k : Nat) : Prop := (∀ l, ¬ DirBlocks img k l) ∧ ¬ (OnDevice img k ∧ Endless img (nextOf img k))

theorem readSubdirectory_err {c : Nat} {img : Bytes} {fd : FileDescriptor} (h : (readSubdirectory c img fd).isErr) : Broken img fd.keyPointer.toNat := by
  constructor
  · intro l hl
    rw [readSubdirectory_chain c hl] at h
    split at h <;> simp at h
  · rintro ⟨h1, h2⟩
    unfold readSubdirectory at h
    rw [unmarshalSubdirKey_eq _ _ h1, Out.bind_ok, chainLoop_endless (reads_subdir img) c _ (by rw [subKey_next]; exact h2)] at h
    simp at h

theorem readSubdirectory_ne_panic (c : Nat) (img : Bytes) (fd : FileDescriptor) : readSubdirectory c img fd ≠ .panic := by
  unfold readSubdirectory
  by_cases ho : OnDevice img fd.keyPointer.toNat
  · rw [unmarshalSubdirKey_eq _ _ ho, Out.bind_ok]
    rcases chainLoop_cases (reads_subdir img) c (subKey img fd.keyPointer).next with ⟨bs, h⟩ | h | ⟨h, _⟩
    · rw [h]; simp
    · rw [h]; simp
    · rw [h]; simp
  · rw [unmarshalSubdirKey_err _ _ ho]; simp

theorem subdirLoop_ne_panic {c : Nat} {img : Bytes} (n : Nat) (q : List FileDescriptor) (bb : GoMap UInt16 Subdirectory) (f : GoMap UInt16 UInt16) :
    subdirLoop c n img q bb f ≠ .panic := by
  induction n generalizing q bb f with
  | zero => cases q <;> simp [subdirLoop]
  | succ n ih =>
    cases q with
    | nil => simp [subdirLoop]
    | cons d q =>
      rw [subdirLoop]
      cases hs : readSubdirectory c img d with
      | ok s => exact ih _ _ _
      | err e => simp
      | timeout => simp
      | panic => exact absurd hs (readSubdirectory_ne_panic _ _ _)

/-- Which directory owns a block once `m` directories have been read. -/
def OwnedBy (img : Bytes) (m : Nat) (b k : Nat) : Prop :=
  ∃ n l, n < m ∧ ComesTo img n k ∧ DirBlocks img k l ∧ b ∈ l ∧ ∀ n' k' l', n < n' → n' < m → ComesTo img n' k' → DirBlocks img k' l' → b ∉ l'

def Owned (img : Bytes) (m : Nat) (f : GoMap UInt16 UInt16) : Prop := ∀ b k : UInt16, f.get? b = some k ↔ OwnedBy img m b.toNat k.toNat

open Classical in
theorem foldl_get {β : Type} (f : β → UInt16) (K : UInt16) (bs : List β) (m : GoMap UInt16 UInt16) (x : UInt16) :
    (bs.foldl (fun m b => m.set (f b) K) m).get? x = if (∃ b ∈ bs, f b = x) then some K else m.get? x := by
  induction bs generalizing m with
  | nil => simp
  | cons b bs ih =>
    rw [List.foldl_cons, ih, GoMap.get?_set]
    by_cases h : ∃ b ∈ bs, f b = x
    · rw [if_pos h, if_pos]
      obtain ⟨c, hc, e⟩ := h
      exact ⟨c, List.mem_cons_of_mem _ hc, e⟩
    · rw [if_neg h]
      by_cases e : x = f b
      · rw [if_pos e, if_pos ⟨b, List.mem_cons_self, e.symm⟩]
      · rw [if_neg e, if_neg]
        rintro ⟨c, hc, ec⟩
        rcases List.mem_cons.1 hc with rfl | hc
        · exact e ec.symm
        · exact h ⟨c, hc, ec⟩

theorem owned_step {img : Bytes} {m : Nat} {k : UInt16} {l : List Nat} {f f' : GoMap UInt16 UInt16} (ho : Owned img m f) (hk : ComesTo img m k.toNat)
    (hl : DirBlocks img k.toNat l) (hf : ∀ x : UInt16, f'.get? x = if x.toNat ∈ l then some k else f.get? x) : Owned img (m + 1) f' := by
  intro b j
  rw [hf]
  split
  · rename_i hb
    constructor
    · intro h
      cases h
      exact ⟨m, l, Nat.lt_succ_self m, hk, hl, hb, fun n' _ _ h1 h2 => by omega⟩
    · rintro ⟨n, l', h1, h2, h3, h4, h5⟩
      by_cases e : n = m
      · subst e
        rw [UInt16.toNat_inj.1 (comesTo_unique hk h2)]
      · exact absurd hb (h5 m k.toNat l (by omega) (by omega) hk hl)
  · rename_i hb
    rw [ho]
    constructor
    · rintro ⟨n, l', h1, h2, h3, h4, h5⟩
      refine ⟨n, l', by omega, h2, h3, h4, fun n' k' l'' a1 a2 a3 a4 => ?_⟩
      by_cases e : n' = m
      · subst e
        have := comesTo_unique hk a3
        subst this
        rw [a4.unique hl]; exact hb
      · exact h5 n' k' l'' a1 (by omega) a3 a4
    · rintro ⟨n, l', h1, h2, h3, h4, h5⟩
      by_cases e : n = m
      · subst e
        rw [← comesTo_unique hk h2] at h3
        rw [h3.unique hl] at h4
        exact absurd h4 hb
      · exact ⟨n, l', by omega, h2, h3, h4, fun n' k' l'' a1 a2 => h5 n' k' l'' a1 (by omega)⟩

theorem subOf_first {img : Bytes} {k : UInt16} {l : List Nat} (hl : DirBlocks img k.toNat l) (f : GoMap UInt16 UInt16) (x : UInt16) :
    ((subOf img k l).blocks.foldl (fun m b => m.set b.block k) f).get? x = if x.toNat ∈ l then some k else f.get? x := by
  rw [foldl_get SubdirectoryBlock.block]
  have e : (∃ b ∈ (subOf img k l).blocks, b.block = x) ↔ x.toNat ∈ l := by
    constructor
    · rintro ⟨b, hb, rfl⟩
      obtain ⟨y, hy, rfl⟩ := List.mem_map.1 hb
      show (UInt16.ofNat y).toNat ∈ l
      rw [toNat_ofNat (hl.2.all_lt (word_lt _ _ _) y hy)]; exact hy
    · intro hx
      refine ⟨_, List.mem_map.2 ⟨x.toNat, hx, rfl⟩, ?_⟩
      show UInt16.ofNat x.toNat = x
      simp
  by_cases h : x.toNat ∈ l
  · rw [if_pos h, if_pos (e.2 h)]
  · rw [if_neg h, if_neg fun c => h (e.1 c)]

/-- What the loop over the subdirectories comes to. -/
theorem subdirLoop_walk {c : Nat} {img : Bytes} (n : Nat) : ∀ (m : Nat) (q : List FileDescriptor) (bb : GoMap UInt16 Subdirectory) (f : GoMap UInt16 UInt16),
    ToRead img m (q.map fun d => d.keyPointer.toNat) → Owned img m f →
    (∀ r, subdirLoop c n img q bb f = .ok r → ∃ m', ToRead img m' [] ∧ Owned img m' r.2) ∧
    ((subdirLoop c n img q bb f).isErr → ∃ m' k, ComesTo img m' k ∧ Broken img k) := by
  induction n with
  | zero =>
    intro m q bb f hq ho
    cases q with
    | nil =>
      rw [subdirLoop]
      exact ⟨fun r h => by cases h; exact ⟨m, hq, ho⟩, fun h => by simp at h⟩
    | cons d q =>
      rw [subdirLoop]
      exact ⟨fun r h => (by cases h), fun h => by simp at h⟩
  | succ n ih =>
    intro m q bb f hq ho
    cases q with
    | nil =>
      rw [subdirLoop]
      exact ⟨fun r h => by cases h; exact ⟨m, hq, ho⟩, fun h => by simp at h⟩
    | cons d q =>
      rw [subdirLoop]
      have hc : ComesTo img m d.keyPointer.toNat := ⟨_, hq⟩
      cases hs : readSubdirectory c img d with
      | ok s =>
        obtain ⟨l, hl, rfl⟩ := readSubdirectory_ok hs
        rw [Out.bind_ok, subOf_descriptors hl]
        refine ih (m + 1) _ _ _ ?_ (owned_step ho hc hl (subOf_first hl f))
        rw [List.map_append, subdirKeys_eq]
        exact .step hq hl
      | err e =>
        exact ⟨fun r h => by simp at h, fun _ => ⟨m, _, hc, readSubdirectory_err (by rw [hs]; rfl)⟩⟩
      | timeout => exact ⟨fun r h => by simp at h, fun h => by simp at h⟩
      | panic => exact absurd hs (readSubdirectory_ne_panic _ _ _)

/-- Given time enough the loop ends if reading comes to an end or to a directory that can not be read. -/
theorem subdirLoop_ends {c : Nat} {img : Bytes} {M : Nat} (hend : ToRead img M [] ∨ ∃ k, ComesTo img M k ∧ Broken img k)
    (hc : ∀ m k, m ≤ M → ComesTo img m k → ∀ fd : FileDescriptor, fd.keyPointer.toNat = k → (readSubdirectory c img fd).returns) (n : Nat) :
    ∀ (m : Nat) (q : List FileDescriptor) (bb : GoMap UInt16 Subdirectory) (f : GoMap UInt16 UInt16),
    ToRead img m (q.map fun d => d.keyPointer.toNat) → M < m + n → (subdirLoop c n img q bb f).returns := by
  have hmax : ∀ m q, ToRead img m q → m ≤ M := by
    intro m q hq
    by_contra hlt
    obtain ⟨k, l, hk, hl⟩ := toRead_before hq M (by omega)
    rcases hend with h | ⟨k', h1, h2⟩
    · obtain ⟨q', hq'⟩ := hk
      cases toRead_unique h hq'
    · rw [comesTo_unique h1 hk] at h2
      exact h2.1 l hl
  induction n with
  | zero => intro m q bb f hq hn; have := hmax _ _ hq; omega
  | succ n ih =>
    intro m q bb f hq hn
    cases q with
    | nil => rw [subdirLoop]; rfl
    | cons d q =>
      rw [subdirLoop]
      have hr := hc m _ (hmax _ _ hq) ⟨_, hq⟩ d rfl
      cases hs : readSubdirectory c img d with
      | ok s =>
        obtain ⟨l, hl, rfl⟩ := readSubdirectory_ok hs
        rw [Out.bind_ok, subOf_descriptors hl]
        refine ih (m + 1) _ _ _ ?_ (by omega)
        rw [List.map_append, subdirKeys_eq]
        exact .step hq hl
      | err e => rfl
      | timeout => rw [hs] at hr; simp at hr
      | panic => exact absurd hs (readSubdirectory_ne_panic _ _ _)

end Verif.Prodos
