import Verif.Proofs.ProdosBitmap
import Mathlib.Data.Fintype.EquivFin
import Mathlib.Order.WellFounded

/-!
# Reading ProDOS directories
-/

set_option autoImplicit false
set_option maxRecDepth 20000

namespace Verif.Spec.Prodos

variable {img : Bytes}

theorem BlockChain.unique {b : Nat} {l m : List Nat} (h : BlockChain img b l) (k : BlockChain img b m) : l = m := by
  induction h generalizing m with
  | done =>
    cases k with
    | done => rfl
    | step h0 _ _ => exact absurd rfl h0
  | step h0 h1 h2 ih =>
    cases k with
    | done => exact absurd rfl h0
    | step _ _ k2 => rw [ih k2]

theorem DirBlocks.unique {b : Nat} {l m : List Nat} (h : DirBlocks img b l) (k : DirBlocks img b m) : l = m :=
  BlockChain.unique h.2 k.2

theorem BlockChain.all_on {b : Nat} {l : List Nat} (h : BlockChain img b l) : ∀ c ∈ l, c ≠ 0 ∧ OnDevice img c := by
  induction h with
  | done => simp
  | step h0 h1 _ ih =>
    intro c hc
    rcases List.mem_cons.1 hc with e | hc
    · rw [e]; exact ⟨h0, h1⟩
    · exact ih c hc

theorem word_lt (img : Bytes) (b i : Nat) : word img b i < 65536 := by
  unfold word
  have := (bbyte img b i).toNat_lt
  have := (bbyte img b (i + 1)).toNat_lt
  omega

theorem BlockChain.all_lt {b : Nat} {l : List Nat} (h : BlockChain img b l) (hb : b < 65536) : ∀ c ∈ l, c < 65536 := by
  induction h with
  | done => simp
  | step h0 h1 _ ih =>
    intro c hc
    rcases List.mem_cons.1 hc with e | hc
    · rw [e]; exact hb
    · exact ih (word_lt _ _ _) c hc

theorem blockWalk_succ (img : Bytes) (b n : Nat) : blockWalk img b (n + 1) = blockWalk img (nextOf img b) n := by
  induction n with
  | zero => rfl
  | succ n ih =>
    show nextOf img (blockWalk img b (n + 1)) = _
    rw [ih]; rfl

theorem keyPointerOf_lt (e : Bytes) : keyPointerOf e < 65536 := by
  unfold keyPointerOf
  have := (e.getD 17 0).toNat_lt
  have := (e.getD 18 0).toNat_lt
  omega

theorem Child.lt {k j : Nat} (h : Child img k j) : j < 65536 := by
  obtain ⟨_, e, _, _, _, rfl⟩ := h
  exact keyPointerOf_lt e

theorem Subdir.lt {j : Nat} (h : Subdir img j) : j < 65536 := by
  cases h with
  | single h => exact h.lt
  | tail _ h => exact h.lt

end Verif.Spec.Prodos

namespace Verif.Prodos

open Verif Verif.Disk Verif.Spec Verif.Spec.Prodos

/-! ## Records -/

theorem at8_record (data : Bytes) (off i : Nat) (h : i < 39) :
    at8 ((data.drop off).take 39) i = at8 data (off + i) := by
  unfold at8
  rw [List.getD_eq_getElem?_getD, List.getD_eq_getElem?_getD, List.getElem?_take, if_pos h, List.getElem?_drop]

theorem fromBytes_record (data : Bytes) (off : Nat) :
    FileDescriptor.fromBytes data off = FileDescriptor.fromBytes ((data.drop off).take 39) 0 := by
  unfold FileDescriptor.fromBytes
  rw [FileDescriptor.mk.injEq]
  refine ⟨?_, ?_, ?_, ?_, ?_, ?_, ?_, ?_, ?_, ?_, ?_, ?_, ?_⟩ <;>
    first
      | (rw [Nat.zero_add, at8_record _ _ _ (by omega)])
      | (refine rdVec_congr fun i hi => ?_; rw [Nat.zero_add, at8_record _ _ _ (by omega), Nat.add_assoc])
      | (refine rd16_congr fun i hi => ?_; rw [Nat.zero_add, at8_record _ _ _ (by omega), Nat.add_assoc])
      | (refine congrArg _ (rdVec_congr fun i hi => ?_)
         rw [Nat.zero_add, at8_record _ _ _ (by omega), Nat.add_assoc])

/-- The descriptor of an entry. -/
def fdOf (e : Bytes) : FileDescriptor := FileDescriptor.fromBytes e 0

theorem shift4 : ∀ b : UInt8, (b >>> 4).toNat = b.toNat / 16 := by decide +kernel
theorem and15 : ∀ b : UInt8, (b &&& 0xf).toNat = b.toNat % 16 := by decide +kernel

theorem fdOf_type (e : Bytes) : (fdOf e).type.toNat = storageType e := shift4 _

theorem fdOf_keyPointer (e : Bytes) : (fdOf e).keyPointer.toNat = keyPointerOf e := le16_toNat _ _

theorem take_rdVec (n off k : Nat) (e : Bytes) (h : off + n ≤ e.length) (hk : k ≤ n) :
    (rdVec n e off).toList.take k = (e.drop off).take k := by
  apply List.ext_getElem (by simp; omega)
  intro i h1 h2
  have hi : i < n := by simp at h1; omega
  rw [List.getElem_take, List.getElem_take, List.getElem_drop, Vector.getElem_toList, rdVec_getElem _ _ _ _ hi]
  unfold at8
  rw [List.getD_eq_getElem?_getD, List.getElem?_eq_getElem (by omega)]; rfl

theorem fdOf_name (e : Bytes) (h : e.length = 39) : (fdOf e).name = nameOf e := by
  show (rdVec 15 e 1).toList.take (e.getD 0 0 &&& 0xf).toNat = (e.drop 1).take _
  rw [and15]
  exact take_rdVec 15 1 _ e (by omega) (by omega)

theorem fdOf_descriptor (e : Bytes) (h : e.length = 39) : (fdOf e).descriptor = shown e := by
  unfold FileDescriptor.descriptor shown
  rw [fdOf_name e h, Descriptor.mk.injEq]
  refine ⟨rfl, rfl, rfl, ?_, ?_, rfl, rfl⟩
  · show (((rd16 e 0x13).toNat : Nat) : Int) = _
    unfold rd16; rw [le16_toNat]; rfl
  · show (((rdVec 3 e 0x15)[0].toNat : Nat) : Int) + ((rdVec 3 e 0x15)[1].toNat : Int) * 2 ^ 8
      + ((rdVec 3 e 0x15)[2].toNat : Int) * 2 ^ 16 = _
    rw [rdVec_getElem _ _ _ _ (by omega), rdVec_getElem _ _ _ _ (by omega), rdVec_getElem _ _ _ _ (by omega)]
    unfold at8
    show _ = (((e.getD 21 0).toNat + 256 * (e.getD 22 0).toNat + 65536 * (e.getD 23 0).toNat : Nat) : Int)
    simp only [Int.natCast_add, Int.natCast_mul]
    show ((e.getD 21 0).toNat : Int) + ((e.getD 22 0).toNat : Int) * 2 ^ 8 + ((e.getD 23 0).toNat : Int) * 2 ^ 16 = _
    generalize ((e.getD 21 0).toNat : Int) = a
    generalize ((e.getD 22 0).toNat : Int) = b
    generalize ((e.getD 23 0).toNat : Int) = c
    omega

theorem recordAt_length {img : Bytes} {b off : Nat} (h : OnDevice img b) (ho : off + 39 ≤ 512) :
    (recordAt img b off).length = 39 := by
  unfold recordAt
  rw [List.length_take, List.length_drop, blockAt_length h]; omega

theorem dirEntries_length {img : Bytes} {k : Nat} {l : List Nat} (h : DirBlocks img k l) :
    ∀ e ∈ dirEntries img k l, e.length = 39 := by
  intro e he
  unfold dirEntries at he
  rcases List.mem_append.1 he with he | he
  · unfold keyEntries at he
    obtain ⟨i, hi, rfl⟩ := List.mem_map.1 he
    have := List.mem_range.1 hi
    exact recordAt_length h.1 (by omega)
  · obtain ⟨b, hb, he⟩ := List.mem_flatMap.1 he
    unfold blockEntries at he
    obtain ⟨i, hi, rfl⟩ := List.mem_map.1 he
    have := List.mem_range.1 hi
    exact recordAt_length (h.2.all_on b hb).2 (by omega)

theorem toList_ofFn_range {β : Type} (n : Nat) (f : Nat → β) :
    (Vector.ofFn fun i : Fin n => f i.val).toList = (List.range n).map f := by
  apply List.ext_getElem (by simp)
  intro i h1 h2
  simp

/-! ## The structures read from a device -/

/-- The volume directory block at `b`. -/
def volBlock (img : Bytes) (b : UInt16) : VolumeDirectoryBlock :=
  { ({} : VolumeDirectoryBlock).fromBlock (blockAt img b.toNat) with block := b }
/-- The volume key block at `b`. -/
def volKey (img : Bytes) (b : UInt16) : VolumeDirectoryKeyBlock :=
  { ({} : VolumeDirectoryKeyBlock).fromBlock (blockAt img b.toNat) with block := b }
/-- The subdirectory block at `b`. -/
def subBlock (img : Bytes) (b : UInt16) : SubdirectoryBlock :=
  { ({} : SubdirectoryBlock).fromBlock (blockAt img b.toNat) with block := b }
/-- The subdirectory key block at `b`. -/
def subKey (img : Bytes) (b : UInt16) : SubdirectoryKeyBlock :=
  { ({} : SubdirectoryKeyBlock).fromBlock (blockAt img b.toNat) with block := b }

open Classical in
/-- `read` reads the structure `mk b` from every block on the device, and `next` is its link. -/
structure ReadsBlocks {β : Type} (img : Bytes) (read : UInt16 → Out β) (next : β → UInt16) (mk : UInt16 → β) : Prop where
  ok : ∀ b : UInt16, OnDevice img b.toNat → read b = .ok (mk b)
  err : ∀ b : UInt16, ¬ OnDevice img b.toNat → read b = .err .other
  link : ∀ b : UInt16, (next (mk b)).toNat = nextOf img b.toNat

theorem rd16_word (img : Bytes) (b i : Nat) : (rd16 (blockAt img b) i).toNat = word img b i := le16_toNat _ _

theorem reads_volume (img : Bytes) :
    ReadsBlocks img (unmarshalVolumeBlock img) VolumeDirectoryBlock.next (volBlock img) where
  ok b h := by unfold OnDevice at h; unfold unmarshalVolumeBlock; rw [readBlock_eq, if_pos h]; rfl
  err b h := by unfold OnDevice at h; unfold unmarshalVolumeBlock; rw [readBlock_eq, if_neg h]; rfl
  link b := rd16_word _ _ _

theorem reads_subdir (img : Bytes) :
    ReadsBlocks img (unmarshalSubdirBlock img) SubdirectoryBlock.next (subBlock img) where
  ok b h := by unfold OnDevice at h; unfold unmarshalSubdirBlock; rw [readBlock_eq, if_pos h]; rfl
  err b h := by unfold OnDevice at h; unfold unmarshalSubdirBlock; rw [readBlock_eq, if_neg h]; rfl
  link b := rd16_word _ _ _

section chain
variable {β : Type} {img : Bytes} {read : UInt16 → Out β} {next : β → UInt16} {mk : UInt16 → β}

theorem toNat_eq_zero (b : UInt16) : b.toNat = 0 ↔ b = 0 := by
  rw [show (0 : Nat) = (0 : UInt16).toNat from rfl, UInt16.toNat_inj]

/-- The loop along a chain that ends. -/
theorem chainLoop_chain (R : ReadsBlocks img read next mk) {b : Nat} {l : List Nat} (h : BlockChain img b l) :
    ∀ (n : Nat) (x : UInt16), x.toNat = b → chainLoop read next n x =
      if l.length ≤ n then .ok (l.map fun c => mk (UInt16.ofNat c)) else .timeout := by
  induction h with
  | done =>
    intro n x hx
    rw [toNat_eq_zero] at hx
    rw [chainLoop.eq_def, if_pos hx, if_pos (by simp)]; rfl
  | @step b rest h0 h1 h2 ih =>
    intro n x hx
    have hx0 : x ≠ 0 := fun e => h0 (by rw [← hx, e]; rfl)
    rw [chainLoop.eq_def, if_neg hx0]
    cases n with
    | zero => rw [if_neg (by simp)]
    | succ n =>
      simp only
      rw [R.ok x (by rw [hx]; exact h1), Out.bind_ok, ih n _ (by rw [R.link, hx])]
      have hxb : UInt16.ofNat b = x := by rw [← hx]; simp
      by_cases hn : rest.length ≤ n
      · rw [if_pos hn, if_pos (by simpa using hn), Out.bind_ok, List.map_cons, hxb]
      · rw [if_neg hn, if_neg (by simpa using hn)]; rfl

/-- The loop gives a value only along a chain. -/
theorem chainLoop_ok (R : ReadsBlocks img read next mk) {n : Nat} {x : UInt16} {bs : List β}
    (h : chainLoop read next n x = .ok bs) :
    ∃ l, BlockChain img x.toNat l ∧ bs = l.map fun c => mk (UInt16.ofNat c) := by
  induction n generalizing x bs with
  | zero =>
    rw [chainLoop.eq_def] at h
    by_cases hx : x = 0
    · rw [if_pos hx] at h
      simp only [Out.ok.injEq] at h
      subst h hx
      exact ⟨[], .done, rfl⟩
    · rw [if_neg hx] at h; simp at h
  | succ n ih =>
    rw [chainLoop.eq_def] at h
    by_cases hx : x = 0
    · rw [if_pos hx] at h
      simp only [Out.ok.injEq] at h
      subst h hx
      exact ⟨[], .done, rfl⟩
    · rw [if_neg hx] at h
      simp only at h
      by_cases ho : OnDevice img x.toNat
      · rw [R.ok x ho, Out.bind_ok, Out.bind_eq_ok] at h
        obtain ⟨rest, h1, h2⟩ := h
        obtain ⟨l, hl, he⟩ := ih h1
        rw [R.link] at hl
        simp only [Out.ok.injEq] at h2
        refine ⟨x.toNat :: l, .step (fun e => hx ((toNat_eq_zero x).1 e)) ho hl, ?_⟩
        rw [← h2, he]; simp
      · rw [R.err x ho] at h; simp at h

theorem chainLoop_cases (R : ReadsBlocks img read next mk) (n : Nat) (x : UInt16) :
    (∃ bs, chainLoop read next n x = .ok bs) ∨ chainLoop read next n x = .err .other ∨
      chainLoop read next n x = .timeout ∧
        ∀ k, k < n + 1 → blockWalk img x.toNat k ≠ 0 ∧ (k < n → OnDevice img (blockWalk img x.toNat k)) := by
  induction n generalizing x with
  | zero =>
    rw [chainLoop.eq_def]
    by_cases hx : x = 0
    · rw [if_pos hx]; exact Or.inl ⟨_, rfl⟩
    · rw [if_neg hx]
      refine Or.inr (Or.inr ⟨rfl, fun k hk => ?_⟩)
      have : k = 0 := by omega
      subst this
      exact ⟨fun e => hx ((toNat_eq_zero x).1 e), fun h => by omega⟩
  | succ n ih =>
    rw [chainLoop.eq_def]
    by_cases hx : x = 0
    · rw [if_pos hx]; exact Or.inl ⟨_, rfl⟩
    · rw [if_neg hx]
      simp only
      by_cases ho : OnDevice img x.toNat
      · rw [R.ok x ho, Out.bind_ok]
        rcases ih (next (mk x)) with ⟨bs, h⟩ | h | ⟨h, hw⟩
        · rw [h]; exact Or.inl ⟨_, rfl⟩
        · rw [h]; exact Or.inr (Or.inl rfl)
        · rw [h]
          refine Or.inr (Or.inr ⟨rfl, fun k hk => ?_⟩)
          cases k with
          | zero => exact ⟨fun e => hx ((toNat_eq_zero x).1 e), fun _ => ho⟩
          | succ k =>
            rw [blockWalk_succ, ← R.link]
            exact ⟨(hw k (by omega)).1, fun hk' => (hw k (by omega)).2 (by omega)⟩
      · rw [R.err x ho]; exact Or.inr (Or.inl rfl)

/-- The loop runs for ever on an endless chain. -/
theorem chainLoop_endless (R : ReadsBlocks img read next mk) (n : Nat) (x : UInt16) (h : Endless img x.toNat) :
    chainLoop read next n x = .timeout := by
  induction n generalizing x with
  | zero =>
    rw [chainLoop.eq_def, if_neg (fun e => (h 0).1 ((toNat_eq_zero x).2 e))]
  | succ n ih =>
    rw [chainLoop.eq_def, if_neg (fun e => (h 0).1 ((toNat_eq_zero x).2 e))]
    simp only
    rw [R.ok x (h 0).2, Out.bind_ok, ih (next (mk x)) (fun k => by
      rw [R.link, ← blockWalk_succ]; exact h (k + 1))]
    rfl

/-- Off an endless chain some budget suffices, and so does every larger one. -/
theorem chainLoop_terminates (R : ReadsBlocks img read next mk) (x : UInt16) (h : ¬ Endless img x.toNat) :
    ∃ n₀, ∀ n, n₀ ≤ n → chainLoop read next n x ≠ .timeout := by
  unfold Endless at h
  rw [Classical.not_forall] at h
  obtain ⟨k, hk⟩ := h
  refine ⟨k + 1, fun n hn he => hk ?_⟩
  rcases chainLoop_cases R n x with ⟨bs, h⟩ | h | ⟨_, hw⟩
  · rw [h] at he; simp at he
  · rw [h] at he; simp at he
  · exact ⟨(hw k (by omega)).1, (hw k (by omega)).2 (by omega)⟩

end chain

/-- The subdirectory with key block `k` and further blocks `l`. -/
def subOf (img : Bytes) (k : UInt16) (l : List Nat) : Subdirectory :=
  ⟨subKey img k, l.map fun c => subBlock img (UInt16.ofNat c)⟩

theorem subKey_next (img : Bytes) (k : UInt16) : (subKey img k).next.toNat = nextOf img k.toNat := rd16_word _ _ _
theorem volKey_next (img : Bytes) (k : UInt16) : (volKey img k).next.toNat = nextOf img k.toNat := rd16_word _ _ _

theorem unmarshalSubdirKey_eq (img : Bytes) (k : UInt16) (h : OnDevice img k.toNat) :
    unmarshalSubdirKey img k = .ok (subKey img k) := by
  unfold OnDevice at h; unfold unmarshalSubdirKey; rw [readBlock_eq, if_pos h]; rfl

theorem unmarshalSubdirKey_err (img : Bytes) (k : UInt16) (h : ¬ OnDevice img k.toNat) :
    unmarshalSubdirKey img k = .err .other := by
  unfold OnDevice at h; unfold unmarshalSubdirKey; rw [readBlock_eq, if_neg h]; rfl

theorem unmarshalVolumeKey_eq (img : Bytes) (k : UInt16) (h : OnDevice img k.toNat) :
    unmarshalVolumeKey img k = .ok (volKey img k) := by
  unfold OnDevice at h; unfold unmarshalVolumeKey; rw [readBlock_eq, if_pos h]; rfl

theorem unmarshalVolumeKey_err (img : Bytes) (k : UInt16) (h : ¬ OnDevice img k.toNat) :
    unmarshalVolumeKey img k = .err .other := by
  unfold OnDevice at h; unfold unmarshalVolumeKey; rw [readBlock_eq, if_neg h]; rfl

theorem readSubdirectory_ok {n : Nat} {img : Bytes} {fd : FileDescriptor} {s : Subdirectory}
    (h : readSubdirectory n img fd = .ok s) :
    ∃ l, DirBlocks img fd.keyPointer.toNat l ∧ s = subOf img fd.keyPointer l := by
  unfold readSubdirectory at h
  by_cases ho : OnDevice img fd.keyPointer.toNat
  · rw [unmarshalSubdirKey_eq _ _ ho, Out.bind_ok, Out.bind_eq_ok] at h
    obtain ⟨bs, h1, h2⟩ := h
    obtain ⟨l, hl, he⟩ := chainLoop_ok (reads_subdir img) h1
    rw [subKey_next] at hl
    simp only [Out.ok.injEq] at h2
    exact ⟨l, ⟨ho, hl⟩, by rw [← h2, he]; rfl⟩
  · rw [unmarshalSubdirKey_err _ _ ho] at h; simp at h

theorem readSubdirectory_chain (n : Nat) {img : Bytes} {fd : FileDescriptor} {l : List Nat}
    (h : DirBlocks img fd.keyPointer.toNat l) : readSubdirectory n img fd =
      if l.length ≤ n then .ok (subOf img fd.keyPointer l) else .timeout := by
  unfold readSubdirectory
  rw [unmarshalSubdirKey_eq _ _ h.1, Out.bind_ok, chainLoop_chain (reads_subdir img) h.2 n _ (subKey_next _ _)]
  by_cases hn : l.length ≤ n
  · rw [if_pos hn, if_pos hn]; rfl
  · rw [if_neg hn, if_neg hn]; rfl

theorem readSubdirectory_terminates {img : Bytes} {k : UInt16} (h : ¬ Endless img (nextOf img k.toNat)) :
    ∃ n₀, ∀ n, n₀ ≤ n → ∀ fd : FileDescriptor, fd.keyPointer = k → (readSubdirectory n img fd).returns := by
  obtain ⟨n₀, h0⟩ := chainLoop_terminates (reads_subdir img) (subKey img k).next (by rwa [subKey_next])
  refine ⟨n₀, fun n hn fd hfd => ?_⟩
  unfold readSubdirectory
  rw [hfd]
  by_cases ho : OnDevice img k.toNat
  · rw [unmarshalSubdirKey_eq _ _ ho, Out.bind_ok]
    rcases chainLoop_cases (reads_subdir img) n (subKey img k).next with ⟨bs, h⟩ | h | ⟨h, _⟩
    · rw [h]; rfl
    · rw [h]; rfl
    · exact absurd h (h0 n hn)
  · rw [unmarshalSubdirKey_err _ _ ho]; rfl

/-! ## Descriptors -/

theorem descriptors_key (img : Bytes) (b n : Nat) (start : Nat) :
    (Vector.ofFn fun i : Fin n => FileDescriptor.fromBytes (blockAt img b) (start + 0x27 * i.val)).toList =
      ((List.range n).map fun k => recordAt img b (start + 39 * k)).map fdOf := by
  rw [toList_ofFn_range n fun i => FileDescriptor.fromBytes (blockAt img b) (start + 0x27 * i), List.map_map]
  apply List.map_congr_left
  intro i _
  exact fromBytes_record _ _

theorem toNat_ofNat {c : Nat} (h : c < 65536) : (UInt16.ofNat c).toNat = c := UInt16.toNat_ofNat_of_lt' h

theorem subOf_descriptors {img : Bytes} {k : UInt16} {l : List Nat} (h : DirBlocks img k.toNat l) :
    (subOf img k l).descriptors = (dirEntries img k.toNat l).map fdOf := by
  unfold Subdirectory.descriptors dirEntries
  rw [List.map_append]
  refine congrArg₂ _ (descriptors_key img k.toNat 12 0x2b) ?_
  show (List.map (fun c => subBlock img (UInt16.ofNat c)) l).flatMap _ = _
  rw [List.flatMap_map, List.map_flatMap]
  apply List.flatMap_congr
  intro c hc
  show (Vector.ofFn fun i : Fin 13 => FileDescriptor.fromBytes (blockAt img (UInt16.ofNat c).toNat) (4 + 0x27 * i.val)).toList = _
  rw [toNat_ofNat (h.2.all_lt (word_lt _ _ _) c hc)]
  exact descriptors_key img c 13 4

theorem vol_descriptors {img : Bytes} {k : UInt16} {l : List Nat} (h : DirBlocks img k.toNat l) :
    volumeDescriptors (volKey img k) (l.map fun c => volBlock img (UInt16.ofNat c)) =
      (dirEntries img k.toNat l).map fdOf := by
  unfold volumeDescriptors dirEntries
  rw [List.map_append]
  refine congrArg₂ _ (descriptors_key img k.toNat 12 0x2b) ?_
  rw [List.flatMap_map, List.map_flatMap]
  apply List.flatMap_congr
  intro c hc
  show (Vector.ofFn fun i : Fin 13 => FileDescriptor.fromBytes (blockAt img (UInt16.ofNat c).toNat) (4 + 0x27 * i.val)).toList = _
  rw [toNat_ofNat (h.2.all_lt (word_lt _ _ _) c hc)]
  exact descriptors_key img c 13 4

theorem type_zero (e : Bytes) : (fdOf e).type ≠ 0 ↔ storageType e ≠ 0 := by
  rw [← fdOf_type, show (0 : Nat) = (0 : UInt8).toNat from rfl, ne_eq, ne_eq, UInt8.toNat_inj]

theorem type_subdir (e : Bytes) : (fdOf e).type = 0xD ↔ storageType e = 13 := by
  rw [← fdOf_type, show (13 : Nat) = (0xD : UInt8).toNat from rfl, UInt8.toNat_inj]

/-- What `Catalog` collects from the descriptors of a directory. -/
theorem listed_entries {img : Bytes} {k : Nat} {l : List Nat} (h : DirBlocks img k l) :
    listed ((dirEntries img k l).map fdOf) =
      ((dirEntries img k l).filter fun e => storageType e ≠ 0).map shown := by
  unfold listed
  rw [List.filter_map, List.map_map]
  have h1 : (dirEntries img k l).filter ((fun d : FileDescriptor => decide (d.type ≠ 0)) ∘ fdOf) =
      (dirEntries img k l).filter fun e => storageType e ≠ 0 := by
    apply List.filter_congr
    intro e _
    exact decide_eq_decide.2 (type_zero e)
  rw [h1]
  apply List.map_congr_left
  intro e he
  exact fdOf_descriptor e (dirEntries_length h e (List.mem_filter.1 he).1)

/-- The subdirectory descriptors of a directory. -/
theorem subdirDescriptors_mem {img : Bytes} {k : Nat} {l : List Nat} (h : DirBlocks img k l) (d : FileDescriptor) :
    d ∈ subdirDescriptors ((dirEntries img k l).map fdOf) → Child img k d.keyPointer.toNat := by
  intro hd
  unfold subdirDescriptors at hd
  rw [List.mem_filter] at hd
  obtain ⟨hd, ht⟩ := hd
  obtain ⟨e, he, rfl⟩ := List.mem_map.1 hd
  rw [decide_eq_true_eq, type_subdir] at ht
  exact ⟨l, e, h, he, ht, fdOf_keyPointer e⟩

theorem mem_subdirDescriptors {img : Bytes} {k j : Nat} {l : List Nat} (h : DirBlocks img k l) (hc : Child img k j) :
    ∃ d ∈ subdirDescriptors ((dirEntries img k l).map fdOf), d.keyPointer.toNat = j := by
  obtain ⟨l', e, h', he, ht, rfl⟩ := hc
  have := h'.unique h
  subst this
  refine ⟨fdOf e, ?_, fdOf_keyPointer e⟩
  unfold subdirDescriptors
  rw [List.mem_filter, decide_eq_true_eq, type_subdir]
  exact ⟨List.mem_map.2 ⟨e, he, rfl⟩, ht⟩

end Verif.Prodos
