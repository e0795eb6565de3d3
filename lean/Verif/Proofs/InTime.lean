import Verif.Props.Steps
import Verif.Props.Same
import Verif.Props.Ends

/-!
# After how many rounds everything is settled
-/

set_option autoImplicit false
set_option maxRecDepth 20000

namespace Verif.Prodos

open Verif Verif.Disk Verif.Spec Verif.Spec.Prodos

theorem chainLoop_settled {β : Type} {img : Bytes} {read : UInt16 → Out β} {next : β → UInt16} {mk : UInt16 → β}
    (R : ReadsBlocks img read next mk) (x : UInt16) (hB : 0 < blockCount img) {n m : Nat} (hn : blockCount img ≤ n) (hm : n ≤ m) :
    chainLoop read next n x = chainLoop read next m x := by
  by_cases h : Endless img x.toNat
  · rw [chainLoop_endless R n x h, chainLoop_endless R m x h]
  · exact (chainLoop_mono read next hm x).cases.resolve_left (chainLoop_in_time R x h hB hn)

theorem readSubdirectory_settled {img : Bytes} (fd : FileDescriptor) (hB : 0 < blockCount img) {n m : Nat} (hn : blockCount img ≤ n) (hm : n ≤ m) :
    readSubdirectory n img fd = readSubdirectory m img fd := by
  unfold readSubdirectory
  cases unmarshalSubdirKey img fd.keyPointer with
  | ok k => rw [Out.bind_ok, Out.bind_ok, chainLoop_settled (reads_subdir img) _ hB hn hm]
  | err e => rfl
  | panic => rfl
  | timeout => rfl

theorem subdirLoop_settled {img : Bytes} (ho : ListedOnce img) (hB : 0 < blockCount img) {c d : Nat} (hc : blockCount img ≤ c) (hd : c ≤ d) (n : Nat) :
    ∀ (n' m : Nat) (q : List FileDescriptor) (bb : GoMap UInt16 Subdirectory) (f : GoMap UInt16 UInt16), n ≤ n' →
    ToRead img m (q.map fun d => d.keyPointer.toNat) → blockCount img < m + n → subdirLoop c n img q bb f = subdirLoop d n' img q bb f := by
  induction n with
  | zero => intro n' m q bb f _ hq h; have := toRead_le ho hq; omega
  | succ n ih =>
    intro n' m q bb f hn hq h
    obtain ⟨n', rfl⟩ : ∃ k, n' = k + 1 := ⟨n' - 1, by omega⟩
    cases q with
    | nil => rw [subdirLoop, subdirLoop]
    | cons e q =>
      rw [subdirLoop, subdirLoop, readSubdirectory_settled e hB hc hd]
      cases hs : readSubdirectory d img e with
      | ok s =>
        obtain ⟨l, hl, rfl⟩ := readSubdirectory_ok hs
        rw [Out.bind_ok, Out.bind_ok]
        refine ih n' (m + 1) _ _ _ (by omega) ?_ (by omega)
        rw [List.map_append, subOf_descriptors hl, subdirKeys_eq]
        exact .step hq hl
      | err e => rfl
      | panic => rfl
      | timeout => rfl

theorem nameLoop_settled {img : Bytes} {bb : GoMap UInt16 Subdirectory} {f : GoMap UInt16 UInt16} (hr : ReadAll img bb f) {n m : Nat}
    (hn : blockCount img ≤ n) (hm : n ≤ m) (l : List (UInt16 × Subdirectory)) (hl : ∀ e ∈ l, e ∈ bb) (k : GoMap Str Subdirectory) :
    nameLoop n 2 bb f l k = nameLoop m 2 bb f l k := by
  have hd : ∀ k, Subdir img k → OnDevice img k := by
    intro k hk
    obtain ⟨x, hx, rfl⟩ := hr.complete.all k hk
    obtain ⟨s, hs⟩ := GoMap.get?_isSome_iff.2 hx
    obtain ⟨_, l, h3, _⟩ := hr.complete.sound x s hs
    exact h3.1
  induction l generalizing k with
  | nil => rfl
  | cons e l ih =>
    have he : parentDirName n e.2.keyBlock.header.parentPointer 2 bb f = parentDirName m e.2.keyBlock.header.parentPointer 2 bb f := by
      obtain ⟨a, l', b, c⟩ := hr.complete.toKnown.mem (hl e List.mem_cons_self)
      rw [c]
      have hp : (subOf img e.1 l').keyBlock.header.parentPointer.toNat = parentPointer img e.1.toNat := subKey_parent img e.1
      by_cases h : EndlessUp img e.1.toNat
      · rw [parentDirName_endless hr n _ _ h hp, parentDirName_endless hr m _ _ h hp]
      · exact (parentDirName_mono hm _ 2 bb f).cases.resolve_left (Out.returns_ends (parentDirName_in_time hr hd a h hp hn))
    obtain ⟨b, sd⟩ := e
    rw [nameLoop, nameLoop, he]
    cases parentDirName m sd.keyBlock.header.parentPointer 2 bb f with
    | ok r => exact ih (fun e he => hl e (List.mem_cons_of_mem _ he)) _
    | err e => rfl
    | panic => rfl
    | timeout => rfl

/-- If every subdirectory is listed once, nothing changes after as many rounds as there are blocks. -/
theorem readVolume_settled {img : Bytes} (ho : ListedOnce img) {n m : Nat} (hn : blockCount img ≤ n) (hm : n ≤ m)
    (ord : RangeOrder UInt16 Subdirectory) : readVolume n ord img 2 = readVolume m ord img 2 := by
  unfold readVolume
  by_cases h2 : OnDevice img 2
  · simp only [unmarshalVolumeKey_eq img 2 h2, Out.bind_ok]
    have hB : 0 < blockCount img := by have := onDevice_lt h2; omega
    cases hv : readVolumeBitMap img (volKey img 2).header.bitMapPointer with
    | err e => rfl
    | panic => rfl
    | timeout => rfl
    | ok vbm =>
      simp only [Out.bind_ok]
      rw [chainLoop_settled (reads_volume img) _ hB hn hm]
      rcases chainLoop_cases (reads_volume img) m (volKey img 2).next with ⟨bs, h⟩ | h | ⟨h, _⟩
      · simp only [h, Out.bind_ok]
        obtain ⟨l, hl1, hl2⟩ := chainLoop_ok (reads_volume img) h
        rw [volKey_next] at hl1
        have hdb : DirBlocks img 2 l := ⟨h2, hl1⟩
        have e2 : (2 : UInt16).toNat = 2 := rfl
        rw [hl2, vol_descriptors (k := 2) hdb, e2]
        rw [subdirLoop_settled ho hB hn hm n m 1 _ _ _ hm (toRead_one hdb) (by omega)]
        obtain ⟨q1, q2⟩ := volume_root img l hdb
        have hw := subdirLoop_walk (c := m) m 1 _ [] _ (toRead_one hdb) (owned_root hdb)
        cases hs : subdirLoop m m img (subdirDescriptors ((dirEntries img 2 l).map fdOf)) []
          ((l.map fun c => volBlock img (UInt16.ofNat c)).foldl (fun m b => m.set b.block 2) []) with
        | err e => rfl
        | panic => rfl
        | timeout => rfl
        | ok r =>
          obtain ⟨bb, f⟩ := r
          obtain ⟨M, hM, hown⟩ := hw.1 _ hs
          obtain ⟨k1, kc, _, k4⟩ := subdirLoop_ok q1 (known_root img l hdb) (fun k hk => by simp [GoMap.keys] at hk) hs
          have hcomp : Complete img bb f := ⟨k1, fun k hk => by
            induction hk with
            | single hc =>
              obtain ⟨d, hd, hdk⟩ := q2 _ hc
              exact ⟨_, k4 d hd, hdk⟩
            | tail _ hc ih =>
              obtain ⟨k', hk', rfl⟩ := ih
              rcases kc k' hk' _ hc with h | ⟨d, hd, _⟩
              · exact h
              · simp at hd⟩
          have hr := readAll_of hM hcomp hown
          simp only [Out.bind_ok]
          rw [nameLoop_settled hr hn hm _ (fun e he => mem_visit.1 he)]
      · simp only [h]; rfl
      · simp only [h]; rfl
  · simp only [unmarshalVolumeKey_err img 2 h2]; rfl

end Verif.Prodos

namespace Verif.Applesoft
open Verif.Basic Spec.Basic

/-- What happens at an address does not depend on the time left: decoding stops there, or goes on at the stored address. -/
theorem decodeLoop_at (d : Bytes) (loc a : Nat) :
    (∃ r, r ≠ .timeout ∧ ∀ n, decodeLoop d (loc : Int) (n + 1) (a : Int) = r) ∨
    (InData d loc a ∧ ∃ l, ∀ n, decodeLoop d (loc : Int) (n + 1) (a : Int) =
      (decodeLoop d (loc : Int) n (storedAt d loc a : Int) >>= fun rest => .ok (l :: rest))) := by
  by_cases h0 : (a : Int) = 0
  · refine Or.inl ⟨.ok [], by simp, fun n => ?_⟩
    rw [decodeLoop.eq_def, if_pos h0]
  by_cases h1 : (a : Int) - (loc : Int) < -1 ∨ (a : Int) - (loc : Int) + 1 ≥ d.length
  · refine Or.inl ⟨.err .other, by simp, fun n => ?_⟩
    rw [decodeLoop.eq_def, if_neg h0]
    dsimp only
    rw [if_pos h1]
  by_cases h2 : (a : Int) - (loc : Int) < 0
  · refine Or.inl ⟨.panic, by simp, fun n => ?_⟩
    rw [decodeLoop.eq_def, if_neg h0]
    dsimp only
    rw [if_neg h1, if_pos h2]
  have ho : ((a : Int) - (loc : Int)).toNat = a - loc := by omega
  have e : (((d.getD (a - loc) 0).toNat : Int) + 256 * ((d.getD (a - loc + 1) 0).toNat : Int)) = (storedAt d loc a : Int) := by
    unfold storedAt; generalize (d.getD (a - loc) 0).toNat = x; generalize (d.getD (a - loc + 1) 0).toNat = y; omega
  by_cases h3 : (storedAt d loc a : Int) = 0
  · refine Or.inl ⟨.ok [], by simp, fun n => ?_⟩
    rw [decodeLoop.eq_def, if_neg h0]
    dsimp only
    rw [if_neg h1, if_neg h2, ho, e, if_pos h3]
  by_cases h4 : a - loc + 3 ≥ d.length
  · refine Or.inl ⟨.err .other, by simp, fun n => ?_⟩
    rw [decodeLoop.eq_def, if_neg h0]
    dsimp only
    rw [if_neg h1, if_neg h2, ho, e, if_neg h3, if_pos h4]
  have hs : ∀ n, decodeLoop d (loc : Int) (n + 1) (a : Int) = (lineBytes (d.drop (a - loc + 4)) >>= fun bs =>
      decodeLoop d (loc : Int) n (storedAt d loc a : Int) >>= fun rest =>
        .ok (⟨(d.getD (a - loc + 2) 0).toNat + 256 * (d.getD (a - loc + 3) 0).toNat, bs⟩ :: rest)) := by
    intro n
    rw [decodeLoop.eq_def, if_neg h0]
    dsimp only
    rw [if_neg h1, if_neg h2, ho, e, if_neg h3, if_neg h4]
  cases hl : lineBytes (d.drop (a - loc + 4)) with
  | ok bs =>
    refine Or.inr ⟨⟨by omega, by omega⟩, ⟨(d.getD (a - loc + 2) 0).toNat + 256 * (d.getD (a - loc + 3) 0).toNat, bs⟩, fun n => ?_⟩
    rw [hs n, hl, Out.bind_ok]
  | err k => exact Or.inl ⟨.err k, by simp, fun n => by rw [hs n, hl]; rfl⟩
  | panic => exact Or.inl ⟨.panic, by simp, fun n => by rw [hs n, hl]; rfl⟩
  | timeout =>
    rcases lineBytes_cases (d.drop (a - loc + 4)) with ⟨_, _, _, h, _⟩ | h <;> rw [h] at hl <;> cases hl

/-- Decoding goes on at the address. -/
def Goes (d : Bytes) (loc a : Nat) : Prop := InData d loc a ∧ ∃ l, ∀ n, decodeLoop d (loc : Int) (n + 1) (a : Int) =
  (decodeLoop d (loc : Int) n (storedAt d loc a : Int) >>= fun rest => .ok (l :: rest))

theorem goes_of_timeout {d : Bytes} {loc : Nat} (n : Nat) : ∀ i, decodeLoop d (loc : Int) n (lineAddr d loc i : Int) = .timeout →
    ∀ k, k < n → Goes d loc (lineAddr d loc (i + k)) := by
  induction n with
  | zero => intro i _ k hk; omega
  | succ n ih =>
    intro i h k hk
    rcases decodeLoop_at d loc (lineAddr d loc i) with ⟨r, hr, e⟩ | hg
    · rw [e n] at h; exact absurd h hr
    · cases k with
      | zero => exact hg
      | succ k =>
        obtain ⟨_, l, e⟩ := hg
        rw [e n] at h
        have := ih (i + 1) (by
          change decodeLoop d (loc : Int) n (storedAt d loc (lineAddr d loc i) : Int) = _
          cases hx : decodeLoop d (loc : Int) n (storedAt d loc (lineAddr d loc i) : Int) <;> rw [hx] at h <;> simp at h ⊢) k (by omega)
        rwa [show i + 1 + k = i + (k + 1) by omega] at this

theorem timeout_of_goes {d : Bytes} {loc : Nat} (h : ∀ k, Goes d loc (lineAddr d loc k)) (n : Nat) :
    ∀ i, lineAddr d loc i ≠ 0 → decodeLoop d (loc : Int) n (lineAddr d loc i : Int) = .timeout := by
  induction n with
  | zero =>
    intro i hi
    rw [decodeLoop.eq_def, if_neg (by omega)]
  | succ n ih =>
    intro i hi
    obtain ⟨_, l, e⟩ := h i
    obtain ⟨_, l', e'⟩ := h (i + 1)
    rw [e n]
    have : lineAddr d loc (i + 1) ≠ 0 := by
      intro h0
      have := e' 0
      rw [h0, decodeLoop.eq_def, if_pos (show ((0 : Nat) : Int) = 0 from rfl)] at this
      cases hx : decodeLoop d (loc : Int) 0 (storedAt d loc 0 : Int) <;> rw [hx] at this <;> simp at this
    have := ih (i + 1) this
    change decodeLoop d (loc : Int) n (storedAt d loc (lineAddr d loc i) : Int) = _ at this
    rw [this]; rfl

/-- After more rounds than the program has bytes, decoding it is over or never will be. -/
theorem decode_settled {raw : Bytes} {loc : UInt16} {n m : Nat} (hn : raw.length < n) (hm : n ≤ m) : decode n raw loc = decode m raw loc := by
  have hle : (stripHeader raw).length ≤ raw.length := by
    by_cases hh : LooksHeadered raw
    · rw [(stripHeader_spec raw).1 hh, List.length_drop]; omega
    · rw [(stripHeader_spec raw).2 hh]
  unfold decode
  generalize stripHeader raw = d at hle
  rcases (decodeLoop_mono d (loc.toNat : Int) hm (loc.toNat : Int)).cases with h | h
  · have hg := goes_of_timeout (d := d) (loc := loc.toNat) n 0 h
    simp only [Nat.zero_add] at hg
    obtain ⟨i, j, hij, hj, e⟩ := Prodos.twice (B := d.length) (n := n) (fun k => lineAddr d loc.toNat k - loc.toNat)
      (fun k hk => by have := (hg k hk).1; have := this.2; omega) (by omega)
    have e' : lineAddr d loc.toNat i = lineAddr d loc.toNat j := by
      have h1 := (hg i (by omega)).1.1
      have h2 := (hg j hj).1.1
      omega
    have shift : ∀ t, lineAddr d loc.toNat (i + t) = lineAddr d loc.toNat (j + t) := by
      intro t
      induction t with
      | zero => exact e'
      | succ t ih => show storedAt d loc.toNat (lineAddr d loc.toNat (i + t)) = storedAt d loc.toNat (lineAddr d loc.toNat (j + t)); rw [ih]
    have hall : ∀ t, Goes d loc.toNat (lineAddr d loc.toNat t) := by
      intro t
      induction t using Nat.strongRecOn with
      | _ t ih =>
        by_cases ht : t < n
        · exact hg t ht
        · have := shift (t - j)
          rw [show j + (t - j) = t by omega] at this
          rw [← this]
          exact ih _ (by omega)
    rw [h]
    refine (timeout_of_goes hall m 0 fun h0 => ?_).symm
    rw [show lineAddr d loc.toNat 0 = loc.toNat from rfl] at h0
    rw [h0, decodeLoop.eq_def, if_pos (by rfl)] at h
    cases h
  · exact h

end Verif.Applesoft
