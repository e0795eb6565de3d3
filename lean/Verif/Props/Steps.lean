import Verif.Proofs.Steps

/-!
# C115: how long it takes to read a ProDOS volume

`n` bounds the rounds of every loop of the reading code: with `.timeout` some loop takes more than `n` rounds, and
with a volume or an error none does.
-/

set_option autoImplicit false
set_option maxRecDepth 20000

namespace Verif.Prodos

open Verif Verif.Disk Verif.Spec Verif.Spec.Prodos

theorem allRead_dirs {img : Bytes} {M : Nat} (hM : ToRead img M []) {n k : Nat} (hk : ComesTo img n k) : ∃ l, DirBlocks img k l := by
  obtain ⟨q, hq⟩ := hk
  rcases Nat.lt_trichotomy n M with hn | hn | hn
  · obtain ⟨k', l, hk', hl⟩ := toRead_before hM n hn
    rw [comesTo_unique ⟨q, hq⟩ hk']
    exact ⟨l, hl⟩
  · subst hn; cases toRead_unique hM hq
  · obtain ⟨k', _, ⟨q', hq'⟩, _⟩ := toRead_before hq M hn
    cases toRead_unique hM hq'

/-- If loops are given as many rounds as the device has blocks and as there are subdirectories to read, reading ends. -/
theorem returns_in_time {img : Bytes} (hlen : img.length < 2 ^ 36) {M : Nat}
    {n : Nat} (hM : ToRead img M [] ∧ M ≤ n + 1 ∨ M ≤ n ∧ ∃ k, ComesTo img M k ∧ Broken img k)
    (hne : ∀ m k, ComesTo img m k → ¬ (OnDevice img k ∧ Endless img (nextOf img k)))
    (hup : ToRead img M [] → ∀ k, Subdir img k → ¬ EndlessUp img k)
    (hB : blockCount img ≤ n) (ord : RangeOrder UInt16 Subdirectory) : (readVolume n ord img 2).returns := by
  rcases readVolume_split hlen n ord with ⟨h1, _⟩ | ⟨_, h2, h3, h4⟩ | ⟨bb, f, g, hb, ⟨M', hM'⟩, hr, e⟩
  · cases hx : readVolume n ord img 2 <;> rw [hx] at h1 <;> simp at h1 ⊢
  · have hB0 : 0 < blockCount img := by have := onDevice_lt h2; omega
    rcases h4 with h4 | ⟨q, bb, f, h4, h5⟩
    · exact absurd h4 (chainLoop_in_time (reads_volume img) _ (by
        rw [volKey_next]; exact fun hc => hne 0 2 (comesTo_zero img) ⟨h2, hc⟩) hB0 hB)
    · have hin : ∀ m k, ComesTo img m k → ∀ fd : FileDescriptor, fd.keyPointer.toNat = k → (readSubdirectory n img fd).returns :=
        fun m k hk fd hfd => readSubdirectory_in_time (by rw [hfd]; exact hne m k hk) hB0 hB
      have : (subdirLoop n n img q bb f).returns := by
        rcases hM with ⟨hM, hn⟩ | ⟨hn, hM⟩
        · exact subdirLoop_enough hM hin n 1 q bb f h4 (by omega)
        · exact subdirLoop_ends (Or.inr hM) (fun m k _ => hin m k) n 1 q bb f h4 (by omega)
      rw [h5] at this; simp at this
  · have hM0 : ToRead img M [] := by
      rcases hM with ⟨h, _⟩ | ⟨_, k, h1, h2⟩
      · exact h
      · obtain ⟨l, hl⟩ := allRead_dirs hM' h1
        exact absurd hl (h2.1 l)
    rw [e]
    have hd : ∀ k, Subdir img k → OnDevice img k := by
      intro k hk
      obtain ⟨x, hx, rfl⟩ := hr.complete.all k hk
      obtain ⟨s, hs⟩ := GoMap.get?_isSome_iff.2 hx
      obtain ⟨_, l, h3, _⟩ := hr.complete.sound x s hs
      exact h3.1
    have := nameLoop_returns (n := n) (bb := bb) (f := f) (l := ord.visit bb) (fun x hx => by
      obtain ⟨a, l, b, c⟩ := hr.complete.toKnown.mem (mem_visit.1 hx)
      rw [c]
      exact parentDirName_in_time hr hd a (hup hM0 _ a) (subKey_parent img x.1) hB) []
    cases hx : nameLoop n 2 bb f (ord.visit bb) [] <;> rw [hx] at this <;> simp at this ⊢

/-- With fewer rounds than there are subdirectories to read, reading does not end. -/
theorem needs_rounds {img : Bytes} (hlen : img.length < 2 ^ 36) {M : Nat} (hM : ToRead img (M + 1) []) (hb : BitmapOnDevice img)
    {n : Nat} (hn : n < M) (ord : RangeOrder UInt16 Subdirectory) : readVolume n ord img 2 = .timeout := by
  have ho : OnDevice img 2 := by
    obtain ⟨l, hl⟩ := allRead_dirs hM (comesTo_zero img)
    exact hl.1
  obtain ⟨vbm, hv⟩ : ∃ vbm, readVolumeBitMap img (volKey img 2).header.bitMapPointer = .ok vbm := by
    have h1 := readVolumeBitMap_returns hlen (volKey img 2).header.bitMapPointer
    have h2 := readVolumeBitMap_err hlen (volKey img 2).header.bitMapPointer
    rw [volKey_bitmap] at h2
    cases hx : readVolumeBitMap img (volKey img 2).header.bitMapPointer with
    | ok v => exact ⟨v, rfl⟩
    | err e => exact absurd hb (h2.1 (by rw [hx]; rfl))
    | panic => rw [hx] at h1; simp at h1
    | timeout => rw [hx] at h1; simp at h1
  unfold readVolume
  rw [unmarshalVolumeKey_eq img 2 ho, Out.bind_ok, hv, Out.bind_ok]
  obtain ⟨l, hl⟩ := allRead_dirs hM (comesTo_zero img)
  rw [chainLoop_chain (reads_volume img) hl.2 n _ (volKey_next img 2)]
  by_cases hln : l.length ≤ n
  · rw [if_pos hln, Out.bind_ok]
    dsimp only
    rw [vol_descriptors (k := 2) hl]
    have hw := subdirLoop_walk (c := n) n 1 _ [] _ (toRead_one hl) (owned_root hl)
    have hnp := subdirLoop_ne_panic (c := n) (img := img) n (subdirDescriptors ((dirEntries img 2 l).map fdOf)) []
      ((l.map fun c => volBlock img (UInt16.ofNat c)).foldl (fun m b => m.set b.block 2) [])
    have hcount := subdirLoop_count (c := n) (img := img) n 1 (subdirDescriptors ((dirEntries img 2 l).map fdOf)) []
      ((l.map fun c => volBlock img (UInt16.ofNat c)).foldl (fun m b => m.set b.block 2) [])
    cases hs : subdirLoop n n img (subdirDescriptors ((dirEntries img 2 l).map fdOf)) []
      ((l.map fun c => volBlock img (UInt16.ofNat c)).foldl (fun m b => m.set b.block 2) []) with
    | timeout => exact (congrArg (fun x => x >>= _) hs).trans rfl
    | panic => exact absurd hs hnp
    | err e =>
      obtain ⟨m, k, h1, h2⟩ := hw.2 (by rw [hs]; rfl)
      obtain ⟨l', hl'⟩ := allRead_dirs hM h1
      exact absurd hl' (h2.1 l')
    | ok r =>
      obtain ⟨m', h1, h2⟩ := hcount r (toRead_one hl) hs
      rcases Nat.lt_or_ge m' (M + 1) with hlt | hge
      · obtain ⟨k, _, ⟨q, hq⟩, _⟩ := toRead_before hM m' hlt
        cases toRead_unique h2 hq
      · omega
  · rw [if_neg hln]; rfl

/-- **C115: what reading a volume takes.**  If `M` subdirectories are read, where one counts as often as it is listed in what is read, some loop
takes at least `M` rounds; and if no parents go round in a circle, none takes more than the larger of `M` and the number of blocks. -/
theorem C115_rounds {img : Bytes} (hlen : img.length < 2 ^ 36) {M : Nat} (hM : ToRead img (M + 1) []) (hb : BitmapOnDevice img) :
    (∀ n, n < M → ∀ ord, readVolume n ord img 2 = .timeout) ∧
    ((∀ k, Subdir img k → ¬ EndlessUp img k) → ∀ n, M ≤ n → blockCount img ≤ n → ∀ ord, (readVolume n ord img 2).returns) := by
  refine ⟨fun n hn ord => needs_rounds hlen hM hb hn ord, fun hup n h1 h2 ord => ?_⟩
  refine returns_in_time hlen (Or.inl ⟨hM, Nat.succ_le_succ h1⟩) (fun m k hk hc => ?_) (fun _ => hup) h2 ord
  obtain ⟨l, hl⟩ := allRead_dirs hM hk
  exact endless_no_blocks hc.2 hl

/-- **C115 (partial).**  If every subdirectory is listed once, no directory's blocks go on for ever and no parents go round in a circle, then
every loop takes at most as many rounds as the device has blocks, whether the volume can be read or not.  (Missing: volumes that list a subdirectory twice.) -/
theorem C115_listed_once_partial {img : Bytes} (hlen : img.length < 2 ^ 36) (ho : ListedOnce img)
    (hch : ∀ k, DirOf img k → ¬ Endless img (nextOf img k)) (hup : ∀ k, Subdir img k → ¬ EndlessUp img k)
    {n : Nat} (hn : blockCount img ≤ n) (ord : RangeOrder UInt16 Subdirectory) :
    (readVolume n ord img 2).returns ∧ (seemsToMatch n ord img).isOk ∧ ∀ path, (Operator.catalog n ord ⟨img⟩ path).returns := by
  have hdir : ∀ m k, ComesTo img m k → DirOf img k := by
    rintro m k ⟨q, hq⟩
    rcases toRead_subdir hq k List.mem_cons_self with ⟨_, h⟩ | h
    · exact Or.inl h
    · exact Or.inr h
  have hne : ∀ m k, ComesTo img m k → ¬ (OnDevice img k ∧ Endless img (nextOf img k)) := fun m k hk hc => hch k (hdir m k hk) hc.2
  have hlast : ∃ m, ¬ ∃ k, ComesTo img m k := ⟨blockCount img + 1, fun ⟨k, q, hq⟩ => by have := toRead_le ho hq; omega⟩
  classical
  have hM : ∃ M, ToRead img M [] ∨ ∃ k, ComesTo img M k ∧ Broken img k := by
    have h1 := Nat.find_spec hlast
    cases hf : Nat.find hlast with
    | zero => rw [hf] at h1; exact absurd ⟨2, comesTo_zero img⟩ h1
    | succ m =>
      obtain ⟨k, hk⟩ := not_not.1 (Nat.find_min hlast (m := m) (by omega))
      by_cases hl : ∃ l, DirBlocks img k l
      · obtain ⟨l, hl⟩ := hl
        obtain ⟨q, hq⟩ := hk
        have hs := ToRead.step hq hl
        cases hqs : q ++ subdirKeys img k l with
        | nil => rw [hqs] at hs; exact ⟨m + 1, Or.inl hs⟩
        | cons k' q' => rw [hqs] at hs; rw [hf] at h1; exact absurd ⟨k', q', hs⟩ h1
      · exact ⟨m, Or.inr ⟨k, hk, not_exists.1 hl, hne m k hk⟩⟩
  obtain ⟨M, hM⟩ := hM
  have hMB : M ≤ blockCount img := by
    rcases hM with h | ⟨k, ⟨q, hq⟩, _⟩
    · exact toRead_le ho h
    · exact toRead_le ho hq
  have hr := returns_in_time (n := n) hlen (hM.imp (fun h => ⟨h, by omega⟩) fun h => ⟨by omega, h⟩) hne (fun _ => hup) hn ord
  refine ⟨hr, ?_, fun path => ?_⟩
  · unfold seemsToMatch
    cases hv : readVolume n ord img 2 <;> rw [hv] at hr <;> simp at hr ⊢
  · unfold Operator.catalog
    cases hv : readVolume n ord img 2 with
    | ok v =>
      rw [Out.bind_ok]
      split
      · rfl
      · split <;> rfl
    | err e => rfl
    | panic => rw [hv] at hr; simp at hr
    | timeout => rw [hv] at hr; simp at hr

end Verif.Prodos
