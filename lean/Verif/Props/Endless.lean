import Verif.Proofs.EndlessUp

/-!
# C47: exactly when reading a ProDOS volume never ends
-/

set_option autoImplicit false
set_option maxRecDepth 20000

namespace Verif.Prodos

open Verif Verif.Disk Verif.Spec Verif.Spec.Prodos

/-- Reading stops with an error before all directories have been read. -/
def Stops (img : Bytes) : Prop := ¬ OnDevice img 2 ∨ ¬ BitmapOnDevice img ∨ ∃ m k, ComesTo img m k ∧ Broken img k

theorem chain_err {img : Bytes} {n : Nat}
    (h : (chainLoop (unmarshalVolumeBlock img) VolumeDirectoryBlock.next n (volKey img 2).next).isErr) : Broken img 2 := by
  constructor
  · intro l hl
    rw [chainLoop_chain (reads_volume img) hl.2 n _ (volKey_next img 2)] at h
    split at h <;> simp at h
  · rintro ⟨_, h2⟩
    rw [chainLoop_endless (reads_volume img) n _ (by rw [volKey_next]; exact h2)] at h
    simp at h

theorem owned_zero (img : Bytes) : Owned img 0 [] := by
  intro b k
  refine ⟨fun h => (by cases h), ?_⟩
  rintro ⟨n, _, h, _⟩
  omega

theorem owned_root {img : Bytes} {l : List Nat} (h : DirBlocks img 2 l) :
    Owned img 1 ((l.map fun c => volBlock img (UInt16.ofNat c)).foldl (fun m b => m.set b.block 2) []) := by
  refine owned_step (k := 2) (owned_zero img) (comesTo_zero img) h fun x => ?_
  rw [foldl_get VolumeDirectoryBlock.block]
  have e : (∃ b ∈ l.map (fun c => volBlock img (UInt16.ofNat c)), b.block = x) ↔ x.toNat ∈ l := by
    constructor
    · rintro ⟨b, hb, rfl⟩
      obtain ⟨y, hy, rfl⟩ := List.mem_map.1 hb
      show (UInt16.ofNat y).toNat ∈ l
      rw [toNat_ofNat (h.2.all_lt (word_lt _ _ _) y hy)]; exact hy
    · intro hx
      refine ⟨_, List.mem_map.2 ⟨x.toNat, hx, rfl⟩, ?_⟩
      show UInt16.ofNat x.toNat = x
      simp
  by_cases hx : x.toNat ∈ l
  · rw [if_pos hx, if_pos (e.2 hx)]
  · rw [if_neg hx, if_neg fun c => hx (e.1 c)]

theorem toRead_one {img : Bytes} {l : List Nat} (h : DirBlocks img 2 l) :
    ToRead img 1 ((subdirDescriptors ((dirEntries img 2 l).map fdOf)).map fun d => d.keyPointer.toNat) := by
  rw [subdirKeys_eq]
  exact .step .start h

/-- What reading a volume comes to: it stops at something that can not be read, or time is up before all directories are read, or they are. -/
theorem readVolume_parts {img : Bytes} (hlen : img.length < 2 ^ 36) (n : Nat) :
    ((∃ e, ∀ ord, readVolume n ord img 2 = .err e) ∧ Stops img) ∨
    ((∀ ord, readVolume n ord img 2 = .timeout) ∧ OnDevice img 2 ∧ BitmapOnDevice img ∧
      (chainLoop (unmarshalVolumeBlock img) VolumeDirectoryBlock.next n (volKey img 2).next = .timeout ∨
        ∃ q bb f, ToRead img 1 (q.map fun d : FileDescriptor => d.keyPointer.toNat) ∧ subdirLoop n n img q bb f = .timeout)) ∨
    ∃ (bb : GoMap UInt16 Subdirectory) (f : GoMap UInt16 UInt16) (l : List Nat) (vbm : VolumeBitMap), BitmapOnDevice img ∧ AllRead img ∧ ReadAll img bb f ∧
      DirBlocks img 2 l ∧ ∀ ord, readVolume n ord img 2 = (nameLoop n 2 bb f (ord.visit bb) [] >>= fun m =>
        .ok ⟨volKey img 2, l.map fun c => volBlock img (UInt16.ofNat c), vbm, bb, m, f⟩) := by
  unfold readVolume
  by_cases ho : OnDevice img 2
  · simp only [unmarshalVolumeKey_eq img 2 ho, Out.bind_ok]
    have hb := readVolumeBitMap_returns hlen (volKey img 2).header.bitMapPointer
    have hbe := readVolumeBitMap_err hlen (volKey img 2).header.bitMapPointer
    rw [volKey_bitmap] at hbe
    cases hv : readVolumeBitMap img (volKey img 2).header.bitMapPointer with
    | err e =>
      refine Or.inl ⟨⟨e, fun _ => rfl⟩, Or.inr (Or.inl (hbe.1 (by rw [hv]; rfl)))⟩
    | panic => rw [hv] at hb; simp at hb
    | timeout => rw [hv] at hb; simp at hb
    | ok vbm =>
      have hbm : BitmapOnDevice img := by
        by_contra hc
        have := hbe.2 hc
        rw [hv] at this; simp at this
      simp only [Out.bind_ok]
      rcases chainLoop_cases (reads_volume img) n (volKey img 2).next with ⟨bs, h⟩ | h | ⟨h, _⟩
      · simp only [h, Out.bind_ok]
        obtain ⟨l, hl1, hl2⟩ := chainLoop_ok (reads_volume img) h
        rw [volKey_next] at hl1
        have hdb : DirBlocks img 2 l := ⟨ho, hl1⟩
        rw [hl2, vol_descriptors (k := 2) hdb]
        obtain ⟨q1, q2⟩ := volume_root img l hdb
        have hw := subdirLoop_walk (c := n) n 1 _ [] _ (toRead_one hdb) (owned_root hdb)
        have hnp := subdirLoop_ne_panic (c := n) (img := img) n (subdirDescriptors ((dirEntries img 2 l).map fdOf)) []
          ((l.map fun c => volBlock img (UInt16.ofNat c)).foldl (fun m b => m.set b.block 2) [])
        cases hs : subdirLoop n n img (subdirDescriptors ((dirEntries img 2 l).map fdOf)) []
          ((l.map fun c => volBlock img (UInt16.ofNat c)).foldl (fun m b => m.set b.block 2) []) with
        | err e =>
          refine Or.inl ⟨⟨e, fun _ => (congrArg (fun x => x >>= _) hs).trans rfl⟩, Or.inr (Or.inr (hw.2 (by rw [hs]; rfl)))⟩
        | panic => exact absurd hs hnp
        | timeout =>
          exact Or.inr (Or.inl ⟨fun _ => (congrArg (fun x => x >>= _) hs).trans rfl, ho, hbm, Or.inr ⟨_, _, _, toRead_one hdb, hs⟩⟩)
        | ok r =>
          obtain ⟨bb, f⟩ := r
          obtain ⟨M, hM, hown⟩ := hw.1 _ hs
          obtain ⟨k1, kc, _, k4⟩ := subdirLoop_ok q1 (known_root img l hdb) (fun k hk => by simp [GoMap.keys] at hk) hs
          have hcomp : Complete img bb f := ⟨k1, fun k hk => by
            induction hk with
            | single hc =>
              obtain ⟨d, hd, hdk⟩ := q2 _ hc
              exact ⟨_, k4 d hd, hdk⟩
            | tail _ hc ih =>
              obtain ⟨k', hk', rfl⟩ := ih
              rcases kc k' hk' _ hc with h | ⟨d, hd, _⟩
              · exact h
              · simp at hd⟩
          refine Or.inr (Or.inr ⟨bb, f, l, vbm, hbm, ⟨M, hM⟩, readAll_of hM hcomp hown, hdb, fun _ => ?_⟩)
          exact (congrArg (fun x => x >>= _) hs).trans rfl
      · simp only [h]
        exact Or.inl ⟨⟨_, fun _ => rfl⟩, Or.inr (Or.inr ⟨0, 2, comesTo_zero img, chain_err (by rw [h]; rfl)⟩)⟩
      · simp only [h]
        exact Or.inr (Or.inl ⟨fun _ => rfl, ho, hbm, Or.inl trivial⟩)
  · simp only [unmarshalVolumeKey_err img 2 ho]
    exact Or.inl ⟨⟨_, fun _ => rfl⟩, Or.inl ho⟩

theorem readVolume_split {img : Bytes} (hlen : img.length < 2 ^ 36) (n : Nat) (ord : RangeOrder UInt16 Subdirectory) :
    ((readVolume n ord img 2).isErr ∧ Stops img) ∨
    (readVolume n ord img 2 = .timeout ∧ OnDevice img 2 ∧ BitmapOnDevice img ∧
      (chainLoop (unmarshalVolumeBlock img) VolumeDirectoryBlock.next n (volKey img 2).next = .timeout ∨
        ∃ q bb f, ToRead img 1 (q.map fun d : FileDescriptor => d.keyPointer.toNat) ∧ subdirLoop n n img q bb f = .timeout)) ∨
    ∃ (bb : GoMap UInt16 Subdirectory) (f : GoMap UInt16 UInt16) (g : GoMap Str Subdirectory → Volume), BitmapOnDevice img ∧ AllRead img ∧ ReadAll img bb f ∧
      readVolume n ord img 2 = (nameLoop n 2 bb f (ord.visit bb) [] >>= fun m => .ok (g m)) := by
  rcases readVolume_parts hlen n with ⟨⟨e, h1⟩, h2⟩ | ⟨h1, h2⟩ | ⟨bb, f, l, vbm, h1, h2, h3, _, h4⟩
  · exact Or.inl ⟨by rw [h1]; rfl, h2⟩
  · exact Or.inr (Or.inl ⟨h1 ord, h2⟩)
  · exact Or.inr (Or.inr ⟨bb, f, _, h1, h2, h3, h4 ord⟩)

theorem stops_not_endless {img : Bytes} (h : Stops img) : ¬ EndlessReading img := by
  rintro ⟨h1, h2, h3⟩
  rcases h with h | h | ⟨m, k, hk, hbr⟩
  · exact h h2
  · exact h h1
  · rcases h3 with ⟨n, j, hj, ho, he⟩ | h3
    · rcases Nat.lt_trichotomy m n with hn | hn | hn
      · obtain ⟨q, hq⟩ := hj
        obtain ⟨k', l, hk', hl⟩ := toRead_before hq m hn
        rw [comesTo_unique hk hk'] at hbr
        exact hbr.1 l hl
      · subst hn
        rw [comesTo_unique hk hj] at hbr
        exact hbr.2 ⟨ho, he⟩
      · obtain ⟨q, hq⟩ := hk
        obtain ⟨k', l, hk', hl⟩ := toRead_before hq n hn
        rw [comesTo_unique hj hk'] at he
        exact endless_no_blocks he hl
    · obtain ⟨j, q, hq⟩ := h3 (m + 1)
      obtain ⟨k', l, hk', hl⟩ := toRead_before hq m (Nat.lt_succ_self m)
      rw [comesTo_unique hk hk'] at hbr
      exact hbr.1 l hl

theorem allRead_not {img : Bytes} (h : AllRead img) : ¬ EndlessReading img ∧ ¬ ∃ m k, ComesTo img m k ∧ Broken img k := by
  obtain ⟨M, hM⟩ := h
  have key : ∀ n k, ComesTo img n k → ∃ l, DirBlocks img k l := by
    rintro n k hk
    obtain ⟨q, hq⟩ := hk
    rcases Nat.lt_trichotomy n M with hn | hn | hn
    · obtain ⟨k', l, hk', hl⟩ := toRead_before hM n hn
      rw [comesTo_unique ⟨q, hq⟩ hk']
      exact ⟨l, hl⟩
    · subst hn; cases toRead_unique hM hq
    · obtain ⟨k', _, ⟨q', hq'⟩, _⟩ := toRead_before hq M hn
      cases toRead_unique hM hq'
  refine ⟨?_, fun ⟨m, k, h1, h2⟩ => by obtain ⟨l, hl⟩ := key m k h1; exact h2.1 l hl⟩
  rintro ⟨_, _, ⟨n, k, hk, _, he⟩ | h⟩
  · obtain ⟨l, hl⟩ := key n k hk
    exact endless_no_blocks he hl
  · obtain ⟨k, q, hq⟩ := h M
    cases toRead_unique hM hq

/-- If going through the directories is not endless, it is over once there is time enough. -/
theorem reading_ends {img : Bytes} (hlen : img.length < 2 ^ 36) (h : ¬ EndlessReading img) : ∃ n₀, ∀ n, n₀ ≤ n → ∀ ord,
    ((readVolume n ord img 2).isErr ∧ Stops img) ∨
    ∃ (bb : GoMap UInt16 Subdirectory) (f : GoMap UInt16 UInt16) (g : GoMap Str Subdirectory → Volume), BitmapOnDevice img ∧ AllRead img ∧ ReadAll img bb f ∧
      readVolume n ord img 2 = (nameLoop n 2 bb f (ord.visit bb) [] >>= fun m => .ok (g m)) := by
  classical
  by_cases hp : OnDevice img 2 ∧ BitmapOnDevice img
  · have hne : ∀ n k, ComesTo img n k → ¬ (OnDevice img k ∧ Endless img (nextOf img k)) :=
      fun n k hk hc => h ⟨hp.2, hp.1, Or.inl ⟨n, k, hk, hc⟩⟩
    have hlast : ∃ n, ¬ ∃ k, ComesTo img n k := not_forall.1 fun hc => h ⟨hp.2, hp.1, Or.inr hc⟩
    have hM : ∃ M, ToRead img M [] ∨ ∃ k, ComesTo img M k ∧ Broken img k := by
      have h1 := Nat.find_spec hlast
      cases hf : Nat.find hlast with
      | zero => rw [hf] at h1; exact absurd ⟨2, comesTo_zero img⟩ h1
      | succ m =>
        obtain ⟨k, hk⟩ := not_not.1 (Nat.find_min hlast (m := m) (by omega))
        by_cases hl : ∃ l, DirBlocks img k l
        · obtain ⟨l, hl⟩ := hl
          obtain ⟨q, hq⟩ := hk
          have hs := ToRead.step hq hl
          cases hqs : q ++ subdirKeys img k l with
          | nil => rw [hqs] at hs; exact ⟨m + 1, Or.inl hs⟩
          | cons k' q' => rw [hqs] at hs; rw [hf] at h1; exact absurd ⟨k', q', hs⟩ h1
        · exact ⟨m, Or.inr ⟨k, hk, not_exists.1 hl, hne m k hk⟩⟩
    obtain ⟨M, hM⟩ := hM
    obtain ⟨nv, hnv⟩ := chainLoop_terminates (reads_volume img) (volKey img 2).next
      (by rw [volKey_next]; exact fun hc => hne 0 2 (comesTo_zero img) ⟨hp.1, hc⟩)
    obtain ⟨nc, hnc⟩ := eventually_all (fun m c => ∀ k, ComesTo img m k → ∀ fd : FileDescriptor, fd.keyPointer.toNat = k →
        (readSubdirectory c img fd).returns) (M + 1) (fun m _ => by
      by_cases hk : ∃ k, ComesTo img m k
      · obtain ⟨k, hk⟩ := hk
        have hlt : k < 65536 := by
          obtain ⟨q, hq⟩ := hk
          rcases toRead_subdir hq k List.mem_cons_self with ⟨_, rfl⟩ | h
          · omega
          · exact Subdir.lt h
        by_cases ho : OnDevice img k
        · obtain ⟨n₀, h0⟩ := readSubdirectory_terminates (img := img) (k := UInt16.ofNat k)
            (by rw [toNat_ofNat hlt]; exact fun hc => hne m k hk ⟨ho, hc⟩)
          refine ⟨n₀, fun n hn k' hk' fd hfd => h0 n hn fd ?_⟩
          rw [← comesTo_unique hk hk'] at hfd
          rw [← hfd]; simp
        · refine ⟨0, fun n _ k' hk' fd hfd => ?_⟩
          rw [← comesTo_unique hk hk'] at hfd
          unfold readSubdirectory
          rw [unmarshalSubdirKey_err _ _ (by rw [hfd]; exact ho)]
          rfl
      · exact ⟨0, fun n _ k' hk' => absurd ⟨k', hk'⟩ hk⟩)
    refine ⟨nv + nc + M + 1, fun n hn ord => ?_⟩
    rcases readVolume_split hlen n ord with h1 | ⟨_, _, _, h2 | ⟨q, bb, f, h2, h3⟩⟩ | h1
    · exact Or.inl h1
    · exact absurd h2 (hnv n (by omega))
    · have := subdirLoop_ends (c := n) hM (fun m k hm hk fd hfd => hnc m (by omega) n (by omega) k hk fd hfd) n 1 q bb f h2 (by omega)
      rw [h3] at this; simp at this
    · exact Or.inr h1
  · refine ⟨0, fun n _ ord => ?_⟩
    rcases readVolume_split hlen n ord with h1 | ⟨_, h2, h3, _⟩ | ⟨bb, f, g, h2, ⟨M, hM⟩, h3, h4⟩
    · exact Or.inl h1
    · exact absurd ⟨h2, h3⟩ hp
    · exact Or.inr ⟨bb, f, g, h2, ⟨M, hM⟩, h3, h4⟩

/-! ## Names -/

theorem parentDirName_two_ne_panic (n : Nat) (bb : GoMap UInt16 Subdirectory) (f : GoMap UInt16 UInt16) (p : UInt16) : parentDirName n p 2 bb f ≠ .panic := by
  induction n generalizing p with
  | zero =>
    rw [parentDirName]
    split
    · simp
    · split <;> simp
  | succ n ih =>
    rw [parentDirName]
    split
    · simp
    · split
      · simp
      · rename_i sd _
        have := ih sd.keyBlock.header.parentPointer
        dsimp only
        cases hr : parentDirName n sd.keyBlock.header.parentPointer 2 bb f with
        | ok r => rw [Out.bind_ok, joinPath_eq]; simp
        | err e => simp
        | timeout => simp
        | panic => exact absurd hr this

theorem nameLoop_two_ne_panic (n : Nat) (bb : GoMap UInt16 Subdirectory) (f : GoMap UInt16 UInt16) (l : List (UInt16 × Subdirectory))
    (m : GoMap Str Subdirectory) : nameLoop n 2 bb f l m ≠ .panic := by
  induction l generalizing m with
  | nil => simp [nameLoop]
  | cons e l ih =>
    rw [nameLoop_cons]
    unfold pathName
    have := parentDirName_two_ne_panic n bb f e.2.keyBlock.header.parentPointer
    cases hr : parentDirName n e.2.keyBlock.header.parentPointer 2 bb f with
    | ok r => exact ih _
    | err e => simp
    | timeout => simp
    | panic => exact absurd hr this

theorem parentDirName_err {img : Bytes} {bb : GoMap UInt16 Subdirectory} {f : GoMap UInt16 UInt16} (hr : ReadAll img bb f) (n : Nat) :
    ∀ (k : Nat) (p : UInt16), p.toNat = parentPointer img k → (parentDirName n p 2 bb f).isErr → Lost img k := by
  induction n with
  | zero =>
    intro k p hp h
    rw [parentDirName] at h
    by_cases ht : AtTop img k
    · rw [if_pos ((atTop_iff hr hp).2 ht)] at h; simp at h
    · rw [if_neg fun c => ht ((atTop_iff hr hp).1 c)] at h
      cases hf : findParent bb f p with
      | none => exact ⟨k, .refl, ht, findParent_none hr hp hf⟩
      | some sd => rw [hf] at h; simp at h
  | succ n ih =>
    intro k p hp h
    rw [parentDirName] at h
    by_cases ht : AtTop img k
    · rw [if_pos ((atTop_iff hr hp).2 ht)] at h; simp at h
    · rw [if_neg fun c => ht ((atTop_iff hr hp).1 c)] at h
      cases hf : findParent bb f p with
      | none => exact ⟨k, .refl, ht, findParent_none hr hp hf⟩
      | some sd =>
        rw [hf] at h
        obtain ⟨x, l, hx, hl, rfl⟩ := findParent_some hr hp ht hf
        dsimp only at h
        refine (lost_iff hx).2 (ih x.toNat (subOf img x l).keyBlock.header.parentPointer (subKey_parent img x) ?_)
        cases hq : parentDirName n (subOf img x l).keyBlock.header.parentPointer 2 bb f with
        | ok r => rw [hq, Out.bind_ok, joinPath_eq] at h; simp at h
        | err e => rfl
        | timeout => rw [hq] at h; simp at h
        | panic => rw [hq] at h; simp at h

theorem nameLoop_err {n : Nat} {bb : GoMap UInt16 Subdirectory} {f : GoMap UInt16 UInt16} {l : List (UInt16 × Subdirectory)}
    {m : GoMap Str Subdirectory} (h : (nameLoop n 2 bb f l m).isErr) :
    ∃ e ∈ l, (parentDirName n e.2.keyBlock.header.parentPointer 2 bb f).isErr := by
  by_contra hc
  have := nameLoop_no_err (n := n) (bb := bb) (f := f) (l := l) (fun e he => by
    cases hx : (parentDirName n e.2.keyBlock.header.parentPointer 2 bb f).isErr with
    | false => rfl
    | true => exact absurd ⟨e, he, hx⟩ hc) m
  rw [this] at h
  cases h

/-- The order that visits one entry before all others. -/
def first (e : UInt16 × Subdirectory) : RangeOrder UInt16 Subdirectory where
  visit m := if e ∈ m then e :: m.erase e else m
  perm m := by
    split
    · rename_i h; exact (List.perm_cons_erase h).symm
    · exact .refl _

theorem first_visit {e : UInt16 × Subdirectory} {m : GoMap UInt16 Subdirectory} (h : e ∈ m) : (first e).visit m = e :: m.erase e := by
  unfold first
  dsimp only
  rw [if_pos h]

/-- The entry of a subdirectory, the same whenever all directories have been read. -/
theorem entry_of {img : Bytes} {k : Nat} (hs : Subdir img k) : ∃ e : UInt16 × Subdirectory, e.1.toNat = k ∧
    (e.2.keyBlock.header.parentPointer.toNat = parentPointer img k) ∧ ∀ bb f, ReadAll img bb f → e ∈ bb := by
  by_cases h : ∃ l, DirBlocks img k l
  · obtain ⟨l, hl⟩ := h
    have hk : (UInt16.ofNat k).toNat = k := toNat_ofNat (Subdir.lt hs)
    refine ⟨(UInt16.ofNat k, subOf img (UInt16.ofNat k) l), hk, (subKey_parent img _).trans (by rw [hk]), fun bb f hr => ?_⟩
    obtain ⟨s, hx⟩ := (get_subdir hr (UInt16.ofNat k)).2 (by rw [hk]; exact hs)
    obtain ⟨_, l', h2, h3⟩ := hr.complete.sound _ s hx
    rw [hk] at h2
    rw [h2.unique hl] at h3
    rw [← h3]
    exact GoMap.mem_of_get? hx
  · have hk : (UInt16.ofNat k).toNat = k := toNat_ofNat (Subdir.lt hs)
    refine ⟨(UInt16.ofNat k, subOf img (UInt16.ofNat k) []), hk, (subKey_parent img _).trans (by rw [hk]), fun bb f hr => ?_⟩
    obtain ⟨s, hx⟩ := (get_subdir hr (UInt16.ofNat k)).2 (by rw [hk]; exact hs)
    obtain ⟨_, l', h2, h3⟩ := hr.complete.sound _ s hx
    rw [hk] at h2
    exact absurd ⟨l', h2⟩ h

theorem allRead_not_stops {img : Bytes} (h : AllRead img) (hb : BitmapOnDevice img) : ¬ Stops img := by
  rintro (h1 | h1 | h1)
  · obtain ⟨M, hM⟩ := h
    cases M with
    | zero => cases toRead_unique hM .start
    | succ M =>
      obtain ⟨k, l, hk, hl⟩ := toRead_before hM 0 (Nat.succ_pos M)
      rw [← comesTo_unique (comesTo_zero img) hk] at hl
      exact h1 hl.1
  · exact h1 hb
  · exact (allRead_not h).2 h1

theorem endlessReading_hangs {img : Bytes} (hlen : img.length < 2 ^ 36) (h : EndlessReading img) (n : Nat) (ord : RangeOrder UInt16 Subdirectory) :
    readVolume n ord img 2 = .timeout := by
  rcases readVolume_split hlen n ord with ⟨_, h1⟩ | ⟨h1, _⟩ | ⟨_, _, _, _, h1, _⟩
  · exact absurd h (stops_not_endless h1)
  · exact h1
  · exact absurd h (allRead_not h1).1

/-- If all directories are read and no parents go on for ever, reading ends. -/
theorem readVolume_settles {img : Bytes} (hlen : img.length < 2 ^ 36) (h : ¬ EndlessReading img)
    (hu : AllRead img → ∀ k, Subdir img k → ¬ EndlessUp img k) : ∃ n₀, ∀ n, n₀ ≤ n → ∀ ord, (readVolume n ord img 2).returns := by
  obtain ⟨n₁, h1⟩ := reading_ends hlen h
  by_cases har : AllRead img
  · obtain ⟨n₂, h2⟩ := eventually_all (fun k n => Subdir img k → ∀ bb f, ReadAll img bb f → ∀ p : UInt16,
        p.toNat = parentPointer img k → (parentDirName n p 2 bb f).returns) 65536 (fun k _ => by
      by_cases hs : Subdir img k
      · obtain ⟨n₀, h0⟩ := parentDirName_settles img k hs (hu har k hs)
        refine ⟨n₀, fun n hn _ bb f hr p hp => ?_⟩
        obtain ⟨a, b⟩ := h0 n hn bb f hr p hp
        by_cases hl : Lost img k
        · have := a hl
          cases hx : parentDirName n p 2 bb f <;> rw [hx] at this <;> simp at this ⊢
        · have := b hl
          cases hx : parentDirName n p 2 bb f <;> rw [hx] at this <;> simp at this ⊢
      · exact ⟨0, fun n _ h => absurd h hs⟩)
    refine ⟨n₁ + n₂, fun n hn ord => ?_⟩
    rcases h1 n (by omega) ord with ⟨he, _⟩ | ⟨bb, f, g, _, _, hr, e⟩
    · cases hx : readVolume n ord img 2 <;> rw [hx] at he <;> simp at he ⊢
    · rw [e]
      have := nameLoop_returns (n := n) (bb := bb) (f := f) (l := ord.visit bb) (fun x hx => by
        obtain ⟨a, l, b, c⟩ := hr.complete.toKnown.mem (mem_visit.1 hx)
        rw [c]
        exact h2 x.1.toNat (Subdir.lt a) n (by omega) a bb f hr _ (subKey_parent img x.1)) []
      cases hx : nameLoop n 2 bb f (ord.visit bb) [] <;> rw [hx] at this <;> simp at this ⊢
  · refine ⟨n₁, fun n hn ord => ?_⟩
    rcases h1 n hn ord with ⟨he, _⟩ | ⟨bb, f, g, _, ha, _⟩
    · cases hx : readVolume n ord img 2 <;> rw [hx] at he <;> simp at he ⊢
    · exact absurd ha har

/-- C47: there is an order of visiting maps in which reading a volume never ends exactly if going through its directories never ends, or it does and then the
parent pointers of some subdirectory lead round in a circle. -/
theorem C47_can_be_endless {img : Bytes} (hlen : img.length < 2 ^ 36) :
    (∃ ord, ∀ n, readVolume n ord img 2 = .timeout) ↔
      EndlessReading img ∨ BitmapOnDevice img ∧ AllRead img ∧ ∃ k, Subdir img k ∧ EndlessUp img k := by
  constructor
  · rintro ⟨ord, h⟩
    by_cases he : EndlessReading img
    · exact Or.inl he
    right
    have hu : AllRead img ∧ ∃ k, Subdir img k ∧ EndlessUp img k := by
      by_contra hc
      obtain ⟨n₀, h0⟩ := readVolume_settles hlen he fun ha k hk hek => hc ⟨ha, k, hk, hek⟩
      have := h0 n₀ (Nat.le_refl _) ord
      rw [h] at this; simp at this
    refine ⟨?_, hu⟩
    obtain ⟨n₁, h1⟩ := reading_ends hlen he
    rcases h1 n₁ (Nat.le_refl _) ord with ⟨h2, _⟩ | ⟨_, _, _, hb, _⟩
    · rw [h] at h2; simp at h2
    · exact hb
  · rintro (h | ⟨hb, ha, k, hk, hek⟩)
    · exact ⟨.stored, fun n => endlessReading_hangs hlen h n _⟩
    · obtain ⟨e, _, h2, h3⟩ := entry_of hk
      refine ⟨first e, fun n => ?_⟩
      rcases readVolume_split hlen n (first e) with ⟨_, hs⟩ | ⟨h1, _⟩ | ⟨bb, f, g, _, _, hr, h1⟩
      · exact absurd hs (allRead_not_stops ha hb)
      · exact h1
      · rw [h1, first_visit (h3 bb f hr), nameLoop_cons]
        unfold pathName
        rw [parentDirName_endless hr n k _ hek h2]
        rfl

/-- C47: reading a volume never ends, in whatever order maps are visited, exactly if going through its directories never ends, or it does and then the parent
pointers of some subdirectory lead round in a circle while those of no subdirectory lead to no directory. -/
theorem C47_is_endless {img : Bytes} (hlen : img.length < 2 ^ 36) :
    (∀ ord n, readVolume n ord img 2 = .timeout) ↔
      EndlessReading img ∨ BitmapOnDevice img ∧ AllRead img ∧ (∃ k, Subdir img k ∧ EndlessUp img k) ∧ ¬ ∃ k, Subdir img k ∧ Lost img k := by
  constructor
  · intro h
    rcases (C47_can_be_endless hlen).1 ⟨.stored, h _⟩ with he | ⟨hb, ha, hu⟩
    · exact Or.inl he
    · refine Or.inr ⟨hb, ha, hu, ?_⟩
      rintro ⟨k, hk, hl⟩
      obtain ⟨e, _, h2, h3⟩ := entry_of hk
      obtain ⟨n₁, h1⟩ := reading_ends hlen (allRead_not ha).1
      obtain ⟨n₂, hn₂⟩ := parentDirName_settles img k hk (lost_not_endless hl)
      rcases h1 (n₁ + n₂) (by omega) (first e) with ⟨h4, _⟩ | ⟨bb, f, g, _, _, hr, h4⟩
      · rw [h] at h4; simp at h4
      · rw [h, first_visit (h3 bb f hr), nameLoop_cons] at h4
        unfold pathName at h4
        have := (hn₂ (n₁ + n₂) (by omega) bb f hr _ h2).1 hl
        cases hx : parentDirName (n₁ + n₂) e.2.keyBlock.header.parentPointer 2 bb f <;> rw [hx] at this h4 <;> simp at this h4
  · rintro (h | ⟨hb, ha, ⟨k, hk, hek⟩, hnl⟩) ord n
    · exact endlessReading_hangs hlen h n ord
    · rcases readVolume_split hlen n ord with ⟨_, hs⟩ | ⟨h1, _⟩ | ⟨bb, f, g, _, _, hr, h1⟩
      · exact absurd hs (allRead_not_stops ha hb)
      · exact h1
      · rw [h1]
        cases hx : nameLoop n 2 bb f (ord.visit bb) [] with
        | timeout => rfl
        | panic => exact absurd hx (nameLoop_two_ne_panic _ _ _ _ _)
        | err e =>
          obtain ⟨x, hx, he⟩ := nameLoop_err (by rw [hx]; rfl)
          obtain ⟨a, l, b, c⟩ := hr.complete.toKnown.mem (mem_visit.1 hx)
          rw [c] at he
          exact absurd ⟨x.1.toNat, a, parentDirName_err hr n _ _ (subKey_parent img x.1) he⟩ hnl
        | ok m =>
          obtain ⟨e, _, h2, h3⟩ := entry_of hk
          obtain ⟨p, hp⟩ := (nameLoop_ok hx).1 e (mem_visit.2 (h3 bb f hr))
          unfold pathName at hp
          rw [parentDirName_endless hr n k _ hek h2] at hp
          cases hp

theorem mem_subdirKeys {img : Bytes} {k j : Nat} {l : List Nat} (hl : DirBlocks img k l) : j ∈ subdirKeys img k l ↔ Child img k j := by
  rw [← subdirKeys_eq]
  constructor
  · intro h
    obtain ⟨d, hd, rfl⟩ := List.mem_map.1 h
    exact subdirDescriptors_mem hl d hd
  · intro h
    obtain ⟨d, hd, hj⟩ := mem_subdirDescriptors hl h
    exact List.mem_map.2 ⟨d, hd, hj⟩

theorem comes_up {img : Bytes} (H : ∀ n, ∃ k, ComesTo img n k) {x : Nat} (a : List Nat) : ∀ (m : Nat) (b : List Nat), ToRead img m (a ++ x :: b) → ∃ n, ComesTo img n x := by
  induction a with
  | nil => intro m b h; exact ⟨m, b, h⟩
  | cons y a ih =>
    intro m b h
    obtain ⟨k, q, hq⟩ := H (m + 1)
    obtain ⟨k', l, hk', hl⟩ := toRead_before hq m (Nat.lt_succ_self m)
    rw [← comesTo_unique ⟨_, h⟩ hk'] at hl
    rw [List.cons_append] at h
    have := ToRead.step h hl
    rw [List.append_assoc, List.cons_append] at this
    exact ih (m + 1) _ this

/-- C47: there is always another directory to read exactly if all can be read and one is, or has below it, a directory above itself. -/
theorem C47_always_another (img : Bytes) : (∀ n, ∃ k, ComesTo img n k) ↔
    (∀ k, k = 2 ∨ Subdir img k → ∃ l, DirBlocks img k l) ∧ ∃ k, Subdir img k ∧ Relation.TransGen (Child img) k k := by
  constructor
  · intro H
    have whole : ∀ n k, ComesTo img n k → ∃ l, DirBlocks img k l := by
      intro n k hk
      obtain ⟨_, q, hq⟩ := H (n + 1)
      obtain ⟨k', l, hk', hl⟩ := toRead_before hq n (Nat.lt_succ_self n)
      rw [comesTo_unique hk hk']
      exact ⟨l, hl⟩
    have next : ∀ n k j, ComesTo img n k → Child img k j → ∃ m, ComesTo img m j := by
      intro n k j hk hj
      obtain ⟨l, hl⟩ := whole n k hk
      obtain ⟨q, hq⟩ := hk
      obtain ⟨a, b, hab⟩ := List.append_of_mem ((mem_subdirKeys hl).2 hj)
      have := ToRead.step hq hl
      rw [hab, ← List.append_assoc] at this
      exact comes_up H _ _ _ this
    have all : ∀ k, k = 2 ∨ Subdir img k → ∃ n, ComesTo img n k := by
      rintro k (rfl | h)
      · exact ⟨0, comesTo_zero img⟩
      · induction h with
        | single h => exact next 0 2 _ (comesTo_zero img) h
        | tail _ h ih => obtain ⟨n, hn⟩ := ih; exact next n _ _ hn h
    refine ⟨fun k hk => by obtain ⟨n, hn⟩ := all k hk; exact whole n k hn, ?_⟩
    by_contra hac
    obtain ⟨w, hw⟩ := weight_exists (img := img) fun k hk hc => hac ⟨k, hk, hc⟩
    have key : ∀ m q, ToRead img m q → 0 < m → m + (q.map w).sum = 1 + ((kids img 2).map w).sum := by
      intro m q h
      induction h with
      | start => intro h; omega
      | @step n k q l h1 h2 ih =>
        intro _
        by_cases hn : n = 0
        · subst hn
          have e := toRead_unique h1 .start
          injection e with e1 e2
          subst e1; subst e2
          rw [List.nil_append, kids_eq h2, subdirKeys_eq]
        · have := ih (by omega)
          rcases toRead_subdir h1 k List.mem_cons_self with ⟨h0, _⟩ | hs
          · omega
          · have hk := hw k hs
            rw [kids_eq h2, subdirKeys_eq] at hk
            rw [List.map_cons, List.sum_cons] at this
            rw [List.map_append, List.sum_append]
            omega
    obtain ⟨k, q, hq⟩ := H (1 + ((kids img 2).map w).sum + 1)
    have := key _ _ hq (by omega)
    omega
  · rintro ⟨hwh, c, hc, hcc⟩
    have inv : ∀ m q, ToRead img m q → ∃ d ∈ q, Relation.ReflTransGen (Child img) d c := by
      intro m q h
      induction h with
      | start => exact ⟨2, List.mem_singleton.2 rfl, hc.to_reflTransGen⟩
      | @step n k q l h1 h2 ih =>
        obtain ⟨d, hd, hdc⟩ := ih
        rcases List.mem_cons.1 hd with rfl | hd
        · have : Relation.TransGen (Child img) d c := Relation.TransGen.trans_right hdc hcc
          obtain ⟨j, hj, hjc⟩ := Relation.TransGen.head'_iff.1 this
          exact ⟨j, List.mem_append_right _ ((mem_subdirKeys h2).2 hj), hjc⟩
        · exact ⟨d, List.mem_append_left _ hd, hdc⟩
    intro n
    induction n with
    | zero => exact ⟨2, comesTo_zero img⟩
    | succ n ih =>
      obtain ⟨k, q, hq⟩ := ih
      obtain ⟨l, hl⟩ : ∃ l, DirBlocks img k l := hwh k (by
        rcases toRead_subdir hq k List.mem_cons_self with ⟨_, h⟩ | h
        · exact Or.inl h
        · exact Or.inr h)
      have hs := ToRead.step hq hl
      obtain ⟨d, hd, _⟩ := inv _ _ hs
      cases hqs : q ++ subdirKeys img k l with
      | nil => rw [hqs] at hd; cases hd
      | cons k' q' => rw [hqs] at hs; exact ⟨k', q', hs⟩

end Verif.Prodos
