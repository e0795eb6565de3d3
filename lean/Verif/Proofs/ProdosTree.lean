import Verif.Proofs.ProdosVolume

/-!
# The subdirectories of a ProDOS volume
-/

set_option autoImplicit false
set_option maxRecDepth 20000

namespace Verif.Prodos

open Verif Verif.Disk Verif.Spec Verif.Spec.Prodos

theorem subKey_parent (img : Bytes) (k : UInt16) :
    (subKey img k).header.parentPointer.toNat = parentPointer img k.toNat := rd16_word _ _ _

theorem subKey_name {img : Bytes} {k : UInt16} (h : OnDevice img k.toNat) :
    (subKey img k).header.name = headerName img k.toNat := by
  have hl := blockAt_length h
  show (rdVec 15 (blockAt img k.toNat) 5).toList.take (at8 (blockAt img k.toNat) 4 &&& 0xf).toNat = nameOf (recordAt img k.toNat 4)
  rw [and15, take_rdVec 15 5 _ _ (by omega) (by omega)]
  unfold nameOf recordAt
  have h0 : (((blockAt img k.toNat).drop 4).take 39).getD 0 0 = at8 (blockAt img k.toNat) 4 :=
    at8_record (blockAt img k.toNat) 4 0 (by omega)
  rw [h0, List.drop_take, List.take_take, List.drop_drop, Nat.min_eq_left (by omega)]

/-- What holds of the maps filled while a volume is read. -/
structure Known (img : Bytes) (byBlock : GoMap UInt16 Subdirectory) (first : GoMap UInt16 UInt16) : Prop where
  nodup : byBlock.keys.Nodup
  sound : ∀ k s, byBlock.get? k = some s →
    Subdir img k.toNat ∧ ∃ l, DirBlocks img k.toNat l ∧ s = subOf img k l
  first : ∀ b k, first.get? b = some k →
    (k.toNat = 2 ∨ Subdir img k.toNat) ∧ ∃ l, DirBlocks img k.toNat l ∧ b.toNat ∈ l

theorem foldl_first {β : Type} (f : β → UInt16) (K : UInt16) (bs : List β) (m : GoMap UInt16 UInt16) (x k : UInt16)
    (h : (bs.foldl (fun m b => m.set (f b) K) m).get? x = some k) :
    (k = K ∧ ∃ b ∈ bs, f b = x) ∨ m.get? x = some k := by
  induction bs generalizing m with
  | nil => exact Or.inr h
  | cons b bs ih =>
    rcases ih _ h with ⟨h1, c, hc, h2⟩ | h
    · exact Or.inl ⟨h1, c, List.mem_cons_of_mem _ hc, h2⟩
    · rw [GoMap.get?_set] at h
      by_cases hx : x = f b
      · rw [if_pos hx] at h
        exact Or.inl ⟨(Option.some.inj h).symm, b, List.mem_cons_self, hx.symm⟩
      · rw [if_neg hx] at h; exact Or.inr h

/-- Everything below the directories already read is read or waiting in `q`. -/
def Closed (img : Bytes) (byBlock : GoMap UInt16 Subdirectory) (q : List FileDescriptor) : Prop :=
  ∀ k ∈ byBlock.keys, ∀ j, Child img k.toNat j →
    (∃ k' ∈ byBlock.keys, k'.toNat = j) ∨ ∃ d ∈ q, d.keyPointer.toNat = j

theorem Subdir.child {img : Bytes} {k j : Nat} (h : Subdir img k) (hc : Child img k j) : Subdir img j :=
  Relation.TransGen.tail h hc

theorem subdirLoop_ok {c n : Nat} {img : Bytes} {q : List FileDescriptor} {bb bb' : GoMap UInt16 Subdirectory}
    {f f' : GoMap UInt16 UInt16} (hq : ∀ d ∈ q, Subdir img d.keyPointer.toNat) (hk : Known img bb f)
    (hcl : Closed img bb q) (h : subdirLoop c n img q bb f = .ok (bb', f')) :
    Known img bb' f' ∧ Closed img bb' [] ∧ (∀ k ∈ bb.keys, k ∈ bb'.keys) ∧ ∀ d ∈ q, d.keyPointer ∈ bb'.keys := by
  induction n generalizing q bb f with
  | zero =>
    cases q with
    | nil =>
      rw [subdirLoop] at h
      simp only [Out.ok.injEq, Prod.mk.injEq] at h
      obtain ⟨rfl, rfl⟩ := h
      exact ⟨hk, hcl, fun _ h => h, fun _ h => by simp at h⟩
    | cons d q => rw [subdirLoop] at h; simp at h
  | succ n ih =>
    cases q with
    | nil =>
      rw [subdirLoop] at h
      simp only [Out.ok.injEq, Prod.mk.injEq] at h
      obtain ⟨rfl, rfl⟩ := h
      exact ⟨hk, hcl, fun _ h => h, fun _ h => by simp at h⟩
    | cons d q =>
      rw [subdirLoop, Out.bind_eq_ok] at h
      obtain ⟨s, hs, h⟩ := h
      obtain ⟨l, hl, rfl⟩ := readSubdirectory_ok hs
      have hd : Subdir img d.keyPointer.toNat := hq d List.mem_cons_self
      rw [subOf_descriptors hl] at h
      have hq' : ∀ e ∈ q ++ subdirDescriptors ((dirEntries img d.keyPointer.toNat l).map fdOf),
          Subdir img e.keyPointer.toNat := by
        intro e he
        rcases List.mem_append.1 he with he | he
        · exact hq e (List.mem_cons_of_mem _ he)
        · exact Subdir.child hd (subdirDescriptors_mem hl e he)
      have hk' : Known img (bb.set d.keyPointer (subOf img d.keyPointer l))
          ((subOf img d.keyPointer l).blocks.foldl (fun m b => m.set b.block d.keyPointer) f) := by
        refine ⟨GoMap.nodup_set hk.nodup _ _, fun k s h => ?_, fun b k h => ?_⟩
        · rw [GoMap.get?_set] at h
          by_cases hk0 : k = d.keyPointer
          · rw [if_pos hk0] at h
            subst hk0
            exact ⟨hd, l, hl, (Option.some.inj h).symm⟩
          · rw [if_neg hk0] at h
            exact hk.sound k s h
        · rcases foldl_first SubdirectoryBlock.block _ _ _ _ _ h with ⟨rfl, x, hx, he⟩ | h
          · obtain ⟨y, hy, rfl⟩ := List.mem_map.1 hx
            refine ⟨Or.inr hd, l, hl, ?_⟩
            rw [← he]
            show (UInt16.ofNat y).toNat ∈ l
            rw [toNat_ofNat (hl.2.all_lt (word_lt _ _ _) y hy)]; exact hy
          · exact hk.first b k h
      have hcl' : Closed img (bb.set d.keyPointer (subOf img d.keyPointer l))
          (q ++ subdirDescriptors ((dirEntries img d.keyPointer.toNat l).map fdOf)) := by
        intro k hk0 j hj
        rw [GoMap.keys_set] at hk0
        rcases hk0 with rfl | hk0
        · obtain ⟨e, he, hej⟩ := mem_subdirDescriptors hl hj
          exact Or.inr ⟨e, List.mem_append_right _ he, hej⟩
        · rcases hcl k hk0 j hj with ⟨k', hk', rfl⟩ | ⟨e, he, rfl⟩
          · exact Or.inl ⟨k', (GoMap.keys_set _ _ _ _).2 (Or.inr hk'), rfl⟩
          · rcases List.mem_cons.1 he with rfl | he
            · exact Or.inl ⟨e.keyPointer, (GoMap.keys_set _ _ _ _).2 (Or.inl rfl), rfl⟩
            · exact Or.inr ⟨e, List.mem_append_left _ he, rfl⟩
      obtain ⟨r1, r2, r3, r4⟩ := ih hq' hk' hcl' h
      refine ⟨r1, r2, fun k hk0 => r3 k ((GoMap.keys_set _ _ _ _).2 (Or.inr hk0)), fun e he => ?_⟩
      rcases List.mem_cons.1 he with rfl | he
      · exact r3 _ ((GoMap.keys_set _ _ _ _).2 (Or.inl rfl))
      · exact r4 e (List.mem_append_left _ he)

/-- The maps hold exactly the subdirectories of the volume. -/
structure Complete (img : Bytes) (byBlock : GoMap UInt16 Subdirectory) (first : GoMap UInt16 UInt16) : Prop
    extends Known img byBlock first where
  all : ∀ k, Subdir img k → ∃ k' ∈ byBlock.keys, k'.toNat = k

/-! ## Names -/

theorem findParent_sound {img : Bytes} {bb : GoMap UInt16 Subdirectory} {f : GoMap UInt16 UInt16} (hk : Known img bb f)
    {p : UInt16} {sd : Subdirectory} (h : findParent bb f p = some sd) :
    ∃ (j : UInt16) (l : List Nat), Subdir img j.toNat ∧ DirBlocks img j.toNat l ∧ sd = subOf img j l ∧
      InDir img j.toNat p.toNat := by
  unfold findParent at h
  cases hp : bb.get? p with
  | some s =>
    rw [hp] at h
    simp only [Option.some.injEq] at h
    subst h
    obtain ⟨h1, l, h2, h3⟩ := hk.sound p s hp
    exact ⟨p, l, h1, h2, h3, l, h2, Or.inl rfl⟩
  | none =>
    rw [hp] at h
    simp only at h
    cases hf : f.get? p with
    | none => rw [hf] at h; simp at h
    | some b =>
      rw [hf] at h
      simp only at h
      obtain ⟨h1, l, h2, h3⟩ := hk.sound b sd h
      obtain ⟨_, l', h4, h5⟩ := hk.first p b hf
      exact ⟨b, l, h1, h2, h3, l', h4, Or.inr h5⟩

theorem atRoot_sound {img : Bytes} {bb : GoMap UInt16 Subdirectory} {f : GoMap UInt16 UInt16} (hk : Known img bb f)
    (h2 : ∃ l, DirBlocks img 2 l) {p : UInt16} (h : p = 2 ∨ (f.get? p).getD 0 = 2) : InDir img 2 p.toNat := by
  rcases h with rfl | h
  · obtain ⟨l, hl⟩ := h2
    exact ⟨l, hl, Or.inl rfl⟩
  · cases hf : f.get? p with
    | none => rw [hf] at h; exact absurd h (by decide)
    | some k =>
      rw [hf] at h
      have hk2 : k = 2 := h
      subst hk2
      obtain ⟨_, l, hl, hb⟩ := hk.first p 2 hf
      exact ⟨l, hl, Or.inr hb⟩

theorem joinPath_eq (p n : Str) :
    (if p = [] then Out.ok n else Out.ok (p ++ str "/" ++ n)) = Out.ok (joinPath p n) := by
  unfold joinPath
  by_cases h : p = []
  · rw [if_pos h, if_pos h]
  · rw [if_neg h, if_neg h]

/-- What `parentDirName` returns is the full path of the directory a parent pointer leads to. -/
theorem parentDirName_sound {img : Bytes} {bb : GoMap UInt16 Subdirectory} {f : GoMap UInt16 UInt16} (hk : Known img bb f)
    (h2 : ∃ l, DirBlocks img 2 l) {n : Nat} {p : UInt16} {r : Str} (h : parentDirName n p 2 bb f = .ok r) :
    (InDir img 2 p.toNat ∧ r = []) ∨ ∃ j, Subdir img j ∧ InDir img j p.toNat ∧ FullPath img j r := by
  induction n generalizing p r with
  | zero =>
    rw [parentDirName] at h
    by_cases hp : p = 2 ∨ (f.get? p).getD 0 = 2
    · rw [if_pos hp] at h
      simp only [Out.ok.injEq] at h
      exact Or.inl ⟨atRoot_sound hk h2 hp, h.symm⟩
    · rw [if_neg hp] at h
      cases hf : findParent bb f p <;> rw [hf] at h <;> simp at h
  | succ n ih =>
    rw [parentDirName] at h
    by_cases hp : p = 2 ∨ (f.get? p).getD 0 = 2
    · rw [if_pos hp] at h
      simp only [Out.ok.injEq] at h
      exact Or.inl ⟨atRoot_sound hk h2 hp, h.symm⟩
    · rw [if_neg hp] at h
      cases hf : findParent bb f p with
      | none => rw [hf] at h; simp at h
      | some sd =>
        rw [hf] at h
        simp only at h
        rw [Out.bind_eq_ok] at h
        obtain ⟨r', hr', h⟩ := h
        rw [joinPath_eq] at h
        simp only [Out.ok.injEq] at h
        obtain ⟨j, l, h1, hd, rfl, hin⟩ := findParent_sound hk hf
        have hname : (subOf img j l).keyBlock.header.name = headerName img j.toNat := subKey_name hd.1
        rw [hname] at h
        refine Or.inr ⟨j.toNat, h1, hin, ?_⟩
        rcases ih hr' with ⟨h3, rfl⟩ | ⟨i, h3, h4, h5⟩
        · rw [← h]
          exact .top (by rw [← subKey_parent]; exact h3)
        · rw [← h]
          exact .nested h3 (by rw [← subKey_parent]; exact h4) h5

/-- The path under which a subdirectory is registered. -/
def pathName (n : Nat) (bb : GoMap UInt16 Subdirectory) (f : GoMap UInt16 UInt16) (sd : Subdirectory) : Out Str := do
  let p ← parentDirName n sd.keyBlock.header.parentPointer 2 bb f
  .ok (joinPath p sd.keyBlock.header.name)

theorem pathName_sound {img : Bytes} {bb : GoMap UInt16 Subdirectory} {f : GoMap UInt16 UInt16} (hk : Known img bb f)
    (h2 : ∃ l, DirBlocks img 2 l) {n : Nat} {k : UInt16} {l : List Nat} {r : Str} (hd : DirBlocks img k.toNat l)
    (h : pathName n bb f (subOf img k l) = .ok r) : FullPath img k.toNat r := by
  unfold pathName at h
  rw [Out.bind_eq_ok] at h
  obtain ⟨p, hp, h⟩ := h
  simp only [Out.ok.injEq] at h
  have hname : (subOf img k l).keyBlock.header.name = headerName img k.toNat := subKey_name hd.1
  rw [hname] at h
  rw [← h]
  rcases parentDirName_sound hk h2 hp with ⟨h3, rfl⟩ | ⟨i, h3, h4, h5⟩
  · exact .top (by rw [← subKey_parent]; exact h3)
  · exact .nested h3 (by rw [← subKey_parent]; exact h4) h5

theorem nameLoop_cons (n : Nat) (bb : GoMap UInt16 Subdirectory) (f : GoMap UInt16 UInt16) (e : UInt16 × Subdirectory)
    (rest : List (UInt16 × Subdirectory)) (m : GoMap Str Subdirectory) :
    nameLoop n 2 bb f (e :: rest) m = (pathName n bb f e.2 >>= fun p => nameLoop n 2 bb f rest (m.set p e.2)) := by
  obtain ⟨k, sd⟩ := e
  rw [nameLoop]
  unfold pathName
  cases parentDirName n sd.keyBlock.header.parentPointer 2 bb f with
  | ok p =>
    show nameLoop n 2 bb f rest _ = nameLoop n 2 bb f rest _
    refine congrArg _ (congrArg (fun x => GoMap.set m x sd) ?_)
    unfold joinPath
    by_cases h : p = []
    · rw [if_pos h, if_neg (by simpa using h)]
    · rw [if_neg h, if_pos h]
  | err k => rfl
  | panic => rfl
  | timeout => rfl

theorem nameLoop_ok {n : Nat} {bb : GoMap UInt16 Subdirectory} {f : GoMap UInt16 UInt16}
    {l : List (UInt16 × Subdirectory)} {m m' : GoMap Str Subdirectory} (h : nameLoop n 2 bb f l m = .ok m') :
    (∀ e ∈ l, ∃ p, pathName n bb f e.2 = .ok p) ∧
    (∀ x s, m'.get? x = some s → m.get? x = some s ∨ ∃ e ∈ l, e.2 = s ∧ pathName n bb f s = .ok x) ∧
    (∀ x, ((∃ s, m.get? x = some s) ∨ ∃ e ∈ l, pathName n bb f e.2 = .ok x) → ∃ s, m'.get? x = some s) := by
  induction l generalizing m with
  | nil =>
    rw [nameLoop] at h
    simp only [Out.ok.injEq] at h
    subst h
    refine ⟨by simp, fun x s h => Or.inl h, fun x h => ?_⟩
    rcases h with h | ⟨e, he, _⟩
    · exact h
    · simp at he
  | cons e l ih =>
    rw [nameLoop_cons, Out.bind_eq_ok] at h
    obtain ⟨p, hp, h⟩ := h
    obtain ⟨h1, h2, h3⟩ := ih h
    refine ⟨fun x hx => ?_, fun x s hx => ?_, fun x hx => ?_⟩
    · rcases List.mem_cons.1 hx with rfl | hx
      · exact ⟨p, hp⟩
      · exact h1 x hx
    · rcases h2 x s hx with h4 | ⟨e', he', h4⟩
      · rw [GoMap.get?_set] at h4
        by_cases hxp : x = p
        · rw [if_pos hxp] at h4
          have := Option.some.inj h4
          subst this
          exact Or.inr ⟨e, List.mem_cons_self, rfl, by rw [hxp]; exact hp⟩
        · rw [if_neg hxp] at h4; exact Or.inl h4
      · exact Or.inr ⟨e', List.mem_cons_of_mem _ he', h4⟩
    · apply h3
      rcases hx with ⟨s, hs⟩ | ⟨e', he', hx⟩
      · left
        rw [GoMap.get?_set]
        by_cases hxp : x = p
        · rw [if_pos hxp]; exact ⟨_, rfl⟩
        · rw [if_neg hxp]; exact ⟨s, hs⟩
      · rcases List.mem_cons.1 he' with rfl | he'
        · left
          rw [hp] at hx
          simp only [Out.ok.injEq] at hx
          subst hx
          rw [GoMap.get?_set, if_pos rfl]; exact ⟨_, rfl⟩
        · exact Or.inr ⟨e', he', hx⟩

theorem nameLoop_isOk {n : Nat} {bb : GoMap UInt16 Subdirectory} {f : GoMap UInt16 UInt16}
    {l : List (UInt16 × Subdirectory)} (h : ∀ e ∈ l, ∃ p, pathName n bb f e.2 = .ok p) (m : GoMap Str Subdirectory) :
    ∃ m', nameLoop n 2 bb f l m = .ok m' := by
  induction l generalizing m with
  | nil => exact ⟨m, rfl⟩
  | cons e l ih =>
    obtain ⟨p, hp⟩ := h e List.mem_cons_self
    rw [nameLoop_cons, hp, Out.bind_ok]
    exact ih (fun x hx => h x (List.mem_cons_of_mem _ hx)) _

/-! ## The volume -/

theorem volume_root (img : Bytes) (l : List Nat) (h : DirBlocks img 2 l) :
    (∀ d ∈ subdirDescriptors ((dirEntries img 2 l).map fdOf), Subdir img d.keyPointer.toNat) ∧
    ∀ j, Child img 2 j → ∃ d ∈ subdirDescriptors ((dirEntries img 2 l).map fdOf), d.keyPointer.toNat = j :=
  ⟨fun d hd => .single (subdirDescriptors_mem h d hd), fun _ hj => mem_subdirDescriptors h hj⟩

theorem known_root (img : Bytes) (l : List Nat) (h : DirBlocks img 2 l) :
    Known img [] ((l.map fun c => volBlock img (UInt16.ofNat c)).foldl (fun m b => m.set b.block 2) []) := by
  refine ⟨by simp [GoMap.keys], fun k s h => by simp at h, fun b k hb => ?_⟩
  rcases foldl_first VolumeDirectoryBlock.block _ _ _ _ _ hb with ⟨rfl, x, hx, he⟩ | h
  · obtain ⟨y, hy, rfl⟩ := List.mem_map.1 hx
    refine ⟨Or.inl rfl, l, h, ?_⟩
    rw [← he]
    show (UInt16.ofNat y).toNat ∈ l
    rw [toNat_ofNat (h.2.all_lt (word_lt _ _ _) y hy)]; exact hy
  · simp at h

/-- What is known of a volume that could be read. -/
theorem readVolume_ok {n : Nat} {ord : RangeOrder UInt16 Subdirectory} {img : Bytes} {v : Volume}
    (h : readVolume n ord img 2 = .ok v) :
    ∃ l, DirBlocks img 2 l ∧ v.keyBlock = volKey img 2 ∧ v.blocks = (l.map fun c => volBlock img (UInt16.ofNat c)) ∧
      Complete img v.subdirsByBlock v.firstSubdirBlocks ∧
      nameLoop n 2 v.subdirsByBlock v.firstSubdirBlocks (ord.visit v.subdirsByBlock) [] = .ok v.subdirsByName ∧
      ∀ ord', readVolume n ord' img 2 =
        (nameLoop n 2 v.subdirsByBlock v.firstSubdirBlocks (ord'.visit v.subdirsByBlock) [] >>= fun m =>
          .ok { v with subdirsByName := m }) := by
  unfold readVolume at h
  rw [Out.bind_eq_ok] at h
  obtain ⟨key, hkey, h⟩ := h
  by_cases ho : OnDevice img 2
  · have hkey' := unmarshalVolumeKey_eq img 2 ho
    rw [hkey'] at hkey
    simp only [Out.ok.injEq] at hkey
    subst hkey
    rw [Out.bind_eq_ok] at h
    obtain ⟨vbm, hvbm, h⟩ := h
    rw [Out.bind_eq_ok] at h
    obtain ⟨bs, hbs, h⟩ := h
    rw [Out.bind_eq_ok] at h
    obtain ⟨⟨bb, f⟩, hl, h⟩ := h
    simp only at h
    rw [Out.bind_eq_ok] at h
    obtain ⟨m, hm, h⟩ := h
    simp only [Out.ok.injEq] at h
    obtain ⟨l, hl1, hl2⟩ := chainLoop_ok (reads_volume img) hbs
    rw [volKey_next] at hl1
    have hdb : DirBlocks img 2 l := ⟨ho, hl1⟩
    have hbs' := hbs
    have hloop := hl
    rw [hl2, vol_descriptors hdb] at hl
    obtain ⟨q1, q2⟩ := volume_root img l hdb
    have hdb' : DirBlocks img (2 : UInt16).toNat l := hdb
    obtain ⟨k1, k2, k3, k4⟩ := subdirLoop_ok q1 (known_root img l hdb) (fun k hk => by simp [GoMap.keys] at hk) hl
    subst h
    refine ⟨l, hdb, rfl, hl2, ⟨k1, fun k hk => ?_⟩, hm, fun ord' => ?_⟩
    · induction hk with
      | single h1 =>
        obtain ⟨d, hd, rfl⟩ := q2 _ h1
        exact ⟨d.keyPointer, k4 d hd, rfl⟩
      | tail _ h1 ih =>
        obtain ⟨k', hk', rfl⟩ := ih
        rcases k2 k' hk' _ h1 with h | ⟨d, hd, _⟩
        · exact h
        · simp at hd
    · unfold readVolume
      rw [hkey', Out.bind_ok, hvbm, Out.bind_ok, hbs, Out.bind_ok]
      dsimp only
      rw [hloop, Out.bind_ok]
  · rw [unmarshalVolumeKey_err img 2 ho] at hkey; simp at hkey

theorem mem_visit {ord : RangeOrder UInt16 Subdirectory} {m : GoMap UInt16 Subdirectory} {e : UInt16 × Subdirectory} :
    e ∈ ord.visit m ↔ e ∈ m := (ord.perm m).mem_iff

theorem Known.mem {img : Bytes} {bb : GoMap UInt16 Subdirectory} {f : GoMap UInt16 UInt16} (hk : Known img bb f)
    {e : UInt16 × Subdirectory} (he : e ∈ bb) :
    Subdir img e.1.toNat ∧ ∃ l, DirBlocks img e.1.toNat l ∧ e.2 = subOf img e.1 l :=
  hk.sound e.1 e.2 (GoMap.get?_of_mem hk.nodup he)

end Verif.Prodos
