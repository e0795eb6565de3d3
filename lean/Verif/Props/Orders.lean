import Verif.Proofs.Paths
import Verif.Proofs.Same

/-!
# C46, C48 and C86: exactly what a catalog of a ProDOS volume shows, and when it depends on the order in which maps are visited
-/

set_option autoImplicit false
set_option maxRecDepth 20000

namespace Verif.Prodos

open Verif Verif.Disk Verif.Spec Verif.Spec.Prodos

theorem nameLoop_snoc (n : Nat) (bb : GoMap UInt16 Subdirectory) (f : GoMap UInt16 UInt16) (e : UInt16 × Subdirectory) (l : List (UInt16 × Subdirectory))
    (m : GoMap Str Subdirectory) :
    nameLoop n 2 bb f (l ++ [e]) m = (nameLoop n 2 bb f l m >>= fun m' => pathName n bb f e.2 >>= fun p => .ok (m'.set p e.2)) := by
  induction l generalizing m with
  | nil =>
    rw [List.nil_append, nameLoop_cons, nameLoop, Out.bind_ok]
    cases pathName n bb f e.2 <;> rfl
  | cons x l ih =>
    rw [List.cons_append, nameLoop_cons, nameLoop_cons]
    cases h : pathName n bb f x.2 with
    | ok p => rw [Out.bind_ok, Out.bind_ok, ih]
    | err e => rfl
    | panic => rfl
    | timeout => rfl

theorem nameLoop_other {n : Nat} {bb : GoMap UInt16 Subdirectory} {f : GoMap UInt16 UInt16} {l : List (UInt16 × Subdirectory)} {m : GoMap Str Subdirectory}
    {e : ErrKind} (h : nameLoop n 2 bb f l m = .err e) : e = .other := by
  rcases nameLoop_kind n 2 bb f l m with ⟨_, h'⟩ | h' | h' <;> rw [h'] at h <;> cases h
  rfl

theorem listing_unique {img : Bytes} {k : Nat} {ds ds' : List Descriptor} (h : Listing img k ds) (h' : Listing img k ds') : ds = ds' := by
  obtain ⟨l, hl, rfl⟩ := h
  obtain ⟨l', hl', rfl⟩ := h'
  rw [hl.unique hl']

theorem catalog_later {n m : Nat} (h : n ≤ m) {ord : RangeOrder UInt16 Subdirectory} {img : Bytes} {path : Str}
    (hne : Operator.catalog n ord ⟨img⟩ path ≠ .timeout) : Operator.catalog m ord ⟨img⟩ path = Operator.catalog n ord ⟨img⟩ path := by
  rcases catalog_mono h ord ⟨img⟩ path with h1 | ⟨h1, _⟩ | h1
  · exact absurd h1 hne
  · exact absurd h1 id
  · exact h1.symm

/-- When all names have been found, the volume is well formed. -/
theorem wellFormed_of {img : Bytes} {n : Nat} {bb : GoMap UInt16 Subdirectory} {f : GoMap UInt16 UInt16} {ord : RangeOrder UInt16 Subdirectory}
    {m : GoMap Str Subdirectory} (hb : BitmapOnDevice img) (ha : AllRead img) (hr : ReadAll img bb f)
    (h : nameLoop n 2 bb f (ord.visit bb) [] = .ok m) : WellFormed img := by
  refine ⟨hb, ha, fun k hk => ?_⟩
  obtain ⟨k', hk', rfl⟩ := hr.complete.all k hk
  obtain ⟨s, hs⟩ := GoMap.get?_isSome_iff.2 hk'
  obtain ⟨_, l, hl, rfl⟩ := hr.complete.sound k' s hs
  obtain ⟨p, hp⟩ := (nameLoop_ok h).1 _ (mem_visit.2 (GoMap.mem_of_get? hs))
  exact ⟨p, pathName_path hr hl hp⟩

/-- What a catalog of a well formed volume shows, given time. -/
theorem catalog_wellFormed {img : Bytes} (hlen : img.length < 2 ^ 36) (hw : WellFormed img) : ∃ n₀, ∀ n, n₀ ≤ n →
    (∀ ord, ∃ ds, Listing img 2 ds ∧ Operator.catalog n ord ⟨img⟩ [] = .ok ds) ∧
    (∀ ord path, path ≠ [] → (¬ ∃ k, Subdir img k ∧ PathOf img k path) → Operator.catalog n ord ⟨img⟩ path = .err .other) ∧
    (∀ ord path, path ≠ [] → (∃ k, Subdir img k ∧ PathOf img k path) →
      ∃ k ds, Subdir img k ∧ PathOf img k path ∧ Listing img k ds ∧ Operator.catalog n ord ⟨img⟩ path = .ok ds) ∧
    ∀ k path ds, path ≠ [] → Subdir img k → PathOf img k path → Listing img k ds →
      Operator.catalog n (last (UInt16.ofNat k, subOf img (UInt16.ofNat k) (Classical.epsilon (DirBlocks img k)))) ⟨img⟩ path = .ok ds := by
  obtain ⟨hb, ha, hp⟩ := hw
  obtain ⟨n₁, h1⟩ := readVolume_settles hlen (allRead_not ha).1 fun _ k hk => by
    obtain ⟨p, hp⟩ := hp k hk
    exact pathOf_not_endless hp
  obtain ⟨n₂, h2⟩ := paths_found img
  refine ⟨n₁ + n₂, fun n hn => ?_⟩
  have h1 := h1 n (by omega)
  have h2 := h2 n (by omega)
  rcases readVolume_parts hlen n with ⟨_, h⟩ | ⟨h, _⟩ | ⟨bb, f, l, vbm, _, _, hr, hd, h⟩
  · exact absurd h (allRead_not_stops ha hb)
  · have := h1 .stored
    rw [h] at this; cases this
  · have hmem : ∀ e ∈ bb, Subdir img e.1.toNat ∧ ∃ l, DirBlocks img e.1.toNat l ∧ e.2 = subOf img e.1 l := fun e he => hr.complete.toKnown.mem he
    have hall : ∀ l, (∀ e ∈ l, e ∈ bb) → ∀ m, ∃ m', nameLoop n 2 bb f l m = .ok m' := by
      intro l hl m
      refine nameLoop_isOk (fun e he => ?_) m
      obtain ⟨hs, l', hl', e2⟩ := hmem e (hl e he)
      obtain ⟨p, hp⟩ := hp _ hs
      rw [e2]
      exact ⟨p, h2 bb f hr e.1 l' p hl' hp⟩
    refine ⟨fun ord => ?_, fun ord path hne hno => ?_, fun ord path hne hk => ?_, fun k path ds hne hs hpk hls => ?_⟩
    · obtain ⟨m, hm⟩ := hall (ord.visit bb) (fun e he => mem_visit.1 he) []
      refine ⟨_, ⟨l, hd, rfl⟩, ?_⟩
      unfold Operator.catalog
      rw [h, hm, Out.bind_ok, Out.bind_ok, if_pos rfl, vol_descriptors (k := 2) hd]
      exact congrArg _ (listed_entries hd)
    · obtain ⟨m, hm⟩ := hall (ord.visit bb) (fun e he => mem_visit.1 he) []
      unfold Operator.catalog
      rw [h, hm, Out.bind_ok, Out.bind_ok, if_neg hne]
      cases hg : m.get? path with
      | none => rfl
      | some s =>
        rcases (nameLoop_ok hm).2.1 path s hg with h' | ⟨e, he, rfl, hq⟩
        · cases h'
        · obtain ⟨hs, l', hl', e2⟩ := hmem e (mem_visit.1 he)
          rw [e2] at hq
          exact absurd ⟨_, hs, pathName_path hr hl' hq⟩ hno
    · obtain ⟨m, hm⟩ := hall (ord.visit bb) (fun e he => mem_visit.1 he) []
      obtain ⟨k, hs, hk⟩ := hk
      obtain ⟨k', hk', rfl⟩ := hr.complete.all k hs
      obtain ⟨s, hx⟩ := GoMap.get?_isSome_iff.2 hk'
      obtain ⟨_, lk, hlk, rfl⟩ := hr.complete.sound k' s hx
      obtain ⟨s, hg⟩ := (nameLoop_ok hm).2.2 path (Or.inr ⟨_, mem_visit.2 (GoMap.mem_of_get? hx), h2 bb f hr k' lk path hlk hk⟩)
      rcases (nameLoop_ok hm).2.1 path s hg with h' | ⟨e, he, rfl, hq⟩
      · cases h'
      · obtain ⟨hs, l', hl', e2⟩ := hmem e (mem_visit.1 he)
        rw [e2] at hq
        refine ⟨_, _, hs, pathName_path hr hl' hq, ⟨l', hl', rfl⟩, ?_⟩
        unfold Operator.catalog
        rw [h, hm, Out.bind_ok, Out.bind_ok, if_neg hne]
        dsimp only
        rw [hg]
        dsimp only
        rw [e2, subOf_descriptors hl']
        exact congrArg _ (listed_entries hl')
    · obtain ⟨lk, hlk, rfl⟩ := hls
      have hlast : Classical.epsilon (DirBlocks img k) = lk := hlk.unique (Classical.epsilon_spec ⟨lk, hlk⟩) ▸ rfl
      rw [hlast]
      have hk16 : (UInt16.ofNat k).toNat = k := toNat_ofNat (Subdir.lt hs)
      generalize UInt16.ofNat k = k' at hk16 ⊢
      subst hk16
      obtain ⟨s, hx⟩ := (get_subdir hr k').2 hs
      obtain ⟨_, l', hl', rfl⟩ := hr.complete.sound k' s hx
      obtain rfl := hl'.unique hlk
      have hin : (k', subOf img k' l') ∈ bb := GoMap.mem_of_get? hx
      have hv : (last (k', subOf img k' l')).visit bb = bb.erase (k', subOf img k' l') ++ [(k', subOf img k' l')] := if_pos hin
      obtain ⟨m, hm⟩ := hall (bb.erase (k', subOf img k' l')) (fun e he => List.mem_of_mem_erase he) []
      unfold Operator.catalog
      rw [h, hv, nameLoop_snoc, hm, Out.bind_ok, h2 bb f hr k' l' path hl' hpk, Out.bind_ok, Out.bind_ok, Out.bind_ok, if_neg hne]
      dsimp only
      rw [GoMap.get?_set, if_pos rfl]
      dsimp only
      rw [subOf_descriptors hl']
      exact congrArg _ (listed_entries hl')

/-- C46, exactly: what a catalog can show.  The volume directory is shown, or a subdirectory with the path asked for; and every subdirectory with that path
is shown in some order of visiting maps. -/
theorem C46_exact {img : Bytes} (hlen : img.length < 2 ^ 36) (path : Str) (ds : List Descriptor) :
    (∃ ord n, Operator.catalog n ord ⟨img⟩ path = .ok ds) ↔
      WellFormed img ∧ (path = [] ∧ Listing img 2 ds ∨ path ≠ [] ∧ ∃ k, Subdir img k ∧ PathOf img k path ∧ Listing img k ds) := by
  constructor
  · rintro ⟨ord, n, h⟩
    have hw : WellFormed img := by
      unfold Operator.catalog at h
      rcases readVolume_parts hlen n with ⟨⟨e, h'⟩, _⟩ | ⟨h', _⟩ | ⟨bb, f, l, vbm, hb, ha, hr, hd, h'⟩
      · rw [h'] at h; cases h
      · rw [h'] at h; cases h
      · rw [h'] at h
        cases hm : nameLoop n 2 bb f (ord.visit bb) [] with
        | ok m => exact wellFormed_of hb ha hr hm
        | err e => rw [hm] at h; cases h
        | panic => rw [hm] at h; cases h
        | timeout => rw [hm] at h; cases h
    refine ⟨hw, ?_⟩
    obtain ⟨n₀, h0⟩ := catalog_wellFormed hlen hw
    obtain ⟨c1, c2, c3, _⟩ := h0 (n₀ + n) (by omega)
    have hN : Operator.catalog (n₀ + n) ord ⟨img⟩ path = .ok ds := by rw [catalog_later (show n ≤ n₀ + n by omega) (by rw [h]; simp), h]
    by_cases hne : path = []
    · subst hne
      obtain ⟨ds', h1, h2⟩ := c1 ord
      rw [h2] at hN
      cases hN
      exact Or.inl ⟨rfl, h1⟩
    · refine Or.inr ⟨hne, ?_⟩
      by_cases hk : ∃ k, Subdir img k ∧ PathOf img k path
      · obtain ⟨k, ds', h1, h2, h3, h4⟩ := c3 ord path hne hk
        rw [h4] at hN
        cases hN
        exact ⟨k, h1, h2, h3⟩
      · rw [c2 ord path hne hk] at hN
        cases hN
  · rintro ⟨hw, h⟩
    obtain ⟨n₀, h0⟩ := catalog_wellFormed hlen hw
    obtain ⟨c1, _, _, c4⟩ := h0 n₀ (le_refl _)
    rcases h with ⟨rfl, hl⟩ | ⟨hne, k, h1, h2, h3⟩
    · obtain ⟨ds', h1, h2⟩ := c1 .stored
      rw [listing_unique hl h1]
      exact ⟨_, _, h2⟩
    · exact ⟨_, _, c4 k path ds hne h1 h2 h3⟩

/-- C48, exactly: the order in which maps are visited decides what is shown if and only if the volume is well formed, and two subdirectories with different
contents have the path asked for. -/
theorem C48_exact {img : Bytes} (hlen : img.length < 2 ^ 36) (path : Str) :
    (∃ ord ord' n n' ds ds', Operator.catalog n ord ⟨img⟩ path = .ok ds ∧ Operator.catalog n' ord' ⟨img⟩ path = .ok ds' ∧ ds ≠ ds') ↔
      WellFormed img ∧ path ≠ [] ∧ Twins img path := by
  constructor
  · rintro ⟨ord, ord', n, n', ds, ds', h, h', hd⟩
    obtain ⟨hw, h1⟩ := (C46_exact hlen path ds).1 ⟨_, _, h⟩
    obtain ⟨_, h2⟩ := (C46_exact hlen path ds').1 ⟨_, _, h'⟩
    refine ⟨hw, ?_⟩
    rcases h1 with ⟨e, h1⟩ | ⟨hne, k, a1, a2, a3⟩
    · rcases h2 with ⟨_, h2⟩ | ⟨hne, _⟩
      · exact absurd (listing_unique h1 h2) hd
      · exact absurd e hne
    · rcases h2 with ⟨e, _⟩ | ⟨_, k', b1, b2, b3⟩
      · exact absurd e hne
      · exact ⟨hne, k, k', ds, ds', a1, b1, a2, b2, a3, b3, hd⟩
  · rintro ⟨hw, hne, k, k', ds, ds', a1, b1, a2, b2, a3, b3, hd⟩
    obtain ⟨o, n, h⟩ := (C46_exact hlen path ds).2 ⟨hw, Or.inr ⟨hne, k, a1, a2, a3⟩⟩
    obtain ⟨o', n', h'⟩ := (C46_exact hlen path ds').2 ⟨hw, Or.inr ⟨hne, k', b1, b2, b3⟩⟩
    exact ⟨o, o', n, n', ds, ds', h, h', hd⟩

/-- C86, exactly, for a catalog of a ProDOS volume: what becomes of it depends on the order in which maps are visited if and only if the volume is torn, or it
is well formed and two subdirectories with different contents have the path asked for. -/
theorem C86_catalog_exact {img : Bytes} (hlen : img.length < 2 ^ 36) (path : Str) :
    (∃ ord ord' r, r ≠ .timeout ∧ (∃ n, Operator.catalog n ord ⟨img⟩ path = r) ∧ ∀ n, Operator.catalog n ord' ⟨img⟩ path ≠ r) ↔
      Torn img ∨ WellFormed img ∧ path ≠ [] ∧ Twins img path := by
  constructor
  · rintro ⟨ord, ord', r, hr, ⟨n, hn⟩, hno⟩
    by_contra hc
    obtain ⟨hc1, hc2⟩ := not_or.1 hc
    rcases readVolume_parts hlen n with ⟨⟨e, h⟩, _⟩ | ⟨h, _⟩ | ⟨bb, f, l, vbm, hb, ha, hra, hd, h⟩
    · refine hno n ?_
      rw [← hn]
      unfold Operator.catalog
      rw [h, h]
    · unfold Operator.catalog at hn
      rw [h] at hn
      exact hr hn.symm
    · by_cases hw : WellFormed img
      · obtain ⟨n₀, h0⟩ := catalog_wellFormed hlen hw
        obtain ⟨c1, c2, c3, _⟩ := h0 (n₀ + n) (by omega)
        have hN : Operator.catalog (n₀ + n) ord ⟨img⟩ path = r := by rw [catalog_later (show n ≤ n₀ + n by omega) (by rw [hn]; exact hr), hn]
        refine hno (n₀ + n) ?_
        rw [← hN]
        by_cases hne : path = []
        · subst hne
          obtain ⟨ds, a1, a2⟩ := c1 ord
          obtain ⟨ds', b1, b2⟩ := c1 ord'
          rw [a2, b2, listing_unique a1 b1]
        · by_cases hk : ∃ k, Subdir img k ∧ PathOf img k path
          · obtain ⟨k, ds, a1, a2, a3, a4⟩ := c3 ord path hne hk
            obtain ⟨k', ds', b1, b2, b3, b4⟩ := c3 ord' path hne hk
            rw [a4, b4]
            by_contra hx
            exact hc2 ⟨hw, hne, k, k', ds, ds', a1, b1, a2, b2, a3, b3, fun e => hx (by rw [e])⟩
          · rw [c2 ord path hne hk, c2 ord' path hne hk]
      · have hnok : ∀ o m, (readVolume m o img 2).isOk = false := by
          intro o m
          cases hx : readVolume m o img 2 with
          | ok v =>
            refine absurd ?_ hw
            refine ((C46_exact hlen [] (listed (volumeDescriptors v.keyBlock v.blocks))).1 ⟨o, m, ?_⟩).1
            unfold Operator.catalog
            rw [hx]; rfl
          | err e => rfl
          | panic => rfl
          | timeout => rfl
        have herr : ∃ e, nameLoop n 2 bb f (ord.visit bb) [] = .err e := by
          cases hm : nameLoop n 2 bb f (ord.visit bb) [] with
          | ok m => exact absurd (wellFormed_of hb ha hra hm) hw
          | err e => exact ⟨e, rfl⟩
          | panic => exact absurd hm (nameLoop_two_ne_panic n bb f _ _)
          | timeout =>
            unfold Operator.catalog at hn
            rw [h, hm] at hn
            exact absurd hn.symm hr
        obtain ⟨e, he⟩ := herr
        have hre : r = .err .other := by
          rw [← hn]
          unfold Operator.catalog
          rw [h, he, nameLoop_other he]
          rfl
        obtain ⟨x, hx1, hx2⟩ := nameLoop_err (m := []) (l := ord.visit bb) (by rw [he]; rfl)
        obtain ⟨hxs, lx, hlx, ex⟩ := hra.complete.toKnown.mem (mem_visit.1 hx1)
        have hlost : Lost img x.1.toNat := parentDirName_err hra n _ _ (by rw [ex]; exact subKey_parent img x.1) hx2
        have hnu : ∀ k, Subdir img k → ¬ EndlessUp img k := fun k hk hu => hc1 ⟨hb, ha, ⟨k, hk, hu⟩, _, hxs, hlost⟩
        obtain ⟨n₁, h1⟩ := readVolume_settles hlen (allRead_not ha).1 fun _ => hnu
        have h1 := h1 n₁ (le_refl _) ord'
        refine hno n₁ ?_
        rw [hre]
        rcases readVolume_parts hlen n₁ with ⟨_, h⟩ | ⟨h, _⟩ | ⟨bb, f, l, vbm, hb, ha, hra, hd, h⟩
        · exact absurd h (allRead_not_stops ha hb)
        · rw [h] at h1; cases h1
        · cases hm : nameLoop n₁ 2 bb f (ord'.visit bb) [] with
          | ok m => exact absurd (wellFormed_of hb ha hra hm) hw
          | err e =>
            unfold Operator.catalog
            rw [h, hm, nameLoop_other hm]
            rfl
          | panic => exact absurd hm (nameLoop_two_ne_panic _ bb f _ _)
          | timeout => rw [h, hm] at h1; cases h1
  · rintro (⟨hb, ha, hu, hl⟩ | ⟨hw, hne, ht⟩)
    · obtain ⟨ord', h'⟩ := (C47_can_be_endless hlen).2 (Or.inr ⟨hb, ha, hu⟩)
      have : ∃ ord n, readVolume n ord img 2 ≠ .timeout := by
        by_contra hc
        have hall : ∀ ord n, readVolume n ord img 2 = .timeout := fun o m => by
          by_contra hx
          exact hc ⟨o, m, hx⟩
        rcases (C47_is_endless hlen).1 hall with h | ⟨_, _, _, h⟩
        · exact (allRead_not ha).1 h
        · exact h hl
      obtain ⟨ord, n, h⟩ := this
      have hr : Operator.catalog n ord ⟨img⟩ path ≠ .timeout := by
        unfold Operator.catalog
        cases hx : readVolume n ord img 2 with
        | ok v =>
          rw [Out.bind_ok]
          split
          · simp
          · split <;> simp
        | err e => simp
        | panic => simp
        | timeout => exact absurd hx h
      refine ⟨ord, ord', _, hr, ⟨n, rfl⟩, fun m hm => hr ?_⟩
      rw [← hm]
      unfold Operator.catalog
      rw [h']
      rfl
    · obtain ⟨o, o', n, n', ds, ds', h, h', hd⟩ := (C48_exact hlen path).2 ⟨hw, hne, ht⟩
      refine ⟨o, o', .ok ds, by simp, ⟨n, h⟩, fun m hm => hd ?_⟩
      have e1 := catalog_later (m := n' + m) (show m ≤ n' + m by omega) (ord := o') (img := img) (path := path) (by rw [hm]; simp)
      have e2 := catalog_later (m := n' + m) (show n' ≤ n' + m by omega) (ord := o') (img := img) (path := path) (by rw [h']; simp)
      rw [e1, hm, h'] at e2
      cases e2
      rfl

end Verif.Prodos
