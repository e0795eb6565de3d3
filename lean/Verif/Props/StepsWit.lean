import Verif.Props.Steps
import Verif.Props.EndsWit

/-!
# C115: a small volume that takes for ever, though not literally
-/

set_option autoImplicit false
set_option maxRecDepth 20000

namespace Verif.Prodos

open Verif Verif.Disk Verif.Spec Verif.Spec.Prodos

/-- The blocks `f i`, `f (i + 1)`, ..., `n` of them. -/
def stack (f : Nat → Bytes) (i : Nat) : Nat → Bytes
  | 0 => []
  | n + 1 => f i ++ stack f (i + 1) n

theorem stack_length {f : Nat → Bytes} (hf : ∀ i, (f i).length = 512) (i n : Nat) : (stack f i n).length = 512 * n := by
  induction n generalizing i with
  | zero => rfl
  | succ n ih => rw [stack, List.length_append, hf, ih]; omega

theorem stack_block {f : Nat → Bytes} (hf : ∀ i, (f i).length = 512) (z : Bytes) (n : Nat) :
    ∀ i j, j < n → (((stack f i n) ++ z).drop (512 * j)).take 512 = f (i + j) := by
  induction n with
  | zero => intro i j hj; omega
  | succ n ih =>
    intro i j hj
    rw [stack, List.append_assoc]
    cases j with
    | zero => rw [List.drop_zero, List.take_append_of_le_length (by rw [hf]), List.take_of_length_le (by rw [hf])]; rfl
    | succ j =>
      rw [List.drop_append, List.drop_of_length_le (by rw [hf]; omega), List.nil_append, hf,
        show 512 * (j + 1) - 512 = 512 * j by omega, ih (i + 1) j (by omega), show i + 1 + j = i + (j + 1) by omega]

/-- Block 2 is the volume directory, blocks 3 to 255 are subdirectories; each lists the next block, twice, but the last lists nothing. -/
def storey (k : Nat) : Bytes :=
  if k < 255 then dirBlock 0 (hdrA 2) (entry 0xD1 0x41 (UInt8.ofNat (k + 1))) (entry 0xD1 0x41 (UInt8.ofNat (k + 1)))
  else dirBlock 0 (hdrA 2) (zeros 39) (zeros 39)

/-- A floppy image with these blocks. -/
def tower : Bytes := zeros 1024 ++ (stack storey 2 254 ++ zeros 12288)

theorem storey_length (k : Nat) : (storey k).length = 512 := by
  unfold storey
  split <;> exact dirBlock_length (by simp [hdrA]) (by simp [entry]) (by simp [entry])

theorem tower_length : tower.length = 143360 := by
  unfold tower
  rw [List.length_append, List.length_append, zeros_length, zeros_length, stack_length storey_length]

theorem tower_block {k : Nat} (h2 : 2 ≤ k) (h : k < 256) : blockAt tower k = storey k := by
  unfold blockAt tower
  rw [List.drop_append, List.drop_of_length_le (by rw [zeros_length]; omega), List.nil_append, zeros_length,
    show 512 * k - 1024 = 512 * (k - 2) by omega, stack_block storey_length _ _ _ _ (by omega), show 2 + (k - 2) = k by omega]

theorem tower_on {k : Nat} (h : k < 280) : OnDevice tower k := by
  unfold OnDevice
  rw [tower_length]; omega

theorem storey_link (k : Nat) : linkOf (storey k) = 0 := by
  unfold storey
  split <;> rfl

theorem storey_keys : ∀ k, k < 256 → ((entriesOf (storey k)).filter fun e => storageType e = 13).map keyPointerOf =
    if k < 255 then [k + 1, k + 1] else [] := by decide +kernel

theorem storey_parent : ∀ k, k < 256 → ((storey k).getD 39 0).toNat + 256 * ((storey k).getD 40 0).toNat = 2 := by decide +kernel

theorem tower_dir {k : Nat} (h2 : 2 ≤ k) (h : k < 256) : DirBlocks tower k [] :=
  dirBlocks_of (tower_block h2 h) (tower_on (by omega)) (storey_link k)

theorem tower_keys {k : Nat} (h2 : 2 ≤ k) (h : k < 256) : subdirKeys tower k [] = if k < 255 then [k + 1, k + 1] else [] := by
  unfold subdirKeys
  rw [dirEntries_of (tower_block h2 h)]
  exact storey_keys k h

theorem tower_subdir {k : Nat} (h : Subdir tower k) : 2 ≤ k ∧ k < 256 := by
  have key : ∀ {i j}, 2 ≤ i ∧ i < 256 → Child tower i j → 2 ≤ j ∧ j < 256 := by
    rintro i j ⟨h1, h2⟩ ⟨l, e, hl, he, hs, rfl⟩
    have := hl.unique (tower_dir h1 h2)
    subst this
    have hm : keyPointerOf e ∈ subdirKeys tower i [] := List.mem_map.2 ⟨e, List.mem_filter.2 ⟨he, by simpa using hs⟩, rfl⟩
    rw [tower_keys h1 h2] at hm
    split at hm
    · simp only [List.mem_cons, List.not_mem_nil, or_false, or_self] at hm
      omega
    · cases hm
  induction h with
  | single hc => exact key ⟨by omega, by omega⟩ hc
  | tail _ hc ih => exact key ih hc

theorem tower_parent {k : Nat} (h2 : 2 ≤ k) (h : k < 256) : parentPointer tower k = 2 := by
  unfold parentPointer Spec.Prodos.word bbyte
  rw [tower_block h2 h]
  exact storey_parent k h

/-- How many subdirectories are read below one that is read. -/
def weight (k : Nat) : Nat := 2 ^ (256 - k) - 1

theorem weight_pos {k : Nat} (h : k < 256) : 0 < weight k := by
  unfold weight
  have : 2 ^ 1 ≤ 2 ^ (256 - k) := Nat.pow_le_pow_right (by omega) (by omega)
  omega

theorem weight_step {k : Nat} (h : k < 255) : weight k = 1 + 2 * weight (k + 1) := by
  unfold weight
  rw [show 256 - k = (256 - (k + 1)) + 1 by omega, Nat.pow_succ]
  have : 0 < 2 ^ (256 - (k + 1)) := Nat.two_pow_pos _
  omega

theorem tower_read (s : Nat) : ∀ (m : Nat) (q : List Nat), (∀ k ∈ q, 2 ≤ k ∧ k < 256) → (q.map weight).sum = s → ToRead tower m q → ToRead tower (m + s) [] := by
  induction s with
  | zero =>
    intro m q hq hs h
    cases q with
    | nil => exact h
    | cons k q =>
      have := weight_pos (hq k List.mem_cons_self).2
      rw [List.map_cons, List.sum_cons] at hs
      omega
  | succ s ih =>
    intro m q hq hs h
    cases q with
    | nil => simp at hs
    | cons k q =>
      obtain ⟨h2, hk⟩ := hq k List.mem_cons_self
      have hst := ToRead.step h (tower_dir h2 hk)
      rw [tower_keys h2 hk] at hst
      rw [show m + (s + 1) = m + 1 + s by omega]
      refine ih (m + 1) _ (fun j hj => ?_) ?_ hst
      · rcases List.mem_append.1 hj with hj | hj
        · exact hq j (List.mem_cons_of_mem _ hj)
        · split at hj
          · simp only [List.mem_cons, List.not_mem_nil, or_false, or_self] at hj
            omega
          · cases hj
      · rw [List.map_cons, List.sum_cons] at hs
        rw [List.map_append, List.sum_append]
        split
        · rename_i hlt
          have := weight_step hlt
          simp only [List.map_cons, List.map_nil, List.sum_cons, List.sum_nil]
          omega
        · obtain rfl : k = 255 := by omega
          have : weight 255 = 1 := rfl
          simp only [List.map_nil, List.sum_nil]
          omega

theorem tower_count : ToRead tower (2 ^ 254 - 1) [] := by
  have := tower_read (weight 2) 0 [2] (by simp) (by simp) .start
  rw [Nat.zero_add] at this
  exact this

theorem tower_bitmap : BitmapOnDevice tower := by
  intro i hi
  rw [tower_length] at hi
  omega

theorem tower_atTop {k : Nat} (h : Subdir tower k) : AtTop tower k := Or.inl (tower_parent (tower_subdir h).1 (tower_subdir h).2)

theorem tower_readable : ReadableVolume tower := by
  refine ⟨tower_bitmap, ⟨[], tower_dir (by omega) (by omega)⟩, fun j hj => ⟨[], tower_dir (tower_subdir hj).1 (tower_subdir hj).2⟩, fun k hk => ?_⟩
  rw [tower_parent (tower_subdir hk).1 (tower_subdir hk).2]
  exact Or.inl ⟨[], tower_dir (by omega) (by omega), Or.inl rfl⟩

/-- **C115 fails.**  A volume on a floppy image of 280 blocks has directories that can all be read, but a loop that reads it takes `2 ^ 254 - 2` rounds:
with fewer there is no result yet, with as many there is, and then all directories have been read. -/
theorem C115_violated (n : Nat) (ord : RangeOrder UInt16 Subdirectory) : tower.length = 143360 ∧ ReadableVolume tower ∧
    (n < 2 ^ 254 - 2 → readVolume n ord tower 2 = .timeout) ∧ (2 ^ 254 - 2 ≤ n → (readVolume n ord tower 2).isOk) := by
  have hlen : tower.length < 2 ^ 36 := by rw [tower_length]; omega
  have hc : ToRead tower (2 ^ 254 - 2 + 1) [] := tower_count
  obtain ⟨h1, h2⟩ := C115_rounds hlen hc tower_bitmap
  refine ⟨tower_length, tower_readable, fun hn => h1 n hn ord, fun hn => ?_⟩
  have hr := h2 (fun k hk => by
    rintro ⟨j, h3, h4⟩
    obtain ⟨i, h5, _⟩ := Relation.TransGen.head'_iff.1 h4
    have : Subdir tower j := by
      rcases Relation.ReflTransGen.cases_tail h3 with rfl | ⟨i', _, h⟩
      · exact hk
      · exact h.2.1
    exact h5.1 (tower_atTop this)) n hn (by unfold blockCount; rw [tower_length]; omega) ord
  have ha := (C70_answers n ord tower hlen).2
  unfold seemsToMatch at ha
  cases hx : readVolume n ord tower 2 with
  | ok v => rfl
  | err e => rw [hx] at ha; exact absurd tower_readable (ha rfl)
  | panic => rw [hx] at hr; simp at hr
  | timeout => rw [hx] at hr; simp at hr

/-- Non-vacuity of C115: the example volume lists every subdirectory once, and so takes no more rounds than it has blocks. -/
theorem good_listedOnce : ListedOnce goodDev := by
  have h2 : DirBlocks goodDev 2 [] := dirBlocks_of good2 (good_on (by omega)) (by decide +kernel)
  have h3 : DirBlocks goodDev 3 [] := dirBlocks_of good3 (good_on (by omega)) (by decide +kernel)
  have hd : ∀ k, DirOf goodDev k → k = 2 ∨ k = 3 := fun k hk => hk.imp id (good_subdir k).1
  refine ⟨fun k l hk hl => ?_, fun k k' j hk hk' h h' => ?_, fun k hk h => ?_⟩
  · rcases hd k hk with rfl | rfl
    · have := hl.unique h2
      subst this
      unfold subdirKeys
      rw [dirEntries_of good2]; decide +kernel
    · have := hl.unique h3
      subst this
      unfold subdirKeys
      rw [dirEntries_of good3]; decide +kernel
  · rcases hd k hk with rfl | rfl
    · rcases hd k' hk' with rfl | rfl
      · rfl
      · exact absurd h' (good_child3 j)
    · exact absurd h (good_child3 j)
  · rcases hd k hk with rfl | rfl
    · have := (good_child2 2).1 h
      omega
    · exact good_child3 2 h

example (ord : RangeOrder UInt16 Subdirectory) : (readVolume 280 ord goodDev 2).returns :=
  (C115_listed_once_partial (by rw [good_length]; omega) good_listedOnce good_ends (fun k hk => by
    rintro ⟨j, h3, h4⟩
    obtain ⟨i, h5, _⟩ := Relation.TransGen.head'_iff.1 h4
    have : Subdir goodDev j := by
      rcases Relation.ReflTransGen.cases_tail h3 with rfl | ⟨i', _, h⟩
      · exact hk
      · exact h.2.1
    rw [good_subdir] at this
    subst this
    exact h5.1 (Or.inl good_parent)) (by unfold blockCount; rw [good_length]) ord).1

end Verif.Prodos

namespace Verif.Cmd
open Disk Spec

/-- **C115 fails** for `ls`: on that image it is not over after `2 ^ 254 - 3` rounds of a loop, though it ends. -/
theorem C115_violated_ls (env : Env) (w : World) (hw : w.files (str "x.po") = some Prodos.tower) (dir : Str) :
    (env.budget < 2 ^ 254 - 2 → (run env (.ls (str "auto") (str "prodos") false (str "x.po") dir) w).1 = .timeout) ∧
    (2 ^ 254 - 2 ≤ env.budget → (run env (.ls (str "auto") (str "prodos") false (str "x.po") dir) w).1 ≠ .timeout) := by
  obtain ⟨_, _, h1, h2⟩ := Prodos.C115_violated env.budget env.order
  rw [ls_po Prodos.tower_length env hw]
  unfold Prodos.Operator.catalog
  dsimp only
  constructor
  · intro h
    rw [h1 h]; rfl
  · intro h
    obtain ⟨v, hv⟩ := Out.isOk_iff.1 (h2 h)
    rw [hv, Out.bind_ok]
    split
    · exact fun h => by cases h
    · split
      · exact fun h => by cases h
      · exact fun h => by cases h

end Verif.Cmd
