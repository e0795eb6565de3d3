import Verif.Props.Endless
import Verif.Props.ProdosWit

/-!
# C47: volumes whose reading never ends, or ends in some orders of visiting maps only
-/

set_option autoImplicit false
set_option maxRecDepth 20000

namespace Verif.Prodos

open Verif Verif.Disk Verif.Spec Verif.Spec.Prodos

/-- A floppy disk is too small for its bit map to be looked at. -/
theorem bitmap_small {img : Bytes} (h : img.length = 143360) : BitmapOnDevice img := by
  intro i hi
  rw [h] at hi
  omega

/-- Two subdirectories "A": the parent pointer of the first leads to itself, that of the second to no directory. -/
def mixedDev : Bytes :=
  dev (dirBlock 0 (zeros 39) (entry 0xD1 0x41 3) (entry 0xD1 0x41 4)) (dirBlock 0 (hdrA 3) (zeros 39) (zeros 39)) (dirBlock 0 (hdrA 9) (zeros 39) (zeros 39))

theorem mixed2 : blockAt mixedDev 2 = dirBlock 0 (zeros 39) (entry 0xD1 0x41 3) (entry 0xD1 0x41 4) :=
  dev_block2 (by decide +kernel) (by decide +kernel) (by decide +kernel)
theorem mixed3 : blockAt mixedDev 3 = dirBlock 0 (hdrA 3) (zeros 39) (zeros 39) :=
  dev_block3 (by decide +kernel) (by decide +kernel) (by decide +kernel)
theorem mixed4 : blockAt mixedDev 4 = dirBlock 0 (hdrA 9) (zeros 39) (zeros 39) :=
  dev_block4 (by decide +kernel) (by decide +kernel) (by decide +kernel)
theorem mixed_on {b : Nat} (hb : b < 280) : OnDevice mixedDev b :=
  dev_on (by decide +kernel) (by decide +kernel) (by decide +kernel) hb
theorem mixed_length : mixedDev.length = 143360 := dev_length (by decide +kernel) (by decide +kernel) (by decide +kernel)

theorem mixed_blocks2 : DirBlocks mixedDev 2 [] := dirBlocks_of mixed2 (mixed_on (by omega)) (by decide +kernel)
theorem mixed_blocks3 : DirBlocks mixedDev 3 [] := dirBlocks_of mixed3 (mixed_on (by omega)) (by decide +kernel)
theorem mixed_blocks4 : DirBlocks mixedDev 4 [] := dirBlocks_of mixed4 (mixed_on (by omega)) (by decide +kernel)

theorem mixed_read1 : ToRead mixedDev 1 [3, 4] := by
  have h := ToRead.step .start mixed_blocks2
  have e : subdirKeys mixedDev 2 [] = [3, 4] := by
    unfold subdirKeys
    rw [dirEntries_of mixed2]
    decide +kernel
  rw [e] at h
  exact h

theorem mixed_read2 : ToRead mixedDev 2 [4] := by
  have h := ToRead.step mixed_read1 mixed_blocks3
  have e : subdirKeys mixedDev 3 [] = [] := by
    unfold subdirKeys
    rw [dirEntries_of mixed3]
    decide +kernel
  rw [e] at h
  exact h

theorem mixed_read3 : ToRead mixedDev 3 [] := by
  have h := ToRead.step mixed_read2 mixed_blocks4
  have e : subdirKeys mixedDev 4 [] = [] := by
    unfold subdirKeys
    rw [dirEntries_of mixed4]
    decide +kernel
  rw [e] at h
  exact h

theorem mixed_comes {n k : Nat} (h : ComesTo mixedDev n k) : DirBlocks mixedDev k [] := by
  obtain ⟨q, hq⟩ := h
  rcases Nat.lt_or_ge n 3 with hn | hn
  · obtain rfl | rfl | rfl : n = 0 ∨ n = 1 ∨ n = 2 := by omega
    · rw [comesTo_unique ⟨q, hq⟩ (comesTo_zero _)]; exact mixed_blocks2
    · rw [comesTo_unique ⟨q, hq⟩ ⟨_, mixed_read1⟩]; exact mixed_blocks3
    · rw [comesTo_unique ⟨q, hq⟩ ⟨_, mixed_read2⟩]; exact mixed_blocks4
  · by_cases e : n = 3
    · subst e; cases toRead_unique hq mixed_read3
    · obtain ⟨_, _, ⟨q', hq'⟩, _⟩ := toRead_before hq 3 (by omega)
      cases toRead_unique hq' mixed_read3

theorem mixed_owner (b k : Nat) : ¬ Owner mixedDev b k := by
  rintro ⟨n, l, h1, h2, h3, _⟩
  rw [h2.unique (mixed_comes h1)] at h3
  cases h3

theorem mixed_subdir (k : Nat) : Subdir mixedDev k ↔ k = 3 ∨ k = 4 := by
  constructor
  · intro h
    have hsub : ∀ a b, (a = 2 ∨ a = 3 ∨ a = 4) → Child mixedDev a b → b = 3 ∨ b = 4 := by
      rintro a b ha hc
      have hk : ∀ n q, ToRead mixedDev n (a :: q) → DirBlocks mixedDev a [] → ∀ q', ToRead mixedDev (n + 1) q' → b ∈ q' := by
        intro n q h1 h2 q' h3
        rw [toRead_unique h3 (.step h1 h2)]
        exact List.mem_append_right _ ((mem_subdirKeys h2).2 hc)
      rcases ha with rfl | rfl | rfl
      · simpa using hk 0 _ .start mixed_blocks2 _ mixed_read1
      · have := hk 1 _ mixed_read1 mixed_blocks3 _ mixed_read2; rw [List.mem_singleton] at this; exact Or.inr this
      · cases hk 2 _ mixed_read2 mixed_blocks4 _ mixed_read3
    induction h with
    | single h => exact hsub _ _ (Or.inl rfl) h
    | tail _ h ih => exact hsub _ _ (Or.inr ih) h
  · intro h
    have : k ∈ subdirKeys mixedDev 2 [] := by
      have e := toRead_unique mixed_read1 (.step .start mixed_blocks2)
      rw [List.nil_append] at e
      rw [← e]
      rcases h with rfl | rfl <;> simp
    exact .single ((mem_subdirKeys mixed_blocks2).1 this)

theorem mixed_parent3 : parentPointer mixedDev 3 = 3 := by
  unfold parentPointer word bbyte
  rw [mixed3]; decide +kernel

theorem mixed_parent4 : parentPointer mixedDev 4 = 9 := by
  unfold parentPointer word bbyte
  rw [mixed4]; decide +kernel

theorem mixed_up : Up mixedDev 3 3 := by
  refine ⟨?_, (mixed_subdir 3).2 (Or.inl rfl), Or.inl mixed_parent3⟩
  rintro (h | h)
  · rw [mixed_parent3] at h; cases h
  · exact mixed_owner _ _ h

theorem mixed_endless : EndlessUp mixedDev 3 := ⟨3, .refl, .single mixed_up⟩

theorem mixed_lost : Lost mixedDev 4 := by
  refine ⟨4, .refl, ?_, ?_⟩
  · rintro (h | h)
    · rw [mixed_parent4] at h; cases h
    · exact mixed_owner _ _ h
  · rintro i ⟨_, hs, h | ⟨_, h⟩⟩
    · rw [mixed_parent4] at h
      rw [← h, mixed_subdir] at hs
      omega
    · exact mixed_owner _ _ h

/-- C47 fails, and it depends on the order of visiting maps whether it does: on this volume reading never ends in one order, and ends with an error in another. -/
theorem C47_violated_by_order : (∃ ord, ∀ n, readVolume n ord mixedDev 2 = .timeout) ∧ ∃ ord n, (readVolume n ord mixedDev 2).isErr := by
  have hlen : mixedDev.length < 2 ^ 36 := by rw [mixed_length]; omega
  have hb := bitmap_small mixed_length
  have ha : AllRead mixedDev := ⟨3, mixed_read3⟩
  refine ⟨(C47_can_be_endless hlen).2 (Or.inr ⟨hb, ha, 3, (mixed_subdir 3).2 (Or.inl rfl), mixed_endless⟩), ?_⟩
  by_contra hc
  have hall : ∀ ord n, readVolume n ord mixedDev 2 = .timeout := by
    intro ord n
    rcases readVolume_split hlen n ord with ⟨h, _⟩ | ⟨h, _⟩ | ⟨bb, f, g, _, _, hr, h⟩
    · exact absurd ⟨ord, n, h⟩ hc
    · exact h
    · cases hx : readVolume n ord mixedDev 2 with
      | timeout => rfl
      | err e => exact absurd ⟨ord, n, by rw [hx]; rfl⟩ hc
      | panic =>
        rw [hx] at h
        have := nameLoop_two_ne_panic n bb f (ord.visit bb) []
        cases hy : nameLoop n 2 bb f (ord.visit bb) [] with
        | ok m => rw [hy] at h; cases h
        | err e => rw [hy] at h; cases h
        | timeout => rw [hy] at h; cases h
        | panic => exact absurd hy this
      | ok v =>
        exfalso
        obtain ⟨e, _, h2, h3⟩ := entry_of ((mixed_subdir 3).2 (Or.inl rfl))
        rw [hx] at h
        cases hy : nameLoop n 2 bb f (ord.visit bb) [] with
        | ok m =>
          obtain ⟨p, hp⟩ := (nameLoop_ok hy).1 e (mem_visit.2 (h3 bb f hr))
          unfold pathName at hp
          rw [parentDirName_endless hr n 3 _ mixed_endless h2] at hp
          cases hp
        | err e => rw [hy] at h; cases h
        | timeout => rw [hy] at h; cases h
        | panic => rw [hy] at h; cases h
  rcases (C47_is_endless hlen).1 hall with h | ⟨_, _, _, h⟩
  · exact (allRead_not ha).1 h
  · exact h ⟨4, (mixed_subdir 4).2 (Or.inr rfl), mixed_lost⟩

/-- A directory whose blocks go on for ever, and one that contains itself. -/
example : EndlessReading loopDev ∧ EndlessReading selfDev := by
  have hl : loopDev.length = 143360 := dev_length (by decide +kernel) (by decide +kernel) (by decide +kernel)
  have hs : selfDev.length = 143360 := dev_length (by decide +kernel) (by decide +kernel) (by decide +kernel)
  have key : ∀ {img : Bytes}, img.length = 143360 → (∀ n ord, readVolume n ord img 2 = .timeout) → ¬ AllRead img → EndlessReading img := by
    intro img hi h hna
    rcases (C47_can_be_endless (img := img) (by rw [hi]; omega)).1 ⟨.stored, fun n => h n _⟩ with he | ⟨_, ha, _⟩
    · exact he
    · exact absurd ha hna
  refine ⟨key hl C47_violated_chain ?_, key hs C47_violated_self ?_⟩
  · rintro ⟨n, hn⟩
    cases n with
    | zero => cases toRead_unique hn .start
    | succ n =>
      obtain ⟨k, l, hk, hd⟩ := toRead_before hn 0 (Nat.succ_pos n)
      rw [← comesTo_unique (comesTo_zero _) hk] at hd
      have h2 : blockAt loopDev 2 = dirBlock 2 (zeros 39) (zeros 39) (zeros 39) :=
        dev_block2 (by decide +kernel) (by decide +kernel) (by decide +kernel)
      have hnext : nextOf loopDev 2 = 2 := by rw [nextOf_of h2]; decide +kernel
      have hw : ∀ k, blockWalk loopDev 2 k = 2 := by
        intro k
        induction k with
        | zero => rfl
        | succ k ih => show nextOf loopDev (blockWalk loopDev 2 k) = 2; rw [ih, hnext]
      refine endless_no_blocks (k := 2) ?_ hd
      rw [hnext]
      intro m
      rw [hw]
      exact ⟨by omega, hd.1⟩
  · rintro ⟨M, hM⟩
    have h2 : blockAt selfDev 2 = dirBlock 0 (zeros 39) (entry 0xD1 0x41 3) (zeros 39) :=
      dev_block2 (by decide +kernel) (by decide +kernel) (by decide +kernel)
    have h3 : blockAt selfDev 3 = dirBlock 0 (hdrA 2) (entry 0xD1 0x41 3) (zeros 39) :=
      dev_block3 (by decide +kernel) (by decide +kernel) (by decide +kernel)
    have ho : ∀ {b}, b < 280 → OnDevice selfDev b := fun hb =>
      dev_on (by decide +kernel) (by decide +kernel) (by decide +kernel) hb
    have b2 : DirBlocks selfDev 2 [] := dirBlocks_of h2 (ho (by omega)) (by decide +kernel)
    have b3 : DirBlocks selfDev 3 [] := dirBlocks_of h3 (ho (by omega)) (by decide +kernel)
    have e2 : subdirKeys selfDev 2 [] = [3] := by unfold subdirKeys; rw [dirEntries_of h2]; decide +kernel
    have e3 : subdirKeys selfDev 3 [] = [3] := by unfold subdirKeys; rw [dirEntries_of h3]; decide +kernel
    have all : ∀ n, ToRead selfDev (n + 1) [3] := by
      intro n
      induction n with
      | zero => have := ToRead.step .start b2; rw [e2] at this; exact this
      | succ n ih => have := ToRead.step ih b3; rw [e3] at this; exact this
    cases M with
    | zero => cases toRead_unique hM .start
    | succ M => cases toRead_unique hM (all M)

end Verif.Prodos
