import Verif.Props.Damage
import Verif.Props.CmdFilesWit

/-!
# Concrete cases for C95
-/

set_option autoImplicit false
set_option maxRecDepth 20000

namespace Verif.Cmd
open Disk Spec

/-- Whatever is written to a sector of a file of a NakedOS disk, the disk is still one, and it differs in that file only. -/
theorem overwritten {sm : Supermon.SectorMap} {img : Bytes} (h : Supermon.Good sm img) {n : Nat} (hn : n < 560)
    (hr : owner img n ≠ 0xFE) {d : Bytes} (hd : d.length = 256) :
    Supermon.Good sm (put img (n * 256) d) ∧ DiffersIn (fun f => f = owner img n) img (put img (n * 256) d) := by
  have hl := h.len
  have hown := (Supermon.loaded_iff (by omega) sm).1 h.loaded
  have h12 : 12 ≤ n := by
    by_contra hc
    exact hr (by rw [← hown n hn]; exact h.legal.1 n (by omega))
  have ho : ∀ m, m < 560 → owner (put img (n * 256) d) m = owner img m := by
    intro m hm
    unfold owner
    rw [List.getD_eq_getElem?_getD, List.getD_eq_getElem?_getD, getElem?_put (by omega), if_pos (by omega)]
  have hlen : (put img (n * 256) d).length = 143360 := by rw [put_length (by omega), hl]
  refine ⟨⟨hlen, h.legal, (Supermon.loaded_iff (by omega) sm).2 fun m hm => by rw [ho m hm, hown m hm]⟩, ho, ?_⟩
  intro m hm hne
  have hmn : m ≠ n := fun e => hne (by rw [e])
  refine Supermon.sectorNo_ext fun i hi => ?_
  rw [getElem?_put (by omega)]
  by_cases hlt : i < n * 256
  · rw [if_pos hlt]
  · rw [if_neg hlt, if_neg (by omega)]

/-- Non-vacuity of C95 for NakedOS, for every disk with a file that is not of the symbol table: the sector of the file can hold anything. -/
theorem naked_damage {img : Bytes} {o : Supermon.Operator} (ho : Supermon.openOperator img = .ok o) (hd : o.data = img)
    (hg : Supermon.Good o.sm img) {n : Nat} (hn : n < 560) (hr : owner img n ≠ 0xFE) (h3 : owner img n ≠ 3) (h4 : owner img n ≠ 4)
    {d : Bytes} (hl : d.length = 256) (env : Env) :
    (∀ short, SameAnswer env (.ls (str "do") (str "nakedos") short (str "a.do") []) (diskWorld img) (diskWorld (put img (n * 256) d))) ∧
    ∀ f, IsFileNumber f → f ≠ owner img n →
      SameAnswer env (.dump (str "do") (str "nakedos") (str "a.do") (dfName f)) (diskWorld img) (diskWorld (put img (n * 256) d)) := by
  obtain ⟨hg', hdiff⟩ := overwritten hg hn hr hl
  have hf := finds_nakedos env hg.len ho
  have hf' := finds_nakedos env hg'.len (Supermon.open_of_good hg')
  obtain ⟨h1, h2⟩ := C95_nakedos hf hf' (others := fun f => f = owner img n) (fun e => h3 e.symm) (fun e => h4 e.symm) (by rw [hd]; exact hdiff)
  refine ⟨h1, fun f hfn hne => h2 _ ?_⟩
  intro g hgn e
  rw [Supermon.C34_dfname_resolves o.table hfn] at hgn
  exact hne (by rw [Out.ok.inj hgn]; exact e)

/-- The only file of a disk, overwritten. -/
example (env : Env) (d : Bytes) (hl : d.length = 256) (short : Bool) :
    SameAnswer env (.ls (str "do") (str "nakedos") short (str "a.do") []) (diskWorld Supermon.lonelyImg) (diskWorld (put Supermon.lonelyImg (272 * 256) d)) := by
  have h9 : owner Supermon.lonelyImg 272 = 9 := by
    have h : (272 : Nat) ∈ ownedBy (own Supermon.lonelyMap) 9 := by rw [Supermon.lonely_9]; simp
    rw [← (Supermon.loaded_iff (by have := Supermon.lonely_good.len; omega) _).1 Supermon.lonely_good.loaded 272 (by omega)]
    exact (Supermon.mem_ownedBy.1 h).2
  exact (naked_damage lonely_open rfl Supermon.lonely_good (by omega) (by rw [h9]; decide) (by rw [h9]; decide) (by rw [h9]; decide) hl env).1 short

end Verif.Cmd

namespace Verif.Dos3
open Disk Spec

/-- Track 17 of the example disk with the file "HUGE" damaged: its track/sector list and its contents. -/
def brokenSectors : List Bytes :=
  [vtocBytes 17 1, exCat, zeros 256,
   exList 17 4, [0, 8, 0x2c, 1] ++ List.replicate 252 7,
   List.replicate 256 0x11, List.replicate 256 0x22,
   exList 17 8, [0xC8, 0xC9, 0x8D] ++ zeros 253]

/-- The example disk with the file "HUGE" damaged. -/
def brokenDisk : Bytes := zeros 69632 ++ (brokenSectors.flatten ++ zeros 71424)

theorem brokenSectors_len : brokenSectors.flatten.length = 2304 := by decide +kernel

theorem brokenDisk_length : brokenDisk.length = 143360 := by
  unfold brokenDisk
  rw [List.length_append, List.length_append, zeros_length, zeros_length, brokenSectors_len]

theorem brokenSectors_get : ∀ s : Fin 9, (brokenSectors.flatten.drop (256 * s.val)).take 256 = brokenSectors.getD s.val [] := by
  decide +kernel

theorem brokenDisk_sector (s : Nat) (h : s < 9) : sectorAt brokenDisk 17 s = brokenSectors.getD s [] := by
  unfold brokenDisk
  rw [sectorAt_wit _ _ s (by rw [brokenSectors_len]; omega)]
  exact brokenSectors_get ⟨s, h⟩

theorem broken_same (s : Nat) (h : s < 9) (h5 : s ≠ 5) (h6 : s ≠ 6) : SameSector exDisk brokenDisk (17, s) := by
  show sectorAt brokenDisk 17 s = sectorAt exDisk 17 s
  rw [brokenDisk_sector s h, exDisk_sector s h]
  have key : ∀ s : Fin 9, s.val ≠ 5 → s.val ≠ 6 → brokenSectors.getD s.val [] = exSectors.getD s.val [] := by decide +kernel
  exact key ⟨s, h⟩ h5 h6

theorem broken_differs : sectorAt brokenDisk 17 6 ≠ sectorAt exDisk 17 6 := by
  rw [brokenDisk_sector 6 (by omega), exDisk_sector 6 (by omega)]
  decide +kernel

theorem chain_head {img : Bytes} {good : Nat × Nat → Prop} {q : Nat × Nat} {l : List (Nat × Nat)} (hc : Spec.Chain img good q l)
    (h : q ≠ (0, 0)) : q ∈ l := by
  cases hc with
  | done => exact absurd rfl h
  | step _ _ _ => simp

/-- The sectors reached by links are those of the chain. -/
theorem linked_chain {img : Bytes} {good : Nat × Nat → Prop} {q : Nat × Nat} {l : List (Nat × Nat)} (hc : Spec.Chain img good q l)
    {p : Nat × Nat} (h : Linked img q p) : p ∈ l := by
  have key : ∀ {q l}, Spec.Chain img good q l → ∀ {r}, r ∈ l → linkOf img r ≠ (0, 0) → linkOf img r ∈ l := by
    intro q l hc
    induction hc with
    | done => simp
    | @step p rest h0 h1 h2 ih =>
      intro r hr hne
      rcases List.mem_cons.1 hr with rfl | hr
      · exact List.mem_cons_of_mem _ (chain_head h2 hne)
      · exact List.mem_cons_of_mem _ (ih hr hne)
  induction h with
  | start h0 => exact chain_head hc h0
  | next _ hne ih => exact key hc ih hne

theorem broken_directory : ∀ p, DirectorySector exDisk p → SameSector exDisk brokenDisk p := by
  intro p hp
  rcases hp with rfl | hp
  · exact broken_same 0 (by omega) (by omega) (by omega)
  · have := linked_chain exDisk_chain hp
    rw [List.mem_singleton.1 this]
    exact broken_same 1 (by omega) (by omega) (by omega)

theorem broken_hi : ∀ e, HasEntry exDisk e → entryName e = str "HI" → ∀ p, FileSector exDisk e p → SameSector exDisk brokenDisk p := by
  rintro e ⟨hlive, q, k, hq, hk, he⟩ hn p hp
  have hq := List.mem_singleton.1 (linked_chain exDisk_chain hq)
  subst hq
  have hmem : e ∈ entries exDisk [(17, 1)] := by
    unfold entries
    exact List.mem_flatMap.2 ⟨(17, 1), by simp, List.mem_map.2 ⟨k, List.mem_range.2 hk, he.symm⟩⟩
  rw [exDisk_entries] at hmem
  have key : ∀ e ∈ (List.range 7).map (fun k => (exCat.drop (0x0b + 35 * k)).take 35), LiveEntry e → entryName e = str "HI" →
      e.getD 0 0 = 17 ∧ e.getD 1 0 = 7 := by decide +kernel
  obtain ⟨e0, e1⟩ := key e hmem hlive hn
  unfold FileSector at hp
  rw [e0, e1] at hp
  have hch : Spec.Chain exDisk (OnImage exDisk) (17, 7) [(17, 7)] :=
    exDisk_fileChain 7 (by omega) (by omega) (by decide +kernel) (by decide +kernel)
  rcases hp with hp | ⟨l, hl, hp, h0⟩
  · rw [List.mem_singleton.1 (linked_chain hch hp)]
    exact broken_same 7 (by omega) (by omega) (by omega)
  · rw [List.mem_singleton.1 (linked_chain hch hl), exDisk_pairs 7 (by omega)] at hp
    have : p = (17, 8) ∨ p = (0, 0) := by
      clear h0
      revert p
      decide +kernel
    rcases this with rfl | rfl
    · exact broken_same 8 (by omega) (by omega) (by omega)
    · exact absurd rfl h0

end Verif.Dos3

namespace Verif.Cmd
open Disk Spec

/-- Non-vacuity of C95 for DOS 3.3: with the file "HUGE" damaged, `ls` and `dump HI` print the same. -/
example (env : Env) : ∃ w w' : World, Finds env w (str "a.do") (str "do") (str "dos3") (.dos3 ⟨Dos3.exDisk⟩) orderDO ∧
    Finds env w' (str "a.do") (str "do") (str "dos3") (.dos3 ⟨Dos3.brokenDisk⟩) orderDO ∧ Dos3.exDisk ≠ Dos3.brokenDisk ∧
    SameAnswer env (.ls (str "do") (str "dos3") true (str "a.do") []) w w' ∧
    SameAnswer env (.dump (str "do") (str "dos3") (str "a.do") (str "HI")) w w' := by
  have hf := finds_dos3 env Dos3.exDisk_length
  have hf' := finds_dos3 env Dos3.brokenDisk_length
  obtain ⟨h1, h2⟩ := C95_dos3 hf hf' (by show Dos3.brokenDisk.length = Dos3.exDisk.length; rw [Dos3.brokenDisk_length, Dos3.exDisk_length]) Dos3.broken_directory
  exact ⟨_, _, hf, hf', fun e => Dos3.broken_differs (by rw [e]), h1 true [], h2 _ Dos3.broken_hi⟩

end Verif.Cmd
