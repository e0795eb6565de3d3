import Verif.Props.Decode
import Verif.Props.CmdFilesWit

/-!
# A concrete disk with an Applesoft program, for C75
-/

set_option autoImplicit false
set_option maxRecDepth 20000

namespace Verif.Dos3

open Verif Verif.Disk Verif.Spec Verif.Spec.Basic

/-- A catalog with one locked Applesoft program. -/
def prCat : Bytes := zeros 11 ++ mkEntry 17 2 0x82 (str "HELLO") 2 ++ zeros 210

/-- Track 17 of the disk. -/
def prSectors : List Bytes :=
  [vtocBytes 17 1, prCat, exList 17 3,
   withLength (applesoftLayout 0x801 Cmd.hiProgram) ++ zeros 234]

/-- The disk: everything on track 17, zeros elsewhere. -/
def prDisk : Bytes := zeros 69632 ++ (prSectors.flatten ++ zeros 72704)

theorem prSectors_len : prSectors.flatten.length = 1024 := by decide +kernel

theorem prDisk_length : prDisk.length = 143360 := by
  unfold prDisk
  rw [List.length_append, List.length_append, zeros_length, zeros_length, prSectors_len]

theorem prSectors_get : ∀ s : Fin 4, (prSectors.flatten.drop (256 * s.val)).take 256 = prSectors.getD s.val [] := by
  decide +kernel

theorem prDisk_sector (s : Nat) (h : s < 4) : sectorAt prDisk 17 s = prSectors.getD s [] := by
  unfold prDisk
  rw [sectorAt_wit _ _ s (by rw [prSectors_len]; omega)]
  exact prSectors_get ⟨s, h⟩

theorem prDisk_byte (s : Nat) (h : s < 4) (i : Nat) : sbyte prDisk (17, s) i = (prSectors.getD s []).getD i 0 := by
  unfold sbyte
  rw [prDisk_sector s h]

theorem prDisk_facts : NormalVTOC prDisk ∧ linkOf prDisk vtocAt = (17, 1) ∧
    (sbyte prDisk vtocAt 0x35).toNat = 16 :=
  normal_of_vtocBytes (t := 17) (s := 1) (by rw [prDisk_length]; omega) (prDisk_byte 0 (by omega))

theorem prDisk_onImage (s : Nat) (h : s < 4) : OnImage prDisk (17, s) := by
  unfold OnImage; rw [prDisk_length]; omega

theorem prDisk_link (s : Nat) (h : s < 4) (h0 : 0 < s) (h2 : (prSectors.getD s []).getD 1 0 = 0)
    (h3 : (prSectors.getD s []).getD 2 0 = 0) : linkOf prDisk (17, s) = (0, 0) := by
  unfold linkOf
  rw [prDisk_byte s h, prDisk_byte s h, h2, h3]; rfl

/-- Its catalog chain. -/
theorem prDisk_chain : Chain prDisk (CatalogPlace prDisk) (linkOf prDisk vtocAt) [(17, 1)] := by
  rw [prDisk_facts.2.1]
  refine .step (by decide) ⟨by decide, ?_, prDisk_onImage 1 (by omega)⟩ ?_
  · rw [prDisk_facts.2.2]; decide
  · rw [prDisk_link 1 (by omega) (by omega) (by decide +kernel) (by decide +kernel)]
    exact .done

theorem prDisk_entries : entries prDisk [(17, 1)] =
    (List.range 7).map fun k => (prCat.drop (0x0b + 35 * k)).take 35 := by
  unfold entries entryBytes
  rw [List.flatMap_cons, List.flatMap_nil, List.append_nil]
  simp only [prDisk_sector 1 (by omega)]
  rfl

/-- The file chain of an entry with a single list. -/
theorem prDisk_fileChain (s : Nat) (h : s < 4) (h0 : 0 < s) (h2 : (prSectors.getD s []).getD 1 0 = 0)
    (h3 : (prSectors.getD s []).getD 2 0 = 0) : Chain prDisk (OnImage prDisk) (17, s) [(17, s)] := by
  refine .step (by simp) (prDisk_onImage s h) ?_
  rw [prDisk_link s h h0 h2 h3]; exact .done

theorem prDisk_pairs (s : Nat) (h : s < 4) : pairs prDisk (17, s) =
    (List.range 122).map fun k =>
      (((prSectors.getD s []).getD (12 + 2 * k) 0).toNat, ((prSectors.getD s []).getD (13 + 2 * k) 0).toNat) := by
  unfold pairs
  simp only [prDisk_byte s h]

end Verif.Dos3

namespace Verif.Cmd

open Disk Spec Spec.Basic Verif.Basic

/-- Non-vacuity of `C75_dump_decode_partial`. -/
example (env : Env) (hb : 2 < env.budget) : ∃ w out keyword text,
    Dumps env w (str "do") (str "dos3") (str "a.do") (str "HELLO") out ∧
      (∀ c, c ∉ misnamed → keyword c = applesoftKeyword c) ∧ IsListing keyword hiProgram text ∧
      ∀ w', w'.stdin = out → Prints env w' (str "-") 0x801 false text := by
  refine ⟨_, C75_dump_decode_partial (finds_dos3 env Dos3.prDisk_length) Dos3.prDisk_facts.1 _ Dos3.prDisk_chain (str "HELLO")
    (Dos3.mkEntry 17 2 0x82 (str "HELLO") 2) ?_ (by decide +kernel) [(17, 2)] ?_ ?_ ?_ 0x801 hiProgram (zeros 234) ?_ ?_
    (by decide) (by decide +kernel) ?_ hb false⟩
  · rw [Dos3.prDisk_entries]; decide +kernel
  · exact Dos3.prDisk_fileChain 2 (by omega) (by omega) (by decide +kernel) (by decide +kernel)
  · intro p hp
    simp only [List.getLast?_singleton, Option.some.injEq] at hp
    subst hp
    rw [Dos3.prDisk_pairs 2 (by omega)]
    exact ⟨(17, 3), by decide +kernel, by decide⟩
  · intro p hp q hq hne
    rw [List.mem_singleton.1 hp, Dos3.prDisk_pairs 2 (by omega)] at hq
    have : q = (17, 3) ∨ q = (0, 0) := by
      revert q
      decide +kernel
    rcases this with rfl | rfl
    · exact Dos3.prDisk_onImage 3 (by omega)
    · exact absurd rfl hne
  · have : filePairs Dos3.prDisk [(17, 2)] = [(17, 3)] := by
      show withoutTrailing (0, 0) (pairs Dos3.prDisk (17, 2)) = _
      rw [Dos3.prDisk_pairs 2 (by omega)]
      decide +kernel
    rw [this]
    unfold pairsData
    rw [List.flatMap_cons, List.flatMap_nil, List.append_nil, if_neg (by simp), Dos3.prDisk_sector 3 (by omega)]
    rfl
  · intro l hl
    simp only [hiProgram, List.mem_cons, List.not_mem_nil, or_false] at hl
    rcases hl with rfl | rfl <;> exact ⟨by decide, by decide +kernel⟩
  · unfold LooksHeadered
    decide +kernel

end Verif.Cmd
