import Verif.Props.Dos3Get

/-!
# A concrete DOS 3.3 disk: non-vacuity of C15, C17-C20 and violations of C18 and C19
-/

set_option autoImplicit false
set_option maxRecDepth 20000

namespace Verif.Dos3

open Verif Verif.Disk Verif.Spec

/-- A 35-byte catalog entry. -/
def mkEntry (t s ty : UInt8) (nm : Str) (count : UInt8) : Bytes := [t, s, ty] ++ storedName nm ++ [count, 0]

/-- The catalog sector of the example disk. -/
def exCat : Bytes :=
  zeros 11 ++ mkEntry 17 2 0x00 (str "EMPTY") 1 ++ mkEntry 17 3 0x84 (str "LONG") 2 ++
    mkEntry 17 5 0x04 (str "HUGE") 2 ++ mkEntry 17 7 0x00 (str "HI") 2 ++ mkEntry 0xff 9 0x00 (str "GONE") 2 ++ zeros 70

/-- A track/sector list with one sector. -/
def exList (t s : UInt8) : Bytes := zeros 12 ++ [t, s] ++ zeros 242

/-- Track 17 of the example disk. -/
def exSectors : List Bytes :=
  [vtocBytes 17 1, exCat, zeros 256,
   exList 17 4, [0, 8, 0x2c, 1] ++ List.replicate 252 7,
   exList 17 6, List.replicate 256 0xff,
   exList 17 8, [0xC8, 0xC9, 0x8D] ++ zeros 253]

/-- The example disk: everything on track 17, zeros elsewhere. -/
def exDisk : Bytes := zeros 69632 ++ (exSectors.flatten ++ zeros 71424)

theorem exSectors_len : exSectors.flatten.length = 2304 := by decide +kernel

theorem exDisk_length : exDisk.length = 143360 := by
  unfold exDisk
  rw [List.length_append, List.length_append, zeros_length, zeros_length, exSectors_len]

theorem exSectors_get : ∀ s : Fin 9, (exSectors.flatten.drop (256 * s.val)).take 256 = exSectors.getD s.val [] := by
  decide +kernel

theorem exDisk_sector (s : Nat) (h : s < 9) : sectorAt exDisk 17 s = exSectors.getD s [] := by
  unfold exDisk
  rw [sectorAt_wit _ _ s (by rw [exSectors_len]; omega)]
  exact exSectors_get ⟨s, h⟩

theorem exDisk_byte (s : Nat) (h : s < 9) (i : Nat) : sbyte exDisk (17, s) i = (exSectors.getD s []).getD i 0 := by
  unfold sbyte
  rw [exDisk_sector s h]

theorem exDisk_facts : NormalVTOC exDisk ∧ linkOf exDisk vtocAt = (17, 1) ∧
    (sbyte exDisk vtocAt 0x35).toNat = 16 :=
  normal_of_vtocBytes (t := 17) (s := 1) (by rw [exDisk_length]; omega) (exDisk_byte 0 (by omega))

theorem exDisk_onImage (s : Nat) (h : s < 9) : OnImage exDisk (17, s) := by
  unfold OnImage; rw [exDisk_length]; omega

theorem exDisk_link (s : Nat) (h : s < 9) (h0 : 0 < s) (h2 : (exSectors.getD s []).getD 1 0 = 0)
    (h3 : (exSectors.getD s []).getD 2 0 = 0) : linkOf exDisk (17, s) = (0, 0) := by
  unfold linkOf
  rw [exDisk_byte s h, exDisk_byte s h, h2, h3]; rfl

/-- Non-vacuity of C15: the example disk has a catalog chain. -/
theorem exDisk_chain : Chain exDisk (CatalogPlace exDisk) (linkOf exDisk vtocAt) [(17, 1)] := by
  rw [exDisk_facts.2.1]
  refine .step (by decide) ⟨by decide, ?_, exDisk_onImage 1 (by omega)⟩ ?_
  · rw [exDisk_facts.2.2]; decide
  · rw [exDisk_link 1 (by omega) (by omega) (by decide +kernel) (by decide +kernel)]
    exact .done

theorem exDisk_entries : entries exDisk [(17, 1)] =
    (List.range 7).map fun k => (exCat.drop (0x0b + 35 * k)).take 35 := by
  unfold entries entryBytes
  rw [List.flatMap_cons, List.flatMap_nil, List.append_nil]
  simp only [exDisk_sector 1 (by omega)]
  rfl

theorem exDisk_lookup (n : Str) (e : Bytes)
    (h : (((List.range 7).map fun k => (exCat.drop (0x0b + 35 * k)).take 35).filter (fun e => LiveEntry e)).find?
      (fun e => entryName e = n) = some e) :
    Operator.fileForFilename ⟨exDisk⟩ n = .ok (FileDesc.fromBytes e 0) := by
  rw [C20_lookup exDisk exDisk_facts.1 _ exDisk_chain, exDisk_entries, h]

/-- The file chain of an entry with a single list. -/
theorem exDisk_fileChain (s : Nat) (h : s < 9) (h0 : 0 < s) (h2 : (exSectors.getD s []).getD 1 0 = 0)
    (h3 : (exSectors.getD s []).getD 2 0 = 0) : Chain exDisk (OnImage exDisk) (17, s) [(17, s)] := by
  refine .step (by simp) (exDisk_onImage s h) ?_
  rw [exDisk_link s h h0 h2 h3]; exact .done

theorem exDisk_pairs (s : Nat) (h : s < 9) : pairs exDisk (17, s) =
    (List.range 122).map fun k =>
      (((exSectors.getD s []).getD (12 + 2 * k) 0).toNat, ((exSectors.getD s []).getD (13 + 2 * k) 0).toNat) := by
  unfold pairs
  simp only [exDisk_byte s h]

/-- Contents of a one-list file whose list is sector `s` and whose only sector is `d`. -/
theorem exDisk_contents {fd : FileDesc} {s d : Nat} (hs : s < 9) (hs0 : 0 < s) (hd : d < 9)
    (hfd : nat2 fd.trackSectorListTrack fd.trackSectorListSector = (17, s))
    (h2 : (exSectors.getD s []).getD 1 0 = 0) (h3 : (exSectors.getD s []).getD 2 0 = 0)
    (hp : usedPart ((List.range 122).map fun k =>
      (((exSectors.getD s []).getD (12 + 2 * k) 0).toNat, ((exSectors.getD s []).getD (13 + 2 * k) 0).toNat))
        = [(17, d)]) (hlen : (exSectors.getD d []).length = 256) :
    contents fd exDisk = .ok ⟨exSectors.getD d [], 30976⟩ := by
  have hc := exDisk_fileChain s hs hs0 h2 h3
  rw [← hfd] at hc
  rw [(contents_eq fd exDisk).1 _ hc]
  have hcp : codePairs exDisk [nat2 fd.trackSectorListTrack fd.trackSectorListSector] = [(17, d)] := by
    rw [hfd]
    show usedPart (pairs exDisk (17, s)) = _
    rw [exDisk_pairs s hs, hp]
  rw [hcp]
  have hr : Readable exDisk [(17, d)] := by
    intro p hp' _
    rw [List.mem_singleton.1 hp']
    exact exDisk_onImage d hd
  have hdata : pairsData exDisk [(17, d)] = exSectors.getD d [] := by
    unfold pairsData
    rw [List.flatMap_cons, List.flatMap_nil, List.append_nil, if_neg (by simp)]
    exact exDisk_sector d hd
  rw [if_pos hr, hdata, hlen]
  rfl

theorem nat2_fromBytes (e : Bytes) :
    nat2 (FileDesc.fromBytes e 0).trackSectorListTrack (FileDesc.fromBytes e 0).trackSectorListSector =
      ((e.getD 0 0).toNat, (e.getD 1 0).toNat) := rfl

theorem filetype_fromBytes (e : Bytes) : (FileDesc.fromBytes e 0).filetype = e.getD 2 0 := rfl

/-- Non-vacuity of C19's text theorem: "HI" is read without its trailing zeros. -/
theorem exDisk_hi : ∃ fi, Operator.getFile ⟨exDisk⟩ (str "HI") = .ok fi ∧ fi.data = [0xC8, 0xC9, 0x8D] := by
  have h1 := exDisk_lookup (str "HI") (mkEntry 17 7 0x00 (str "HI") 2) (by decide +kernel)
  have h2 := exDisk_contents (fd := FileDesc.fromBytes (mkEntry 17 7 0x00 (str "HI") 2) 0) (s := 7) (d := 8)
    (by omega) (by omega) (by omega) (by rw [nat2_fromBytes]; decide +kernel) (by decide +kernel)
    (by decide +kernel) (by decide +kernel) (by decide +kernel)
  have := C19_text_partial (o := ⟨exDisk⟩) h1 h2 (by rw [filetype_fromBytes]; decide +kernel)
    ⟨0x8D, by decide +kernel, by decide⟩
  exact ⟨_, this, by decide +kernel⟩

theorem allHoles : (List.range 122).map (fun k =>
      (((exSectors.getD 2 []).getD (12 + 2 * k) 0).toNat, ((exSectors.getD 2 []).getD (13 + 2 * k) 0).toNat))
    = List.replicate 122 (0, 0) := by decide +kernel

theorem exEmpty_contents (s : Slice)
    (h : contents (FileDesc.fromBytes (mkEntry 17 2 0x00 (str "EMPTY") 1) 0) exDisk = .ok s) :
    s.data = List.replicate (256 * 122) 0 := by
  have hc := exDisk_fileChain 2 (by omega) (by omega) (by decide +kernel) (by decide +kernel)
  have hfd : ((FileDesc.fromBytes (mkEntry 17 2 0x00 (str "EMPTY") 1) 0).trackSectorListTrack.toNat,
      (FileDesc.fromBytes (mkEntry 17 2 0x00 (str "EMPTY") 1) 0).trackSectorListSector.toNat) = (17, 2) :=
    (nat2_fromBytes _).trans (by decide +kernel)
  have := C18_all_holes _ _ s h [] (17, 2) (by rw [hfd]; exact hc) (by
    intro q hq
    rw [exDisk_pairs 2 (by omega), allHoles] at hq
    exact (List.mem_replicate.1 hq).2)
  rw [this]
  rfl

theorem exEmpty_ok : ∃ s, contents (FileDesc.fromBytes (mkEntry 17 2 0x00 (str "EMPTY") 1) 0) exDisk = .ok s := by
  rw [← Out.isOk_iff, C17_succeeds_iff]
  have hfd : ((FileDesc.fromBytes (mkEntry 17 2 0x00 (str "EMPTY") 1) 0).trackSectorListTrack.toNat,
      (FileDesc.fromBytes (mkEntry 17 2 0x00 (str "EMPTY") 1) 0).trackSectorListSector.toNat) = (17, 2) :=
    (nat2_fromBytes _).trans (by decide +kernel)
  refine ⟨[(17, 2)], ?_, ?_⟩
  · rw [hfd]
    exact exDisk_fileChain 2 (by omega) (by omega) (by decide +kernel) (by decide +kernel)
  · intro p hp q hq hne
    rw [List.mem_singleton.1 hp, exDisk_pairs 2 (by omega), allHoles] at hq
    exact absurd (List.mem_replicate.1 hq).2 hne

/-- C18 is violated for a file whose only list names no sector: it has no data, but 31232 zeros are read. -/
theorem C18_violated : ∃ (img : Bytes) (fd : FileDesc) (l : List (Nat × Nat)) (s : Slice),
    Chain img (OnImage img) (fd.trackSectorListTrack.toNat, fd.trackSectorListSector.toNat) l ∧
    contents fd img = .ok s ∧ s.data ≠ pairsData img (filePairs img l) := by
  obtain ⟨s, hs⟩ := exEmpty_ok
  have hfd : ((FileDesc.fromBytes (mkEntry 17 2 0x00 (str "EMPTY") 1) 0).trackSectorListTrack.toNat,
      (FileDesc.fromBytes (mkEntry 17 2 0x00 (str "EMPTY") 1) 0).trackSectorListSector.toNat) = (17, 2) :=
    (nat2_fromBytes _).trans (by decide +kernel)
  refine ⟨exDisk, _, [(17, 2)], s, ?_, hs, ?_⟩
  · rw [hfd]
    exact exDisk_fileChain 2 (by omega) (by omega) (by decide +kernel) (by decide +kernel)
  · have : filePairs exDisk [(17, 2)] = [] := by
      show withoutTrailing (0, 0) (pairs exDisk (17, 2)) = []
      rw [exDisk_pairs 2 (by omega), allHoles]
      decide +kernel
    rw [this, exEmpty_contents s hs]
    intro e
    have := congrArg List.length e
    rw [List.length_replicate] at this
    simp [pairsData] at this

/-- C19 is violated: on this disk reading "EMPTY" and reading "HUGE" crash the program, and reading "LONG",
which has one 256-byte sector, gives 300 bytes of which the last 48 are on no sector of the file. -/
theorem C19_violated : ∃ img : Bytes, img.length = 143360 ∧
    Operator.getFile ⟨img⟩ (str "EMPTY") = .panic ∧ Operator.getFile ⟨img⟩ (str "HUGE") = .panic ∧
    ∃ fi, Operator.getFile ⟨img⟩ (str "LONG") = .ok fi ∧
      fi.data = List.replicate 252 7 ++ List.replicate 48 0 := by
  refine ⟨exDisk, exDisk_length, ?_, ?_, ?_⟩
  · obtain ⟨s, hs⟩ := exEmpty_ok
    have h1 := exDisk_lookup (str "EMPTY") (mkEntry 17 2 0x00 (str "EMPTY") 1) (by decide +kernel)
    refine C19_text_all_zero (o := ⟨exDisk⟩) h1 hs (by rw [filetype_fromBytes]; decide +kernel) ?_
    intro b hb
    rw [exEmpty_contents s hs] at hb
    exact (List.mem_replicate.1 hb).2
  · have h1 := exDisk_lookup (str "HUGE") (mkEntry 17 5 0x04 (str "HUGE") 2) (by decide +kernel)
    have h2 := exDisk_contents (fd := FileDesc.fromBytes (mkEntry 17 5 0x04 (str "HUGE") 2) 0) (s := 5) (d := 6)
      (by omega) (by omega) (by omega) (by rw [nat2_fromBytes]; decide +kernel) (by decide +kernel)
      (by decide +kernel) (by decide +kernel) (by decide +kernel)
    rw [C19_binary_long (o := ⟨exDisk⟩) h1 h2 (by rw [filetype_fromBytes]; decide +kernel) (by decide +kernel)
      65535 (by decide +kernel) (by decide +kernel), if_neg (by decide +kernel)]
  · have h1 := exDisk_lookup (str "LONG") (mkEntry 17 3 0x84 (str "LONG") 2) (by decide +kernel)
    have h2 := exDisk_contents (fd := FileDesc.fromBytes (mkEntry 17 3 0x84 (str "LONG") 2) 0) (s := 3) (d := 4)
      (by omega) (by omega) (by omega) (by rw [nat2_fromBytes]; decide +kernel) (by decide +kernel)
      (by decide +kernel) (by decide +kernel) (by decide +kernel)
    have := C19_binary_long (o := ⟨exDisk⟩) h1 h2 (by rw [filetype_fromBytes]; decide +kernel) (by decide +kernel)
      300 (by decide +kernel) (by decide +kernel)
    rw [if_pos (by decide +kernel)] at this
    exact ⟨_, this, by decide +kernel⟩

/-- The catalog of the example disk can be read, and `ls` shows four files. -/
example : ∃ files deleted, readCatalog exDisk = .ok (files, deleted) ∧ files.length = 4 ∧ deleted.length = 1 := by
  obtain ⟨files, deleted, h, h1, h2⟩ := C15_catalog_complete exDisk exDisk_facts.1 _ exDisk_chain
  rw [exDisk_entries] at h1 h2
  refine ⟨files, deleted, h, ?_, ?_⟩
  · rw [← List.length_map (f := FileDesc.toBytes), h1]; decide +kernel
  · rw [← List.length_map (f := FileDesc.toBytes), h2]; decide +kernel

end Verif.Dos3
