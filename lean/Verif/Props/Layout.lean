import Verif.Props.Prodos
import Verif.Props.Dos3
import Verif.Props.Cmd

/-!
# Where every field is: C12 and C40 as concatenations

The round trips of C12 and C40 say that nothing is lost; they would also hold for a program that keeps
two fields in each other's places.  Here every structure on a DOS 3.3 or ProDOS disk is written out as
the sequence of its fields, in the order of the books (Beneath Apple DOS, chapter 4, and Beneath Apple
ProDOS, chapter 4).  Also C06 for the three systems the program has.
-/

set_option autoImplicit false

namespace Verif.Layout

open Verif Verif.Disk

/-- A number of two bytes on the disk: the low byte first. -/
def word (v : UInt16) : Bytes := [UInt8.ofNat (v.toNat % 256), UInt8.ofNat (v.toNat / 256)]

theorem word_eq (v : UInt16) : word v = [lo8 v, hi8 v] := by
  have h := v.toNat_lt
  unfold word lo8 hi8
  congr 1
  · apply UInt8.toNat_inj.1
    simp
  · congr 1
    apply UInt8.toNat_inj.1
    simp [Nat.shiftRight_eq_div_pow]

theorem copyAt_app (pre suf d mid : Bytes) (p : Nat) (hp : pre.length = p) (hd : mid.length = d.length) :
    copyAt (pre ++ (mid ++ suf)) p d = pre ++ (d ++ suf) := by
  apply List.ext_getElem?
  intro i
  unfold copyAt
  rw [List.getElem?_mapIdx]
  rcases Nat.lt_or_ge i p with h1 | h1
  · rw [List.getElem?_append_left (by omega), List.getElem?_append_left (by omega),
      List.getElem?_eq_getElem (by omega)]
    simp [Nat.not_le.2 h1]
  · rw [List.getElem?_append_right (l₁ := pre) (by omega), List.getElem?_append_right (l₁ := pre) (by omega), hp]
    rcases Nat.lt_or_ge (i - p) d.length with h2 | h2
    · rw [List.getElem?_append_left (l₁ := mid) (by omega), List.getElem?_append_left (l₁ := d) (by omega),
        List.getElem?_eq_getElem (by omega), List.getElem?_eq_getElem h2]
      simp only [Option.map_some]
      rw [if_pos ⟨h1, by omega⟩, List.getD_eq_getElem?_getD, List.getElem?_eq_getElem h2, Option.getD_some]
    · rw [List.getElem?_append_right (l₁ := mid) (by omega), List.getElem?_append_right (l₁ := d) (by omega), hd]
      cases suf[i - p - d.length]? with
      | none => rfl
      | some x =>
        simp only [Option.map_some]
        rw [if_neg (by omega)]

theorem copyAt_zeros (pre d : Bytes) (p m r : Nat) (hp : pre.length = p) (hm : m = d.length + r) :
    copyAt (pre ++ zeros m) p d = (pre ++ d) ++ zeros r := by
  subst hm
  have hz : zeros (d.length + r) = zeros d.length ++ zeros r := by
    unfold zeros
    rw [List.replicate_append_replicate]
  rw [hz, copyAt_app _ _ _ _ _ hp (zeros_length _), List.append_assoc]

theorem copyVec_zeros {n : Nat} (pre : Bytes) (v : Vector UInt8 n) (p m r : Nat) (hp : pre.length = p) (hm : m = n + r) :
    copyVec (pre ++ zeros m) p v = (pre ++ v.toList) ++ zeros r :=
  copyAt_zeros _ _ _ _ _ hp (by rw [Vector.length_toList]; exact hm)

theorem set_zeros (pre : Bytes) (x : UInt8) (p m : Nat) (hp : pre.length = p) :
    (pre ++ zeros (m + 1)).set p x = (pre ++ [x]) ++ zeros m := by
  subst hp
  unfold zeros
  rw [List.set_append_right _ _ (Nat.le_refl _), Nat.sub_self, List.replicate_succ, List.set_cons_zero,
    List.append_assoc, List.singleton_append]

theorem set16_zeros (pre : Bytes) (v : UInt16) (p m : Nat) (hp : pre.length = p) :
    set16 (pre ++ zeros (m + 2)) p v = (pre ++ word v) ++ zeros m := by
  unfold set16
  rw [show m + 2 = (m + 1) + 1 from rfl, set_zeros _ _ _ _ hp,
    set_zeros _ _ _ _ (by rw [List.length_append, hp]; rfl), word_eq, List.append_assoc pre]
  rfl

theorem copyEach_zeros (k : Nat) (ds : List Bytes) : ∀ (pre : Bytes) (p m r : Nat), (∀ d ∈ ds, d.length = k) →
    pre.length = p → m = k * ds.length + r →
    copyEach k (pre ++ zeros m) p ds = (pre ++ ds.flatten) ++ zeros r := by
  induction ds with
  | nil =>
    intro pre p m r _ _ hm
    simp only [List.length_nil, Nat.mul_zero, Nat.zero_add] at hm
    subst hm
    simp [copyEach]
  | cons d ds ih =>
    intro pre p m r hd hp hm
    have hk := hd d (by simp)
    rw [copyEach, copyAt_zeros pre d p m (k * ds.length + r) hp (by rw [hm, hk, List.length_cons, Nat.mul_succ]; omega),
      ih (pre ++ d) (p + k) _ r (fun e he => hd e (by simp [he])) (by rw [List.length_append, hp, hk]) rfl,
      List.flatten_cons, ← List.append_assoc]

/-! ## ProDOS -/

open Verif.Prodos

/-- A date and time is the two bytes of the day and then the two bytes of the time. -/
theorem C40_layout_date (d : DateTime) : d.toBytes.toList = d.ymd.toList ++ d.hm.toList := by
  obtain ⟨⟨⟨y⟩, hy⟩, ⟨⟨m⟩, hm⟩⟩ := d
  match y, hy, m, hm with
  | [a, b], _, [c, e], _ => rfl

/-- C40: an entry of a directory, field by field. -/
theorem C40_layout_descriptor (d : FileDescriptor) :
    d.toBytes = [d.typeAndNameLength] ++ d.fileName.toList ++ [d.fileType] ++ word d.keyPointer ++
      word d.blocksUsed ++ d.eof.toList ++ d.creation.toBytes.toList ++ [d.version] ++ [d.minVersion] ++
      [d.access] ++ word d.auxType ++ d.lastMod.toBytes.toList ++ word d.headerPointer := by
  unfold FileDescriptor.toBytes
  simp only []
  rw [show zeros 0x27 = [] ++ zeros (38 + 1) from rfl, set_zeros _ _ 0 _ rfl]
  rw [copyVec_zeros _ _ _ _ 23 (by simp) rfl]
  rw [set_zeros _ _ _ _ (by simp)]
  rw [set16_zeros _ _ _ _ (by simp)]
  rw [set16_zeros _ _ _ _ (by simp [word])]
  rw [copyVec_zeros _ _ _ _ 15 (by simp [word]) rfl]
  rw [copyVec_zeros _ _ _ _ 11 (by simp [word]) rfl]
  rw [set_zeros _ _ _ _ (by simp [word])]
  rw [set_zeros _ _ _ _ (by simp [word])]
  rw [set_zeros _ _ _ _ (by simp [word])]
  rw [set16_zeros _ _ _ _ (by simp [word])]
  rw [copyVec_zeros _ _ _ _ 2 (by simp [word]) rfl]
  rw [set16_zeros _ _ _ 0 (by simp [word])]
  rw [show zeros 0 = [] from rfl, List.append_nil, List.nil_append]

/-- C40: the header of a volume directory, field by field. -/
theorem C40_layout_volume_header (d : VolumeDirectoryHeader) :
    d.toBytes = [d.typeAndNameLength] ++ d.volumeName.toList ++ d.unused1.toList ++ d.creation.toBytes.toList ++
      [d.version] ++ [d.minVersion] ++ [d.access] ++ [d.entryLength] ++ [d.entriesPerBlock] ++ word d.fileCount ++
      word d.bitMapPointer ++ word d.totalBlocks := by
  unfold VolumeDirectoryHeader.toBytes
  simp only []
  rw [show zeros 0x27 = [] ++ zeros (38 + 1) from rfl, set_zeros _ _ 0 _ rfl]
  rw [copyVec_zeros _ _ _ _ 23 (by simp) rfl]
  rw [copyVec_zeros _ _ _ _ 15 (by simp) rfl]
  rw [copyVec_zeros _ _ _ _ 11 (by simp) rfl]
  rw [set_zeros _ _ _ _ (by simp)]
  rw [set_zeros _ _ _ _ (by simp)]
  rw [set_zeros _ _ _ _ (by simp)]
  rw [set_zeros _ _ _ _ (by simp)]
  rw [set_zeros _ _ _ _ (by simp)]
  rw [set16_zeros _ _ _ _ (by simp)]
  rw [set16_zeros _ _ _ _ (by simp [word])]
  rw [set16_zeros _ _ _ 0 (by simp [word])]
  rw [show zeros 0 = [] from rfl, List.append_nil, List.nil_append]

/-- C40: the header of a subdirectory, field by field. -/
theorem C40_layout_subdirectory_header (d : SubdirectoryHeader) :
    d.toBytes = [d.typeAndNameLength] ++ d.subdirectoryName.toList ++ [d.seventyFive] ++ d.unused1.toList ++
      d.creation.toBytes.toList ++ [d.version] ++ [d.minVersion] ++ [d.access] ++ [d.entryLength] ++
      [d.entriesPerBlock] ++ word d.fileCount ++ word d.parentPointer ++ [d.parentEntry] ++ [d.parentEntryLength] := by
  unfold SubdirectoryHeader.toBytes
  simp only []
  rw [show zeros 0x27 = [] ++ zeros (38 + 1) from rfl, set_zeros _ _ 0 _ rfl]
  rw [copyVec_zeros _ _ _ _ 23 (by simp) rfl]
  rw [set_zeros _ _ _ _ (by simp)]
  rw [copyVec_zeros _ _ _ _ 15 (by simp) rfl]
  rw [copyVec_zeros _ _ _ _ 11 (by simp) rfl]
  rw [set_zeros _ _ _ _ (by simp)]
  rw [set_zeros _ _ _ _ (by simp)]
  rw [set_zeros _ _ _ _ (by simp)]
  rw [set_zeros _ _ _ _ (by simp)]
  rw [set_zeros _ _ _ _ (by simp)]
  rw [set16_zeros _ _ _ _ (by simp)]
  rw [set16_zeros _ _ _ _ (by simp [word])]
  rw [set_zeros _ _ _ _ (by simp [word])]
  rw [set_zeros _ _ _ 0 (by simp [word])]
  rw [show zeros 0 = [] from rfl, List.append_nil, List.nil_append]

theorem entries_length {n : Nat} (ds : Vector FileDescriptor n) :
    ((ds.toList.map fun d => d.toBytes).flatten).length = 0x27 * n := by
  have h : ∀ l : List FileDescriptor, ((l.map fun d => d.toBytes).flatten).length = 0x27 * l.length := by
    intro l
    induction l with
    | nil => rfl
    | cons d l ih =>
      rw [List.map_cons, List.flatten_cons, List.length_append, ih, FileDescriptor.toBytes_length, List.length_cons]
      omega
  rw [h, Vector.length_toList]

/-- C40: the first block of a volume directory is the numbers of its neighbours, the header, twelve
entries and one spare byte. -/
theorem C40_layout_volume_key (v : VolumeDirectoryKeyBlock) :
    v.toBlock = word v.prev ++ word v.next ++ v.header.toBytes ++ (v.descriptors.toList.map fun d => d.toBytes).flatten ++
      [v.extra] := by
  unfold VolumeDirectoryKeyBlock.toBlock
  simp only []
  rw [show zeros 512 = [] ++ zeros (510 + 2) from by rw [List.nil_append], set16_zeros _ _ 0 _ rfl]
  rw [set16_zeros _ _ _ 508 (by simp [word])]
  rw [copyAt_zeros _ _ _ _ 469 (by simp [word]) (by rw [VolumeDirectoryHeader.toBytes_length])]
  rw [copyEach_zeros _ _ _ _ _ 1 (len39 _) (by simp [word, VolumeDirectoryHeader.toBytes_length]) (by simp)]
  rw [set_zeros _ _ _ 0 (by simp only [List.length_append, entries_length]; simp [word, VolumeDirectoryHeader.toBytes_length])]
  rw [show zeros 0 = [] from rfl, List.append_nil, List.nil_append]

/-- C40: the other blocks of a volume directory have a thirteenth entry instead of the header. -/
theorem C40_layout_volume_block (v : VolumeDirectoryBlock) :
    v.toBlock = word v.prev ++ word v.next ++ (v.descriptors.toList.map fun d => d.toBytes).flatten ++ [v.extra] := by
  unfold VolumeDirectoryBlock.toBlock
  simp only []
  rw [show zeros 512 = [] ++ zeros (510 + 2) from by rw [List.nil_append], set16_zeros _ _ 0 _ rfl]
  rw [set16_zeros _ _ _ 508 (by simp [word])]
  rw [copyEach_zeros _ _ _ _ _ 1 (len39 _) (by simp [word]) (by simp)]
  rw [set_zeros _ _ _ 0 (by simp only [List.length_append, entries_length]; simp [word])]
  rw [show zeros 0 = [] from rfl, List.append_nil, List.nil_append]

theorem C40_layout_subdirectory_key (v : SubdirectoryKeyBlock) :
    v.toBlock = word v.prev ++ word v.next ++ v.header.toBytes ++ (v.descriptors.toList.map fun d => d.toBytes).flatten ++
      [v.extra] := by
  unfold SubdirectoryKeyBlock.toBlock
  simp only []
  rw [show zeros 512 = [] ++ zeros (510 + 2) from by rw [List.nil_append], set16_zeros _ _ 0 _ rfl]
  rw [set16_zeros _ _ _ 508 (by simp [word])]
  rw [copyAt_zeros _ _ _ _ 469 (by simp [word]) (by rw [SubdirectoryHeader.toBytes_length])]
  rw [copyEach_zeros _ _ _ _ _ 1 (len39 _) (by simp [word, SubdirectoryHeader.toBytes_length]) (by simp)]
  rw [set_zeros _ _ _ 0 (by simp only [List.length_append, entries_length]; simp [word, SubdirectoryHeader.toBytes_length])]
  rw [show zeros 0 = [] from rfl, List.append_nil, List.nil_append]

theorem C40_layout_subdirectory_block (v : SubdirectoryBlock) :
    v.toBlock = word v.prev ++ word v.next ++ (v.descriptors.toList.map fun d => d.toBytes).flatten ++ [v.extra] := by
  unfold SubdirectoryBlock.toBlock
  simp only []
  rw [show zeros 512 = [] ++ zeros (510 + 2) from by rw [List.nil_append], set16_zeros _ _ 0 _ rfl]
  rw [set16_zeros _ _ _ 508 (by simp [word])]
  rw [copyEach_zeros _ _ _ _ _ 1 (len39 _) (by simp [word]) (by simp)]
  rw [set_zeros _ _ _ 0 (by simp only [List.length_append, entries_length]; simp [word])]
  rw [show zeros 0 = [] from rfl, List.append_nil, List.nil_append]

/-- Non-vacuity: an entry of five blocks has its block count at offset 0x13 and its time of creation at 0x1a. -/
example : ∃ d : FileDescriptor, d.blocksUsed = 5 ∧ at8 d.toBytes 0x13 = 5 ∧ at8 d.toBytes 0x1a = 16 ∧ at8 d.toBytes 0x1b = 40 := by
  refine ⟨{ blocksUsed := 5, creation := { hm := #v[16, 40] } }, rfl, ?_, ?_, ?_⟩ <;> decide +kernel

/-! ## DOS 3.3 -/

open Verif.Dos3

/-- C12: an entry of the catalog, field by field. -/
theorem C12_layout_filedesc (d : FileDesc) :
    d.toBytes = [d.trackSectorListTrack] ++ [d.trackSectorListSector] ++ [d.filetype] ++ d.filename.toList ++
      word d.sectorCount := by
  unfold FileDesc.toBytes
  simp only []
  rw [show zeros 35 = [] ++ zeros (34 + 1) from rfl, set_zeros _ _ 0 _ rfl]
  rw [set_zeros _ _ _ 33 (by simp)]
  rw [set_zeros _ _ _ 32 (by simp)]
  rw [copyVec_zeros _ _ _ _ 2 (by simp) rfl]
  rw [set16_zeros _ _ _ 0 (by simp)]
  rw [show zeros 0 = [] from rfl, List.append_nil, List.nil_append]

/-- C12: a sector of the catalog, field by field: a spare byte, where the next sector is, eight spare bytes and
seven entries. -/
theorem C12_layout_catalog (cs : CatalogSector) :
    cs.toSector = .ok ([cs.unused1] ++ [cs.nextTrack] ++ [cs.nextSector] ++ cs.unused2.toList ++
      (cs.fileDescs.toList.map fun d => d.toBytes).flatten) := by
  unfold CatalogSector.toSector
  simp only []
  rw [show zeros 256 = [] ++ zeros (255 + 1) from rfl, set_zeros _ _ 0 _ rfl]
  rw [set_zeros _ _ _ 254 (by simp)]
  rw [set_zeros _ _ _ 253 (by simp)]
  rw [copyVec_zeros _ _ _ _ 245 (by simp) rfl]
  rw [copyEach_zeros _ _ _ _ _ 0 (by intro d hd; obtain ⟨e, _, rfl⟩ := List.mem_map.1 hd; exact (C12_filedesc_value e).1) (by simp) (by simp)]
  rw [show zeros 0 = [] from rfl, List.append_nil, List.nil_append]

/-- C12: a sector of a track/sector list, field by field: a spare byte, where the next one is, two spare bytes, how
many sectors of the file come before, five spare bytes and 122 pairs of a track and a sector. -/
theorem C12_layout_tslist (l : TrackSectorList) :
    l.toSector = .ok ([l.unused1] ++ [l.nextTrack] ++ [l.nextSector] ++ l.unused2.toList ++ word l.sectorOffset ++
      l.unused3.toList ++ (l.trackSectors.toList.map fun p => [p.track, p.sector]).flatten) := by
  unfold TrackSectorList.toSector
  simp only []
  rw [show zeros 256 = [] ++ zeros (255 + 1) from rfl, set_zeros _ _ 0 _ rfl]
  rw [set_zeros _ _ _ 254 (by simp)]
  rw [set_zeros _ _ _ 253 (by simp)]
  rw [copyVec_zeros _ _ _ _ 251 (by simp) rfl]
  rw [set16_zeros _ _ _ 249 (by simp)]
  rw [copyVec_zeros _ _ _ _ 244 (by simp [word]) rfl]
  rw [copyEach_zeros _ _ _ _ _ 0 (by intro d hd; obtain ⟨e, _, rfl⟩ := List.mem_map.1 hd; rfl) (by simp [word]) (by simp)]
  rw [show zeros 0 = [] from rfl, List.append_nil, List.nil_append]

/-- C12: the VTOC, field by field, with the maps of its fifty tracks at the end. -/
theorem C12_layout_vtoc (v : VTOC) :
    v.toSector = .ok ([v.unused1] ++ [v.catalogTrack] ++ [v.catalogSector] ++ [v.dosRelease] ++ v.unused2.toList ++
      [v.volume] ++ v.unused3.toList ++ [v.trackSectorListMaxSize] ++ v.unused4.toList ++ [v.lastTrack] ++
      [v.trackDirection.toUInt8] ++ v.unused5.toList ++ [v.numTracks] ++ [v.numSectors] ++ word v.bytesPerSector ++
      (v.freeSectors.toList.map fun m => m.toList).flatten) := by
  unfold VTOC.toSector
  simp only []
  rw [show zeros 256 = [] ++ zeros (255 + 1) from rfl, set_zeros _ _ 0 _ rfl]
  rw [set_zeros _ _ _ 254 (by simp)]
  rw [set_zeros _ _ _ 253 (by simp)]
  rw [set_zeros _ _ _ 252 (by simp)]
  rw [copyVec_zeros _ _ _ _ 250 (by simp) rfl]
  rw [set_zeros _ _ _ 249 (by simp)]
  rw [copyVec_zeros _ _ _ _ 217 (by simp) rfl]
  rw [set_zeros _ _ _ 216 (by simp)]
  rw [copyVec_zeros _ _ _ _ 208 (by simp) rfl]
  rw [set_zeros _ _ _ 207 (by simp)]
  rw [set_zeros _ _ _ 206 (by simp)]
  rw [copyVec_zeros _ _ _ _ 204 (by simp) rfl]
  rw [set_zeros _ _ _ 203 (by simp)]
  rw [set_zeros _ _ _ 202 (by simp)]
  rw [set16_zeros _ _ _ 200 (by simp)]
  rw [copyEach_zeros _ _ _ _ _ 0 (by intro d hd; obtain ⟨e, _, rfl⟩ := List.mem_map.1 hd; simp) (by simp [word]) (by simp)]
  rw [show zeros 0 = [] from rfl, List.append_nil, List.nil_append]

/-- Non-vacuity: an entry of a file in track 18. -/
example : ∃ d : FileDesc, d.toBytes.take 3 = [18, 15, 0x84] :=
  ⟨{ trackSectorListTrack := 18, trackSectorListSector := 15, filetype := 0x84 }, by rw [C12_layout_filedesc]; rfl⟩

end Verif.Layout

namespace Verif.Cmd

open Verif Verif.Disk

/-- C06 for the systems the program has: DOS 3, NakedOS and ProDOS. -/
theorem C06_systems (env : Env) {raw : Bytes} {filename : Str} {order : DiskOrder} {system : Str} {op : AnyOp} {o : DiskOrder}
    (h : openImage raw filename order system (factories env) = .ok (op, o)) :
    writeBackBytes op o = .ok raw ∧
    ∀ (w : World) (out : Str) (overwrite : Bool), writeBack w out op o overwrite = w.writeOutput out raw overwrite :=
  C06_open_write_back_identity (factories_lawful env) h

end Verif.Cmd
