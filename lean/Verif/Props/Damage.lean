import Verif.Props.Undo
import Verif.Spec.Damage

/-!
# C95: damage in one file does not show in another
-/

set_option autoImplicit false

namespace Verif.Dos3
open Disk Spec

section
variable {img img' : Bytes}

theorem csAt_same {t s : UInt8} (h : SameSector img img' (nat2 t s)) : csAt img' t s = csAt img t s := by
  have h : sectorAt img' t.toNat s.toNat = sectorAt img t.toNat s.toNat := h
  unfold csAt
  rw [h]

theorem tslAt_same {t s : UInt8} (h : SameSector img img' (nat2 t s)) : tslAt img' t s = tslAt img t s := by
  have h : sectorAt img' t.toNat s.toNat = sectorAt img t.toNat s.toNat := h
  unfold tslAt
  rw [h]

/-- The sector a loop stands at has been reached by following links, or is the end. -/
def At (img : Bytes) (start : Nat × Nat) (t s : UInt8) : Prop := nat2 t s = (0, 0) ∨ Linked img start (nat2 t s)

theorem At.first (t s : UInt8) : At img (nat2 t s) t s := by
  by_cases h : nat2 t s = (0, 0)
  · exact Or.inl h
  · exact Or.inr (.start h)

theorem At.link {start p : Nat × Nat} (h : Linked img start p) :
    At img start (at8 (sectorAt img p.1 p.2) 1) (at8 (sectorAt img p.1 p.2) 2) := by
  unfold At
  rw [← linkOf_eq]
  by_cases h0 : linkOf img p = (0, 0)
  · exact Or.inl h0
  · exact Or.inr (.next h h0)

theorem catalogLoop_same (hl : img'.length = img.length) {start : Nat × Nat}
    (hs : ∀ p, Linked img start p → SameSector img img' p) (nt ns : UInt8) (fuel : Nat) (t s : UInt8) (hat : At img start t s)
    (css : List CatalogSector) :
    catalogLoop img' nt ns fuel t s [] css = catalogLoop img nt ns fuel t s [] css := by
  induction fuel generalizing t s css with
  | zero => rfl
  | succ fuel ih =>
    rw [catalogLoop_succ, catalogLoop_succ, hl]
    by_cases h0 : nat2 t s = (0, 0)
    · rw [if_pos h0, if_pos h0]
    · rw [if_neg h0, if_neg h0]
      rcases hat with h | h
      · exact absurd h h0
      · rw [csAt_same (hs _ h), ih]
        exact At.link h

theorem vtocOf_same (hs : ∀ p, DirectorySector img p → SameSector img img' p) : vtocOf img' = vtocOf img := by
  have hv : sectorAt img' 17 0 = sectorAt img 17 0 := hs vtocAt (Or.inl rfl)
  unfold vtocOf
  rw [hv]

theorem readCatalogSectors_same (hl : img'.length = img.length) (hs : ∀ p, DirectorySector img p → SameSector img img' p) (fuel : Nat) :
    readCatalogSectors fuel img' = readCatalogSectors fuel img := by
  unfold readCatalogSectors
  rw [unmarshalVTOC_eq, unmarshalVTOC_eq, hl, vtocOf_same hs]
  have e : nat2 (vtocOf img).catalogTrack (vtocOf img).catalogSector = linkOf img vtocAt := rfl
  have := catalogLoop_same (start := linkOf img vtocAt) hl (fun p hp => hs p (Or.inr hp)) (vtocOf img).numTracks (vtocOf img).numSectors fuel
    (vtocOf img).catalogTrack (vtocOf img).catalogSector (by rw [← e]; exact At.first _ _) []
  by_cases h : img.length < 69888
  · rw [if_pos h]; rfl
  · rw [if_neg h]
    simp only [Out.bind_ok]
    rw [this]

theorem readCatalogFuel_same (hl : img'.length = img.length) (hs : ∀ p, DirectorySector img p → SameSector img img' p) (fuel : Nat) :
    readCatalogFuel fuel img' = readCatalogFuel fuel img := by
  unfold readCatalogFuel
  rw [readCatalogSectors_same hl hs]

theorem readCatalog_same (hl : img'.length = img.length) (hs : ∀ p, DirectorySector img p → SameSector img img' p) :
    readCatalog img' = readCatalog img := readCatalogFuel_same hl hs _

theorem chain_linked {good : Nat × Nat → Prop} {q : Nat × Nat} {l : List (Nat × Nat)} (hc : Spec.Chain img good q l)
    {start : Nat × Nat} (hq : q = (0, 0) ∨ Linked img start q) : ∀ p ∈ l, Linked img start p := by
  induction hc with
  | done => simp
  | @step p rest h0 h1 h2 ih =>
    have hp : Linked img start p := hq.resolve_left h0
    intro r hr
    rcases List.mem_cons.1 hr with rfl | hr
    · exact hp
    · refine ih ?_ r hr
      by_cases h : linkOf img p = (0, 0)
      · exact Or.inl h
      · exact Or.inr (.next hp h)

theorem chain_linked_self {good : Nat × Nat → Prop} {q : Nat × Nat} {l : List (Nat × Nat)} (hc : Spec.Chain img good q l) :
    ∀ p ∈ l, Linked img q p := by
  refine chain_linked hc ?_
  by_cases h : q = (0, 0)
  · exact Or.inl h
  · exact Or.inr (.start h)

theorem tslLoop_same (hl : img'.length = img.length) {start : Nat × Nat}
    (hs : ∀ p, Linked img start p → SameSector img img' p) (fuel : Nat) (t s : UInt8) (hat : At img start t s)
    (seen : List TrackSector) (tsls : List TrackSectorList) :
    tslLoop img' fuel t s seen tsls = tslLoop img fuel t s seen tsls := by
  induction fuel generalizing t s seen tsls with
  | zero => rfl
  | succ fuel ih =>
    rw [tslLoop_succ, tslLoop_succ, hl]
    by_cases h0 : nat2 t s = (0, 0)
    · rw [if_pos h0, if_pos h0]
    · rw [if_neg h0, if_neg h0]
      rcases hat with h | h
      · exact absurd h h0
      · rw [tslAt_same (hs _ h), ih]
        exact At.link h

theorem appendSectors_same (hl : img'.length = img.length) (tss : List TrackSector)
    (hs : ∀ ts ∈ tss, ts.nat ≠ (0, 0) → SameSector img img' ts.nat) (data : Bytes) :
    appendSectors img' tss data = appendSectors img tss data := by
  rw [appendSectors_eq, appendSectors_eq]
  have hr : Readable img' (tss.map TrackSector.nat) ↔ Readable img (tss.map TrackSector.nat) := by
    unfold Readable OnImage
    rw [hl]
  have hd : pairsData img' (tss.map TrackSector.nat) = pairsData img (tss.map TrackSector.nat) := by
    unfold pairsData
    apply List.flatMap_congr
    intro p hp
    obtain ⟨ts, hts, rfl⟩ := List.mem_map.1 hp
    by_cases h0 : ts.nat = (0, 0)
    · rw [if_pos h0, if_pos h0]
    · rw [if_neg h0, if_neg h0]
      exact hs ts hts h0
  by_cases h : Readable img (tss.map TrackSector.nat)
  · rw [if_pos h, if_pos (hr.2 h), hd]
  · rw [if_neg h, if_neg (fun x => h (hr.1 x))]

theorem appendLists_same (hl : img'.length = img.length) (tsls : List TrackSectorList)
    (hs : ∀ tsl ∈ tsls, ∀ ts ∈ tsl.trackSectors.toList, ts.nat ≠ (0, 0) → SameSector img img' ts.nat) (data : Bytes) :
    appendLists img' tsls data = appendLists img tsls data := by
  induction tsls generalizing data with
  | nil => rfl
  | cons tsl rest ih =>
    rw [appendLists, appendLists]
    rw [appendSectors_same hl _ (fun ts hts => hs tsl (by simp) ts (List.mem_of_mem_take hts))]
    cases appendSectors img (tsl.trackSectors.toList.take ((if rest = [] then lastEntry tsl.trackSectors.toList 121 0 else 121) + 1)) data with
    | ok d => exact ih (fun x hx => hs x (by simp [hx])) d
    | err k => rfl
    | panic => rfl
    | timeout => rfl

theorem contentsFuel_same (hl : img'.length = img.length) (fd : FileDesc)
    (hs : ∀ p, FileSector img fd.toBytes p → SameSector img img' p) (fuel : Nat) :
    contentsFuel fuel fd img' = contentsFuel fuel fd img := by
  have e0 : (fd.toBytes.getD 0 0).toNat = fd.trackSectorListTrack.toNat := congrArg UInt8.toNat (at8_toBytes_zero fd)
  have e1 : (fd.toBytes.getD 1 0).toNat = fd.trackSectorListSector.toNat := congrArg UInt8.toNat (at8_toBytes fd).1
  unfold FileSector at hs
  rw [e0, e1] at hs
  unfold contentsFuel
  rw [tslLoop_same (start := nat2 fd.trackSectorListTrack fd.trackSectorListSector) hl (fun p hp => hs p (Or.inl hp)) fuel _ _ (At.first _ _)]
  cases h : tslLoop img fuel fd.trackSectorListTrack fd.trackSectorListSector [] [] with
  | ok tsls =>
    simp only [Out.bind_ok]
    obtain ⟨l, hc, hr⟩ := tslLoop_ok h
    rw [List.nil_append] at hr
    rw [appendLists_same hl tsls]
    intro tsl htsl ts hts h0
    rw [hr] at htsl
    unfold tslsAt at htsl
    obtain ⟨p, hp, rfl⟩ := List.mem_map.1 htsl
    have hlk := chain_linked_self hc p hp
    refine hs _ (Or.inr ⟨p, hlk, ?_, h0⟩)
    have hm : ts.nat ∈ (tslAt img (UInt8.ofNat p.1) (UInt8.ofNat p.2)).trackSectors.toList.map TrackSector.nat := List.mem_map.2 ⟨ts, hts, rfl⟩
    rw [tslAt_pairs] at hm
    have hb : nat2 (UInt8.ofNat p.1) (UInt8.ofNat p.2) = p := by
      have : ∃ a b : UInt8, p = nat2 a b := by
        cases hlk with
        | start _ => exact ⟨_, _, rfl⟩
        | @next q _ _ => exact ⟨_, _, linkOf_eq img q⟩
      obtain ⟨a, b, rfl⟩ := this
      simp [nat2]
    rwa [hb] at hm
  | err k => rfl
  | panic => rfl
  | timeout => rfl

/-- C95, DOS 3.3: the directory depends on its own sectors only. -/
theorem catalog_same (hl : img'.length = img.length) (hs : ∀ p, DirectorySector img p → SameSector img img' p) (dir : Str) :
    Operator.catalog ⟨img'⟩ dir = Operator.catalog ⟨img⟩ dir := by
  unfold Operator.catalog
  rw [readCatalog_same hl hs]

theorem fileForFilename_entry {name : Str} {fd : FileDesc} (h : Operator.fileForFilename ⟨img⟩ name = .ok fd) :
    HasEntry img fd.toBytes ∧ entryName fd.toBytes = name := by
  unfold Operator.fileForFilename at h
  obtain ⟨⟨files, deleted⟩, h1, h2⟩ := Out.bind_eq_ok.1 h
  obtain ⟨_, chain, hc, hf, _⟩ := C15_catalog img files deleted h1
  dsimp only at h2
  cases hfind : files.find? (fun fd => fd.filenameString = name) with
  | none => rw [hfind] at h2; simp at h2
  | some x =>
    rw [hfind] at h2
    have e : x = fd := Out.ok.inj h2
    subst e
    have hmem := List.mem_of_find?_eq_some hfind
    have hname : x.filenameString = name := by simpa using List.find?_some hfind
    have hx : x.toBytes ∈ (entries img chain).filter (fun e => LiveEntry e) := by
      rw [← hf]; exact List.mem_map.2 ⟨x, hmem, rfl⟩
    obtain ⟨hx1, hx2⟩ := List.mem_filter.1 hx
    rw [decide_eq_true_iff] at hx2
    have hst : x.status ≠ .deleted := by
      rw [(status_normal x).2 hx2]; decide
    unfold entries at hx1
    obtain ⟨p, hp, hx1⟩ := List.mem_flatMap.1 hx1
    obtain ⟨k, hk, hx1⟩ := List.mem_map.1 hx1
    exact ⟨⟨hx2, p, k, chain_linked_self hc p hp, List.mem_range.1 hk, hx1.symm⟩, by rw [← filenameString_eq x hst, hname]⟩

/-- C95, DOS 3.3: a file depends on the sectors of the directory and its own sectors only. -/
theorem getFile_same (hl : img'.length = img.length) (hs : ∀ p, DirectorySector img p → SameSector img img' p) (name : Str)
    (hf : ∀ e, HasEntry img e → entryName e = name → ∀ p, FileSector img e p → SameSector img img' p) :
    Operator.getFile ⟨img'⟩ name = Operator.getFile ⟨img⟩ name := by
  have hff : Operator.fileForFilename ⟨img'⟩ name = Operator.fileForFilename ⟨img⟩ name := by
    unfold Operator.fileForFilename
    rw [readCatalog_same hl hs]
  unfold Operator.getFile
  rw [hff]
  cases h : Operator.fileForFilename ⟨img⟩ name with
  | ok fd =>
    obtain ⟨he, hn⟩ := fileForFilename_entry h
    have hc : contents fd img' = contents fd img := contentsFuel_same hl fd (hf _ he hn) _
    simp only [Out.bind_ok]
    rw [hc]
  | err k => rfl
  | panic => rfl
  | timeout => rfl

end
end Verif.Dos3

namespace Verif.Cmd
open Disk Spec

/-- In the two worlds, the command ends the same way and prints the same text. -/
def SameAnswer (env : Env) (c : Command) (w w' : World) : Prop :=
  (run env c w').1 = (run env c w).1 ∧
  ∃ text, (run env c w).2.stdout = w.stdout ++ text ∧ (run env c w').2.stdout = w'.stdout ++ text

theorem sameAnswer_dump {env : Env} {w w' : World} {image : Str} {order : DiskOrder} {system : Str} {op op' : AnyOp}
    {ord ord' : DiskOrder} (h : Finds env w image order system op ord) (h' : Finds env w' image order system op' ord')
    {name : Str} (hg : op'.getFile name = op.getFile name) : SameAnswer env (.dump order system image name) w w' := by
  unfold SameAnswer
  rw [dump_eq h, dump_eq h', hg]
  cases op.getFile name with
  | ok fi => exact ⟨rfl, fi.data, by rw [(afterReading_same w image).2], by rw [(afterReading_same w' image).2]⟩
  | err k => exact ⟨rfl, [], by rw [List.append_nil]; exact (afterReading_same w image).2, by rw [List.append_nil]; exact (afterReading_same w' image).2⟩
  | panic => exact ⟨rfl, [], by rw [List.append_nil]; exact (afterReading_same w image).2, by rw [List.append_nil]; exact (afterReading_same w' image).2⟩
  | timeout => exact ⟨rfl, [], by rw [List.append_nil]; exact (afterReading_same w image).2, by rw [List.append_nil]; exact (afterReading_same w' image).2⟩

/-- C95, DOS 3.3: `ls` prints the same as long as the sectors of the directory are the same, and `dump` of a file if in addition the
sectors of that file are. Every other sector may hold anything. -/
theorem C95_dos3 {env : Env} {w w' : World} {image : Str} {order : DiskOrder} {system : Str} {o o' : Dos3.Operator}
    {ord ord' : DiskOrder} (h : Finds env w image order system (.dos3 o) ord) (h' : Finds env w' image order system (.dos3 o') ord')
    (hlen : o'.data.length = o.data.length) (hdir : ∀ p, DirectorySector o.data p → SameSector o.data o'.data p) :
    (∀ short dir, SameAnswer env (.ls order system short image dir) w w') ∧
    ∀ name, (∀ e, HasEntry o.data e → entryName e = name → ∀ p, FileSector o.data e p → SameSector o.data o'.data p) →
      SameAnswer env (.dump order system image name) w w' := by
  constructor
  · intro short dir
    unfold SameAnswer
    have hc : (AnyOp.dos3 o').catalog env dir = (AnyOp.dos3 o).catalog env dir := Dos3.catalog_same hlen hdir dir
    have hh : (AnyOp.dos3 o').hasSubdirs = (AnyOp.dos3 o).hasSubdirs := rfl
    rw [ls_eq h, ls_eq h', hc, hh]
    have e := (afterReading_same w image).2
    have e' := (afterReading_same w' image).2
    by_cases hd : dir ≠ [] ∧ (AnyOp.dos3 o).hasSubdirs = false
    · rw [if_pos hd, if_pos hd]
      exact ⟨rfl, [], by rw [List.append_nil]; exact e, by rw [List.append_nil]; exact e'⟩
    · rw [if_neg hd, if_neg hd]
      cases (AnyOp.dos3 o).catalog env dir with
      | ok fds => exact ⟨rfl, lsLines short fds, by rw [e], by rw [e']⟩
      | err k => exact ⟨rfl, [], by rw [List.append_nil]; exact e, by rw [List.append_nil]; exact e'⟩
      | panic => exact ⟨rfl, [], by rw [List.append_nil]; exact e, by rw [List.append_nil]; exact e'⟩
      | timeout => exact ⟨rfl, [], by rw [List.append_nil]; exact e, by rw [List.append_nil]; exact e'⟩
  · intro name hf
    exact sameAnswer_dump h h' (Dos3.getFile_same hlen hdir name hf)

/-- C95, NakedOS: if an image differs only in sectors of files other than the two of the symbol table, `ls` prints the same, and so does
`dump` of every name that does not stand for one of those files. -/
theorem C95_nakedos {env : Env} {w w' : World} {image : Str} {order : DiskOrder} {system : Str} {o o' : Supermon.Operator}
    {ord ord' : DiskOrder} (h : Finds env w image order system (.nakedos o) ord) (h' : Finds env w' image order system (.nakedos o') ord')
    {others : UInt8 → Prop} (h3 : ¬ others 3) (h4 : ¬ others 4) (hd : DiffersIn others o.data o'.data) :
    (∀ short, SameAnswer env (.ls order system short image []) w w') ∧
    ∀ name, (∀ f, Supermon.fileForName o.table name = .ok f → ¬ others f) → SameAnswer env (.dump order system image name) w w' := by
  obtain ⟨raw, _, h2⟩ := id h
  obtain ⟨raw', _, h2'⟩ := id h'
  have hg := (open_naked h2).good
  have hg' := (open_naked h2').good
  have hob : ∀ f, ownedBy (own o'.sm) f = ownedBy (own o.sm) f := by
    intro f
    rw [← hg.owned, ← hg'.owned]
    unfold ownedBy
    apply List.filter_congr
    intro n hn
    rw [hd.1 n (List.mem_range.1 hn)]
  have hfile : ∀ f, ¬ others f → fileBytes (own o'.sm) o'.data f = fileBytes (own o.sm) o.data f := by
    intro f hf
    unfold fileBytes
    rw [hob]
    apply List.flatMap_congr
    intro n hn
    obtain ⟨hlt, e⟩ := Supermon.mem_ownedBy.1 hn
    refine hd.2 n hlt ?_
    rw [← (Supermon.loaded_iff (by have := hg.len; omega) o.sm).1 hg.loaded n hlt, e]
    exact hf
  have hst : o'.st = o.st := by
    have e := (open_naked h2).opened
    have e' := (open_naked h2').opened
    rw [← (open_naked h2).data] at e
    rw [← (open_naked h2').data] at e'
    rw [Supermon.opened_table hg e, Supermon.opened_table hg' e']
    exact Supermon.tableOn_congr hg hg' (hfile 3 h3) (hfile 4 h4)
  have htab : o'.table = o.table := by unfold Supermon.Operator.table; rw [hst]
  constructor
  · intro short
    obtain ⟨w1, a1, a2, a3⟩ := C71_ls_nakedos h short
    obtain ⟨w1', b1, b2, b3⟩ := C71_ls_nakedos h' short
    have hp : (fun f : UInt8 => decide (f ≠ 0 ∧ f ≠ 0xFE ∧ f ≠ 0xFF ∧ ownedBy (own o'.sm) f ≠ [])) =
        fun f => decide (f ≠ 0 ∧ f ≠ 0xFE ∧ f ≠ 0xFF ∧ ownedBy (own o.sm) f ≠ []) := by
      funext f
      rw [hob]
    rw [htab, hp] at b3
    unfold SameAnswer
    rw [a1, b1]
    exact ⟨rfl, _, a3, b3⟩
  · intro name hn
    refine sameAnswer_dump h h' ?_
    unfold AnyOp.getFile
    dsimp only
    rcases Supermon.fileForName_cases o.table name with ⟨f, e⟩ | e
    · rw [Supermon.getFile_eq hg.len e, Supermon.getFile_eq hg'.len (by rw [htab]; exact e), hfile f (hn f e), htab]
    · unfold Supermon.Operator.getFile
      rw [htab, e]; rfl

end Verif.Cmd
