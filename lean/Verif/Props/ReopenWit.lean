import Verif.Props.Reopen
import Verif.Props.SupermonPut

/-!
# C63: a disk on which a put is not found again, and one on which it is
-/

set_option autoImplicit false
set_option maxRecDepth 20000

namespace Verif.Supermon
open Disk Spec

/-- The table after "AAA" has been moved to the address of file 5. -/
def brokenTable : SymbolTable :=
  ⟨0xDF05, str "AAA", -1⟩ :: ⟨0, [], -1⟩ :: ⟨0x100, str "BBB", 0⟩ :: List.replicate 816 Symbol.empty

theorem linkTail_none {h : UInt8} {p : Nat} {st : SymbolTable} (hs : ∀ s ∈ st, addrHash s.address ≠ h) : linkTail h p st = st := by
  induction st with
  | nil => rfl
  | cons s st ih =>
    unfold linkTail
    rw [if_neg (fun hc => hs s (by simp) hc.1), ih (fun x hx => hs x (by simp [hx]))]

theorem addSymbol_chain : addSymbol chainTable (str "AAA") (0xDF00 + (5 : UInt8).toUInt16) = (.ok (), brokenTable) := by
  have e : deleteSymbol chainTable (str "AAA") =
      (true, ⟨0, [], -1⟩ :: ⟨0, [], -1⟩ :: ⟨0x100, str "BBB", 0⟩ :: List.replicate 816 Symbol.empty) := by
    have hf : findName chainTable (str "AAA") = some 0 := by
      unfold findName chainTable
      rw [List.findIdx?_cons, if_pos (by decide +kernel)]
    obtain ⟨s, hs, e⟩ := deleteSymbol_some hf
    cases hs
    rw [e]
    rfl
  have hsc : addScan (str "AAA") (addrHash (0xDF00 + (5 : UInt8).toUInt16)) chainTable 0 none = .replace 0 := by
    unfold chainTable addScan
    rw [if_pos (by decide +kernel), if_neg (by decide +kernel)]
  unfold addSymbol
  rw [if_neg (by decide +kernel), hsc]
  simp only [e]
  unfold insertAt
  rw [linkTail_none]
  · rfl
  · intro s hs
    simp only [List.mem_cons] at hs
    rcases hs with rfl | rfl | rfl | hs
    · decide +kernel
    · decide +kernel
    · decide +kernel
    · rw [(List.mem_replicate.1 hs).2]; decide +kernel

theorem broken_get (i : Nat) (s : Symbol) (h : brokenTable[i]? = some s) :
    s = ⟨0xDF05, str "AAA", -1⟩ ∨ s = ⟨0, [], -1⟩ ∨ s = ⟨0x100, str "BBB", 0⟩ ∨ s = Symbol.empty := by
  have := List.mem_of_getElem? h
  unfold brokenTable at this
  simp only [List.mem_cons] at this
  rcases this with h | h | h | h
  · exact Or.inl h
  · exact Or.inr (Or.inl h)
  · exact Or.inr (Or.inr (Or.inl h))
  · exact Or.inr (Or.inr (Or.inr (List.mem_replicate.1 h).2))

theorem broken_length : brokenTable.length = 819 := by
  unfold brokenTable; simp only [List.length_cons, List.length_replicate]

theorem broken_names : ∀ s ∈ brokenTable, s.name = [] ∨ LegalName s.name := by
  intro s hs
  obtain ⟨i, hi, e⟩ := List.getElem_of_mem hs
  rcases broken_get i s (by rw [List.getElem?_eq_getElem hi, e]) with rfl | rfl | rfl | rfl
  · right; decide +kernel
  · exact Or.inl rfl
  · right; decide +kernel
  · exact Or.inl rfl

theorem broken_at2 : brokenTable[2]? = some ⟨0x100, str "BBB", 0⟩ := by unfold brokenTable; rfl
theorem broken_at0 : brokenTable[0]? = some ⟨0xDF05, str "AAA", -1⟩ := by unfold brokenTable; rfl

attribute [local irreducible] chainTable brokenTable

theorem broken_unreadable {sm : SectorMap} {img : Bytes} (hg : Good sm img)
    (hw : (writeSymbolTable sm img brokenTable).1 = .ok ()) (t : SymbolTable) :
    readSymbolTable (writeSymbolTable sm img brokenTable).2.1 (writeSymbolTable sm img brokenTable).2.2 ≠ .ok t := by
  have hr : ∀ s ∈ brokenTable, LinkRange s := by
    intro s hs h0
    obtain ⟨i, hi, e⟩ := List.getElem_of_mem hs
    rcases broken_get i s (by rw [List.getElem?_eq_getElem hi, e]) with rfl | rfl | rfl | rfl
    · exact Or.inl rfl
    · exact absurd rfl h0
    · exact Or.inr ⟨0, rfl, by omega⟩
    · exact absurd rfl h0
  rw [read_write hg broken_length hr hw]
  intro hc
  obtain ⟨u, hu, _⟩ := Out.bind_eq_ok.1 hc
  have := (checkLinks_reread _).1 hu 2 ⟨0x100, str "BBB", 0⟩ broken_at2 (by decide)
  rcases this with h | ⟨j, s, h, _, hs, hh⟩
  · simp at h
  · simp only at h
    have : j = 0 := by omega
    subst this
    rw [broken_at0] at hs
    cases hs
    exact absurd hh (by decide +kernel)

/-- A put that writes a symbol, step by step. -/
theorem putNumbered_symbol {sm : SectorMap} {img : Bytes} {st st' : SymbolTable} {f nf : UInt8} {sym : Str} {data : Bytes}
    {ow : Bool} (hw : (writeFile sm img f data ow).out = .ok ()) (hn : nf ≠ f) (hs : sym ≠ [])
    (ha : addSymbol st sym (0xDF00 + f.toUInt16) = (.ok (), st'))
    (ht : (writeSymbolTable (writeFile sm img f data ow).sm (writeFile sm img f data ow).img st').1 = .ok ()) :
    (⟨img, sm, some st⟩ : Operator).putNumbered f nf sym data ow =
      ⟨(writeFile sm img f data ow).existed, .ok (),
        ⟨(writeSymbolTable (writeFile sm img f data ow).sm (writeFile sm img f data ow).img st').2.2,
         (writeSymbolTable (writeFile sm img f data ow).sm (writeFile sm img f data ow).img st').2.1, some st'⟩⟩ := by
  unfold Operator.putNumbered
  simp only [hw]
  rw [if_pos ⟨hn, hs⟩, ha]
  simp only [ht]

theorem tableOn_none {sm : SectorMap} {img : Bytes} (h : ∀ t, readSymbolTable sm img ≠ .ok t) : tableOn sm img = none := by
  unfold tableOn
  split
  · rename_i st hst
    exact absurd hst (h st)
  · rfl

/-- A put of a few bytes under a number and a symbol succeeds when there is room. -/
theorem put_with_table {sm : SectorMap} {img : Bytes} (h : Good sm img) (hroom : 33 ≤ (ownedBy (own sm) 0xFF).length)
    {st st' : SymbolTable} {f : UInt8} {sym : Str} {data : Bytes} (hf : IsFileNumber f) (hs : sym ≠ [])
    (hd : data ≠ []) (hlen : data.length ≤ 256)
    (ha : addSymbol st sym (0xDF00 + f.toUInt16) = (.ok (), st')) (hl : st'.length = 819)
    (hn : ∀ s ∈ st', s.name = [] ∨ LegalName s.name) :
    ∃ sm2 img2 ex, Good sm2 img2 ∧ (writeSymbolTable sm2 img2 st').1 = .ok () ∧
      (⟨img, sm, some st⟩ : Operator).putNumbered f 0 sym data true =
        ⟨ex, .ok (), ⟨(writeSymbolTable sm2 img2 st').2.2, (writeSymbolTable sm2 img2 st').2.1, some st'⟩⟩ := by
  have h1 : (data.length + 255) / 256 = 1 := by
    have : data.length ≠ 0 := fun h => hd (List.eq_nil_of_length_eq_zero h)
    omega
  have fit : Fits sm f data := by
    unfold Fits; omega
  have hwr := writeFile_ok (ow := true) h.len hf hd fit (Or.inl rfl)
  have hk2 := keep_writeFile (c := data) (ow := true) h hf (by rw [hwr]; simp)
  have hfr := ownedBy_newMap_free (sm := sm) (f := f) (c := data) hf.2.2
  rw [targets_length hf.2.2 fit] at hfr
  have hout : (writeFile sm img f data true).out = .ok () := by rw [hwr]
  have hmap : 32 ≤ (ownedBy (own (writeFile sm img f data true).sm) 0xFF).length := by
    rw [hwr]; simp only; omega
  have hws := write_succeeds hk2.good hl hn (by omega) (by omega)
  exact ⟨_, _, _, hk2.good, hws, putNumbered_symbol hout (Ne.symm hf.1) hs ha hws⟩

theorem put_unreadable {sm : SectorMap} {img : Bytes} (h : Good sm img) (hroom : 33 ≤ (ownedBy (own sm) 0xFF).length)
    {st st' : SymbolTable} {f : UInt8} {sym : Str} {data : Bytes} (hf : IsFileNumber f) (hs : sym ≠ [])
    (hd : data ≠ []) (hlen : data.length ≤ 256)
    (ha : addSymbol st sym (0xDF00 + f.toUInt16) = (.ok (), st')) (hl : st'.length = 819)
    (hn : ∀ s ∈ st', s.name = [] ∨ LegalName s.name)
    (hu : ∀ {sm2 : SectorMap} {img2 : Bytes}, Good sm2 img2 → (writeSymbolTable sm2 img2 st').1 = .ok () →
      ∀ t, readSymbolTable (writeSymbolTable sm2 img2 st').2.1 (writeSymbolTable sm2 img2 st').2.2 ≠ .ok t) :
    ((⟨img, sm, some st⟩ : Operator).putNumbered f 0 sym data true).out = .ok () ∧
    tableOn ((⟨img, sm, some st⟩ : Operator).putNumbered f 0 sym data true).op.sm
      ((⟨img, sm, some st⟩ : Operator).putNumbered f 0 sym data true).op.data = none := by
  obtain ⟨sm2, img2, ex, hg, hws, e⟩ := put_with_table h hroom hf hs hd hlen ha hl hn
  rw [e]
  exact ⟨rfl, tableOn_none (hu hg hws)⟩

/-- Putting "DF05:AAA" on a disk with that table succeeds and leaves a table that cannot be read. -/
theorem put_aaa {sm : SectorMap} {img : Bytes} (h : Good sm img) (hroom : 33 ≤ (ownedBy (own sm) 0xFF).length) :
    ((⟨img, sm, some chainTable⟩ : Operator).putNumbered 5 0 (str "AAA") [1, 2, 3] true).out = .ok () ∧
    tableOn ((⟨img, sm, some chainTable⟩ : Operator).putNumbered 5 0 (str "AAA") [1, 2, 3] true).op.sm
      ((⟨img, sm, some chainTable⟩ : Operator).putNumbered 5 0 (str "AAA") [1, 2, 3] true).op.data = none :=
  put_unreadable h hroom (by unfold IsFileNumber; decide) (by decide +kernel) (by simp) (by simp)
    addSymbol_chain broken_length broken_names broken_unreadable

/-- There is a disk with that symbol table and room on it. -/
theorem tabled : ∃ img sm, Good sm img ∧ openOperator img = .ok ⟨img, sm, some chainTable⟩ ∧
    33 ≤ (ownedBy (own sm) 0xFF).length := by
  have ho := tabled_open
  rw [chainTable_canonical] at ho
  refine ⟨_, _, (keep_writeSymbolTable fresh_good chainTable).good, ho, ?_⟩
  obtain ⟨s3, s4, sf⟩ := writeSymbolTable_sizes fresh_good (fresh_room _ chainTable_wf)
  rw [freshMap_free, freshMap_file isFile3, freshMap_file isFile4] at sf
  simp only [List.length_nil] at sf
  omega

theorem chainTable_aaa : filesForCompoundName chainTable (str "DF05:AAA") = .ok (5, 0, str "AAA") := by
  have : str "DF05:AAA" = str "DF05" ++ 0x3A :: str "AAA" := by decide +kernel
  rw [this]
  unfold filesForCompoundName
  rw [splitColon_append (by decide +kernel), splitColon_none (by decide +kernel)]
  simp only
  rw [if_neg (by decide +kernel), if_neg (by decide +kernel)]
  have h5 : parseAddressFilename (str "DF05") = 5 := by decide +kernel
  have h0 : parseAddressFilename (str "AAA") = 0 := by decide +kernel
  have : ∀ g, fileForName chainTable (str "AAA") ≠ .ok g := by
    intro g hg
    rcases (C34_resolves_iff _ _ _).1 hg with hn | ⟨_, _, x, hx, hxa⟩
    · have h1 := (parseAddressFilename_iff hn.1.1).2 hn
      rw [h0] at h1
      exact hn.1.1 h1.symm
    · have h1 := List.find?_some hx
      have h2 := List.mem_of_find?_eq_some hx
      obtain ⟨i, hi, e⟩ := List.getElem_of_mem h2
      rcases chainTable_get i x (by rw [List.getElem?_eq_getElem hi, e]) with ⟨_, rfl⟩ | ⟨_, rfl⟩ | rfl
      · simp at hxa
        omega
      · revert h1; decide +kernel
      · revert h1; decide +kernel
  rw [h5]
  split
  · rename_i g hg
    exact absurd hg (this g)
  · rfl

theorem tabled_aaa {sm : SectorMap} {img : Bytes} (hg : Good sm img) (hroom : 33 ≤ (ownedBy (own sm) 0xFF).length) :
    ((⟨img, sm, some chainTable⟩ : Operator).putFile
      ⟨{ name := str "DF05:AAA", length := ([1, 2, 3] : Bytes).length, type := filetypeBinary }, [1, 2, 3], 0⟩ true).out = .ok () ∧
    Good ((⟨img, sm, some chainTable⟩ : Operator).putFile
      ⟨{ name := str "DF05:AAA", length := ([1, 2, 3] : Bytes).length, type := filetypeBinary }, [1, 2, 3], 0⟩ true).op.sm
      ((⟨img, sm, some chainTable⟩ : Operator).putFile
      ⟨{ name := str "DF05:AAA", length := ([1, 2, 3] : Bytes).length, type := filetypeBinary }, [1, 2, 3], 0⟩ true).op.data ∧
    tableOn ((⟨img, sm, some chainTable⟩ : Operator).putFile
      ⟨{ name := str "DF05:AAA", length := ([1, 2, 3] : Bytes).length, type := filetypeBinary }, [1, 2, 3], 0⟩ true).op.sm
      ((⟨img, sm, some chainTable⟩ : Operator).putFile
      ⟨{ name := str "DF05:AAA", length := ([1, 2, 3] : Bytes).length, type := filetypeBinary }, [1, 2, 3], 0⟩ true).op.data = none := by
  have e := tabled_split (str "DF05:AAA") (str "AAA") 5 (by decide) chainTable_aaa (by decide +kernel) sm img [1, 2, 3] true
  rw [e]
  obtain ⟨h1, h2⟩ := put_aaa hg hroom
  exact ⟨h1, (putNumbered_ok (o := ⟨img, sm, some chainTable⟩) hg (by unfold IsFileNumber; decide) h1).1, h2⟩

end Verif.Supermon

namespace Verif.Cmd
open Disk Spec Supermon

/-- A world with a disk image `a.do` and a file `src` of three bytes. -/
def diskWorld (img : Bytes) : World where
  files p := if p = str "a.do" then some (viewOf orderRaw orderDO img) else if p = str "src" then some [1, 2, 3] else none
  stdin := []
  stdout := []

theorem diskWorld_open {env : Env} {img : Bytes} (hl : img.length = 143360) {o : Operator} (ho : openOperator img = .ok o) :
    openImage (viewOf orderRaw orderDO img) (str "a.do") (str "do") (str "nakedos") (factories env) = .ok (.nakedos o, orderDO) := by
  apply open_explicit (viewOf_length raw_named (order_named (Or.inl rfl)) hl) (Or.inl rfl)
  rw [viewOf_viewOf raw_named (order_named (Or.inl rfl)) hl]
  exact ho

theorem diskWorld_put {env : Env} {img : Bytes} (hl : img.length = 143360) {o : Operator} (ho : openOperator img = .ok o)
    {name : Str} {ow : Bool}
    (hput : (o.putFile ⟨{ name := name, length := ([1, 2, 3] : Bytes).length, type := filetypeBinary }, [1, 2, 3], 0⟩ ow).out = .ok ())
    (hl' : (o.putFile ⟨{ name := name, length := ([1, 2, 3] : Bytes).length, type := filetypeBinary }, [1, 2, 3], 0⟩ ow).op.data.length = 143360) :
    run env (.put (str "do") (str "nakedos") (str "B") ow 0 (str "a.do") name (str "src")) (diskWorld img) =
      (.ok (), (diskWorld img).writeFile (str "a.do") (viewOf orderRaw orderDO
        (o.putFile ⟨{ name := name, length := ([1, 2, 3] : Bytes).length, type := filetypeBinary }, [1, 2, 3], 0⟩ ow).op.data)) :=
  put_runs (by decide +kernel) (by decide +kernel) (by unfold diskWorld; simp only [if_true])
    (by
      unfold diskWorld
      dsimp only
      rw [if_neg (by decide +kernel), if_pos rfl])
    (Or.inl rfl) (diskWorld_open hl ho) (by decide +kernel) hput hl'

/-- A name that is not a number is unknown on a disk without a symbol table. -/
theorem no_symbols {o : Operator} (h : o.st = none) {name : Str} (hn : parseAddressFilename name = 0) :
    o.getFile name = .err .fileNotFound := by
  unfold Operator.getFile fileForName Operator.table
  rw [h, hn]
  rfl

/-- C63 fails when the symbol put is the end of a chain of another hash: the put succeeds, but the
command that looks for it next, with the same order and system, does not find it; the symbol table
written cannot be read any more. -/
theorem C63_violated (env : Env) : ∃ w w', run env (.put (str "do") (str "nakedos") (str "B") true 0 (str "a.do")
      (str "DF05:AAA") (str "src")) w = (.ok (), w') ∧ w.files (str "src") = some [1, 2, 3] ∧
    run env (.dump (str "do") (str "nakedos") (str "a.do") (str "AAA")) w' = (.err .fileNotFound, w') := by
  obtain ⟨img, sm, hg, hopen, hroom⟩ := tabled
  obtain ⟨h1, h2, h3⟩ := tabled_aaa hg hroom
  refine ⟨diskWorld img, _, diskWorld_put hg.len hopen h1 h2.len, ?_, ?_⟩
  · unfold diskWorld
    dsimp only
    rw [if_neg (by decide +kernel), if_pos rfl]
  · generalize (⟨img, sm, some chainTable⟩ : Operator).putFile
      ⟨{ name := str "DF05:AAA", length := ([1, 2, 3] : Bytes).length, type := filetypeBinary }, [1, 2, 3], 0⟩ true = r at h2 h3 ⊢
    have ho := open_of_good h2
    rw [h3] at ho
    rw [dump_runs (by decide +kernel) (raw := viewOf orderRaw orderDO r.op.data) (by unfold World.writeFile; simp only [if_true])
      (diskWorld_open h2.len ho)]
    unfold AnyOp.getFile
    dsimp only
    rw [no_symbols rfl (by decide +kernel)]

/-! ## A disk that opens without naming the system -/

theorem zero_dest : ∀ o ∈ [orderDO, orderPO, orderRaw],
    dest (logicalToPhysicalByName o) 0 = 0 ∧ dest (physicalToLogicalByName o) 0 = 0 := by decide +kernel

/-- Sector 0 of a track is in the same place in every order. -/
theorem view_sector0 {o fo : DiskOrder} (h : o ∈ [orderDO, orderPO, orderRaw]) (hf : fo ∈ [orderDO, orderPO, orderRaw])
    {raw : Bytes} (hr : raw.length = 143360) {t : Nat} (ht : t < 35) :
    sectorAt (viewOf o fo raw) t 0 = sectorAt raw t 0 := by
  obtain ⟨h1, _⟩ := named_orders h
  obtain ⟨_, f2, _⟩ := named_orders hf
  have e1 := sectorAt_swizzled hr h1 ht (s := 0) (by omega)
  have e2 := sectorAt_swizzled (swizzled_length hr h1) f2 ht (s := 0) (by omega)
  rw [(zero_dest o h).1] at e1
  rw [(zero_dest fo hf).2] at e2
  unfold viewOf
  rw [e2, e1]

/-- An image is not taken for DOS 3.3 when the release byte of its VTOC is not 3. -/
theorem not_dos3 {v : Bytes} (hl : v.length = 143360) (h : (sectorAt v 17 0).getD 3 0 ≠ 3) :
    Dos3.seemsToMatch v = .ok false := by
  unfold Dos3.seemsToMatch Dos3.readCatalog Dos3.readCatalogFuel Dos3.readCatalogSectors Dos3.unmarshalVTOC
  rw [readSector_eq, if_neg (by rw [hl]; decide)]
  have hs : (sectorAt v Dos3.vtocTrack.toNat Dos3.vtocSector.toNat).length = 256 :=
    sectorAt_length (by rw [hl]; decide)
  have h3 : (sectorAt v Dos3.vtocTrack.toNat Dos3.vtocSector.toNat).getD 3 0 ≠ 3 := h
  generalize sectorAt v Dos3.vtocTrack.toNat Dos3.vtocSector.toNat = d at hs h3
  rw [Out.bind_ok]
  unfold Dos3.VTOC.fromSector
  rw [if_neg (by rw [hs]; simp), Out.bind_ok, Out.bind_ok]
  have : ∀ w : Dos3.VTOC, w.dosRelease ≠ 3 → w.validate = .err .other := by
    intro w hw
    unfold Dos3.VTOC.validate
    rw [if_pos hw, ite_self]
  rw [this]
  · rfl
  · exact h3

/-- A NakedOS disk opens without naming the system, unless it looks like DOS 3.3. -/
theorem open_auto {env : Env} {b : Bytes} (hb : b.length = 143360) {ord : DiskOrder} (ho : ord = orderDO ∨ ord = orderPO)
    {o : Operator} (h : openOperator (viewOf ord orderRaw b) = .ok o) (h3 : (sectorAt b 17 0).getD 3 0 ≠ 3) (filename : Str) :
    openImage b filename ord (str "auto") (factories env) = .ok (.nakedos o, ord) := by
  have hc : CandidateOrders ord (toLower (pathExt filename)) [ord] := by
    rcases ho with rfl | rfl
    · exact CandidateOrders.explicitDO _
    · exact CandidateOrders.explicitPO _
  refine (C07_auto_picks_first_match hb (factories_orders env) hc (Or.inl rfl) _ _).2
    ⟨[(ord, Factory.map .dos3 Dos3.factory)], Factory.map .nakedos Supermon.factory,
      [(ord, Factory.map .prodos (Prodos.factory env.budget env.order))], rfl,
      ⟨_, (view_iff (order_named ho) raw_named hb).2 rfl, ?_, map_open h⟩, ?_⟩
  · rw [map_seems]; exact seems_of_open h
  · intro p hp
    simp only [List.mem_cons, List.not_mem_nil, or_false] at hp
    subst hp
    have hd : orderDO ∈ [orderDO, orderPO, orderRaw] := by simp
    refine ⟨_, (view_iff (order_named ho) hd hb).2 rfl, Or.inl ?_⟩
    have e : (Factory.map AnyOp.dos3 Dos3.factory).seemsToMatch (viewOf ord orderDO b) =
        Dos3.seemsToMatch (viewOf ord orderDO b) := by
      simp only [Factory.map, Dos3.factory]
    exact e.trans (not_dos3 (viewOf_length (order_named ho) hd hb)
      (by rw [view_sector0 (order_named ho) hd hb (by omega)]; exact h3))

end Verif.Cmd

namespace Verif.Supermon
open Disk Spec

/-- A disk with one file, number 9, in track 17 sector 0. -/
def lonelyMap : SectorMap := Vector.ofFn fun n : Fin 560 => if n.val < 12 then 0xFE else if n.val = 272 then 9 else 0xFF
def lonelyImg : Bytes := put (zeros 143360) 2512 lonelyMap.toList

theorem own_lonelyMap {n : Nat} (h : n < 560) : own lonelyMap n = if n < 12 then 0xFE else if n = 272 then 9 else 0xFF := by
  rw [own_eq h]; simp [lonelyMap]

theorem lonely_legal : LegalMap (own lonelyMap) := by
  constructor
  · intro n hn; rw [own_lonelyMap (by omega), if_pos hn]
  · intro n hn; rw [own_lonelyMap hn]; split
    · decide
    · split <;> decide

theorem lonely_length : lonelyImg.length = 143360 := by
  unfold lonelyImg
  rw [put_length] <;> simp [zeros_length]

theorem lonely_load : loadSectorMap lonelyImg = .ok lonelyMap :=
  loaded_put (by simp) _

theorem lonely_good : Good lonelyMap lonelyImg := ⟨lonely_length, lonely_legal, lonely_load⟩

theorem lonely_owned (f : UInt8) : ownedBy (own lonelyMap) f =
    (List.range 560).filter fun n => (if n < 12 then (0xFE : UInt8) else if n = 272 then 9 else 0xFF) = f :=
  List.filter_congr fun n hn => by rw [own_lonelyMap (List.mem_range.1 hn)]

theorem lonely_9 : ownedBy (own lonelyMap) 9 = [272] := by rw [lonely_owned]; decide +kernel
theorem lonely_8 : ownedBy (own lonelyMap) 8 = [] := by rw [lonely_owned]; decide +kernel
theorem lonely_3 : ownedBy (own lonelyMap) 3 = [] := by rw [lonely_owned]; decide +kernel
theorem lonely_4 : ownedBy (own lonelyMap) 4 = [] := by rw [lonely_owned]; decide +kernel
theorem lonely_free : (ownedBy (own lonelyMap) 0xFF).length = 547 := by rw [lonely_owned]; decide +kernel

theorem lonely_sector : (sectorNo lonelyImg 272).getD 3 0 = 0 := by
  unfold sectorNo lonelyImg
  rw [sectorAt_eq_slice]
  unfold slice
  rw [List.getD_eq_getElem?_getD, List.getElem?_take, if_pos (by omega), List.getElem?_drop,
    getElem?_put (by rw [zeros_length]; omega), if_neg (by omega), if_neg (by rw [Vector.length_toList]; omega)]
  unfold zeros
  rw [List.getElem?_replicate, if_pos (by omega)]
  rfl

/-- Adding a symbol table to a disk with room. -/
theorem add_table {sm : SectorMap} {img : Bytes} (h : Good sm img) {st : SymbolTable} (hwf : WellFormed st)
    (hcan : st.map canonical = st) (h3 : ownedBy (own sm) 3 = []) (h4 : ownedBy (own sm) 4 = [])
    (hroom : 65 ≤ (ownedBy (own sm) 0xFF).length) :
    ∃ img' sm', Good sm' img' ∧ openOperator img' = .ok ⟨img', sm', some st⟩ ∧
      33 ≤ (ownedBy (own sm') 0xFF).length ∧ Keep (fun g => g = 3 ∨ g = 4) sm img sm' img' := by
  have hw : (writeSymbolTable sm img st).1 = .ok () := by
    apply C31_write_succeeds h hwf <;> omega
  have hk := keep_writeSymbolTable h st
  refine ⟨_, _, hk.good, ?_, ?_, hk⟩
  · have ho := open_of_good hk.good
    unfold tableOn at ho
    rw [C31_write_read h hwf hw, hcan] at ho
    exact ho
  · obtain ⟨s3, s4, sf⟩ := writeSymbolTable_sizes h hw
    rw [h3, h4] at sf
    simp only [List.length_nil] at sf
    omega

/-- A disk with a symbol table that does not look like DOS 3.3. -/
theorem lonely_tabled : ∃ img sm, Good sm img ∧ openOperator img = .ok ⟨img, sm, some chainTable⟩ ∧
    33 ≤ (ownedBy (own sm) 0xFF).length ∧ ownedBy (own sm) 9 = [272] ∧ (sectorAt img 17 0).getD 3 0 = 0 ∧ ownedBy (own sm) 8 = [] := by
  obtain ⟨img, sm, hg, ho, hr, hk⟩ := add_table lonely_good chainTable_wf chainTable_canonical lonely_3 lonely_4
    (by rw [lonely_free]; omega)
  have h9 : IsFileNumber 9 := by unfold IsFileNumber; decide
  have hs := (hk.sect 9 h9 (by decide)).trans lonely_9
  refine ⟨img, sm, hg, ho, hr, hs, ?_, (hk.sect 8 (by unfold IsFileNumber; decide) (by decide)).trans lonely_8⟩
  have hb := hk.bytes 9 h9 (by decide)
  unfold fileBytes at hb
  rw [hs, lonely_9] at hb
  simp only [List.flatMap_cons, List.flatMap_nil, List.append_nil] at hb
  have e : ∀ img, sectorAt img 17 0 = sectorNo img 272 := fun _ => rfl
  rw [e, hb]
  exact lonely_sector

theorem chainTable_noHello : ∀ s ∈ chainTable, ¬ SameName (str "FHELLO") s.name := by
  intro s hs
  obtain ⟨i, hi, e⟩ := List.getElem_of_mem hs
  rcases chainTable_get i s (by rw [List.getElem?_eq_getElem hi, e]) with ⟨_, rfl⟩ | ⟨_, rfl⟩ | rfl <;>
    decide +kernel

theorem chainTable_hello : filesForCompoundName chainTable (str "DF01:FHELLO") = .ok (1, 0, str "FHELLO") := by
  have : str "DF01:FHELLO" = str "DF01" ++ 0x3A :: str "FHELLO" := by decide +kernel
  rw [this]
  unfold filesForCompoundName
  rw [splitColon_append (by decide +kernel), splitColon_none (by decide +kernel)]
  simp only
  have h1 : parseAddressFilename (str "DF01") = 1 := by decide +kernel
  rw [h1, if_neg (by decide), if_neg (by decide +kernel)]
  have : fileForName chainTable (str "FHELLO") = .err .fileNotFound := by
    rcases C34_resolution_total chainTable (str "FHELLO") with ⟨g, hg, _⟩ | h
    · rcases (C34_resolves_iff _ _ _).1 hg with hn | ⟨_, _, x, hx, _⟩
      · have h1 := (parseAddressFilename_iff hn.1.1).2 hn
        have h2 : parseAddressFilename (str "FHELLO") = 0 := by decide +kernel
        rw [h2] at h1
        exact absurd h1.symm hn.1.1
      · have h1 := List.find?_some hx
        have h2 := List.mem_of_find?_eq_some hx
        simp only [decide_eq_true_eq] at h1
        exact absurd h1.symm (chainTable_noHello x h2)
    · exact h
  rw [this]

theorem safeDelete_absent {st : SymbolTable} {name : Str} (h : ∀ s ∈ st, ¬ SameName name s.name) : SafeDelete st name := by
  intro i sym hi
  obtain ⟨s, hs, he, _⟩ := findName_some hi
  exact absurd (by unfold equalFold at he; simpa [SameName] using he) (h s (List.mem_of_getElem? hs))

/-- A put of up to a sector under a new symbol succeeds when there is room. -/
theorem put_new_symbol' {sm : SectorMap} {img : Bytes} (h : Good sm img) {st : SymbolTable} (hs : Sound st)
    {name : Str} (hn : LegalName name) (hnew : ∀ s ∈ st, ¬ SameName name s.name)
    (hfree : ∃ s ∈ st, s.address = 0) (hroom : 33 ≤ (ownedBy (own sm) 0xFF).length)
    {f : UInt8} (hf : IsFileNumber f) {data : Bytes} (hd : data ≠ []) (hlen : data.length ≤ 256) :
    ((⟨img, sm, some st⟩ : Operator).putNumbered f 0 name data true).out = .ok () ∧
    Good ((⟨img, sm, some st⟩ : Operator).putNumbered f 0 name data true).op.sm
      ((⟨img, sm, some st⟩ : Operator).putNumbered f 0 name data true).op.data := by
  have hadd := (C32_add_fails_iff st name (0xDF00 + f.toUInt16)).1
  have hok : (addSymbol st name (0xDF00 + f.toUInt16)).1 = .ok () := by
    by_contra hc
    rcases hadd.1 hc with h | ⟨_, h⟩
    · have := congrArg UInt16.toNat h
      rw [addrOf_toNat] at this
      simp at this
    · obtain ⟨s, hs, h0⟩ := hfree
      exact h s hs h0
  have hs' := C33_add_new hs hn (0xDF00 + f.toUInt16) hnew
  rcases he : addSymbol st name (0xDF00 + f.toUInt16) with ⟨o, st'⟩
  rw [he] at hok hs'
  simp only at hok
  subst hok
  simp only at hs'
  obtain ⟨sm2, img2, ex, hg, hws, e⟩ := put_with_table h hroom hf (legal_ne_nil hn) hd hlen he hs'.wellFormed.1
    hs'.wellFormed.2
  rw [e]
  exact ⟨rfl, (keep_writeSymbolTable hg st').good⟩

end Verif.Supermon

namespace Verif.Cmd
open Disk Spec Supermon

/-- `mkhello` on a NakedOS disk, when everything goes well. -/
theorem mkhello_runs {env : Env} {w : World} {order : DiskOrder} {image filename : Str} {address start : UInt16}
    (hi : image ≠ str "-") (ha : address % 256 = 0) (hs : ¬ effectiveStart address start < address) {raw : Bytes}
    (hraw : w.files image = some raw) {o : Operator} {ord : DiskOrder} (ho : ord = orderDO ∨ ord = orderPO)
    (hopen : openImage raw image order (str "auto") (factories env) = .ok (.nakedos o, ord)) {f : UInt8} (hf : f ≠ 0)
    (hname : filesForCompoundName o.table filename = .ok (f, 0, []))
    (hput : (o.putFile (helloFile (helloProgram f address (effectiveStart address start))) true).out = .ok ())
    (hl : (o.putFile (helloFile (helloProgram f address (effectiveStart address start))) true).op.data.length = 143360) :
    run env (.mkhello order image filename address start) w =
      (.ok (), w.writeFile image (viewOf orderRaw ord
        (o.putFile (helloFile (helloProgram f address (effectiveStart address start))) true).op.data)) := by
  change mkhello env World.writeOutput order image filename address start w = _
  unfold mkhello
  dsimp only
  rw [if_neg (by simp [ha]), if_neg hs, bind_run (a := (.nakedos o, ord)) (w' := w) (by rw [openDisk_eq hi hraw, hopen])]
  dsimp only
  rw [bind_run (a := (f, 0, [])) (w' := w) (by unfold lift; rw [hname])]
  dsimp only
  rw [if_neg (fun h => hf h.1), if_neg hf]
  generalize hfi : (helloFile (helloProgram f address (effectiveStart address start))) = fi at hput hl
  have hfi' : ({ descriptor := { name := str "DF01:FHELLO", length := (helloProgram f address (effectiveStart address start)).length, type := filetypeBinary }, data := helloProgram f address (effectiveStart address start) } : FileInfo) = fi := hfi
  rw [hfi']
  have e : AnyOp.putFile (.nakedos o) fi true = (.ok (o.putFile fi true).existed, .nakedos (o.putFile fi true).op) := by
    unfold AnyOp.putFile
    dsimp only
    rw [hput]
  rw [e]
  dsimp only
  rw [bind_run (m := lift (.ok (o.putFile fi true).existed)) (a := (o.putFile fi true).existed) (w' := w) rfl]
  unfold writeDisk writeBackVia
  rw [writeBack_naked hl ho]
  dsimp only
  unfold World.writeOutput
  rw [if_neg hi, if_neg (by simp)]

/-- `mkhello` succeeds on a disk with a symbol table, for every number, and FHELLO survives. -/
theorem mkhello_tabled (env : Env) {name : Str} {f : UInt8} (hc : (0x3A : UInt8) ∉ name) (hn : NumericName name f) : ∃ w o raw, w.files (str "a.do") = some raw ∧
    openImage raw (str "a.do") (str "do") (str "auto") (factories env) = .ok (.nakedos o, str "do") ∧
    (ownedBy (own o.sm) 9 = [272] ∧ ownedBy (own o.sm) 8 = []) ∧ Survives o.table (str "FHELLO") 1 ∧
    (run env (.mkhello (str "do") (str "a.do") name 0x6000 0xFFFF) w).1 = .ok () := by
  obtain ⟨img, sm, hg, ho, hroom, h9, h3, h8⟩ := lonely_tabled
  have hopen : openImage (viewOf orderRaw orderDO img) (str "a.do") (str "do") (str "auto") (factories env) =
      .ok (.nakedos ⟨img, sm, some chainTable⟩, orderDO) := by
    apply open_auto (viewOf_length raw_named (order_named (Or.inl rfl)) hg.len) (Or.inl rfl)
    · rw [viewOf_viewOf raw_named (order_named (Or.inl rfl)) hg.len]
      exact ho
    · rw [view_sector0 raw_named (order_named (Or.inl rfl)) hg.len (by omega), h3]
      decide
  have e := tabled_split (str "DF01:FHELLO") (str "FHELLO") 1 (by decide) chainTable_hello (by decide +kernel) sm img
    (helloProgram f 0x6000 (effectiveStart 0x6000 0xFFFF)) true
  obtain ⟨h1, h2⟩ := put_new_symbol' (data := helloProgram f 0x6000 (effectiveStart 0x6000 0xFFFF)) hg chainTable_sound
    (name := str "FHELLO") (by decide +kernel) chainTable_noHello
    ⟨⟨0, [], 0⟩, List.mem_of_getElem? (i := 1) (by unfold chainTable; rfl), rfl⟩ hroom
    (f := 1) (by unfold IsFileNumber; decide) (by unfold helloProgram; simp) (by unfold helloProgram; simp)
  rw [← e] at h1 h2
  refine ⟨diskWorld img, _, _, by unfold diskWorld; simp only [if_true], hopen, ⟨h9, h8⟩, ?_, ?_⟩
  · exact Or.inr (Or.inr ⟨chainTable_sound, by decide +kernel, safeDelete_absent chainTable_noHello⟩)
  · rw [mkhello_runs (f := f) (by decide +kernel) (by decide) (by decide) (by unfold diskWorld; simp only [if_true]) (Or.inl rfl)
      hopen hn.1.1 _ h1 h2.len]
    unfold Operator.table
    exact (C39_plain _ hc).1 f hn

/-- Non-vacuity of C61. -/
theorem mkhello_example (env : Env) : ∃ w o raw, w.files (str "a.do") = some raw ∧
    openImage raw (str "a.do") (str "do") (str "auto") (factories env) = .ok (.nakedos o, str "do") ∧
    (ownedBy (own o.sm) 9 = [272] ∧ ownedBy (own o.sm) 8 = []) ∧ Survives o.table (str "FHELLO") 1 ∧
    (run env (.mkhello (str "do") (str "a.do") (str "DF09") 0x6000 0xFFFF) w).1 = .ok () :=
  mkhello_tabled (f := 9) env (by decide +kernel) ((parseAddressFilename_iff (by decide)).1 (by decide +kernel))

/-- Non-vacuity of C63: a put of "DF05:FOO" on a disk with a symbol table, whose names survive. -/
example (env : Env) : ∃ w o raw, w.files (str "a.do") = some raw ∧
    openImage raw (str "a.do") (str "do") (str "nakedos") (factories env) = .ok (.nakedos o, str "do") ∧
    Survives o.table (str "FOO") 5 ∧ given w (str "src") = some [1, 2, 3] ∧
    (run env (.put (str "do") (str "nakedos") (str "B") true 0 (str "a.do") (str "DF05:FOO") (str "src")) w).1 = .ok () := by
  obtain ⟨img, sm, hg, ho, hroom⟩ := tabled
  have e := tabled_split (str "DF05:FOO") (str "FOO") 5 (by decide)
    (chainTable_foo (str "DF05") 5 (by decide +kernel) (by decide +kernel) (by decide)) (by decide +kernel) sm img [1, 2, 3] true
  obtain ⟨h1, h2⟩ := put_new_symbol' (data := [1, 2, 3]) hg chainTable_sound
    (name := str "FOO") (by decide +kernel) chainTable_noFoo
    ⟨⟨0, [], 0⟩, List.mem_of_getElem? (i := 1) (by unfold chainTable; rfl), rfl⟩ hroom
    (f := 5) (by unfold IsFileNumber; decide) (by simp) (by simp)
  rw [← e] at h1 h2
  refine ⟨diskWorld img, _, _, by unfold diskWorld; simp only [if_true], diskWorld_open hg.len ho, ?_, ?_, ?_⟩
  · exact Or.inr (Or.inr ⟨chainTable_sound, by decide +kernel, safeDelete_absent chainTable_noFoo⟩)
  · unfold given diskWorld
    rw [if_neg (by decide +kernel)]
    dsimp only
    rw [if_neg (by decide +kernel), if_pos rfl]
  · rw [diskWorld_put hg.len ho h1 h2.len]

end Verif.Cmd

/-! ## A put after which the disk is taken for DOS 3.3 -/

namespace Verif.Supermon
open Disk Spec

/-- A disk on which the only free sector is track 17 sector 0. -/
def fullMap : SectorMap := Vector.ofFn fun n : Fin 560 => if n.val < 12 then 0xFE else if n.val = 272 then 0xFF else 8
def fullImg : Bytes := put (zeros 143360) 2512 fullMap.toList

theorem own_fullMap {n : Nat} (h : n < 560) : own fullMap n = if n < 12 then 0xFE else if n = 272 then 0xFF else 8 := by
  rw [own_eq h]; simp [fullMap]

theorem full_good : Good fullMap fullImg where
  len := by
    unfold fullImg
    rw [put_length] <;> simp [zeros_length]
  legal := by
    constructor
    · intro n hn; rw [own_fullMap (by omega), if_pos hn]
    · intro n hn; rw [own_fullMap hn]; split
      · decide
      · split <;> decide
  loaded := loaded_put (by simp) _

theorem full_owned (f : UInt8) : ownedBy (own fullMap) f =
    (List.range 560).filter fun n => (if n < 12 then (0xFE : UInt8) else if n = 272 then 0xFF else 8) = f :=
  List.filter_congr fun n hn => by rw [own_fullMap (List.mem_range.1 hn)]

theorem full_free : ownedBy (own fullMap) 0xFF = [272] := by rw [full_owned]; decide +kernel
theorem full_9 : ownedBy (own fullMap) 9 = [] := by rw [full_owned]; decide +kernel
theorem full_3 : ownedBy (own fullMap) 3 = [] := by rw [full_owned]; decide +kernel

theorem full_sector : (sectorAt fullImg 17 0).getD 3 0 = 0 := by
  unfold fullImg
  rw [sectorAt_eq_slice]
  unfold slice
  rw [List.getD_eq_getElem?_getD, List.getElem?_take, if_pos (by omega), List.getElem?_drop,
    getElem?_put (by rw [zeros_length]; omega), if_neg (by omega), if_neg (by rw [Vector.length_toList]; omega)]
  unfold zeros
  rw [List.getElem?_replicate, if_pos (by omega)]
  rfl

theorem full_open : openOperator fullImg = .ok ⟨fullImg, fullMap, none⟩ := by
  rw [open_of_good full_good]
  refine congrArg (fun t => Out.ok (⟨fullImg, fullMap, t⟩ : Operator)) (tableOn_none ?_)
  intro t
  unfold readSymbolTable
  rw [readFile_eq full_good.len]
  unfold fileBytes
  rw [full_3]
  simp

/-- A sector that passes for a DOS 3.3 VTOC with an empty catalog. -/
def vtocLike : Bytes :=
  [4, 0, 0, 3, 0, 0, 254] ++ List.replicate 32 0 ++ [122] ++ List.replicate 9 0 ++ [1, 0, 0, 35, 16, 0, 1] ++ List.replicate 200 0

/-- Where the contents of a new file of one sector go. -/
theorem put_one {sm : SectorMap} {img : Bytes} (h : Good sm img) {f : UInt8} (hf : IsFileNumber f)
    {n : Nat} (hfree : ownedBy (own sm) 0xFF = [n]) (hnone : ownedBy (own sm) f = []) {data : Bytes} (hd : data.length = 256) :
    ((⟨img, sm, none⟩ : Operator).putNumbered f 0 [] data false).out = .ok () ∧
    Good ((⟨img, sm, none⟩ : Operator).putNumbered f 0 [] data false).op.sm
      ((⟨img, sm, none⟩ : Operator).putNumbered f 0 [] data false).op.data ∧
    sectorNo ((⟨img, sm, none⟩ : Operator).putNumbered f 0 [] data false).op.data n = data := by
  have fit : Fits sm f data := by
    unfold Fits; rw [hfree, hnone, hd]; simp only [List.length_cons, List.length_nil]; omega
  have hne : data ≠ [] := by rintro rfl; simp at hd
  have hwr := writeFile_ok (ow := false) h.len hf hne fit (Or.inr hnone)
  have hk := keep_writeFile (c := data) (ow := false) h hf (by rw [hwr]; simp)
  have ht : targets sm f data = [n] := by
    have hl := targets_length hf.2.2 fit
    rw [hd] at hl
    obtain ⟨m, hm⟩ := List.length_eq_one_iff.1 (hl.trans (by omega))
    have hmem : m ∈ targets sm f data := by rw [hm]; simp
    obtain ⟨hlt, e | e⟩ := mem_targets hmem
    · have := mem_ownedBy.2 ⟨hlt, e⟩
      rw [hfree] at this
      simp only [List.mem_cons, List.not_mem_nil, or_false] at this
      rw [hm, this]
    · have := mem_ownedBy.2 ⟨hlt, e⟩
      rw [hnone] at this
      simp at this
  have e : (⟨img, sm, none⟩ : Operator).putNumbered f 0 [] data false =
      ⟨decide ((ownedBy (own sm) f).length > 0), .ok (), ⟨newImg sm f data img, newMap sm f data, none⟩⟩ := by
    unfold Operator.putNumbered
    simp only [hwr]
    rw [if_neg (fun h => h.2 rfl)]
  rw [hwr] at hk
  have hb : fileBytes (own (newMap sm f data)) (newImg sm f data img) f = padded data := by
    have hok : ((⟨img, sm, none⟩ : Operator).putNumbered f 0 [] data false).out = .ok () := by rw [e]
    have := (putNumbered_ok (o := ⟨img, sm, none⟩) h hf hok).2
    rw [e] at this
    rcases this with ⟨_, _, hb⟩ | ⟨_, hc, _⟩
    · exact hb
    · exact absurd rfl hc
  unfold fileBytes at hb
  rw [ownedBy_newMap_self _ _ hf.2.2, ht] at hb
  simp only [List.flatMap_cons, List.flatMap_nil, List.append_nil] at hb
  rw [e]
  refine ⟨rfl, hk.good, hb.trans ?_⟩
  unfold padded
  rw [hd]
  simp

end Verif.Supermon

namespace Verif.Cmd
open Disk Spec Supermon

/-- That sector, decoded. -/
def vtocOf : Dos3.VTOC := match Dos3.VTOC.fromSector {} vtocLike with | .ok v => v | _ => {}

theorem vtocLike_catalog {v : Bytes} (hl : v.length = 143360) (h : sectorAt v 17 0 = vtocLike) :
    Dos3.readCatalog v = .ok ([], []) := by
  unfold Dos3.readCatalog Dos3.readCatalogFuel Dos3.readCatalogSectors Dos3.unmarshalVTOC
  rw [readSector_eq, if_neg (by rw [hl]; decide)]
  have hs : sectorAt v Dos3.vtocTrack.toNat Dos3.vtocSector.toNat = vtocLike := h
  have hw : Dos3.VTOC.fromSector {} vtocLike = .ok vtocOf := by
    unfold vtocOf Dos3.VTOC.fromSector
    rw [if_neg (by decide +kernel)]
  rw [hs, Out.bind_ok, hw, Out.bind_ok, Out.bind_ok]
  have hv : ∀ w : Dos3.VTOC, w.validate = .ok () → w.catalogTrack = 0 → w.catalogSector = 0 →
      (do
        let css ← (match w.validate with
          | .ok _ => Dos3.catalogLoop v w.numTracks w.numSectors 561 w.catalogTrack w.catalogSector [] []
          | .err _ => .err .other
          | .panic => .panic
          | .timeout => .timeout)
        let fds := css.flatMap fun cs : Dos3.CatalogSector => cs.fileDescs.toList
        Out.ok (fds.filter (fun fd : Dos3.FileDesc => fd.status = Dos3.Status.normal), fds.filter (fun fd : Dos3.FileDesc => fd.status = Dos3.Status.deleted))) = .ok ([], []) := by
    intro w h1 h2 h3
    rw [h1, h2, h3]
    rfl
  exact hv { vtocOf with track := Dos3.vtocTrack, sector := Dos3.vtocSector } (by decide +kernel) (by decide +kernel) (by decide +kernel)

/-- A sector that DOS 3.3 takes for a VTOC with an empty catalog. -/
def LooksLikeVTOC (data : Bytes) : Prop := ∀ v : Bytes, v.length = 143360 → sectorAt v 17 0 = data → Dos3.readCatalog v = .ok ([], [])

theorem empty_seems {data : Bytes} (hdata : LooksLikeVTOC data) {v : Bytes} (hl : v.length = 143360) (h : sectorAt v 17 0 = data) :
    Dos3.seemsToMatch v = .ok true := by
  unfold Dos3.seemsToMatch
  rw [hdata v hl h]

/-- Opening without naming the system when DOS 3.3 takes the image. -/
theorem open_auto_dos3 {env : Env} {b : Bytes} (hb : b.length = 143360) {ord : DiskOrder} (ho : ord = orderDO ∨ ord = orderPO)
    {data : Bytes} (hdata : LooksLikeVTOC data) (h : sectorAt b 17 0 = data) (filename : Str) :
    openImage b filename ord (str "auto") (factories env) = .ok (.dos3 ⟨viewOf ord orderDO b⟩, ord) := by
  have hc : CandidateOrders ord (toLower (pathExt filename)) [ord] := by
    rcases ho with rfl | rfl
    · exact CandidateOrders.explicitDO _
    · exact CandidateOrders.explicitPO _
  have hd : orderDO ∈ [orderDO, orderPO, orderRaw] := by simp
  have e : (Factory.map AnyOp.dos3 Dos3.factory).seemsToMatch (viewOf ord orderDO b) =
      Dos3.seemsToMatch (viewOf ord orderDO b) := by
    simp only [Factory.map, Dos3.factory]
  refine (C07_auto_picks_first_match hb (factories_orders env) hc (Or.inl rfl) _ _).2
    ⟨[], Factory.map .dos3 Dos3.factory, [(ord, Factory.map .nakedos Supermon.factory),
      (ord, Factory.map .prodos (Prodos.factory env.budget env.order))], rfl,
      ⟨_, (view_iff (order_named ho) hd hb).2 rfl, ?_, map_operator.2 ⟨_, rfl, rfl⟩⟩, by simp⟩
  exact e.trans (empty_seems hdata (viewOf_length (order_named ho) hd hb)
    (by rw [view_sector0 (order_named ho) hd hb (by omega)]; exact h))

theorem putFile_numeric (o : Operator) {name : Str} {f : UInt8} (hc : (0x3A : UInt8) ∉ name) (hn : NumericName name f)
    (data : Bytes) (ow : Bool) :
    o.putFile ⟨{ name := name, length := data.length, type := filetypeBinary }, data, 0⟩ ow = o.putNumbered f 0 [] data ow := by
  unfold Operator.putFile
  rw [if_neg (by simp), if_neg (by simp)]
  dsimp only
  rw [(C39_plain _ hc).1 f hn]
  simp only [ne_eq, not_true_eq_false, false_and, if_false, if_neg hn.1.1]

/-- A world with a disk image `a.do` and a file `src`. -/
def worldOf (img data : Bytes) : World where
  files p := if p = str "a.do" then some (viewOf orderRaw orderDO img) else if p = str "src" then some data else none
  stdin := []
  stdout := []

theorem put_into_t17s0 (env : Env) {img : Bytes} {sm : SectorMap} (hg : Good sm img) (ho : openOperator img = .ok ⟨img, sm, none⟩)
    (hfree : ownedBy (own sm) 0xFF = [272]) (hn : ownedBy (own sm) 9 = []) (hz : (sectorAt img 17 0).getD 3 0 ≠ 3)
    {data : Bytes} (hlen : data.length = 256) (hdata : LooksLikeVTOC data) :
    ∃ w', run env (.put (str "do") (str "auto") (str "B") false 0 (str "a.do") (str "DF09") (str "src")) (worldOf img data) = (.ok (), w') ∧
    (run env (.dump (str "do") (str "nakedos") (str "a.do") (str "DF09")) w').1 = .ok () ∧
    run env (.dump (str "do") (str "auto") (str "a.do") (str "DF09")) w' = (.err .other, w') := by
  have hd : orderDO ∈ [orderDO, orderPO, orderRaw] := by simp
  have h9 : IsFileNumber 9 := by unfold IsFileNumber; decide
  have hn9 : NumericName (str "DF09") 9 := (parseAddressFilename_iff (by decide)).1 (by decide +kernel)
  obtain ⟨h1, h2, h3⟩ := put_one hg h9 hfree hn hlen
  have hopen : openImage (viewOf orderRaw orderDO img) (str "a.do") (str "do") (str "auto") (factories env) =
      .ok (.nakedos ⟨img, sm, none⟩, orderDO) := by
    apply open_auto (viewOf_length raw_named hd hg.len) (Or.inl rfl)
    · rw [viewOf_viewOf raw_named hd hg.len]
      exact ho
    · rw [view_sector0 raw_named hd hg.len (by omega)]
      exact hz
  have e := putFile_numeric ⟨img, sm, none⟩ (name := str "DF09") (by decide +kernel) hn9 data false
  rw [← e] at h1 h2 h3
  have hrun := put_runs (env := env) (w := worldOf img data) (image := str "a.do") (name := str "DF09") (source := str "src") (t := str "B")
    (by decide +kernel) (by decide +kernel) (by unfold worldOf; simp only [if_true])
    (by
      unfold worldOf
      dsimp only
      rw [if_neg (by decide +kernel), if_pos rfl])
    (Or.inl rfl) hopen (by decide +kernel) h1 h2.len
  refine ⟨_, hrun, ?_, ?_⟩
  · obtain ⟨o', f, g1, _, _, hnum, _, _, g6⟩ := put_seen hopen h1 (writeBack_naked h2.len (Or.inl rfl))
    dsimp only at hnum g6
    have := hnum (str "DF09") 9 (PartOf.plain (by decide +kernel)) hn9
    subst this
    have hne : data ≠ [] := by rintro rfl; simp at hlen
    obtain ⟨_, fi, hget, _⟩ := (g6 (by decide) (by decide)).2 (str "DF09") hne (PartOf.plain (by decide +kernel))
      (by decide +kernel) (Or.inl hn9)
    rw [dump_runs (order := str "do") (image := str "a.do") (by decide +kernel) (raw := viewOf orderRaw orderDO
      ((⟨img, sm, none⟩ : Operator).putFile
        ⟨{ name := str "DF09", length := data.length, type := filetypeBinary }, data, 0⟩ false).op.data)
      (by unfold World.writeFile; simp only [if_true]) g1]
    unfold AnyOp.getFile
    dsimp only
    rw [hget]
  · generalize (⟨img, sm, none⟩ : Operator).putFile
      ⟨{ name := str "DF09", length := data.length, type := filetypeBinary }, data, 0⟩ false = r at h2 h3 ⊢
    rw [dump_runs (order := str "do") (image := str "a.do") (by decide +kernel) (raw := viewOf orderRaw orderDO r.op.data)
      (by unfold World.writeFile; simp only [if_true])
      (open_auto_dos3 (viewOf_length raw_named hd h2.len) (Or.inl rfl) hdata
        (by rw [view_sector0 raw_named hd h2.len (by omega)]; exact h3) _)]
    have hc := hdata (viewOf orderDO orderDO (viewOf orderRaw orderDO r.op.data))
      (viewOf_length hd hd (viewOf_length raw_named hd h2.len))
      (by rw [view_sector0 hd hd (viewOf_length raw_named hd h2.len) (by omega), view_sector0 raw_named hd h2.len (by omega)]; exact h3)
    unfold AnyOp.getFile Dos3.Operator.getFile Dos3.Operator.fileForFilename
    dsimp only
    rw [hc]
    rfl

/-- C63 fails in another way when the system is not named: the file put may make the disk look like
DOS 3.3, and then the next command does not find it. -/
theorem C63_violated_auto (env : Env) : ∃ w w', run env (.put (str "do") (str "auto") (str "B") false 0 (str "a.do")
      (str "DF09") (str "src")) w = (.ok (), w') ∧
    (run env (.dump (str "do") (str "nakedos") (str "a.do") (str "DF09")) w').1 = .ok () ∧
    run env (.dump (str "do") (str "auto") (str "a.do") (str "DF09")) w' = (.err .other, w') := by
  obtain ⟨w', h⟩ := put_into_t17s0 env full_good full_open full_free full_9 (by rw [full_sector]; decide)
    (data := vtocLike) (by decide +kernel) (fun _ => vtocLike_catalog)
  exact ⟨_, w', h⟩

end Verif.Cmd
