import Verif.Props.ListNames
import Verif.Props.Copy
import Verif.Props.CrashWit
import Verif.Props.ProdosRecog
import Verif.Props.ProdosWit
import Verif.Props.Decode
import Verif.Props.UndoWit
import Verif.Props.PutAny

/-!
# Disks and programs on which the full statements of C61, C70, C72, C73, C75, C92 and C93 fail
-/

set_option autoImplicit false
set_option maxRecDepth 20000

namespace Verif.Prodos
open Disk Spec

/-- C70 fails: there is an image of floppy size for which the test for ProDOS gives no answer, however long it is left running and
whatever the order of map iteration. -/
theorem C70_violated : ∃ img : Bytes, img.length = 143360 ∧ ∀ n ord, seemsToMatch n ord img = .timeout := by
  refine ⟨loopDev, dev_length (by decide +kernel) (by decide +kernel) (by decide +kernel), fun n ord => ?_⟩
  unfold seemsToMatch
  rw [C47_violated_chain]

end Verif.Prodos

namespace Verif.Supermon
open Disk Spec

/-- Like `chainTable`, with the symbol FHELLO at the end of the chain. -/
def helloTable : SymbolTable :=
  ⟨1, str "FHELLO", -1⟩ :: ⟨0, [], 0⟩ :: ⟨0x100, str "BBB", 0⟩ :: List.replicate 816 Symbol.empty

/-- The table after FHELLO has been moved to the address of file 1. -/
def helloBroken : SymbolTable :=
  ⟨0xDF01, str "FHELLO", -1⟩ :: ⟨0, [], -1⟩ :: ⟨0x100, str "BBB", 0⟩ :: List.replicate 816 Symbol.empty

theorem helloTable_get (i : Nat) (s : Symbol) (h : helloTable[i]? = some s) :
    (i = 0 ∧ s = ⟨1, str "FHELLO", -1⟩) ∨ (i = 1 ∧ s = ⟨0, [], 0⟩) ∨ (i = 2 ∧ s = ⟨0x100, str "BBB", 0⟩) ∨ s = Symbol.empty := by
  unfold helloTable at h
  match i, h with
  | 0, h => left; cases h; exact ⟨rfl, rfl⟩
  | 1, h => right; left; cases h; exact ⟨rfl, rfl⟩
  | 2, h => right; right; left; cases h; exact ⟨rfl, rfl⟩
  | i + 3, h =>
    right; right; right
    simp only [List.getElem?_cons_succ] at h
    have := List.mem_of_getElem? h
    exact (List.mem_replicate.1 this).2

theorem helloTable_wf : WellFormed helloTable where
  length := by unfold helloTable; simp only [List.length_cons, List.length_replicate]
  names := by
    intro s hs
    obtain ⟨i, hi, e⟩ := List.getElem_of_mem hs
    rcases helloTable_get i s (by rw [List.getElem?_eq_getElem hi, e]) with ⟨_, rfl⟩ | ⟨_, rfl⟩ | ⟨_, rfl⟩ | rfl
    · right; decide +kernel
    · left; rfl
    · right; decide +kernel
    · left; rfl
  links := by
    intro i s hi h0
    rcases helloTable_get i s hi with ⟨_, rfl⟩ | ⟨_, rfl⟩ | ⟨rfl, rfl⟩ | rfl
    · exact Or.inl rfl
    · exact absurd rfl h0
    · right
      exact ⟨0, ⟨1, str "FHELLO", -1⟩, rfl, by omega, rfl, by decide +kernel⟩
    · exact absurd rfl h0

theorem helloTable_canonical : helloTable.map canonical = helloTable := by
  conv_rhs => rw [← List.map_id helloTable]
  apply List.map_congr_left
  intro s hs
  obtain ⟨i, hi, e⟩ := List.getElem_of_mem hs
  rcases helloTable_get i s (by rw [List.getElem?_eq_getElem hi, e]) with ⟨_, rfl⟩ | ⟨_, rfl⟩ | ⟨_, rfl⟩ | rfl <;> decide +kernel

theorem addSymbol_hello : addSymbol helloTable (str "FHELLO") (0xDF00 + (1 : UInt8).toUInt16) = (.ok (), helloBroken) := by
  have e : deleteSymbol helloTable (str "FHELLO") =
      (true, ⟨0, [], -1⟩ :: ⟨0, [], -1⟩ :: ⟨0x100, str "BBB", 0⟩ :: List.replicate 816 Symbol.empty) := by
    have hf : findName helloTable (str "FHELLO") = some 0 := by
      unfold findName helloTable
      rw [List.findIdx?_cons, if_pos (by decide +kernel)]
    obtain ⟨s, hs, e⟩ := deleteSymbol_some hf
    cases hs
    rw [e]
    rfl
  have hsc : addScan (str "FHELLO") (addrHash (0xDF00 + (1 : UInt8).toUInt16)) helloTable 0 none = .replace 0 := by
    unfold helloTable addScan
    rw [if_pos (by decide +kernel), if_neg (by decide +kernel)]
  unfold addSymbol
  rw [if_neg (by decide +kernel), hsc]
  simp only [e]
  unfold insertAt
  rw [linkTail_none]
  · rfl
  · intro s hs
    simp only [List.mem_cons] at hs
    rcases hs with rfl | rfl | rfl | hs
    · decide +kernel
    · decide +kernel
    · decide +kernel
    · rw [(List.mem_replicate.1 hs).2]; decide +kernel

theorem helloBroken_get (i : Nat) (s : Symbol) (h : helloBroken[i]? = some s) :
    s = ⟨0xDF01, str "FHELLO", -1⟩ ∨ s = ⟨0, [], -1⟩ ∨ s = ⟨0x100, str "BBB", 0⟩ ∨ s = Symbol.empty := by
  have := List.mem_of_getElem? h
  unfold helloBroken at this
  simp only [List.mem_cons] at this
  rcases this with h | h | h | h
  · exact Or.inl h
  · exact Or.inr (Or.inl h)
  · exact Or.inr (Or.inr (Or.inl h))
  · exact Or.inr (Or.inr (Or.inr (List.mem_replicate.1 h).2))

theorem helloBroken_length : helloBroken.length = 819 := by
  unfold helloBroken; simp only [List.length_cons, List.length_replicate]

theorem helloBroken_names : ∀ s ∈ helloBroken, s.name = [] ∨ LegalName s.name := by
  intro s hs
  obtain ⟨i, hi, e⟩ := List.getElem_of_mem hs
  rcases helloBroken_get i s (by rw [List.getElem?_eq_getElem hi, e]) with rfl | rfl | rfl | rfl
  · right; decide +kernel
  · exact Or.inl rfl
  · right; decide +kernel
  · exact Or.inl rfl

theorem helloBroken_at2 : helloBroken[2]? = some ⟨0x100, str "BBB", 0⟩ := by unfold helloBroken; rfl
theorem helloBroken_at0 : helloBroken[0]? = some ⟨0xDF01, str "FHELLO", -1⟩ := by unfold helloBroken; rfl

attribute [local irreducible] helloTable helloBroken

theorem helloBroken_unreadable {sm : SectorMap} {img : Bytes} (hg : Good sm img)
    (hw : (writeSymbolTable sm img helloBroken).1 = .ok ()) (t : SymbolTable) :
    readSymbolTable (writeSymbolTable sm img helloBroken).2.1 (writeSymbolTable sm img helloBroken).2.2 ≠ .ok t := by
  have hr : ∀ s ∈ helloBroken, LinkRange s := by
    intro s hs h0
    obtain ⟨i, hi, e⟩ := List.getElem_of_mem hs
    rcases helloBroken_get i s (by rw [List.getElem?_eq_getElem hi, e]) with rfl | rfl | rfl | rfl
    · exact Or.inl rfl
    · exact absurd rfl h0
    · exact Or.inr ⟨0, rfl, by omega⟩
    · exact absurd rfl h0
  rw [read_write hg helloBroken_length hr hw]
  intro hc
  obtain ⟨u, hu, _⟩ := Out.bind_eq_ok.1 hc
  have := (checkLinks_reread _).1 hu 2 ⟨0x100, str "BBB", 0⟩ helloBroken_at2 (by decide)
  rcases this with h | ⟨j, s, h, _, hs, hh⟩
  · simp at h
  · simp only at h
    have : j = 0 := by omega
    subst this
    rw [helloBroken_at0] at hs
    cases hs
    exact absurd hh (by decide +kernel)

theorem helloTable_hello : filesForCompoundName helloTable (str "DF01:FHELLO") = .ok (1, 0, str "FHELLO") := by
  have : str "DF01:FHELLO" = str "DF01" ++ 0x3A :: str "FHELLO" := by decide +kernel
  rw [this]
  unfold filesForCompoundName
  rw [splitColon_append (by decide +kernel), splitColon_none (by decide +kernel)]
  simp only
  have h1 : parseAddressFilename (str "DF01") = 1 := by decide +kernel
  have h0 : parseAddressFilename (str "FHELLO") = 0 := by decide +kernel
  rw [h1, if_neg (by decide), if_neg (by decide +kernel)]
  have : ∀ g, fileForName helloTable (str "FHELLO") ≠ .ok g := by
    intro g hg
    rcases (C34_resolves_iff _ _ _).1 hg with hn | ⟨_, _, x, hx, hxa⟩
    · have h2 := (parseAddressFilename_iff hn.1.1).2 hn
      rw [h0] at h2
      exact hn.1.1 h2.symm
    · have h1 := List.find?_some hx
      have h2 := List.mem_of_find?_eq_some hx
      obtain ⟨i, hi, e⟩ := List.getElem_of_mem h2
      rcases helloTable_get i x (by rw [List.getElem?_eq_getElem hi, e]) with ⟨_, rfl⟩ | ⟨_, rfl⟩ | ⟨_, rfl⟩ | rfl
      · simp at hxa
        omega
      · revert h1; decide +kernel
      · revert h1; decide +kernel
      · revert h1; decide +kernel
  split
  · rename_i g hg
    exact absurd hg (this g)
  · rfl

theorem table_split (st : SymbolTable) (name sym : Str) (f : UInt8) (hne : f ≠ 0)
    (hfc : filesForCompoundName st name = .ok (f, 0, sym)) (henc : (encodeSymbol sym).isErr = false)
    (sm : SectorMap) (img : Bytes) (data : Bytes) (ow : Bool) :
    (⟨img, sm, some st⟩ : Operator).putFile
      ⟨{ name := name, length := data.length, type := filetypeBinary }, data, 0⟩ ow =
    (⟨img, sm, some st⟩ : Operator).putNumbered f 0 sym data ow := by
  unfold Operator.putFile
  rw [if_neg (by simp), if_neg (by simp)]
  simp only [Operator.table, Option.getD_some]
  rw [hfc]
  simp [henc, hne]

/-- A put of up to a sector under a symbol whose entry breaks a chain. -/
theorem put_breaks {sm : SectorMap} {img : Bytes} (h : Good sm img) (hroom : 33 ≤ (ownedBy (own sm) 0xFF).length)
    {st st' : SymbolTable} {f : UInt8} {name sym : Str} {data : Bytes} (hf : IsFileNumber f) (hs : sym ≠ [])
    (hfc : filesForCompoundName st name = .ok (f, 0, sym)) (henc : (encodeSymbol sym).isErr = false)
    (hd : data ≠ []) (hlen : data.length ≤ 256)
    (ha : addSymbol st sym (0xDF00 + f.toUInt16) = (.ok (), st')) (hl : st'.length = 819)
    (hn : ∀ s ∈ st', s.name = [] ∨ LegalName s.name)
    (hu : ∀ {sm2 : SectorMap} {img2 : Bytes}, Good sm2 img2 → (writeSymbolTable sm2 img2 st').1 = .ok () →
      ∀ t, readSymbolTable (writeSymbolTable sm2 img2 st').2.1 (writeSymbolTable sm2 img2 st').2.2 ≠ .ok t) :
    ∃ r, (⟨img, sm, some st⟩ : Operator).putFile
        ⟨{ name := name, length := data.length, type := filetypeBinary }, data, 0⟩ true = r ∧ r.out = .ok () ∧
      Good r.op.sm r.op.data ∧ tableOn r.op.sm r.op.data = none := by
  refine ⟨_, table_split st name sym f hf.1 hfc henc sm img data true, ?_⟩
  obtain ⟨h1, h2⟩ := put_unreadable h hroom hf hs hd hlen ha hl hn hu
  exact ⟨h1, (putNumbered_ok (o := ⟨img, sm, some st⟩) h hf h1).1, h2⟩

theorem lonely_hello : ∃ img sm, Good sm img ∧ openOperator img = .ok ⟨img, sm, some helloTable⟩ ∧
    33 ≤ (ownedBy (own sm) 0xFF).length ∧ (sectorAt img 17 0).getD 3 0 = 0 := by
  obtain ⟨img, sm, hg, ho, hr, hk⟩ := add_table lonely_good helloTable_wf helloTable_canonical lonely_3 lonely_4
    (by rw [lonely_free]; omega)
  have h9 : IsFileNumber 9 := by unfold IsFileNumber; decide
  have hs := (hk.sect 9 h9 (by decide)).trans lonely_9
  refine ⟨img, sm, hg, ho, hr, ?_⟩
  have hb := hk.bytes 9 h9 (by decide)
  unfold fileBytes at hb
  rw [hs, lonely_9] at hb
  simp only [List.flatMap_cons, List.flatMap_nil, List.append_nil] at hb
  have e : ∀ img, sectorAt img 17 0 = sectorNo img 272 := fun _ => rfl
  rw [e, hb]
  exact lonely_sector

end Verif.Supermon

namespace Verif.Cmd
open Disk Spec Supermon

/-- C61 fails: `mkhello` succeeds on a disk whose first symbol is an FHELLO to which another symbol is chained, and afterwards FHELLO stands
for nothing: the symbol table it has written cannot be read. -/
theorem C61_violated (env : Env) : ∃ w w', run env (.mkhello (str "do") (str "a.do") (str "DF09") 0x6000 0xFFFF) w = (.ok (), w') ∧
    DumpFails env w' (str "do") (str "nakedos") (str "a.do") (str "FHELLO") := by
  obtain ⟨img, sm, hg, ho, hroom, h3⟩ := lonely_hello
  have hi : str "a.do" ≠ str "-" := by decide +kernel
  have hopen : openImage (viewOf orderRaw orderDO img) (str "a.do") (str "do") (str "auto") (factories env) =
      .ok (.nakedos ⟨img, sm, some helloTable⟩, orderDO) := by
    apply open_auto (viewOf_length raw_named (order_named (Or.inl rfl)) hg.len) (Or.inl rfl)
    · rw [viewOf_viewOf raw_named (order_named (Or.inl rfl)) hg.len]
      exact ho
    · rw [view_sector0 raw_named (order_named (Or.inl rfl)) hg.len (by omega), h3]
      decide
  obtain ⟨r, e, h1, h2, h4⟩ := put_breaks (data := helloProgram 9 0x6000 (effectiveStart 0x6000 0xFFFF)) hg hroom (f := 1)
    (by unfold IsFileNumber; decide) (by decide +kernel) helloTable_hello (by decide +kernel)
    (by unfold helloProgram; simp) (by unfold helloProgram; simp) addSymbol_hello helloBroken_length helloBroken_names
    helloBroken_unreadable
  have hname : filesForCompoundName helloTable (str "DF09") = .ok (9, 0, []) :=
    (C39_plain _ (by decide +kernel)).1 9 ((parseAddressFilename_iff (by decide)).1 (by decide +kernel))
  have e' : (⟨img, sm, some helloTable⟩ : Operator).putFile (helloFile (helloProgram 9 0x6000 (effectiveStart 0x6000 0xFFFF))) true = r := e
  have hr := mkhello_runs (env := env) (w := diskWorld img) (f := 9) (address := 0x6000) (start := 0xFFFF) hi (by decide) (by decide)
    (by unfold diskWorld; simp only [if_true]) (Or.inl rfl) hopen (by decide) hname (by rw [e']; exact h1) (by rw [e']; exact h2.len)
  rw [e'] at hr
  refine ⟨_, _, hr, ?_⟩
  clear e e' hr
  have ho := open_of_good h2
  rw [h4] at ho
  have hd := dump_runs (env := env) (name := str "FHELLO") hi (raw := viewOf orderRaw orderDO r.op.data)
    (w := (diskWorld img).writeFile (str "a.do") (viewOf orderRaw orderDO r.op.data)) (by unfold World.writeFile; simp only [if_true])
    (diskWorld_open h2.len ho)
  unfold AnyOp.getFile at hd
  dsimp only at hd
  rw [no_symbols rfl (by decide +kernel)] at hd
  unfold DumpFails
  rw [hd]
  exact ⟨rfl, rfl, rfl⟩

/-- C92 fails: a file is dumped from a NakedOS disk, and what was printed is put on it under DF05:AAA; the put succeeds, but AAA stands for
nothing afterwards. -/
theorem C92_violated (env : Env) : ∃ w w' d, Dumps env w (str "do") (str "nakedos") (str "a.do") (str "DF09") d ∧
    given w (str "x") = some d ∧
    run env (.put (str "do") (str "nakedos") (str "B") true 0 (str "a.do") (str "DF05:AAA") (str "x")) w = (.ok (), w') ∧
    DumpFails env w' (str "do") (str "nakedos") (str "a.do") (str "AAA") := by
  obtain ⟨img, sm, hg, ho, hroom, h9, _, _⟩ := lonely_tabled
  have hi : str "a.do" ≠ str "-" := by decide +kernel
  have hx : str "x" ≠ str "-" := by decide +kernel
  have hfile : fileOnDisk img 9 ≠ [] := fun e => by
    rw [fileOnDisk_nil hg, h9] at e
    simp at e
  have hlen : (fileOnDisk img 9).length = 256 := by
    rw [← hg.onDisk, fileBytes_length hg.len, h9]
    rfl
  have hopen := diskWorld_open (env := env) hg.len ho
  have hfi : Finds env (copyWorld img (fileOnDisk img 9)) (str "a.do") (str "do") (str "nakedos")
      (.nakedos ⟨img, sm, some chainTable⟩) orderDO :=
    ⟨_, by unfold given; rw [if_neg hi]; exact copyWorld_a _ _, by rw [if_neg hi]; exact hopen⟩
  have hnum : fileForName chainTable (str "DF09") = .ok 9 :=
    (C34_resolves_iff _ _ _).2 (Or.inl ((parseAddressFilename_iff (by decide)).1 (by decide +kernel)))
  have hdump := (C72_dump_nakedos hfi (str "DF09")).1 9 hnum hfile
  dsimp only at hdump
  generalize fileOnDisk img 9 = d at hfile hlen hfi hdump
  obtain ⟨r, e, h1, h2, h4⟩ := put_breaks (data := d) hg hroom (f := 5)
    (by unfold IsFileNumber; decide) (by decide +kernel) chainTable_aaa (by decide +kernel) hfile (by omega)
    addSymbol_chain broken_length broken_names broken_unreadable
  have hr := put_runs (env := env) (w := copyWorld img d) (ow := true) (address := 0) (name := str "DF05:AAA") (t := str "B")
    hi hx (copyWorld_a _ _) (copyWorld_x _ _) (Or.inl rfl) hopen (ft := filetypeBinary) (by decide +kernel) (by rw [e]; exact h1) (by rw [e]; exact h2.len)
  rw [e] at hr
  refine ⟨_, _, d, hdump, by unfold given; rw [if_neg hx]; exact copyWorld_x _ _, hr, ?_⟩
  clear e hr
  have ho := open_of_good h2
  rw [h4] at ho
  have hd := dump_runs (env := env) (name := str "AAA") hi (raw := viewOf orderRaw orderDO r.op.data)
    (w := (copyWorld img d).writeFile (str "a.do") (viewOf orderRaw orderDO r.op.data)) (by unfold World.writeFile; simp only [if_true])
    (diskWorld_open h2.len ho)
  unfold AnyOp.getFile at hd
  dsimp only at hd
  rw [no_symbols rfl (by decide +kernel)] at hd
  unfold DumpFails
  rw [hd]
  exact ⟨rfl, rfl, rfl⟩

/-- C72 fails: there is a DOS 3.3 disk whose listing has a file for which `dump` crashes. -/
theorem C72_violated (env : Env) : ∃ w w' l1 l2, run env (.ls (str "do") (str "dos3") false (str "a.do") []) w = (.ok (), w') ∧
    w'.stdout = w.stdout ++ (l1 ++ str "EMPTY" :: l2).flatMap (fun l => l ++ [0x0A]) ∧
    (run env (.dump (str "do") (str "dos3") (str "a.do") (str "EMPTY")) w).1 = .panic := by
  have hfi := finds_dos3 env Dos3.exDisk_length
  obtain ⟨w', h1, _, h2⟩ := C71_ls_dos3 hfi false Dos3.exDisk_facts.1 _ Dos3.exDisk_chain
  have hm : Dos3.mkEntry 17 2 0x00 (str "EMPTY") 1 ∈ (entries Dos3.exDisk [(17, 1)]).filter (fun e => LiveEntry e) := by
    rw [Dos3.exDisk_entries]
    decide +kernel
  have hn : entryName (Dos3.mkEntry 17 2 0x00 (str "EMPTY") 1) = str "EMPTY" := by decide +kernel
  obtain ⟨a, b, hab⟩ := List.append_of_mem hm
  refine ⟨oneFile (str "a.do") (viewOf orderDO orderDO Dos3.exDisk), w', a.map entryName, b.map entryName, h1, ?_, ?_⟩
  · rw [h2]
    dsimp only
    rw [hab]
    simp only [List.flatMap_append, List.flatMap_cons, List.flatMap_map, hn]
  · refine (C80_dump _ _ _ _ _ _).2 ?_
    obtain ⟨s, hs⟩ := Dos3.exEmpty_ok
    refine ⟨⟨Dos3.exDisk⟩, orderDO, _, s, hfi,
      Dos3.exDisk_lookup (str "EMPTY") (Dos3.mkEntry 17 2 0x00 (str "EMPTY") 1) (by decide +kernel), hs, Or.inl ⟨?_, ?_⟩⟩
    · rw [Dos3.filetype_fromBytes]; decide +kernel
    · intro b hb
      rw [Dos3.exEmpty_contents s hs] at hb
      exact (List.mem_replicate.1 hb).2

/-- C73 fails: there is a NakedOS disk for which `rm --missingok` of a file that does not exist is an error. -/
theorem C73_violated_missingok (env : Env) : ∃ w o, Finds env w (str "a.do") (str "do") (str "nakedos") (.nakedos o) orderDO ∧
    DumpFails env w (str "do") (str "nakedos") (str "a.do") (str "NOSUCH") ∧
    (run env (.rm (str "do") (str "nakedos") true (str "a.do") (str "NOSUCH")) w).1 = .err .fileNotFound := by
  obtain ⟨img, sm, hg, ho, hroom⟩ := tabled
  have hi : str "a.do" ≠ str "-" := by decide +kernel
  have hfi : Finds env (diskWorld img) (str "a.do") (str "do") (str "nakedos") (.nakedos ⟨img, sm, some chainTable⟩) orderDO :=
    ⟨viewOf orderRaw orderDO img, by unfold given; rw [if_neg hi]; unfold diskWorld; simp only [if_true], by rw [if_neg hi]; exact diskWorld_open hg.len ho⟩
  have hno : ∀ g, fileForName chainTable (str "NOSUCH") ≠ .ok g := by
    intro g hg
    rcases (C34_resolves_iff _ _ _).1 hg with hn | ⟨_, _, x, hx, hxa⟩
    · have h2 := (parseAddressFilename_iff hn.1.1).2 hn
      have h0 : parseAddressFilename (str "NOSUCH") = 0 := by decide +kernel
      rw [h0] at h2
      exact hn.1.1 h2.symm
    · have h1 := List.find?_some hx
      have h2 := List.mem_of_find?_eq_some hx
      obtain ⟨i, hi, e⟩ := List.getElem_of_mem h2
      rcases chainTable_get i x (by rw [List.getElem?_eq_getElem hi, e]) with ⟨_, rfl⟩ | ⟨_, rfl⟩ | rfl <;>
        (revert h1; decide +kernel)
  refine ⟨_, _, hfi, ?_, (C73_unknown_name hfi true _ hno).1⟩
  obtain ⟨_, _, d3, d4⟩ := C72_dump_nakedos hfi (str "NOSUCH")
  rcases d4 with ⟨f, hf⟩ | ⟨k, hk⟩
  · exact absurd hf (hno f)
  · exact d3 k hk

end Verif.Cmd

namespace Verif.Cmd
open Disk Spec Spec.Basic Basic

/-- `10 PRINT 2^3` -/
def powerProgram : List Line := [⟨10, [0xBA] ++ str "2" ++ [0xCC] ++ str "3"⟩]

/-- C75 fails: the program `10 PRINT 2^3`, saved, is printed without a `^`. -/
theorem C75_violated (env : Env) (hb : 1 < env.budget) (w : World)
    (hw : given w (str "x") = some (withLength (applesoftLayout 0x801 powerProgram))) :
    applesoftKeyword 0xCC = str "^" ∧ ∃ text, Prints env w (str "x") 0x801 false text ∧ (0x5E : UInt8) ∉ text := by
  refine ⟨by decide +kernel, _, decode_prints hw (Applesoft.C50_with_header powerProgram ?_ 0x801 (by decide) (by decide +kernel) [] (by simp)
    env.budget hb) _, by decide +kernel⟩
  unfold powerProgram ApplesoftLine
  decide +kernel

end Verif.Cmd

namespace Verif.Supermon
open Disk Spec

/-- The name of a file when no symbol has its address. -/
theorem nakedName_none {st : SymbolTable} {f : UInt8} (h : ∀ s ∈ st, s.address.toNat ≠ 0xDF00 + f.toNat) (short : Bool) :
    Cmd.nakedName st short f = dfName f := by
  unfold Cmd.nakedName
  have : st.find? (fun s => decide (s.address.toNat = 0xDF00 + f.toNat)) = none := by
    rw [List.find?_eq_none]
    intro s hs
    simp [h s hs]
  rw [this]

/-- The table without its only symbol. -/
def dfabGone : SymbolTable := ⟨0, [], -1⟩ :: ⟨0, [], -1⟩ :: List.replicate 817 Symbol.empty

theorem dfab_delete : (deleteSymbol dfabTable (str "DFAB")).2 = dfabGone := by
  have hf : findName dfabTable (str "DFAB") = some 0 := by
    unfold findName dfabTable
    rw [List.findIdx?_cons, if_pos (by decide +kernel)]
  obtain ⟨s, hs, e⟩ := deleteSymbol_some hf
  cases hs
  rw [e]
  rfl

theorem dfabGone_mem {s : Symbol} (h : s ∈ dfabGone) : s = ⟨0, [], -1⟩ ∨ s = Symbol.empty := by
  unfold dfabGone at h
  rw [List.mem_cons, List.mem_cons] at h
  rcases h with h | h | h
  · exact Or.inl h
  · exact Or.inl h
  · exact Or.inr (List.mem_replicate.1 h).2

theorem dfabGone_wf : WellFormed dfabGone where
  length := by unfold dfabGone; simp only [List.length_cons, List.length_replicate]
  names := by
    intro s hs
    rcases dfabGone_mem hs with rfl | rfl <;> exact Or.inl rfl
  links := by
    intro i s hi h0
    rcases dfabGone_mem (List.mem_of_getElem? hi) with rfl | rfl <;> exact absurd rfl h0

theorem dfabGone_canonical {s : Symbol} (h : s ∈ dfabGone.map canonical) : s.address.toNat ≠ 0xDF00 + (3 : UInt8).toNat := by
  obtain ⟨t, ht, rfl⟩ := List.mem_map.1 h
  rcases dfabGone_mem ht with rfl | rfl <;> decide +kernel

theorem dfabTable_at0 : dfabTable[0]? = some ⟨0xDF03, str "DFAB", -1⟩ := by unfold dfabTable; rfl

attribute [local irreducible] dfabTable dfabGone

theorem dfab_storable : ∀ s ∈ dfabTable, Storable s.name := by
  intro s hs
  obtain ⟨i, hi, e⟩ := List.getElem_of_mem hs
  rcases dfabTable_get i s (by rw [List.getElem?_eq_getElem hi, e]) with ⟨_, rfl⟩ | rfl
  · decide +kernel
  · decide +kernel

/-- More about the disk of `dfab_disk`. -/
theorem dfab_room : ∃ img sm, Good sm img ∧ openOperator img = .ok ⟨img, sm, some dfabTable⟩ ∧
    (ownedBy (own sm) 3).length = 16 ∧ (∀ f, IsFileNumber f → f ≠ 3 → f ≠ 4 → ownedBy (own sm) f = []) ∧
    33 ≤ (ownedBy (own sm) 0xFF).length := by
  have hw := fresh_room _ dfabTable_wf
  have hk := keep_writeSymbolTable fresh_good dfabTable
  have ho : openOperator (writeSymbolTable freshMap freshImg dfabTable).2.2 =
      .ok ⟨(writeSymbolTable freshMap freshImg dfabTable).2.2, (writeSymbolTable freshMap freshImg dfabTable).2.1,
        some (dfabTable.map canonical)⟩ := by
    unfold openOperator
    rw [hk.good.loaded, Out.bind_ok, (verify_ok_iff _).2 hk.good.legal, Out.bind_ok, C31_write_read fresh_good dfabTable_wf hw]
  rw [dfabTable_canonical] at ho
  obtain ⟨s3, s4, sf⟩ := writeSymbolTable_sizes fresh_good hw
  rw [freshMap_free, freshMap_file isFile3, freshMap_file isFile4] at sf
  simp only [List.length_nil] at sf
  refine ⟨_, _, hk.good, ho, s3, fun f hf h3 h4 => ?_, by omega⟩
  rw [hk.sect f hf (by simp [h3, h4])]
  exact freshMap_file hf

/-- A put by number leaves the table as it is. -/
theorem put_number_table {o : Operator} (h : Good o.sm o.data) (ho : openOperator o.data = .ok o) {fi : FileInfo} {ow : Bool}
    (hok : (o.putFile fi ow).out = .ok ()) {f : UInt8} (hn : NumericName fi.descriptor.name f) (h3 : f ≠ 3) (h4 : f ≠ 4) :
    ∃ sm2, Keep (· = f) o.sm o.data sm2 (o.putFile fi ow).op.data ∧
      openOperator (o.putFile fi ow).op.data = .ok ⟨(o.putFile fi ow).op.data, sm2, o.st⟩ ∧
      fileBytes (own sm2) (o.putFile fi ow).op.data f = padded fi.data := by
  obtain ⟨g, nf, sym, hg, e, hkind⟩ := put_kinds hok
  have hcol := numeric_no_colon hn
  have : g = f ∧ sym = [] := by
    rcases hkind with ⟨hn', hs⟩ | ⟨_, hn', _⟩ | ⟨a, b, hab, _⟩
    · exact ⟨C34_numeric_unique hn' hn, hs⟩
    · exact absurd hn (hn' f)
    · rw [hab] at hcol; simp at hcol
  obtain ⟨rfl, rfl⟩ := this
  rw [e] at hok ⊢
  obtain ⟨hg2, hcase⟩ := putNumbered_ok h hg hok
  obtain ⟨_, hst, hb⟩ := hcase.resolve_right (by simp)
  have hw := putNumbered_wrote hok
  have hk := keep_writeFile h hg (c := fi.data) (ow := ow) (by rw [hw]; simp)
  have hop : (o.putNumbered g nf [] fi.data ow).op = ⟨(writeFile o.sm o.data g fi.data ow).img, (writeFile o.sm o.data g fi.data ow).sm, o.st⟩ := by
    unfold Operator.putNumbered
    simp only [hw]
    rw [if_neg (by simp)]
  rw [hop] at hb ⊢
  refine ⟨_, hk, ?_, hb⟩
  dsimp only
  rw [open_of_good hk.good,
    tableOn_congr h hk.good (hk.bytes 3 isFile3 (fun h => h3 h.symm)) (hk.bytes 4 isFile4 (fun h => h4 h.symm)), ← opened_table h ho]

/-- Removing a file by a number that is also a symbol of file 3 removes this symbol. -/
theorem rm_both {sm : SectorMap} {img : Bytes} (h : Good sm img) {T T' : SymbolTable} {name : Str} {f : UInt8} (hf : IsFileNumber f)
    (hn : fileForName T name = .ok f) (hlt3 : ¬ f < 3) (hs : ¬ NoSymbol T name) (hd : (deleteSymbol T name).2 = T') (hwf : WellFormed T')
    (hc : ∀ s ∈ T'.map canonical, s.address.toNat ≠ 0xDF00 + (3 : UInt8).toNat)
    (hnone : ∀ f, IsFileNumber f → f < 3 → ownedBy (own sm) f = [])
    (hok : ((⟨img, sm, some T⟩ : Operator).delete name).out = .ok ()) :
    ∃ sm3 st3, Good sm3 ((⟨img, sm, some T⟩ : Operator).delete name).op.data ∧
      openOperator ((⟨img, sm, some T⟩ : Operator).delete name).op.data =
        .ok ⟨((⟨img, sm, some T⟩ : Operator).delete name).op.data, sm3, some st3⟩ ∧
      ownedBy (own sm3) 3 ≠ [] ∧ (∀ f, IsFileNumber f → f < 3 → ownedBy (own sm3) f = []) ∧
      Cmd.nakedName st3 true 3 = dfName 3 := by
  obtain ⟨g, hn', _, hcase⟩ := delete_split (o := ⟨img, sm, some T⟩) h hok
  have e : g = f := by
    have : fileForName T name = .ok g := hn'
    rw [hn] at this
    cases this
    rfl
  subst e
  rcases hcase with ⟨hc, _⟩ | ⟨st, hst, _, hw, hop⟩
  · exact absurd hc hs
  · cases hst
    rw [hd] at hw hop
    rw [hop]
    dsimp only at hw ⊢
    obtain ⟨_, hk1⟩ := keep_delete h hf
    have hk2 := keep_writeSymbolTable hk1.good T'
    refine ⟨_, T'.map canonical, hk2.good, ?_, ?_, ?_, nakedName_none hc true⟩
    · unfold openOperator
      rw [hk2.good.loaded, Out.bind_ok, (verify_ok_iff _).2 hk2.good.legal, Out.bind_ok, C31_write_read hk1.good hwf hw]
    · intro e
      have := (writeSymbolTable_sizes hk1.good hw).1
      rw [e] at this
      simp at this
    · intro f hf hlt
      have hlt' : f.toNat < 3 := hlt
      rw [hk2.sect f hf (by rintro (rfl | rfl) <;> simp at hlt'), hk1.sect f hf (by rintro rfl; exact hlt3 hlt)]
      exact hnone f hf hlt

theorem dfab_symbol : ¬ NoSymbol dfabTable (str "DFAB") := fun hc =>
  hc _ (List.mem_of_getElem? dfabTable_at0) (by decide +kernel)

end Verif.Supermon

namespace Verif.Cmd
open Disk Spec

/-- The first line of a listing, when file 3 is the first file. -/
theorem first_line {listed : List UInt8} (hp : listed.Pairwise (· < ·)) (h3 : (3 : UInt8) ∈ listed) (hlow : ∀ g ∈ listed, ¬ g < 3) :
    ∃ rest, listed = 3 :: rest := by
  cases listed with
  | nil => cases h3
  | cons g rest =>
    rcases List.mem_cons.1 h3 with rfl | h
    · exact ⟨rest, rfl⟩
    · exact absurd ((List.pairwise_cons.1 hp).1 3 h) (hlow g (by simp))

attribute [local irreducible] Supermon.dfabTable Supermon.dfabGone

/-- The first line that `ls --short` prints when file 3 is the first file. -/
theorem ls_first {env : Env} {w : World} {o : Supermon.Operator} {image : Str}
    (h : Finds env w image (str "do") (str "nakedos") (.nakedos o) orderDO)
    (hg : Supermon.Good o.sm o.data) (h3 : ownedBy (own o.sm) 3 ≠ []) (hlow : ∀ f, IsFileNumber f → f < 3 → ownedBy (own o.sm) f = []) :
    ∃ w' rest, run env (.ls (str "do") (str "nakedos") true image []) w = (.ok (), w') ∧
      w'.stdout = w.stdout ++ (nakedName o.table true 3 ++ 0x0A :: rest) := by
  obtain ⟨w', listed, k1, k2, k3, k4⟩ := ls_lists h true
  obtain ⟨rest, rfl⟩ := first_line k3 ((k4 3).2 ⟨Supermon.isFile3, fun hx => h3 ((Supermon.fileOnDisk_nil hg 3).1 hx)⟩) (fun g hg' hlt => by
    obtain ⟨hf, hne⟩ := (k4 g).1 hg'
    exact hne ((Supermon.fileOnDisk_nil hg g).2 (hlow g hf hlt)))
  refine ⟨w', rest.flatMap (fun f => nakedName o.table true f ++ [0x0A]), k1, ?_⟩
  rw [k2, List.flatMap_cons, List.append_assoc]
  rfl

/-- C93 fails for a number that is also a symbol: a file is put under DFAB and removed again, and the listing is different: the symbol
DFAB of another file is gone. -/
theorem C93_violated (env : Env) : ∃ w w2 w3 b b3 text text3, given w (str "x") = some [1] ∧
    DumpFails env w (str "do") (str "nakedos") (str "a.do") (str "DFAB") ∧
    run env (.put (str "do") (str "nakedos") (str "B") false 0 (str "a.do") (str "DFAB") (str "x")) w = (.ok (), w2) ∧
    run env (.rm (str "do") (str "nakedos") false (str "a.do") (str "DFAB")) w2 = (.ok (), w3) ∧
    run env (.ls (str "do") (str "nakedos") true (str "a.do") []) w = (.ok (), b) ∧ b.stdout = w.stdout ++ text ∧
    run env (.ls (str "do") (str "nakedos") true (str "a.do") []) w3 = (.ok (), b3) ∧ b3.stdout = w3.stdout ++ text3 ∧
    text ≠ text3 := by
  obtain ⟨img, sm, hg, ho, h3, hnone, hroom⟩ := Supermon.dfab_room
  have hi : str "a.do" ≠ str "-" := by decide +kernel
  have hx : str "x" ≠ str "-" := by decide +kernel
  have hlow : ∀ f, IsFileNumber f → f < 3 → f ≠ 3 ∧ f ≠ 4 := by
    intro f _ hlt
    have hlt' : f.toNat < 3 := hlt
    constructor <;> (rintro rfl; simp at hlt')
  have hab := hnone 0xAB Supermon.isFileAB (by decide) (by decide)
  have hfi : Finds env (copyWorld img [1]) (str "a.do") (str "do") (str "nakedos") (.nakedos ⟨img, sm, some Supermon.dfabTable⟩) orderDO :=
    ⟨_, by unfold given; rw [if_neg hi]; exact copyWorld_a _ _, by rw [if_neg hi]; exact diskWorld_open hg.len ho⟩
  have hgx : given (copyWorld img [1]) (str "x") = some [1] := by unfold given; rw [if_neg hx]; exact copyWorld_x img [1]
  have hnum : NumericName (str "DFAB") 0xAB := (Supermon.parseAddressFilename_iff (by decide)).1 (by decide +kernel)
  have hown : ∀ g, ownedBy (owner img) g = ownedBy (own sm) g := hg.owned
  -- the put
  have hput : (run env (.put (str "do") (str "nakedos") (str "B") false 0 (str "a.do") (str "DFAB") (str "x")) (copyWorld img [1])).1 = .ok () := by
    refine (C91_put hi hfi hgx (by simp)).2 ⟨by decide +kernel, 0xAB, [], Or.inl ⟨hnum, rfl⟩, ?_, Or.inr ((Supermon.fileOnDisk_nil hg 0xAB).2 hab),
      fun h => absurd rfl h⟩
    dsimp only
    rw [hown, hown, Supermon.sectorsNeeded_eq, hab]
    simp only [List.length_cons, List.length_nil]
    omega
  have hw2 : ∃ w2, run env (.put (str "do") (str "nakedos") (str "B") false 0 (str "a.do") (str "DFAB") (str "x")) (copyWorld img [1]) = (.ok (), w2) :=
    ⟨_, Prod.ext hput rfl⟩
  obtain ⟨w2, hw2⟩ := hw2
  obtain ⟨raw, o, ord, data, ft, new, p1, p2, p3, p4, p5, p6⟩ := put_inv hi hput
  rw [hw2] at p6
  dsimp only at p6
  rw [copyWorld_a] at p1
  cases p1
  rw [diskWorld_open hg.len ho] at p2
  cases p2
  rw [hgx] at p3
  cases p3
  obtain ⟨sm2, hk, hopen2, hb⟩ := Supermon.put_number_table (o := ⟨img, sm, some Supermon.dfabTable⟩) hg ho p4 hnum (by decide) (by decide)
  obtain ⟨hbl, hv⟩ := written_view hk.good.len (Or.inl rfl) p5
  dsimp only at hopen2 hk hb
  generalize ((⟨img, sm, some Supermon.dfabTable⟩ : Supermon.Operator).putFile _ false).op = op2 at *
  have hfi2 : Finds env w2 (str "a.do") (str "do") (str "nakedos") (.nakedos ⟨op2.data, sm2, some Supermon.dfabTable⟩) orderDO :=
    ⟨new, by unfold given; rw [if_neg hi]; exact p6, by rw [if_neg hi]; exact open_explicit hbl (Or.inl rfl) (by rw [hv]; exact hopen2) _⟩
  -- the removal
  have hrm : (run env (.rm (str "do") (str "nakedos") false (str "a.do") (str "DFAB")) w2).1 = .ok () := by
    refine (C94_rm hi hfi2).2 ⟨0xAB, Or.inl hnum, Or.inl ?_, ?_⟩
    · dsimp only
      rw [← hk.good.onDisk, hb]
      intro hc
      unfold padded at hc
      exact absurd (List.append_eq_nil_iff.1 hc).1 (by simp)
    · rintro before s after ⟨e, _⟩ t ht
      refine Supermon.dfab_storable t ?_
      have e' : Supermon.dfabTable = before ++ s :: after := e
      rw [e']
      rcases List.mem_append.1 ht with h | h
      · exact List.mem_append_left _ h
      · exact List.mem_append_right _ (List.mem_cons_of_mem _ h)
  have hw3 : ∃ w3, run env (.rm (str "do") (str "nakedos") false (str "a.do") (str "DFAB")) w2 = (.ok (), w3) := ⟨_, Prod.ext hrm rfl⟩
  obtain ⟨w3, hw3⟩ := hw3
  obtain ⟨raw2, o2, ord2, new3, q1, q2, q3, q4, q5, q6⟩ := rm_inv hi hrm
  rw [hw3] at q6
  dsimp only at q6
  rw [p6] at q1
  cases q1
  obtain ⟨raw2', q1', q2'⟩ := id hfi2
  unfold given at q1'
  rw [if_neg hi] at q1' q2'
  rw [p6] at q1'
  cases q1'
  rw [q2'] at q2
  cases q2
  obtain ⟨sm3, st3, g1, g2, g3, g4, g5⟩ := Supermon.rm_both hk.good Supermon.isFileAB (Supermon.dfab_numeric _) (by decide)
    Supermon.dfab_symbol Supermon.dfab_delete Supermon.dfabGone_wf (fun s hs => Supermon.dfabGone_canonical hs) (fun f hf hlt => by
    rw [hk.sect f hf (by rintro rfl; exact absurd hlt (by decide))]
    exact hnone f hf (hlow f hf hlt).1 (hlow f hf hlt).2) q3
  obtain ⟨hbl3, hv3⟩ := written_view g1.len (Or.inl rfl) q5
  have hfi3 : Finds env w3 (str "a.do") (str "do") (str "nakedos") (.nakedos ⟨_, sm3, some st3⟩) orderDO :=
    ⟨new3, by unfold given; rw [if_neg hi]; exact q6, by rw [if_neg hi]; exact open_explicit hbl3 (Or.inl rfl) (by rw [hv3]; exact g2) _⟩
  obtain ⟨b, r, l1, l2⟩ := ls_first hfi hg (fun e => by dsimp only at e; rw [e] at h3; simp at h3)
    (fun f hf hlt => hnone f hf (hlow f hf hlt).1 (hlow f hf hlt).2)
  obtain ⟨b3, r3, m1, m2⟩ := ls_first hfi3 g1 g3 g4
  refine ⟨_, w2, w3, b, b3, _, _, hgx, ?_, hw2, hw3, l1, l2, m1, m2, ?_⟩
  · exact (C72_dump_nakedos hfi _).2.1 0xAB (Supermon.dfab_numeric _) ((Supermon.fileOnDisk_nil hg 0xAB).2 hab)
  · have e1 : nakedName (Supermon.Operator.mk img sm (some Supermon.dfabTable)).table true 3 = str "DFAB" := Supermon.dfabTable_short
    have e3 : nakedName (Supermon.Operator.mk ((⟨op2.data, sm2, some Supermon.dfabTable⟩ : Supermon.Operator).delete (str "DFAB")).op.data sm3 (some st3)).table true 3 = str "DF03" :=
      g5.trans (by decide +kernel)
    rw [e1, e3]
    intro hc
    have e4 := congrArg (fun l : Bytes => l.getD 2 0) hc
    have a1 : str "DFAB" = [0x44, 0x46, 0x41, 0x42] := by decide +kernel
    have a3 : str "DF03" = [0x44, 0x46, 0x30, 0x33] := by decide +kernel
    rw [a1, a3] at e4
    exact absurd e4 (by simp)

end Verif.Cmd
