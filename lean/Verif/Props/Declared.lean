import Verif.Model.Cli
import Verif.Props.Recognise
import Verif.Props.CmdFiles
import Verif.Props.ReopenWit
import Verif.Props.HistoryWit

/-!
# C108: working with a disk through the options that the commands offer
-/

set_option autoImplicit false

namespace Verif.Cmd
open Disk Spec

variable {env : Env} {w : World} {image : Str} {order ord : DiskOrder} {system : Str} {op : AnyOp}

/-- An opened image opens alike when the order and the system found are named. -/
theorem open_named {raw : Bytes} {filename : Str} (h : openImage raw filename order system (factories env) = .ok (op, ord)) :
    openImage raw filename ord op.name (factories env) = .ok (op, ord) := by
  unfold openImage at h
  simp only [show floppyDiskBytes = 143360 from rfl] at h
  split at h
  · rename_i hr
    have hord := openDoOrPo_order h
    simp only at hord
    obtain ⟨f, hm, ho, _, hop⟩ := openDoOrPo_ok hr (fun f hf' => lawful_factOk (factories_lawful env f hf')) h
    have hc : CandidateOrders ord (toLower (pathExt filename)) [ord] := by
      rcases hord with rfl | rfl
      · exact CandidateOrders.explicitDO _
      · exact CandidateOrders.explicitPO _
    have go : ∀ k : System, f = factoryOf env k → op.name = k.name → openImage raw filename ord op.name (factories env) = .ok (op, ord) := by
      intro k e hn
      subst e
      rw [hn]
      have C := C07_explicit_choice_obeyed hr (factories_orders env) hc (system := k.name) (by cases k <;> decide)
      have e : ∃ v, View ord k.order raw v ∧ openImage raw filename ord k.name (factories env) = ((factoryOf env k).operator v >>= fun op => Out.ok (op, ord)) := by
        cases k with
        | dos3 => exact C.1 [] (factoryOf env .dos3) [factoryOf env .nakedos, factoryOf env .prodos] rfl rfl (by simp)
        | nakedos => exact C.1 [factoryOf env .dos3] (factoryOf env .nakedos) [factoryOf env .prodos] rfl rfl (by
            intro g hg
            simp only [List.mem_cons, List.not_mem_nil, or_false] at hg
            subst hg
            rw [factoryOf_name]; decide)
        | prodos => exact C.1 [factoryOf env .dos3, factoryOf env .nakedos] (factoryOf env .prodos) [] rfl rfl (by
            intro g hg
            simp only [List.mem_cons, List.not_mem_nil, or_false] at hg
            rcases hg with rfl | rfl <;> (rw [factoryOf_name]; decide))
      obtain ⟨v, hv, e⟩ := e
      rw [e, (view_iff ho (system_order_named k) hr).1 hv, ← factoryOf_order env k, hop]
      rfl
    simp only [factories, List.mem_cons, List.not_mem_nil, or_false] at hm
    rcases hm with rfl | rfl | rfl <;> obtain ⟨o', _, e⟩ := map_operator.1 hop <;> subst e
    · exact go .dos3 rfl rfl
    · exact go .nakedos rfl rfl
    · exact go .prodos rfl rfl
  · rename_i hr
    split at h
    · simp at h
    · rename_i hr2
      split at h
      · rename_i hx
        unfold openHDV at h
        simp only at h
        split at h
        · simp at h
        split at h
        · simp at h
        rename_i g1 g2
        split at h
        · simp at h
        split at h
        · simp at h
        obtain ⟨f, hm, hn, hop, rfl⟩ := openHDVLoop_ok h
        have hname : op.name = str "prodos" := by
          simp only [factories, List.mem_cons, List.not_mem_nil, or_false] at hm
          rcases hm with rfl | rfl | rfl
          · exact absurd hn (by decide)
          · exact absurd hn (by decide)
          · obtain ⟨_, _, e⟩ := map_operator.1 hop
            subst e
            rfl
        unfold openImage
        simp only [show floppyDiskBytes = 143360 from rfl]
        rw [if_neg hr, if_neg hr2, if_pos hx]
        unfold openHDV
        simp only
        rw [if_neg g1, if_neg g2, if_neg (by simp), if_neg (by simp [hname]), h]
      · simp at h

/-- The same for the image a command is given. -/
theorem finds_named (h : Finds env w image order system op ord) : Finds env w image ord op.name op ord := by
  obtain ⟨raw, h1, h2⟩ := h
  exact ⟨raw, h1, open_named h2⟩

/-- C108: once the program has found out what a disk is, every command does what it does when it is told so: the same outcome, files and
output, whatever the other arguments. -/
theorem C108_as_if_named (h : Finds env w image order system op ord) :
    (∀ short dir, run env (.ls order system short image dir) w = run env (.ls ord op.name short image dir) w) ∧
    (∀ name, run env (.dump order system image name) w = run env (.dump ord op.name image name) w) ∧
    (∀ m name, run env (.rm order system m image name) w = run env (.rm ord op.name m image name) w) ∧
    ∀ t ow a name source, run env (.put order system t ow a image name source) w = run env (.put ord op.name t ow a image name source) w := by
  have e : openDisk env image order system w = openDisk env image ord op.name w := by
    rw [openDisk_finds h, openDisk_finds (finds_named h)]
  have b : ∀ {β : Type} (k : AnyOp × DiskOrder → Act β),
      (openDisk env image order system >>= k) w = (openDisk env image ord op.name >>= k) w := by
    intro β k
    change Act.bind _ k w = Act.bind _ k w
    unfold Act.bind
    rw [e]
  refine ⟨fun short dir => ?_, fun name => ?_, fun m name => ?_, fun t ow a name source => ?_⟩
  · exact b _
  · exact b _
  · exact b _
  · change putCmd env World.writeOutput _ _ _ _ _ _ _ _ w = putCmd env World.writeOutput _ _ _ _ _ _ _ _ w
    unfold putCmd
    by_cases hc : image = str "-" ∧ source = str "-"
    · rw [if_pos hc, if_pos hc]
    · rw [if_neg hc, if_neg hc]
      exact b _

/-- C108: in particular what is said elsewhere about `dump` told that the disk is NakedOS holds of `dump` with any options with which it finds that out. -/
theorem C108_dump_as_named {o : Supermon.Operator} (h : Finds env w image order system (.nakedos o) ord) (name : Str) :
    (∀ d, Dumps env w order system image name d ↔ Dumps env w ord (str "nakedos") image name d) ∧
    (DumpFails env w order system image name ↔ DumpFails env w ord (str "nakedos") image name) := by
  have e : run env (.dump order system image name) w = run env (.dump ord (str "nakedos") image name) w := (C108_as_if_named h).2.1 name
  unfold Dumps DumpFails
  rw [e]
  exact ⟨fun _ => Iff.rfl, Iff.rfl⟩

/-- The image, in sector order `ord`, can be taken for a DOS 3.3 disk, or reading its DOS catalog does not end. -/
def TakenForDos (raw : Bytes) (ord : DiskOrder) : Prop :=
  ∃ d, View ord (str "do") raw d ∧ (DosDisk d ∨ EndlessCatalog d)

/-- C108: without a named system, a NakedOS disk whose sector order is given (or follows from the name of the file) is found to be one, exactly
if it cannot be taken for DOS 3.3. -/
theorem C108_found_exact {m : Files} (hi : image ≠ str "-") (hos : CandidateOrders order (toLower (pathExt image)) [ord])
    (hm : HasFiles w image ord m) {raw : Bytes} (hraw : w.files image = some raw) :
    (∃ o, Finds env w image order (str "auto") (.nakedos o) ord) ↔ ¬ TakenForDos raw ord := by
  obtain ⟨raw', img, g1, g2, g3, _⟩ := hm
  rw [hraw] at g1
  cases g1
  have ho := (candidateOrders_named hos).2 ord (by simp)
  have hr : raw.length = 143360 := by rw [← g2.1]; exact g3.1
  have hdv := (view_iff ho (system_order_named .dos3) hr).2 rfl
  constructor
  · rintro ⟨o, raw', h1, h2⟩ ⟨d, hd, hx⟩
    unfold given at h1
    rw [if_neg hi, hraw] at h1
    cases h1
    rw [if_neg hi] at h2
    rcases hx with hx | hx
    · rw [C84_dos hr hos (Or.inl rfl) hd hx] at h2
      cases h2
    · rw [C84_hangs hr hos hd hx] at h2
      cases h2
  · intro h
    obtain ⟨o, h1, _⟩ := C84_nakedos (env := env) hr hos g2 g3 hdv (fun hx => h ⟨_, hdv, Or.inl hx⟩) (fun hx => h ⟨_, hdv, Or.inr hx⟩)
    exact ⟨o, raw, by unfold given; rw [if_neg hi, hraw], by rw [if_neg hi]; exact h1⟩

/-- C108: it cannot be taken for DOS 3.3 unless track 17 sector 0 of the image looks like its table of contents: byte 3 is 3, and so on. -/
theorem C108_not_taken {raw : Bytes} (hr : raw.length = 143360) (ho : ord = orderDO ∨ ord = orderPO) (h : (sectorAt raw 17 0).getD 3 0 ≠ 3) :
    ¬ TakenForDos raw ord := by
  rintro ⟨d, hd, hx⟩
  have e := (view_iff (order_named ho) (system_order_named .dos3) hr).1 hd
  have hs : sectorAt d 17 0 = sectorAt raw 17 0 := by
    rw [e]
    exact view_sector0 (order_named ho) (system_order_named .dos3) hr (by omega)
  have hl : d.length = 143360 := by rw [e]; exact viewOf_length (order_named ho) (system_order_named .dos3) hr
  have hf := not_dos3 hl (by rw [hs]; exact h)
  rcases hx with hx | hx
  · rw [(dos_true d).2 hx] at hf
    cases hf
  · rw [dos_endless hx] at hf
    cases hf

/-- C108: so on a NakedOS disk that cannot be taken for DOS 3.3, `ls`, `dump`, `rm` and `put` without `--system` do what they do when told
that it is NakedOS. -/
theorem C108_unnamed_partial {m : Files} (hi : image ≠ str "-") (hos : CandidateOrders order (toLower (pathExt image)) [ord])
    (hm : HasFiles w image ord m) {raw : Bytes} (hraw : w.files image = some raw) (hnd : ¬ TakenForDos raw ord) :
    (∀ short dir, run env (.ls order (str "auto") short image dir) w = run env (.ls ord (str "nakedos") short image dir) w) ∧
    (∀ name, run env (.dump order (str "auto") image name) w = run env (.dump ord (str "nakedos") image name) w) ∧
    (∀ mo name, run env (.rm order (str "auto") mo image name) w = run env (.rm ord (str "nakedos") mo image name) w) ∧
    ∀ t ow a name source, run env (.put order (str "auto") t ow a image name source) w = run env (.put ord (str "nakedos") t ow a image name source) w := by
  obtain ⟨o, h⟩ := (C108_found_exact (env := env) hi hos hm hraw).2 hnd
  exact C108_as_if_named h

theorem open_system {raw : Bytes} {filename : Str} (h : openImage raw filename order system (factories env) = .ok (op, ord)) :
    system = str "auto" ∨ system = op.name := by
  unfold openImage at h
  simp only [show floppyDiskBytes = 143360 from rfl] at h
  split at h
  · rename_i hr
    obtain ⟨f, hm, _, hs, hop⟩ := openDoOrPo_ok hr (fun f hf' => lawful_factOk (factories_lawful env f hf')) h
    refine hs.imp_right fun e => e.trans ?_
    simp only [factories, List.mem_cons, List.not_mem_nil, or_false] at hm
    rcases hm with rfl | rfl | rfl <;> obtain ⟨o', _, e⟩ := map_operator.1 hop <;> subst e <;> rfl
  · split at h
    · simp at h
    · split at h
      · unfold openHDV at h
        simp only at h
        split at h
        · simp at h
        split at h
        · simp at h
        split at h
        · simp at h
        split at h
        · simp at h
        rename_i hs
        obtain ⟨f, hm, hn, hop, rfl⟩ := openHDVLoop_ok h
        by_cases ha : system = str "auto"
        · exact Or.inl ha
        · right
          have : system = str "prodos" := by
            by_contra hc
            exact hs ⟨ha, hc⟩
          rw [this]
          simp only [factories, List.mem_cons, List.not_mem_nil, or_false] at hm
          rcases hm with rfl | rfl | rfl
          · exact absurd hn (by decide)
          · exact absurd hn (by decide)
          · obtain ⟨_, _, e⟩ := map_operator.1 hop
            subst e
            rfl
      · simp at h

/-- What a command that opens an image and ends well has found. -/
theorem finds_of_ok {β : Type} {k : AnyOp × DiskOrder → Act β} {b : β} (h : ((openDisk env image order system >>= k) w).1 = .ok b) :
    ∃ op ord, Finds env w image order system op ord := by
  change (Act.bind _ k w).1 = _ at h
  unfold Act.bind openDisk openFilename at h
  by_cases hi : image = str "-"
  · rw [if_pos hi] at h
    cases e : openImage w.stdin (str "/dev/stdin") order system (factories env) with
    | ok x => exact ⟨x.1, x.2, w.stdin, by unfold given; rw [if_pos hi], by rw [if_pos hi]; exact e⟩
    | err k => rw [e] at h; cases h
    | panic => rw [e] at h; cases h
    | timeout => rw [e] at h; cases h
  · rw [if_neg hi] at h
    cases hr : w.files image with
    | none => rw [hr] at h; cases h
    | some raw =>
      rw [hr] at h
      simp only at h
      cases e : openImage raw image order system (factories env) with
      | ok x => exact ⟨x.1, x.2, raw, by unfold given; rw [if_neg hi, hr], by rw [if_neg hi]; exact e⟩
      | err k => rw [e] at h; cases h
      | panic => rw [e] at h; cases h
      | timeout => rw [e] at h; cases h

/-- C108: a `put` or `rm` with options that the program accepts succeeds only if no system is named: of those that can be named none can be
written to. -/
theorem C108_only_unnamed (env : Env) (w : World) (order : DiskOrder) (system : Str) (image : Str) :
    (∀ t ow a name source, (Command.put order system t ow a image name source).accepted = true →
      (run env (.put order system t ow a image name source) w).1 = .ok () → system = str "auto") ∧
    (∀ m name, (Command.rm order system m image name).accepted = true → (run env (.rm order system m image name) w).1 = .ok () → system = str "auto") := by
  have key : ∀ {op ord}, system ∈ fileSystemEnum → Finds env w image order system op ord → system = str "auto" ∨ ∃ o, op = .dos3 o := by
    rintro op ord hs ⟨raw, _, h⟩
    simp only [fileSystemEnum, List.mem_cons, List.not_mem_nil, or_false] at hs
    refine hs.imp_right fun hs => ?_
    rcases open_system h with e | e
    · rw [hs] at e; exact absurd e (by decide)
    · rw [hs] at e
      cases op with
      | dos3 o => exact ⟨o, rfl⟩
      | nakedos o => exact absurd e (show str "dos3" ≠ str "nakedos" by decide)
      | prodos o => exact absurd e (show str "dos3" ≠ str "prodos" by decide)
  refine ⟨fun t ow a name source ha hok => ?_, fun m name ha hok => ?_⟩
  · have hs : system ∈ fileSystemEnum := (of_decide_eq_true ha).2
    have hf : ∃ op ord, Finds env w image order system op ord := by
      have h := hok
      change (putCmd env World.writeOutput order system t ow a image name source w).1 = _ at h
      unfold putCmd at h
      split at h
      · cases h
      · exact finds_of_ok h
    obtain ⟨op, ord, hf⟩ := hf
    rcases key hs hf with h | h
    · exact h
    · have := ((C67_writes_refused hf (Or.inl h)).1 t ow a name source).1
      rw [hok] at this
      cases this
  · have hs : system ∈ fileSystemEnum := (of_decide_eq_true ha).2
    obtain ⟨op, ord, hf⟩ := finds_of_ok (show ((openDisk env image order system >>= _) w).1 = .ok () from hok)
    rcases key hs hf with h | h
    · exact h
    · have := ((C67_writes_refused hf (Or.inl h)).2 m name).1
      rw [hok] at this
      cases this

/-- Non-vacuity of C108: a NakedOS disk `a.do` and commands without any option. -/
example (env : Env) : ∃ w raw m o, HasFiles w (str "a.do") orderDO m ∧ w.files (str "a.do") = some raw ∧ ¬ TakenForDos raw orderDO ∧
    CandidateOrders (str "auto") (toLower (pathExt (str "a.do"))) [orderDO] ∧ Finds env w (str "a.do") (str "auto") (str "auto") (.nakedos o) orderDO ∧
    (plainDump (str "a.do") (str "DF08")).accepted = true ∧
    ∀ name, run env (plainDump (str "a.do") name) w = run env (.dump (str "do") (str "nakedos") (str "a.do") name) w := by
  have hd : orderDO ∈ [orderDO, orderPO, orderRaw] := by simp
  have hz : (sectorAt Supermon.fullImg 17 0).getD 3 0 ≠ 3 := by rw [Supermon.full_sector]; decide
  have hg := Supermon.full_good
  generalize Supermon.fullImg = img at *
  have hw : (worldOf img []).files (str "a.do") = some (viewOf orderRaw orderDO img) := by unfold worldOf; simp only [if_true]
  have hm := hasFiles_good hg hw
  have hc : CandidateOrders (str "auto") (toLower (pathExt (str "a.do"))) [orderDO] := by
    rw [show toLower (pathExt (str "a.do")) = str ".do" by decide +kernel]
    exact CandidateOrders.byExtDO
  have hnd : ¬ TakenForDos (viewOf orderRaw orderDO img) orderDO :=
    C108_not_taken (viewOf_length raw_named hd hg.len) (Or.inl rfl) (by rw [view_sector0 raw_named hd hg.len (by omega)]; exact hz)
  obtain ⟨o, ho⟩ := (C108_found_exact (env := env) (by decide) hc hm hw).2 hnd
  exact ⟨_, _, _, o, hm, hw, hnd, hc, ho, by decide, (C108_unnamed_partial (by decide) hc hm hw hnd).2.1⟩

/-! ## A file that can no longer be reached -/

/-- What an accepted command finds in an image `a.do` that looks like an empty DOS 3.3 disk. -/
theorem finds_empty_dos {w : World} {b : Bytes} (hw : w.files (str "a.do") = some b) (hb : b.length = 143360) (h : sectorAt b 17 0 = Supermon.vtocLike)
    {order : DiskOrder} {system : Str} (ho : order ∈ orderEnum) (hs : system ∈ fileSystemEnum) :
    ∃ v ord, Finds env w (str "a.do") order system (.dos3 ⟨v⟩) ord ∧ Dos3.readCatalog v = .ok ([], []) := by
  have go : ∀ ord, (ord = orderDO ∨ ord = orderPO) → CandidateOrders order (toLower (pathExt (str "a.do"))) [ord] →
      ∃ v ord, Finds env w (str "a.do") order system (.dos3 ⟨v⟩) ord ∧ Dos3.readCatalog v = .ok ([], []) := by
    intro ord hord hc
    have hv := (view_iff (order_named hord) (system_order_named .dos3) hb).2 rfl
    have hcat : Dos3.readCatalog (viewOf ord (System.order .dos3) b) = .ok ([], []) :=
      vtocLike_catalog (viewOf_length (order_named hord) (system_order_named .dos3) hb)
        (by rw [view_sector0 (order_named hord) (system_order_named .dos3) hb (by omega)]; exact h)
    have hd : DosDisk (viewOf ord (System.order .dos3) b) := by
      apply (dos_true _).1
      unfold Dos3.seemsToMatch
      rw [hcat]
    simp only [fileSystemEnum, List.mem_cons, List.not_mem_nil, or_false] at hs
    exact ⟨_, ord, ⟨b, by unfold given; rw [if_neg (by decide), hw], by rw [if_neg (by decide)]; exact C84_dos hb hc hs hv hd⟩, hcat⟩
  simp only [orderEnum, List.mem_cons, List.not_mem_nil, or_false] at ho
  rcases ho with rfl | rfl | rfl
  · exact go orderDO (Or.inl rfl) (by
      rw [show toLower (pathExt (str "a.do")) = str ".do" by decide +kernel]
      exact CandidateOrders.byExtDO)
  · exact go orderDO (Or.inl rfl) (CandidateOrders.explicitDO _)
  · exact go orderPO (Or.inr rfl) (CandidateOrders.explicitPO _)

/-- C108 fails: a file can be put on a disk, with no options at all, so that afterwards `ls` told that it is NakedOS still lists it, but no `dump`,
`rm` or `put` with options that the program accepts succeeds. -/
theorem C108_violated (env : Env) : ∃ w w', run env (plainPut (str "a.do") (str "DF09") (str "src")) w = (.ok (), w') ∧
    (run env (.dump (str "do") (str "nakedos") (str "a.do") (str "DF09")) w').1 = .ok () ∧
    (run env (.ls (str "do") (str "nakedos") false (str "a.do") []) w').1 = .ok () ∧
    (∀ order system, (Command.dump order system (str "a.do") (str "DF09")).accepted = true →
      (run env (.dump order system (str "a.do") (str "DF09")) w').1.isErr = true) ∧
    (∀ order system m name, (Command.rm order system m (str "a.do") name).accepted = true →
      (run env (.rm order system m (str "a.do") name) w').1.isErr = true) ∧
    ∀ order system t ow a name source, (Command.put order system t ow a (str "a.do") name source).accepted = true →
      (run env (.put order system t ow a (str "a.do") name source) w').1.isErr = true := by
  have hd : orderDO ∈ [orderDO, orderPO, orderRaw] := by simp
  have h9 : IsFileNumber 9 := by unfold IsFileNumber; decide
  have hn9 : NumericName (str "DF09") 9 := (Supermon.parseAddressFilename_iff (by decide)).1 (by decide +kernel)
  have hlen : Supermon.vtocLike.length = 256 := by decide +kernel
  have hz : (sectorAt Supermon.fullImg 17 0).getD 3 0 ≠ 3 := by rw [Supermon.full_sector]; decide
  have hg := Supermon.full_good
  have ho := Supermon.full_open
  obtain ⟨h1, h2, h3⟩ := Supermon.put_one hg h9 Supermon.full_free Supermon.full_9 hlen
  generalize Supermon.fullImg = img at *
  generalize Supermon.fullMap = sm at *
  generalize hdata : Supermon.vtocLike = data at *
  have hopen : openImage (viewOf orderRaw orderDO img) (str "a.do") (str "auto") (str "auto") (factories env) =
      .ok (.nakedos ⟨img, sm, none⟩, orderDO) := by
    have e : openImage (viewOf orderRaw orderDO img) (str "a.do") (str "auto") (str "auto") (factories env) =
        openImage (viewOf orderRaw orderDO img) (str "a.do") (str "do") (str "auto") (factories env) := by
      rw [openImage_scan (viewOf_length raw_named hd hg.len) (factories_orders env) (by
          rw [show toLower (pathExt (str "a.do")) = str ".do" by decide +kernel]
          exact CandidateOrders.byExtDO) (Or.inl rfl),
        openImage_scan (viewOf_length raw_named hd hg.len) (factories_orders env) (CandidateOrders.explicitDO _) (Or.inl rfl)]
    rw [e]
    change openImage _ _ orderDO _ _ = _
    apply open_auto (viewOf_length raw_named hd hg.len) (Or.inl rfl)
    · rw [viewOf_viewOf raw_named hd hg.len]
      exact ho
    · rw [view_sector0 raw_named hd hg.len (by omega)]
      exact hz
  have e : (⟨img, sm, none⟩ : Supermon.Operator).putFile
      ⟨{ name := str "DF09", length := data.length, type := filetypeBinary }, data, 0x6000⟩ false =
      (⟨img, sm, none⟩ : Supermon.Operator).putNumbered 9 0 [] data false :=
    putFile_numeric ⟨img, sm, none⟩ (name := str "DF09") (by decide +kernel) hn9 data false
  rw [← e] at h1 h2 h3
  have hrun := put_runs (env := env) (w := worldOf img data) (image := str "a.do") (name := str "DF09") (source := str "src") (t := str "B")
    (by decide +kernel) (by decide +kernel) (by unfold worldOf; simp only [if_true])
    (by
      unfold worldOf
      dsimp only
      rw [if_neg (by decide +kernel), if_pos rfl])
    (Or.inl rfl) hopen (by decide +kernel) h1 h2.len
  obtain ⟨o', f, g1, _, _, hnum, _, _, g6⟩ := put_seen hopen h1 (writeBack_naked h2.len (Or.inl rfl))
  dsimp only at hnum g6
  have := hnum (str "DF09") 9 (Supermon.PartOf.plain (by decide +kernel)) hn9
  subst this
  have hne : data ≠ [] := by rintro rfl; simp at hlen
  obtain ⟨_, fi, hget, _⟩ := (g6 (by decide) (by decide)).2 (str "DF09") hne (Supermon.PartOf.plain (by decide +kernel))
    (by decide +kernel) (Or.inl hn9)
  refine ⟨_, _, hrun, ?_⟩
  generalize (⟨img, sm, none⟩ : Supermon.Operator).putFile
      ⟨{ name := str "DF09", length := data.length, type := filetypeBinary }, data, 0x6000⟩ false = r at *
  have hw : ((worldOf img data).writeFile (str "a.do") (viewOf orderRaw orderDO r.op.data)).files (str "a.do") =
      some (viewOf orderRaw orderDO r.op.data) := by
    unfold World.writeFile; simp only [if_true]
  generalize (worldOf img data).writeFile (str "a.do") (viewOf orderRaw orderDO r.op.data) = w' at *
  have hfi : Finds env w' (str "a.do") (str "do") (str "nakedos") (.nakedos o') orderDO :=
    ⟨_, by unfold given; rw [if_neg (by decide), hw], by rw [if_neg (by decide)]; exact g1⟩
  have hfd : ∀ {order system}, order ∈ orderEnum → system ∈ fileSystemEnum →
      ∃ v ord, Finds env w' (str "a.do") order system (.dos3 ⟨v⟩) ord ∧ Dos3.readCatalog v = .ok ([], []) := fun ho hs =>
    finds_empty_dos hw (viewOf_length raw_named hd h2.len)
      (by rw [view_sector0 raw_named hd h2.len (by omega), hdata]; exact h3) ho hs
  refine ⟨?_, ?_, fun order system ha => ?_, fun order system m name ha => ?_, fun order system t ow a name source ha => ?_⟩
  · rw [dump_runs (order := str "do") (by decide +kernel) hw g1]
    unfold AnyOp.getFile
    dsimp only
    rw [hget]
  · obtain ⟨w2, e1, _⟩ := C71_ls_nakedos hfi false
    rw [e1]
  · obtain ⟨v, ord, hf, hc⟩ := hfd (of_decide_eq_true ha).1 (of_decide_eq_true ha).2
    obtain ⟨raw, k1, k2⟩ := hf
    unfold given at k1
    rw [if_neg (by decide)] at k1 k2
    rw [dump_runs (by decide +kernel) k1 k2]
    unfold AnyOp.getFile Dos3.Operator.getFile Dos3.Operator.fileForFilename
    dsimp only
    rw [hc]
    rfl
  · obtain ⟨v, ord, hf, hc⟩ := hfd (of_decide_eq_true ha).1 (of_decide_eq_true ha).2
    exact ((C67_writes_refused hf (Or.inl ⟨_, rfl⟩)).2 m name).1
  · obtain ⟨v, ord, hf, hc⟩ := hfd (of_decide_eq_true ha).1 (of_decide_eq_true ha).2
    exact ((C67_writes_refused hf (Or.inl ⟨_, rfl⟩)).1 t ow a name source).1

end Verif.Cmd
