import Verif.Props.Reopen
import Verif.Props.SupermonPut
import Verif.Props.Dos3Get
import Verif.Props.ProdosVolume

/-!
# C67, C71-C74: what the file commands do
-/

set_option autoImplicit false

namespace Verif.Supermon
open Disk Spec

/-- No symbol of the table has this name. -/
def NoSymbol (st : SymbolTable) (name : Str) : Prop := ∀ s ∈ st, ¬ SameName name s.name

/-- The two ways a deletion goes well: there is no symbol of the name, or it is removed from the
table and the table written back. -/
theorem delete_split {o : Operator} (h : Good o.sm o.data) {name : Str} (hok : (o.delete name).out = .ok ()) :
    ∃ f, fileForName o.table name = .ok f ∧
      (o.delete name).existed = decide (ownedBy (own o.sm) f ≠ []) ∧
      ((NoSymbol o.table name ∧ (o.delete name).op = ⟨put o.data 2512 (deleteFile o.sm f).toList, deleteFile o.sm f, o.st⟩) ∨
       ∃ st, o.st = some st ∧ (∃ s ∈ st, SameName name s.name) ∧
        (writeSymbolTable (deleteFile o.sm f) (put o.data 2512 (deleteFile o.sm f).toList) (deleteSymbol st name).2).1 = .ok () ∧
        (o.delete name).op =
          ⟨(writeSymbolTable (deleteFile o.sm f) (put o.data 2512 (deleteFile o.sm f).toList) (deleteSymbol st name).2).2.2,
           (writeSymbolTable (deleteFile o.sm f) (put o.data 2512 (deleteFile o.sm f).toList) (deleteSymbol st name).2).2.1,
           some (deleteSymbol st name).2⟩) := by
  rcases fileForName_cases o.table name with ⟨f, hn⟩ | hn
  · have hf := fileForName_file hn
    have hex := (C29_delete h hn).1
    refine ⟨f, hn, ?_, ?_⟩
    · by_cases e : ownedBy (own o.sm) f ≠ []
      · rw [hex.2 e]; simp [e]
      · have : (o.delete name).existed ≠ true := fun hc => e (hex.1 hc)
        simp [e, Bool.eq_false_iff.2 this]
    · obtain ⟨hp, _⟩ := keep_delete h hf
      unfold Operator.delete at hok ⊢
      rw [hn] at hok ⊢
      simp only [hp] at hok ⊢
      cases hst : o.st with
      | none =>
        left
        refine ⟨?_, rfl⟩
        unfold NoSymbol Operator.table
        rw [hst]
        simp
      | some st =>
        rw [hst] at hok
        simp only at hok ⊢
        have C := C32_delete_found st name
        have htab : o.table = st := by unfold Operator.table; rw [hst]; rfl
        rcases hd : deleteSymbol st name with ⟨b, st'⟩
        rw [hd] at C hok
        cases b with
        | true =>
          right
          exact ⟨st, rfl, C.1.1 rfl, by rw [hd]; exact hok, by rw [hd]⟩
        | false =>
          left
          have e : st' = st := C.2 rfl
          refine ⟨?_, by rw [e]⟩
          rw [htab]
          intro s hs hsn
          have := C.1.2 ⟨s, hs, hsn⟩
          simp at this
  · rw [op_delete_err hn] at hok
    simp at hok

theorem fileForSymbol_of_byName {st : SymbolTable} {n : Str} :
    fileForSymbol n st = if byName st n > 0xDF00 ∧ byName st n < 0xDFFE then some (byName st n - 0xDF00).toUInt8 else none := by
  induction st with
  | nil => rfl
  | cons s st ih =>
    rw [fileForSymbol_cons, byName]
    have hc : equalFold s.name n = equalFold n s.name := by
      cases h : equalFold n s.name with
      | true => exact equalFold_iff.2 (equalFold_iff.1 h).symm
      | false =>
        rw [equalFold_false] at h ⊢
        exact fun e => h e.symm
    rw [hc]
    split
    · rfl
    · exact ih

theorem byName_sameName {st : SymbolTable} {m n : Str} (h : SameName m n) : byName st m = byName st n := by
  induction st with
  | nil => rfl
  | cons s st ih =>
    rw [byName, byName, ih]
    have : equalFold m s.name = equalFold n s.name := by
      cases e : equalFold n s.name with
      | true => exact equalFold_iff.2 (h.trans (equalFold_iff.1 e))
      | false =>
        rw [equalFold_false] at e ⊢
        exact fun e' => e (h.symm.trans e')
    rw [this]

/-- What a successful deletion leaves, seen by opening the bytes again.  `o'` is the disk read
again. -/
theorem reopen_delete {o : Operator} (h : Good o.sm o.data) (ho : openOperator o.data = .ok o) {name : Str}
    (hok : (o.delete name).out = .ok ()) :
    ∃ o' f, openOperator (o.delete name).op.data = .ok o' ∧ Good o'.sm o'.data ∧ o'.data = (o.delete name).op.data ∧
      fileForName o.table name = .ok f ∧
      ((o.delete name).existed = true ↔ fileOnDisk o.data f ≠ []) ∧
      ((f ≠ 3 ∧ f ≠ 4) ∨ NoSymbol o.table name → fileOnDisk o'.data f = []) ∧
      (∀ g, IsFileNumber g → g ≠ f → (g ≠ 3 ∧ g ≠ 4) ∨ NoSymbol o.table name → fileOnDisk o'.data g = fileOnDisk o.data g) ∧
      (f ≠ 3 → f ≠ 4 → NoSymbol o.table name → o'.st = o.st) ∧
      (Sound o.table → UniqueNames o.table → SafeDelete o.table name → ¬ NoSymbol o.table name → name ≠ [] →
        (∀ n, SameName n name → (∀ g, ¬ NumericName n g) → fileForName o'.table n = .err .fileNotFound) ∧
        (∀ n, n ≠ [] → ¬ SameName n name → fileForName o'.table n = fileForName o.table n)) := by
  obtain ⟨f, hn, hex, hcase⟩ := delete_split h hok
  have hf := fileForName_file hn
  have hg2 := (good_op_delete h name).1
  obtain ⟨C1, C2, C3⟩ := C29_delete h hn
  have hkd := (keep_delete h hf).2
  have hfileOn : ∀ (sm : SectorMap) (img : Bytes), Good sm img → ∀ g, (fileOnDisk img g = [] ↔ ownedBy (own sm) g = []) := by
    intro sm img hg g
    rw [← hg.onDisk]
    constructor
    · intro e
      have := fileBytes_length hg.len (own sm) g
      rw [e] at this
      simp only [List.length_nil] at this
      exact List.length_eq_zero_iff.1 (by omega)
    · intro e
      unfold fileBytes
      rw [e]; rfl
  refine ⟨_, f, open_of_good hg2, hg2, rfl, hn, ?_, ?_, ?_, ?_, ?_⟩
  · rw [C1, Ne, Ne, hfileOn o.sm o.data h]
  · intro hs
    dsimp only
    rw [hfileOn _ _ hg2]
    have := C2 hs
    rw [sectorsForFile_eq, List.map_eq_nil_iff] at this
    exact this
  · intro g hg hne hs
    dsimp only
    have := (C3 g hg hne hs).2
    rw [readFile_eq hg2.len, readFile_eq h.len] at this
    simp only [Out.ok.injEq] at this
    rw [← hg2.onDisk, ← h.onDisk]
    exact this
  · intro h3 h4 hno
    dsimp only
    rcases hcase with ⟨_, e⟩ | ⟨st, hst, ⟨s, hs, hsn⟩, _⟩
    · rw [e]
      dsimp only
      rw [tableOn_congr h hkd.good (hkd.bytes 3 isFile3 (fun h => h3 h.symm)) (hkd.bytes 4 isFile4 (fun h => h4 h.symm)),
        ← opened_table h ho]
    · have htab : o.table = st := by unfold Operator.table; rw [hst]; rfl
      rw [htab] at hno
      exact absurd hsn (hno s hs)
  · intro hsound huniq hsafe hsym hn0
    rcases hcase with ⟨hno, _⟩ | ⟨st, hst, _, hw, e⟩
    · exact absurd hno hsym
    · have htab : o.table = st := by unfold Operator.table; rw [hst]; rfl
      rw [htab] at hsound huniq hsafe ⊢
      have hs' := (sound_delete hsound hsafe).1
      have hread := C31_write_read hkd.good hs'.wellFormed hw
      have htable : (Operator.mk (o.delete name).op.data (o.delete name).op.sm
          (tableOn (o.delete name).op.sm (o.delete name).op.data)).table = (deleteSymbol st name).2.map canonical := by
        rw [e]
        unfold Operator.table tableOn
        dsimp only
        rw [hread]
        rfl
      rw [htable]
      constructor
      · intro n hsn hnum
        have hnn : n ≠ [] := by
          rintro rfl
          exact hn0 (sameName_nil.1 hsn.symm)
        have hz : parseAddressFilename n = 0 := by
          by_contra hc
          exact hnum _ ((parseAddressFilename_iff hc).1 rfl)
        unfold fileForName
        rw [hz, if_neg (by simp), fileForSymbol_canonical hs'.clean hnn, fileForSymbol_of_byName]
        have : byName (deleteSymbol st name).2 n = 0 := by
          rw [byName_sameName hsn]
          exact C32_delete_self huniq hn0
        rw [this]
        rfl
      · intro n hnn hne
        unfold fileForName
        rw [fileForSymbol_canonical hs'.clean hnn, fileForSymbol_of_byName, fileForSymbol_of_byName, C32_delete_other hnn hne]

end Verif.Supermon

namespace Verif.Cmd
open Disk Spec Spec.Prodos

/-- The disk a command finds in the image it is given (standard input for `-`), and the order of the
image's sectors. -/
def Finds (env : Env) (w : World) (image : Str) (order : DiskOrder) (system : Str) (op : AnyOp) (ord : DiskOrder) : Prop :=
  ∃ raw, given w image = some raw ∧
    openImage raw (if image = str "-" then str "/dev/stdin" else image) order system (factories env) = .ok (op, ord)

/-- The world once the image has been read. -/
def afterReading (w : World) (image : Str) : World := if image = str "-" then { w with stdin := [] } else w

theorem afterReading_same (w : World) (image : Str) : SameOutside (afterReading w image) w := by
  unfold afterReading
  split
  · exact ⟨rfl, rfl⟩
  · exact ⟨rfl, rfl⟩

theorem openDisk_finds {env : Env} {w : World} {image : Str} {order : DiskOrder} {system : Str} {op : AnyOp} {ord : DiskOrder}
    (h : Finds env w image order system op ord) : openDisk env image order system w = (.ok (op, ord), afterReading w image) := by
  obtain ⟨raw, hg, ho⟩ := h
  unfold given at hg
  unfold openDisk openFilename afterReading
  by_cases hi : image = str "-"
  · rw [if_pos hi] at hg ho ⊢
    simp only [Option.some.injEq] at hg
    rw [hg, ho, if_pos hi]
  · rw [if_neg hi] at hg ho ⊢
    rw [hg, if_neg hi]
    simp only [ho]

/-! ## C67 -/

theorem putFile_refused {op : AnyOp} (hop : (∃ o, op = .dos3 o) ∨ ∃ o, op = .prodos o) (fi : FileInfo) (ow : Bool) :
    (op.putFile fi ow).1 = .err .other := by
  rcases hop with ⟨o, rfl⟩ | ⟨o, rfl⟩ <;> rfl

theorem delete_refused {op : AnyOp} (hop : (∃ o, op = .dos3 o) ∨ ∃ o, op = .prodos o) (n : Str) :
    (op.delete n).1 = .err .other := by
  rcases hop with ⟨o, rfl⟩ | ⟨o, rfl⟩ <;> rfl

/-- C67: `put` and `rm` on a DOS 3.3 or ProDOS disk end with an error message and change nothing. -/
theorem C67_writes_refused {env : Env} {w : World} {image : Str} {order : DiskOrder} {system : Str} {op : AnyOp} {ord : DiskOrder}
    (h : Finds env w image order system op ord) (hop : (∃ o, op = .dos3 o) ∨ ∃ o, op = .prodos o) :
    (∀ t ow a name source, (run env (.put order system t ow a image name source) w).1.isErr = true ∧
      SameOutside (run env (.put order system t ow a image name source) w).2 w) ∧
    (∀ m name, (run env (.rm order system m image name) w).1.isErr = true ∧
      SameOutside (run env (.rm order system m image name) w).2 w) := by
  constructor
  · intro t ow a name source
    have key : (run env (.put order system t ow a image name source) w).1.isErr = true := by
      change (putCmd env World.writeOutput order system t ow a image name source w).1.isErr = true
      unfold putCmd
      split
      · rfl
      · rw [bind_run (openDisk_finds h)]
        dsimp only
        rcases hc : contentsOf source (afterReading w image) with ⟨out, w2⟩
        cases out with
        | ok contents =>
          rw [bind_run hc]
          cases ht : Types.filetypeForName t with
          | ok ft =>
            rw [bind_run (m := lift (.ok ft)) (a := ft) (w' := w2) rfl]
            rw [bind_err (k := .other) (w' := w2) (by rw [putFile_refused hop]; rfl)]
            rfl
          | err k => rfl
          | panic =>
            exfalso
            unfold Types.filetypeForName at ht
            split at ht <;> simp at ht
          | timeout =>
            exfalso
            unfold Types.filetypeForName at ht
            split at ht <;> simp at ht
        | err k => rw [bind_err hc]; rfl
        | panic =>
          exfalso
          unfold contentsOf World.fileContentsOrStdIn at hc
          split at hc
          · simp at hc
          · split at hc <;> simp at hc
        | timeout =>
          exfalso
          unfold contentsOf World.fileContentsOrStdIn at hc
          split at hc
          · simp at hc
          · split at hc <;> simp at hc
    refine ⟨key, C59_failure_changes_nothing env _ w ?_⟩
    intro hc
    rw [hc] at key
    simp at key
  · intro m name
    have key : (run env (.rm order system m image name) w).1.isErr = true := by
      change (rm env World.writeOutput order system m image name w).1.isErr = true
      unfold rm
      rw [bind_run (openDisk_finds h)]
      dsimp only
      rw [delete_refused hop]
      rfl
    refine ⟨key, C59_failure_changes_nothing env _ w ?_⟩
    intro hc
    rw [hc] at key
    simp at key

/-- C67: `mkhello` on a DOS 3.3 or ProDOS disk ends with an error message and changes nothing. -/
theorem C67_mkhello_refused {env : Env} {w : World} {image : Str} {order : DiskOrder} {op : AnyOp} {ord : DiskOrder}
    (h : Finds env w image order (str "auto") op ord) (hop : (∃ o, op = .dos3 o) ∨ ∃ o, op = .prodos o)
    (filename : Str) (address start : UInt16) :
    (run env (.mkhello order image filename address start) w).1.isErr = true ∧
      SameOutside (run env (.mkhello order image filename address start) w).2 w := by
  have key : (run env (.mkhello order image filename address start) w).1.isErr = true := by
    change (mkhello env World.writeOutput order image filename address start w).1.isErr = true
    unfold mkhello
    simp only []
    split
    · rfl
    · split
      · rfl
      · rw [bind_run (openDisk_finds h)]
        rcases hop with ⟨o, rfl⟩ | ⟨o, rfl⟩ <;> rfl
  refine ⟨key, C59_failure_changes_nothing env _ w ?_⟩
  intro hc
  rw [hc] at key
  simp at key

/-- C67: reading a file of a ProDOS disk ends with an error message as well; nothing is printed and nothing changes. -/
theorem C67_read_refused {env : Env} {w : World} {image : Str} {order : DiskOrder} {system : Str} {o : Prodos.Operator}
    {ord : DiskOrder} (h : Finds env w image order system (.prodos o) ord) (name : Str) :
    (run env (.dump order system image name) w).1.isErr = true ∧
      SameOutside (run env (.dump order system image name) w).2 w := by
  have key : (run env (.dump order system image name) w).1.isErr = true := by
    change (dump env order system image name w).1.isErr = true
    unfold dump
    rw [bind_run (openDisk_finds h)]
    rfl
  refine ⟨key, C59_failure_changes_nothing env _ w ?_⟩
  intro hc
  rw [hc] at key
  simp at key

/-! ## C71 -/

theorem ls_eq {env : Env} {w : World} {image : Str} {order : DiskOrder} {system : Str} {op : AnyOp} {ord : DiskOrder}
    (h : Finds env w image order system op ord) (short : Bool) (dir : Str) :
    run env (.ls order system short image dir) w =
      if dir ≠ [] ∧ op.hasSubdirs = false then (.err .other, afterReading w image)
      else match op.catalog env dir with
        | .ok fds => (.ok (), { afterReading w image with stdout := (afterReading w image).stdout ++ lsLines short fds })
        | .err k => (.err k, afterReading w image)
        | .panic => (.panic, afterReading w image)
        | .timeout => (.timeout, afterReading w image) := by
  change ls env order system short image dir w = _
  unfold ls
  rw [bind_run (openDisk_finds h)]
  dsimp only
  split
  · rfl
  · cases h : op.catalog env dir <;> rfl

/-- C71: only ProDOS disks have directories: asking for one on another disk is an error, and nothing
is printed. -/
theorem C71_directory_refused {env : Env} {w : World} {image : Str} {order : DiskOrder} {system : Str} {op : AnyOp} {ord : DiskOrder}
    (h : Finds env w image order system op ord) (hop : ∀ o, op ≠ .prodos o) (short : Bool) {dir : Str} (hd : dir ≠ []) :
    (run env (.ls order system short image dir) w).1.isErr = true ∧
      SameOutside (run env (.ls order system short image dir) w).2 w := by
  have e : op.hasSubdirs = false := by
    cases op with
    | dos3 o => rfl
    | nakedos o => rfl
    | prodos o => exact absurd rfl (hop o)
  rw [ls_eq h, if_pos ⟨hd, e⟩]
  exact ⟨rfl, afterReading_same w image⟩

/-- The name of a NakedOS file in a listing: DFxx, and the first symbol that has this value. -/
def nakedName (st : Supermon.SymbolTable) (short : Bool) (f : UInt8) : Str :=
  match st.find? (fun s => decide (s.address.toNat = 0xDF00 + f.toNat)) with
  | some s => if short then s.name else dfName f ++ str ":" ++ s.name
  | none => dfName f

theorem dfName_ne_nil (f : UInt8) : dfName f ≠ [] := by
  unfold dfName
  intro h
  have := congrArg List.length h
  simp [str] at this

/-- C71, NakedOS: `ls` prints, in order of file number, one line for every file that has a sector. -/
theorem C71_ls_nakedos {env : Env} {w : World} {image : Str} {order : DiskOrder} {system : Str} {o : Supermon.Operator}
    {ord : DiskOrder} (h : Finds env w image order system (.nakedos o) ord) (short : Bool) :
    ∃ w', run env (.ls order system short image []) w = (.ok (), w') ∧ w'.files = w.files ∧
      w'.stdout = w.stdout ++ (((List.range 256).map UInt8.ofNat).filter
        (fun f => decide (f ≠ 0 ∧ f ≠ 0xFE ∧ f ≠ 0xFF ∧ ownedBy (own o.sm) f ≠ []))).flatMap
          (fun f => nakedName o.table short f ++ [0x0A]) := by
  rw [ls_eq h, if_neg (fun hc => hc.1 rfl)]
  refine ⟨_, rfl, (afterReading_same w image).1, ?_⟩
  dsimp only
  rw [(afterReading_same w image).2]
  refine congrArg (w.stdout ++ ·) ?_
  unfold lsLines
  rw [Supermon.C36_catalog, List.flatMap_map]
  refine List.flatMap_congr fun f _ => ?_
  refine congrArg (· ++ [0x0A]) ?_
  unfold Supermon.expectedEntry nakedName
  cases o.table.find? (fun s => decide (s.address.toNat = 0xDF00 + f.toNat)) with
  | some s =>
    dsimp only
    cases short with
    | true => rw [if_neg (by simp)]; rfl
    | false =>
      rw [if_pos ⟨rfl, by
        intro hc
        exact dfName_ne_nil f (List.append_eq_nil_iff.1 (List.append_eq_nil_iff.1 hc).1).1⟩]
      rfl
  | none =>
    dsimp only
    split <;> rfl

theorem chain_unique {img : Bytes} {good : Nat × Nat → Prop} {p : Nat × Nat} {l l' : List (Nat × Nat)}
    (h : Spec.Chain img good p l) (h' : Spec.Chain img good p l') : l = l' := by
  induction h generalizing l' with
  | done =>
    generalize hp : ((0, 0) : Nat × Nat) = p at h'
    cases h' with
    | done => rfl
    | step h1 _ _ => exact absurd hp.symm h1
  | step h1 _ _ ih =>
    cases h' with
    | done => exact absurd rfl h1
    | step _ _ h3 => rw [ih h3]

/-- C71, DOS 3.3: `ls` prints one line for every live entry of the catalog, in order: its name. -/
theorem C71_ls_dos3 {env : Env} {w : World} {image : Str} {order : DiskOrder} {system : Str} {o : Dos3.Operator}
    {ord : DiskOrder} (h : Finds env w image order system (.dos3 o) ord) (short : Bool)
    (hv : Spec.NormalVTOC o.data) (chain : List (Nat × Nat))
    (hc : Spec.Chain o.data (CatalogPlace o.data) (linkOf o.data vtocAt) chain) :
    ∃ w', run env (.ls order system short image []) w = (.ok (), w') ∧ w'.files = w.files ∧
      w'.stdout = w.stdout ++ ((entries o.data chain).filter (fun e => LiveEntry e)).flatMap (fun e => entryName e ++ [0x0A]) := by
  obtain ⟨files, deleted, hr, _, _⟩ := Dos3.C15_catalog_complete o.data hv chain hc
  have hcat : o.catalog [] = .ok (files.map Dos3.FileDesc.descriptor) := by
    unfold Dos3.Operator.catalog
    rw [hr]; rfl
  obtain ⟨chain', hc', e⟩ := Dos3.C15_shown o.data _ [] hcat
  rw [chain_unique hc' hc] at e
  have hcat' : (AnyOp.dos3 o).catalog env [] = .ok (files.map Dos3.FileDesc.descriptor) := hcat
  rw [ls_eq h, if_neg (fun hc => hc.1 rfl), hcat', e]
  refine ⟨_, rfl, (afterReading_same w image).1, ?_⟩
  dsimp only
  rw [(afterReading_same w image).2]
  refine congrArg (w.stdout ++ ·) ?_
  unfold lsLines
  rw [List.flatMap_map]
  refine List.flatMap_congr fun x _ => ?_
  refine congrArg (· ++ [0x0A]) ?_
  rw [if_neg (by unfold Dos3.shownFor; simp)]
  rfl

/-- C71, ProDOS: when `ls` of a ProDOS disk succeeds, it has printed one line for every used entry
of the directory asked for, in order: its name. -/
theorem C71_ls_prodos {env : Env} {w : World} {image : Str} {order : DiskOrder} {system : Str} {o : Prodos.Operator}
    {ord : DiskOrder} (h : Finds env w image order system (.prodos o) ord) (short : Bool) (dir : Str) {w' : World}
    (hr : run env (.ls order system short image dir) w = (.ok (), w')) :
    ∃ k l, (dir = [] ∧ k = 2 ∨ dir ≠ [] ∧ Subdir o.data k ∧ FullPath o.data k dir) ∧ DirBlocks o.data k l ∧
      w'.files = w.files ∧
      w'.stdout = w.stdout ++ ((dirEntries o.data k l).filter fun e => storageType e ≠ 0).flatMap (fun e => nameOf e ++ [0x0A]) := by
  rw [ls_eq h] at hr
  rw [if_neg (by simp [AnyOp.hasSubdirs])] at hr
  have lines : ∀ es : List Bytes, lsLines short (es.map shown) = es.flatMap fun e => nameOf e ++ [0x0A] := by
    intro es
    unfold lsLines
    rw [List.flatMap_map]
    refine List.flatMap_congr fun x _ => ?_
    refine congrArg (· ++ [0x0A]) ?_
    rw [if_neg (by unfold shown; simp)]
    rfl
  cases hcat : (AnyOp.prodos o).catalog env dir with
  | err k => rw [hcat] at hr; simp at hr
  | panic => rw [hcat] at hr; simp at hr
  | timeout => rw [hcat] at hr; simp at hr
  | ok ds =>
    rw [hcat] at hr
    simp only [Prod.mk.injEq, true_and] at hr
    subst hr
    have key : ∀ k l, ds = ((dirEntries o.data k l).filter fun e => storageType e ≠ 0).map shown →
        (afterReading w image).stdout ++ lsLines short ds =
          w.stdout ++ ((dirEntries o.data k l).filter fun e => storageType e ≠ 0).flatMap (fun e => nameOf e ++ [0x0A]) := by
      intro k l e
      rw [e, lines, (afterReading_same w image).2]
    by_cases hd : dir = []
    · subst hd
      obtain ⟨l, hl, e⟩ := Prodos.C46_root env.budget env.order o.data ds hcat
      exact ⟨2, l, Or.inl ⟨rfl, rfl⟩, hl, (afterReading_same w image).1, key 2 l e⟩
    · obtain ⟨k, l, h1, h2, h3, e⟩ := Prodos.C46_subdirectory env.budget env.order o.data dir hd ds hcat
      exact ⟨k, l, Or.inr ⟨hd, h1, h2⟩, h3, (afterReading_same w image).1, key k l e⟩

/-- C71: a directory that is not on a ProDOS volume is an error. -/
theorem C71_ls_prodos_unknown {env : Env} {w : World} {image : Str} {order : DiskOrder} {system : Str} {o : Prodos.Operator}
    {ord : DiskOrder} (h : Finds env w image order system (.prodos o) ord) (short : Bool) {dir : Str} (hd : dir ≠ [])
    (hok : (Prodos.readVolume env.budget env.order o.data 2).isOk)
    (hno : ¬ ∃ k, Subdir o.data k ∧ FullPath o.data k dir) :
    (run env (.ls order system short image dir) w).1.isErr = true ∧
      SameOutside (run env (.ls order system short image dir) w).2 w := by
  have key : ((AnyOp.prodos o).catalog env dir).isErr = true :=
    Prodos.C46_unknown_path env.budget env.order o.data dir hd hok hno
  rw [ls_eq h, if_neg (by simp [AnyOp.hasSubdirs])]
  cases hcat : (AnyOp.prodos o).catalog env dir with
  | err k => exact ⟨rfl, afterReading_same w image⟩
  | ok _ => rw [hcat] at key; simp at key
  | panic => rw [hcat] at key; simp at key
  | timeout => rw [hcat] at key; simp at key

/-! ## C72 -/

theorem dump_eq {env : Env} {w : World} {image : Str} {order : DiskOrder} {system : Str} {op : AnyOp} {ord : DiskOrder}
    (h : Finds env w image order system op ord) (name : Str) :
    run env (.dump order system image name) w =
      match op.getFile name with
      | .ok fi => (.ok (), { afterReading w image with stdout := (afterReading w image).stdout ++ fi.data })
      | .err k => (.err k, afterReading w image)
      | .panic => (.panic, afterReading w image)
      | .timeout => (.timeout, afterReading w image) := by
  change dump env order system image name w = _
  unfold dump
  rw [bind_run (openDisk_finds h)]
  dsimp only
  cases hg : op.getFile name <;> rfl

/-- `dump` prints exactly these bytes and changes no file. -/
def Dumps (env : Env) (w : World) (order : DiskOrder) (system image name : Str) (data : Bytes) : Prop :=
  ∃ w', run env (.dump order system image name) w = (.ok (), w') ∧ w'.files = w.files ∧ w'.stdout = w.stdout ++ data

/-- `dump` ends with an error message, prints nothing and changes no file. -/
def DumpFails (env : Env) (w : World) (order : DiskOrder) (system image name : Str) : Prop :=
  (run env (.dump order system image name) w).1.isErr = true ∧
    SameOutside (run env (.dump order system image name) w).2 w

theorem dumps_of {env : Env} {w : World} {image : Str} {order : DiskOrder} {system : Str} {op : AnyOp} {ord : DiskOrder}
    (h : Finds env w image order system op ord) {name : Str} {fi : FileInfo} (hg : op.getFile name = .ok fi) :
    Dumps env w order system image name fi.data := by
  refine ⟨{ afterReading w image with stdout := (afterReading w image).stdout ++ fi.data }, ?_, (afterReading_same w image).1, ?_⟩
  · rw [dump_eq h, hg]
  · dsimp only
    rw [(afterReading_same w image).2]

theorem dumps_with {env : Env} {w : World} {image : Str} {order : DiskOrder} {system : Str} {o : Supermon.Operator} {ord : DiskOrder}
    (h : Finds env w image order system (.nakedos o) ord) {name : Str} {d : Descriptor} {b : Bytes} {a : UInt16}
    (hg : o.getFile name = .ok ⟨d, b, a⟩) :
    Dumps env w order system image name b := dumps_of h hg

theorem dumpFails_of {env : Env} {w : World} {image : Str} {order : DiskOrder} {system : Str} {op : AnyOp} {ord : DiskOrder}
    (h : Finds env w image order system op ord) {name : Str} (hg : (op.getFile name).isErr = true) :
    DumpFails env w order system image name := by
  unfold DumpFails
  rw [dump_eq h]
  cases e : op.getFile name with
  | err k => exact ⟨rfl, afterReading_same w image⟩
  | ok _ => rw [e] at hg; simp at hg
  | panic => rw [e] at hg; simp at hg
  | timeout => rw [e] at hg; simp at hg

/-- C72, NakedOS: `dump` of a name that stands for a file prints the sectors of that file in order;
every other name is an error. -/
theorem C72_dump_nakedos {env : Env} {w : World} {image : Str} {order : DiskOrder} {system : Str} {o : Supermon.Operator}
    {ord : DiskOrder} (h : Finds env w image order system (.nakedos o) ord) (name : Str) :
    (∀ f, Supermon.fileForName o.table name = .ok f → fileOnDisk o.data f ≠ [] →
      Dumps env w order system image name (fileOnDisk o.data f)) ∧
    (∀ f, Supermon.fileForName o.table name = .ok f → fileOnDisk o.data f = [] →
      DumpFails env w order system image name) ∧
    (∀ k, Supermon.fileForName o.table name = .err k → DumpFails env w order system image name) ∧
    ((∃ f, Supermon.fileForName o.table name = .ok f) ∨ ∃ k, Supermon.fileForName o.table name = .err k) := by
  obtain ⟨raw, _, hopen⟩ := id h
  have hg := (open_naked hopen).good
  refine ⟨?_, ?_, ?_, ?_⟩
  · intro f hf hne
    have e := Supermon.getFile_eq hg.len hf
    rw [hg.onDisk, if_neg hne] at e
    generalize fileOnDisk o.data f = b at e ⊢
    exact dumps_with h e
  · intro f hf he
    have e := Supermon.getFile_eq hg.len hf
    rw [hg.onDisk, if_pos he] at e
    exact dumpFails_of h (by unfold AnyOp.getFile; dsimp only; rw [e]; rfl)
  · intro k hk
    refine dumpFails_of h ?_
    unfold AnyOp.getFile Supermon.Operator.getFile
    dsimp only
    rw [hk]; rfl
  · rcases Supermon.fileForName_cases o.table name with ⟨f, e⟩ | e
    · exact Or.inl ⟨f, e⟩
    · exact Or.inr ⟨_, e⟩

/-- C72, ProDOS: `dump` is not supported and says so. -/
theorem C72_dump_prodos {env : Env} {w : World} {image : Str} {order : DiskOrder} {system : Str} {o : Prodos.Operator}
    {ord : DiskOrder} (h : Finds env w image order system (.prodos o) ord) (name : Str) :
    DumpFails env w order system image name := dumpFails_of h rfl

/-- The bytes of a DOS 3.3 file of type `t` whose sectors hold `whole`, without padding and
without the header. -/
def DosFile (t : UInt8) (whole data : Bytes) : Prop :=
  (t = 0 ∧ (∃ b ∈ whole, b ≠ 0) ∧ data = withoutTrailing 0 whole) ∨
  ((t = 1 ∨ t = 2) ∧ ∃ n, n = (whole.getD 0 0).toNat + 256 * (whole.getD 1 0).toNat ∧ 2 + n ≤ whole.length ∧
    data = (whole.drop 2).take n) ∨
  (t = 4 ∧ ∃ n, n = (whole.getD 2 0).toNat + 256 * (whole.getD 3 0).toNat ∧ 4 + n ≤ whole.length ∧
    data = (whole.drop 4).take n)

/-- C72, DOS 3.3: `dump` of a name prints the contents of the first live entry of that name: text
without trailing zeros, programs and binaries without header and padding. -/
theorem C72_dump_dos3_partial {env : Env} {w : World} {image : Str} {order : DiskOrder} {system : Str} {o : Dos3.Operator}
    {ord : DiskOrder} (h : Finds env w image order system (.dos3 o) ord)
    (hv : Spec.NormalVTOC o.data) (chain : List (Nat × Nat))
    (hc : Spec.Chain o.data (CatalogPlace o.data) (linkOf o.data vtocAt) chain) (name : Str) :
    (∀ e lists data, ((entries o.data chain).filter (fun e => LiveEntry e)).find? (fun e => entryName e = name) = some e →
      Spec.Chain o.data (OnImage o.data) ((e.getD 0 0).toNat, (e.getD 1 0).toNat) lists → LastListUsed o.data lists →
      (∀ p ∈ lists, ∀ q ∈ pairs o.data p, q ≠ (0, 0) → OnImage o.data q) →
      DosFile (e.getD 2 0 &&& 0x7f) (pairsData o.data (filePairs o.data lists)) data →
      Dumps env w order system image name data) ∧
    (((entries o.data chain).filter (fun e => LiveEntry e)).find? (fun e => entryName e = name) = none →
      DumpFails env w order system image name) := by
  have hl := Dos3.C20_lookup o.data hv chain hc name
  constructor
  · intro e lists data he hlists hlast hon hdata
    rw [he] at hl
    have hisok := (Dos3.C17_succeeds_iff (Dos3.FileDesc.fromBytes e 0) o.data).2 ⟨lists, hlists, hon⟩
    obtain ⟨s, hs⟩ := Out.isOk_iff.1 hisok
    obtain ⟨l, hl', hpd⟩ := Dos3.C18_contents_partial _ _ _ hs
    rw [chain_unique hl' hlists] at hpd
    have hpd := hpd hlast
    have hsize := (Dos3.C19_contents_size (o := o) hl hs).1
    rw [← hpd] at hdata
    rcases hdata with ⟨ht, hz, rfl⟩ | ⟨ht, n, hn, hfit, rfl⟩ | ⟨ht, n, hn, hfit, rfl⟩
    · exact dumps_of h (Dos3.C19_text_partial (o := o) hl hs ht hz)
    · exact dumps_of h (Dos3.C19_basic_partial (o := o) hl hs ht (by omega) n hn hfit)
    · exact dumps_of h (Dos3.C19_binary_partial (o := o) hl hs ht (by omega) n hn hfit)
  · intro hnone
    rw [hnone] at hl
    exact dumpFails_of h (Dos3.C19_unreadable (o := o) (fd := Dos3.FileDesc.fromBytes [] 0) (Or.inl ⟨_, hl⟩))

/-! ## C73 -/

/-- What a successful `rm` has done. -/
theorem rm_inv {env : Env} {order : DiskOrder} {system : Str} {m : Bool} {image name : Str} {w : World} (hi : image ≠ str "-")
    (h : (run env (.rm order system m image name) w).1 = .ok ()) :
    ∃ raw o ord new, w.files image = some raw ∧
      openImage raw image order system (factories env) = .ok (.nakedos o, ord) ∧
      (o.delete name).out = .ok () ∧ ((o.delete name).existed = true ∨ m = true) ∧
      writeBackBytes (AnyOp.nakedos (o.delete name).op) ord = .ok new ∧
      (run env (.rm order system m image name) w).2.files image = some new := by
  rcases hr : run env (.rm order system m image name) w with ⟨out, w2⟩
  rw [hr] at h
  simp only at h
  subst h
  change rm env World.writeOutput order system m image name w = _ at hr
  unfold rm at hr
  obtain ⟨⟨op, dord⟩, w1, ho, hr1⟩ := bind_ok_iff.1 hr
  dsimp only at hr1
  obtain ⟨ex, w3, hdel, hr2⟩ := bind_ok_iff.1 hr1
  obtain ⟨hs, raw, fname, hopen, hfile⟩ := openDisk_ok ho
  obtain ⟨hraw, rfl⟩ := hfile hi
  simp only [lift, Prod.mk.injEq] at hdel
  obtain ⟨no, rfl, hok, hex, e2⟩ := delete_ok hdel.1
  split at hr2
  · simp [lift] at hr2
  · rename_i hno
    obtain ⟨b, hb, hnew⟩ := writeDisk_ok hr2 hi
    rw [e2] at hb
    refine ⟨raw, no, dord, b, hraw, hopen, hok, ?_, hb, hnew⟩
    rw [← hex]
    cases ex <;> cases m <;> simp at hno ⊢

/-- C73: after `rm` of an image file succeeds, opening the file again finds the file gone and every
other file unchanged; unless `--missingok` was given, the file was there before.  (The files 3 and 4
hold the symbol table, which is rewritten when the name is a symbol.) -/
theorem C73_rm (env : Env) (order : DiskOrder) (system : Str) (m : Bool) (image name : Str) (w : World) (hi : image ≠ str "-")
    (h : (run env (.rm order system m image name) w).1 = .ok ()) :
    ∃ raw o ord new o' f, w.files image = some raw ∧
      openImage raw image order system (factories env) = .ok (.nakedos o, ord) ∧
      (run env (.rm order system m image name) w).2.files image = some new ∧
      openImage new image ord (str "nakedos") (factories env) = .ok (.nakedos o', ord) ∧
      (NothingEarlier env new image order system ord →
        openImage new image order system (factories env) = .ok (.nakedos o', ord)) ∧
      Supermon.fileForName o.table name = .ok f ∧ (m = false → fileOnDisk o.data f ≠ []) ∧
      ((f ≠ 3 ∧ f ≠ 4) ∨ Supermon.NoSymbol o.table name → fileOnDisk o'.data f = []) ∧
      (∀ g, IsFileNumber g → g ≠ f → (g ≠ 3 ∧ g ≠ 4) ∨ Supermon.NoSymbol o.table name →
        fileOnDisk o'.data g = fileOnDisk o.data g) ∧
      (f ≠ 3 → f ≠ 4 → Supermon.NoSymbol o.table name → o'.table = o.table) ∧
      (Supermon.Sound o.table → Supermon.UniqueNames o.table → Supermon.SafeDelete o.table name →
        ¬ Supermon.NoSymbol o.table name → name ≠ [] →
        (∀ n, SameName n name → (∀ g, ¬ NumericName n g) → Supermon.fileForName o'.table n = .err .fileNotFound) ∧
        (∀ n, n ≠ [] → ¬ SameName n name → Supermon.fileForName o'.table n = Supermon.fileForName o.table n)) := by
  obtain ⟨raw, o, ord, new, h1, h2, h3, h4, h5, h6⟩ := rm_inv hi h
  have hn := open_naked h2
  have hop := hn.opened
  rw [← hn.data] at hop
  obtain ⟨o', f, g1, g2, g3, g4, g5, g6, g7, g8, g9⟩ := Supermon.reopen_delete hn.good hop h3
  have hl : (o.delete name).op.data.length = 143360 := by rw [← g3]; exact g2.len
  obtain ⟨hbl, hv⟩ := written_view hl hn.order h5
  rw [← hv] at g1
  refine ⟨raw, o, ord, new, o', f, h1, h2, h6, open_explicit hbl hn.order g1 image, open_same h2 hbl g1, g4, ?_, g6, g7, ?_, g9⟩
  · intro hm
    rcases h4 with h4 | h4
    · exact g5.1 h4
    · rw [hm] at h4; simp at h4
  · intro h3 h4 h5
    unfold Supermon.Operator.table
    rw [g8 h3 h4 h5]

/-- C73: a name that stands for no file is an error, also with `--missingok`, and nothing changes. -/
theorem C73_unknown_name {env : Env} {w : World} {image : Str} {order : DiskOrder} {system : Str} {o : Supermon.Operator}
    {ord : DiskOrder} (h : Finds env w image order system (.nakedos o) ord) (m : Bool) (name : Str)
    (hn : ∀ f, Supermon.fileForName o.table name ≠ .ok f) :
    (run env (.rm order system m image name) w).1 = .err .fileNotFound ∧
      SameOutside (run env (.rm order system m image name) w).2 w := by
  have key : (run env (.rm order system m image name) w).1 = .err .fileNotFound := by
    change (rm env World.writeOutput order system m image name w).1 = _
    unfold rm
    rw [bind_run (openDisk_finds h)]
    dsimp only
    rcases Supermon.fileForName_cases o.table name with ⟨f, e⟩ | e
    · exact absurd e (hn f)
    · rw [bind_err (k := .fileNotFound) (w' := afterReading w image) (by
        unfold AnyOp.delete
        dsimp only
        rw [Supermon.op_delete_err e]
        rfl)]
  refine ⟨key, C59_failure_changes_nothing env _ w ?_⟩
  rw [key]; simp

/-- C73: a file that has no sectors is an error without `--missingok`, and nothing changes. -/
theorem C73_missing {env : Env} {w : World} {image : Str} {order : DiskOrder} {system : Str} {o : Supermon.Operator}
    {ord : DiskOrder} (hi : image ≠ str "-") (h : Finds env w image order system (.nakedos o) ord) (name : Str) (f : UInt8)
    (hn : Supermon.fileForName o.table name = .ok f) (hf : fileOnDisk o.data f = []) :
    (run env (.rm order system false image name) w).1 ≠ .ok () ∧
      SameOutside (run env (.rm order system false image name) w).2 w := by
  have key : (run env (.rm order system false image name) w).1 ≠ .ok () := by
    intro hc
    obtain ⟨raw, o2, ord2, new, o', f', h1, h2, _, _, _, h6, h7, _⟩ := C73_rm env order system false image name w hi hc
    obtain ⟨raw', hg, hopen⟩ := h
    unfold given at hg
    rw [if_neg hi] at hg hopen
    rw [h1] at hg
    cases hg
    rw [h2] at hopen
    simp only [Out.ok.injEq, Prod.mk.injEq, AnyOp.nakedos.injEq] at hopen
    rw [hopen.1, hn] at h6
    cases h6
    exact h7 rfl (by rw [hopen.1]; exact hf)
  exact ⟨key, C59_failure_changes_nothing env _ w key⟩

/-- C73: `rm` of a file number, or of any name that is not also a symbol, succeeds when the file
exists or `--missingok` is given. -/
theorem C73_rm_succeeds {env : Env} {w : World} {image : Str} {order : DiskOrder} {system : Str} {o : Supermon.Operator}
    {ord : DiskOrder} (hi : image ≠ str "-") (h : Finds env w image order system (.nakedos o) ord) (m : Bool) (name : Str) (f : UInt8)
    (hn : Supermon.fileForName o.table name = .ok f) (hs : Supermon.NoSymbol o.table name)
    (hf : fileOnDisk o.data f ≠ [] ∨ m = true) :
    (run env (.rm order system m image name) w).1 = .ok () := by
  obtain ⟨raw, _, hopen⟩ := id h
  have hnk := open_naked hopen
  have hout := (Supermon.C29_delete_frees hnk.good hn hs).2.2.2
  have hg2 := (Supermon.good_op_delete hnk.good name).1
  have hop := hnk.opened
  rw [← hnk.data] at hop
  obtain ⟨o', f', g1, g2, g3, g4, g5, _⟩ := Supermon.reopen_delete hnk.good hop hout
  rw [hn] at g4
  cases g4
  change (rm env World.writeOutput order system m image name w).1 = _
  unfold rm
  rw [bind_run (openDisk_finds h)]
  dsimp only
  have e : AnyOp.delete (.nakedos o) name = (.ok (o.delete name).existed, .nakedos (o.delete name).op) := by
    unfold AnyOp.delete
    dsimp only
    rw [hout]
  rw [e]
  dsimp only
  rw [bind_run (m := lift (.ok (o.delete name).existed)) (a := (o.delete name).existed) (w' := afterReading w image) rfl]
  rw [if_neg (by
    rintro ⟨ha, hb⟩
    rcases hf with hf | hf
    · rw [g5.2 hf] at ha; simp at ha
    · rw [hf] at hb; simp at hb)]
  unfold writeDisk writeBackVia
  rw [writeBack_naked hg2.len hnk.order]
  dsimp only
  unfold World.writeOutput
  rw [if_neg hi, if_neg (by simp)]

/-! ## C74 -/

/-- C74: without `--overwrite`, a `put` that succeeds has written to a file number that had no
sectors, so that every file of the disk before is still there (the files 3 and 4 hold the symbol
table). -/
theorem C74_put_keeps_files (env : Env) (order : DiskOrder) (system t : Str) (address : UInt16)
    (image name source : Str) (w : World) (hi : image ≠ str "-")
    (h : (run env (.put order system t false address image name source) w).1 = .ok ()) :
    ∃ raw o ord data new o', w.files image = some raw ∧
      openImage raw image order system (factories env) = .ok (.nakedos o, ord) ∧ given w source = some data ∧
      (run env (.put order system t false address image name source) w).2.files image = some new ∧
      openImage new image ord (str "nakedos") (factories env) = .ok (.nakedos o', ord) ∧
      (∀ g, IsFileNumber g → g ≠ 3 → g ≠ 4 → fileOnDisk o.data g ≠ [] → fileOnDisk o'.data g = fileOnDisk o.data g) := by
  obtain ⟨raw, o, ord, data, new, h1, h2, h3, h4, o', f, h5, _, _, _, h6, h7, _⟩ := C63_put_partial env order system t false address image name source w hi h
  refine ⟨raw, o, ord, data, new, o', h1, h2, h3, h4, h5, ?_⟩
  intro g hg g3 g4 hne
  refine h6 g hg ?_ g3 g4
  rintro rfl
  exact hne (h7 rfl)

/-- C74: the disk image and the source cannot both be standard input. -/
theorem C74_one_stdin (env : Env) (order : DiskOrder) (system t : Str) (ow : Bool) (address : UInt16) (name : Str) (w : World) :
    run env (.put order system t ow address (str "-") name (str "-")) w = (.err .other, w) := by
  change putCmd env World.writeOutput order system t ow address (str "-") name (str "-") w = _
  unfold putCmd
  rw [if_pos ⟨rfl, rfl⟩]
  rfl

end Verif.Cmd
