import Verif.Spec.OneLine
import Verif.Props.Unicode
import Verif.Props.DamageWit

/-!
# C112: a listing can be read by a program
-/

set_option autoImplicit false
set_option maxRecDepth 20000

namespace Verif.Spec

theorem first_newline {a b a' b' : Str} (h : (0x0A : UInt8) ∉ a) (h' : (0x0A : UInt8) ∉ a') (e : a ++ 0x0A :: b = a' ++ 0x0A :: b') :
    a = a' ∧ b = b' := by
  induction a generalizing a' with
  | nil =>
    cases a' with
    | nil => exact ⟨rfl, (List.cons.inj e).2⟩
    | cons c a' => exact absurd ((List.cons.inj e).1 ▸ List.mem_cons_self) h'
  | cons c a ih =>
    cases a' with
    | nil => exact absurd ((List.cons.inj e).1.symm ▸ List.mem_cons_self) h
    | cons c' a' =>
      obtain ⟨rfl, e'⟩ := List.cons.inj e
      obtain ⟨rfl, rfl⟩ := ih (fun hm => h (List.mem_cons_of_mem _ hm)) (fun hm => h' (List.mem_cons_of_mem _ hm)) e'
      exact ⟨rfl, rfl⟩

/-- A text has at most one list of lines. -/
theorem lines_unique {text : Bytes} {l l' : List Str} (h : Lines text l) (h' : Lines text l') : l = l' := by
  induction l generalizing text l' with
  | nil =>
    cases l' with
    | nil => rfl
    | cons x l' =>
      have := h.1.symm.trans h'.1
      simp at this
  | cons x l ih =>
    cases l' with
    | nil =>
      have := h.1.symm.trans h'.1
      simp at this
    | cons x' l' =>
      have e := h.1.symm.trans h'.1
      simp only [List.flatMap_cons, List.append_assoc, List.singleton_append] at e
      obtain ⟨rfl, e'⟩ := first_newline (h.2 x List.mem_cons_self) (h'.2 x' List.mem_cons_self) e
      rw [ih ⟨rfl, fun y hy => h.2 y (List.mem_cons_of_mem _ hy)⟩ ⟨e', fun y hy => h'.2 y (List.mem_cons_of_mem _ hy)⟩]

theorem newlines_at_least (names : List Str) : names.length ≤ (names.flatMap (· ++ [0x0A])).count 0x0A ∧
    ((names.flatMap (· ++ [0x0A])).count 0x0A = names.length ↔ ∀ n ∈ names, (0x0A : UInt8) ∉ n) := by
  induction names with
  | nil => simp
  | cons n names ih =>
    simp only [List.flatMap_cons, List.count_append, List.length_cons, List.mem_cons, forall_eq_or_imp]
    have h1 : List.count (0x0A : UInt8) [0x0A] = 1 := by decide
    rw [h1]
    refine ⟨by omega, ?_⟩
    rw [← ih.2, ← List.count_eq_zero]
    omega

/-- A list of names, one after the other with newlines, has as many lines as there are names if and only if no name has a newline within. -/
theorem lineCount_iff (names : List Str) : LineCount (names.flatMap (· ++ [0x0A])) names.length ↔ ∀ n ∈ names, (0x0A : UInt8) ∉ n := by
  constructor
  · rintro ⟨l, ⟨h1, h2⟩, h3⟩
    have h4 := (newlines_at_least l).2.2 h2
    rw [← h1] at h4
    exact (newlines_at_least names).2.1 (h4.trans h3)
  · exact fun h => ⟨names, ⟨rfl, h⟩, rfl⟩

end Verif.Spec

namespace Verif.Cmd
open Disk Spec Spec.Prodos

variable {env : Env} {w : World} {image : Str} {order : DiskOrder} {system : Str} {ord : DiskOrder}

theorem hexDigit_printable (n : Nat) (h : n < 16) : 0x20 ≤ (hexDigits.getD n 0).toNat ∧ (hexDigits.getD n 0).toNat < 0x7F := by
  have : ∀ n : Fin 16, 0x20 ≤ (hexDigits.getD n.val 0).toNat ∧ (hexDigits.getD n.val 0).toNat < 0x7F := by decide +kernel
  exact this ⟨n, h⟩

theorem dfName_printable (f : UInt8) : Printable (dfName f) := by
  intro c hc
  unfold dfName at hc
  have hlt := f.toNat_lt
  rw [show str "DF" = [0x44, 0x46] by decide +kernel] at hc
  simp only [List.cons_append, List.nil_append, List.mem_cons, List.not_mem_nil, or_false] at hc
  rcases hc with rfl | rfl | rfl | rfl
  · decide
  · decide
  · exact hexDigit_printable _ (by omega)
  · exact hexDigit_printable _ (by omega)

theorem nakedName_printable {st : Supermon.SymbolTable} (h : ∀ s ∈ st, Capitals s.name) (short : Bool) (f : UInt8) :
    Printable (nakedName st short f) := by
  unfold nakedName
  cases hx : st.find? (fun s => decide (s.address.toNat = 0xDF00 + f.toNat)) with
  | none => exact dfName_printable f
  | some s =>
    have hs : Printable s.name := fun c hc => by
      have := h s (List.mem_of_find?_eq_some hx) c hc
      omega
    dsimp only
    split
    · exact hs
    · intro c hc
      simp only [List.mem_append] at hc
      rcases hc with (hc | hc) | hc
      · exact dfName_printable f c hc
      · rw [show str ":" = [0x3A] by decide +kernel, List.mem_singleton] at hc
        subst hc
        decide
      · exact hs c hc

theorem printable_no_newline {s : Str} (h : Printable s) : (0x0A : UInt8) ∉ s := fun hc => absurd (h _ hc).1 (by decide)

/-- C112, NakedOS: `ls` prints one line for every file, in the order of their numbers, and only printable characters in them. -/
theorem C112_nakedos {o : Supermon.Operator} (h : Finds env w image order system (.nakedos o) ord) (short : Bool) :
    ∃ text, ∃ files : List UInt8, ∃ line : UInt8 → Str, Prints env (.ls order system short image []) w text ∧
      files.Pairwise (· < ·) ∧ (∀ f, f ∈ files ↔ IsFileNumber f ∧ fileOnDisk o.data f ≠ []) ∧
      Lines text (files.map line) ∧ ∀ f ∈ files, Printable (line f) := by
  obtain ⟨raw, _, hopen⟩ := id h
  have hcap := Supermon.opened_capitals (open_naked hopen).opened
  obtain ⟨w1, e1, e2, _⟩ := C71_ls_nakedos h short
  obtain ⟨w', listed, h1, h2, h3, h4⟩ := ls_lists h short
  rw [h1] at e1
  cases e1
  refine ⟨_, listed, nakedName o.table short, ⟨w1, h1, e2, h2⟩, h3, h4, ⟨?_, ?_⟩, fun f _ => nakedName_printable hcap short f⟩
  · rw [List.flatMap_map]
  · intro x hx
    obtain ⟨f, _, rfl⟩ := List.mem_map.1 hx
    exact printable_no_newline (nakedName_printable hcap short f)

theorem sorted_ext {l l' : List UInt8} (h : l.Pairwise (· < ·)) (h' : l'.Pairwise (· < ·)) (e : ∀ f, f ∈ l ↔ f ∈ l') : l = l' := by
  induction l generalizing l' with
  | nil =>
    cases l' with
    | nil => rfl
    | cons x l' => exact absurd ((e x).2 List.mem_cons_self) (by simp)
  | cons x l ih =>
    cases l' with
    | nil => exact absurd ((e x).1 List.mem_cons_self) (by simp)
    | cons x' l' =>
      rw [List.pairwise_cons] at h h'
      have hlt : ∀ {a b : UInt8}, a < b → ¬ b < a := fun h1 h2 => by
        rw [UInt8.lt_iff_toNat_lt] at h1 h2
        omega
      have hirr : ∀ a : UInt8, ¬ a < a := fun a h => by rw [UInt8.lt_iff_toNat_lt] at h; omega
      have hx : x = x' := by
        rcases List.mem_cons.1 ((e x).1 List.mem_cons_self) with hx | hx
        · exact hx
        · rcases List.mem_cons.1 ((e x').2 List.mem_cons_self) with hx' | hx'
          · exact hx'.symm
          · exact absurd (h'.1 x hx) (hlt (h.1 x' hx'))
      subst hx
      rw [ih h.2 h'.2 fun f => ?_]
      constructor
      · intro hf
        rcases List.mem_cons.1 ((e f).1 (List.mem_cons_of_mem _ hf)) with rfl | hf'
        · exact absurd (h.1 f hf) (hirr f)
        · exact hf'
      · intro hf
        rcases List.mem_cons.1 ((e f).2 (List.mem_cons_of_mem _ hf)) with rfl | hf'
        · exact absurd (h'.1 f hf) (hirr f)
        · exact hf'

/-- The first symbol of a file. -/
def firstSymbol (st : Supermon.SymbolTable) (f : UInt8) : Option Str :=
  (st.find? fun s => decide (s.address.toNat = 0xDF00 + f.toNat)).map (·.name)

theorem dfName_length (f : UInt8) : (dfName f).length = 4 := by
  unfold dfName
  simp [str]

theorem nakedName_inj {st st' : Supermon.SymbolTable} {f g : UInt8} (h : nakedName st false f = nakedName st' false g) :
    f = g ∧ firstSymbol st f = firstSymbol st' g := by
  have hpre : ∀ st f, (nakedName st false f).take 4 = dfName f := by
    intro st f
    have := dfName_length f
    rcases nakedName_cases st f with e | ⟨n, e⟩ <;> rw [e]
    · exact List.take_of_length_le (by omega)
    · exact List.take_left' this
  have hfg := Supermon.C34_dfname_injective ((hpre st f).symm.trans ((congrArg _ h).trans (hpre st' g)))
  subst hfg
  refine ⟨rfl, ?_⟩
  unfold nakedName at h
  unfold firstSymbol
  generalize st.find? (fun s => decide (s.address.toNat = 0xDF00 + f.toNat)) = x at h
  generalize st'.find? (fun s => decide (s.address.toNat = 0xDF00 + f.toNat)) = y at h
  have hc : str ":" = [0x3A] := by decide +kernel
  cases x with
  | none =>
    cases y with
    | none => rfl
    | some t =>
      have := congrArg List.length h
      simp [hc] at this
  | some s =>
    cases y with
    | none =>
      have := congrArg List.length h
      simp [hc] at this
    | some t =>
      dsimp only at h
      simp only [Bool.false_eq_true, if_false, List.append_assoc] at h
      have := List.append_cancel_left (List.append_cancel_left h)
      simp [this]

/-- C112, NakedOS: what `ls` prints tells the files of the disk: two disks with the same listing have the same files, and these have the same
first symbols. -/
theorem C112_tells {w' : World} {image' : Str} {order' : DiskOrder} {system' : Str} {ord' : DiskOrder} {o o' : Supermon.Operator}
    (h : Finds env w image order system (.nakedos o) ord) (h' : Finds env w' image' order' system' (.nakedos o') ord') {text : Bytes}
    (hp : Prints env (.ls order system false image []) w text) (hp' : Prints env (.ls order' system' false image' []) w' text)
    {f : UInt8} (hf : IsFileNumber f) :
    (fileOnDisk o.data f ≠ [] ↔ fileOnDisk o'.data f ≠ []) ∧ (fileOnDisk o.data f ≠ [] → firstSymbol o.table f = firstSymbol o'.table f) := by
  have hu : ∀ {c : Command} {w : World} {a b : Bytes}, Prints env c w a → Prints env c w b → a = b := by
    rintro c w a b ⟨w1, e1, _, s1⟩ ⟨w2, e2, _, s2⟩
    rw [e1] at e2
    cases e2
    rw [s1] at s2
    exact List.append_cancel_left s2
  have hall : ∀ {w image order system ord} {o : Supermon.Operator}, Finds env w image order system (.nakedos o) ord →
      Prints env (.ls order system false image []) w text →
      ∃ files : List UInt8, files.Pairwise (· < ·) ∧ (∀ f, f ∈ files ↔ IsFileNumber f ∧ fileOnDisk o.data f ≠ []) ∧
      Lines text (files.map (nakedName o.table false)) := by
    intro w image order system ord o h hp
    obtain ⟨raw, _, hopen⟩ := id h
    have hcap := Supermon.opened_capitals (open_naked hopen).opened
    obtain ⟨w1, listed, h1, h2, h3, h4⟩ := ls_lists h false
    obtain ⟨w2, e1, _, e3⟩ := hp
    rw [h1] at e1
    cases e1
    rw [h2] at e3
    have := List.append_cancel_left e3
    refine ⟨listed, h3, h4, ?_, ?_⟩
    · rw [← this, List.flatMap_map]
    · intro x hx
      obtain ⟨f, _, rfl⟩ := List.mem_map.1 hx
      exact printable_no_newline (nakedName_printable hcap false f)
  obtain ⟨l, _, a2, a3⟩ := hall h hp
  obtain ⟨l', _, b2, b3⟩ := hall h' hp'
  have e := lines_unique a3 b3
  have key : ∀ {l l' : List UInt8} {st st' : Supermon.SymbolTable}, l.map (nakedName st false) = l'.map (nakedName st' false) →
      ∀ f ∈ l, f ∈ l' ∧ firstSymbol st f = firstSymbol st' f := by
    intro l l' st st' e f hf
    have hm : nakedName st false f ∈ l'.map (nakedName st' false) := by rw [← e]; exact List.mem_map.2 ⟨f, hf, rfl⟩
    obtain ⟨g, hg, eg⟩ := List.mem_map.1 hm
    obtain ⟨rfl, es⟩ := nakedName_inj eg
    exact ⟨hg, es.symm⟩
  refine ⟨⟨fun hx => ?_, fun hx => ?_⟩, fun hx => ?_⟩
  · exact ((b2 f).1 (key e f ((a2 f).2 ⟨hf, hx⟩)).1).2
  · exact ((a2 f).1 (key e.symm f ((b2 f).2 ⟨hf, hx⟩)).1).2
  · exact (key e f ((a2 f).2 ⟨hf, hx⟩)).2

/-- C112, DOS 3.3: `ls` prints as many lines as there are live entries if and only if no name of one has a newline within. -/
theorem C112_dos3_exact {o : Dos3.Operator} (h : Finds env w image order system (.dos3 o) ord) (short : Bool)
    (hv : Spec.NormalVTOC o.data) (chain : List (Nat × Nat))
    (hc : Spec.Chain o.data (CatalogPlace o.data) (linkOf o.data vtocAt) chain) :
    ∃ text, Prints env (.ls order system short image []) w text ∧
      (LineCount text ((entries o.data chain).filter (fun e => LiveEntry e)).length ↔
        ∀ e ∈ entries o.data chain, LiveEntry e → (0x0A : UInt8) ∉ entryName e) := by
  obtain ⟨w', h1, h2, h3⟩ := C71_ls_dos3 h short hv chain hc
  refine ⟨_, ⟨w', h1, h2, h3⟩, ?_⟩
  have := lineCount_iff (((entries o.data chain).filter (fun e => LiveEntry e)).map entryName)
  rw [List.flatMap_map, List.length_map] at this
  rw [this]
  simp only [List.mem_map, List.mem_filter, decide_eq_true_eq]
  constructor
  · exact fun hh e he hl => hh _ ⟨e, ⟨he, hl⟩, rfl⟩
  · rintro hh n ⟨e, ⟨he, hl⟩, rfl⟩
    exact hh e he hl

/-- C112, ProDOS: in the same way. -/
theorem C112_prodos_exact {o : Prodos.Operator} (h : Finds env w image order system (.prodos o) ord) (short : Bool) (dir : Str) {w' : World}
    (hr : run env (.ls order system short image dir) w = (.ok (), w')) :
    ∃ k l, (dir = [] ∧ k = 2 ∨ dir ≠ [] ∧ Subdir o.data k ∧ FullPath o.data k dir) ∧ DirBlocks o.data k l ∧
      ∃ text, Prints env (.ls order system short image dir) w text ∧
        (LineCount text ((dirEntries o.data k l).filter (fun e => storageType e ≠ 0)).length ↔
          ∀ e ∈ dirEntries o.data k l, storageType e ≠ 0 → (0x0A : UInt8) ∉ nameOf e) := by
  obtain ⟨k, l, h1, h2, h3, h4⟩ := C71_ls_prodos h short dir hr
  refine ⟨k, l, h1, h2, _, ⟨w', hr, h3, h4⟩, ?_⟩
  have := lineCount_iff (((dirEntries o.data k l).filter (fun e => storageType e ≠ 0)).map nameOf)
  rw [List.flatMap_map, List.length_map] at this
  rw [this]
  simp only [List.mem_map, List.mem_filter, decide_eq_true_eq]
  constructor
  · exact fun hh e he hl => hh _ ⟨e, ⟨he, hl⟩, rfl⟩
  · rintro hh n ⟨e, ⟨he, hl⟩, rfl⟩
    exact hh e he hl

end Verif.Cmd

namespace Verif.Dos3
open Verif Verif.Disk Verif.Spec

/-- A disk with an empty file for every name. -/
def namesCat (e : Bytes) : Bytes := zeros 11 ++ e
def namesSectors (e : Bytes) : List Bytes := [vtocBytes 17 1, namesCat e, zeros 256]
def namesDisk (e : Bytes) : Bytes := zeros 69632 ++ ((namesSectors e).flatten ++ zeros 72960)

/-- One file whose name has a newline within, and two files. -/
def oneEntry : Bytes := mkEntry 17 2 0x00 [0x41, 0x0A, 0x42] 1 ++ zeros 210
def twoEntries : Bytes := mkEntry 17 2 0x00 [0x41] 1 ++ mkEntry 17 2 0x00 [0x42] 1 ++ zeros 175

variable {e : Bytes} (he : e.length = 245)
include he

theorem namesSectors_len : (namesSectors e).flatten.length = 768 := by
  unfold namesSectors namesCat
  have : (vtocBytes 17 1).length = 256 := by decide +kernel
  simp [he, this]

theorem namesDisk_length : (namesDisk e).length = 143360 := by
  unfold namesDisk
  rw [List.length_append, List.length_append, zeros_length, zeros_length, namesSectors_len he]

theorem namesDisk_sector (s : Nat) (h : s < 3) : sectorAt (namesDisk e) 17 s = (namesSectors e).getD s [] := by
  unfold namesDisk
  rw [sectorAt_wit _ _ s (by rw [namesSectors_len he]; omega)]
  have hv : (vtocBytes 17 1).length = 256 := by decide +kernel
  have hc : (namesCat e).length = 256 := by unfold namesCat; simp [he]
  have hz : (zeros 256).length = 256 := zeros_length _
  unfold namesSectors
  generalize vtocBytes 17 1 = v at hv
  generalize namesCat e = c at hc
  generalize zeros 256 = z at hz
  simp only [List.flatten_cons, List.flatten_nil, List.append_nil]
  match s, h with
  | 0, _ => simp [List.take_left' hv]
  | 1, _ =>
    rw [Nat.mul_one, List.drop_left' hv, List.take_left' hc]; rfl
  | 2, _ =>
    rw [← List.append_assoc, List.drop_left' (by simp [hv, hc]), List.take_of_length_le (by omega)]; rfl

theorem namesDisk_byte (s : Nat) (h : s < 3) (i : Nat) : sbyte (namesDisk e) (17, s) i = ((namesSectors e).getD s []).getD i 0 := by
  unfold sbyte
  rw [namesDisk_sector he s h]

theorem namesDisk_facts : NormalVTOC (namesDisk e) ∧ linkOf (namesDisk e) vtocAt = (17, 1) ∧
    (sbyte (namesDisk e) vtocAt 0x35).toNat = 16 :=
  normal_of_vtocBytes (t := 17) (s := 1) (by rw [namesDisk_length he]; omega) (namesDisk_byte he 0 (by omega))

theorem namesDisk_chain : Chain (namesDisk e) (CatalogPlace (namesDisk e)) (linkOf (namesDisk e) vtocAt) [(17, 1)] := by
  rw [(namesDisk_facts he).2.1]
  refine .step (by decide) ⟨by decide, ?_, by unfold OnImage; rw [namesDisk_length he]; omega⟩ ?_
  · rw [(namesDisk_facts he).2.2]; decide
  · have : linkOf (namesDisk e) (17, 1) = (0, 0) := by
      unfold linkOf
      rw [namesDisk_byte he 1 (by omega), namesDisk_byte he 1 (by omega)]
      unfold namesSectors namesCat
      rfl
    rw [this]
    exact .done

theorem namesDisk_entries : entries (namesDisk e) [(17, 1)] = (List.range 7).map fun k => ((namesCat e).drop (0x0b + 35 * k)).take 35 := by
  unfold entries entryBytes
  rw [List.flatMap_cons, List.flatMap_nil, List.append_nil]
  simp only [namesDisk_sector he 1 (by omega)]
  rfl

end Verif.Dos3

namespace Verif.Cmd
open Disk Spec

/-- C112 does not hold for DOS 3.3: a disk with one file and a disk with two have the same listing. -/
theorem C112_violated (env : Env) : ∃ (w w' : World) (img img' : Bytes) (chain chain' : List (Nat × Nat)),
    Finds env w (str "a.do") (str "do") (str "dos3") (.dos3 ⟨img⟩) orderDO ∧
    Finds env w' (str "a.do") (str "do") (str "dos3") (.dos3 ⟨img'⟩) orderDO ∧
    (NormalVTOC img ∧ Spec.Chain img (CatalogPlace img) (linkOf img vtocAt) chain) ∧
    (NormalVTOC img' ∧ Spec.Chain img' (CatalogPlace img') (linkOf img' vtocAt) chain') ∧
    ((entries img chain).filter (fun e => LiveEntry e)).length = 1 ∧ ((entries img' chain').filter (fun e => LiveEntry e)).length = 2 ∧
    ∃ text, Prints env (.ls (str "do") (str "dos3") false (str "a.do") []) w text ∧
      Prints env (.ls (str "do") (str "dos3") false (str "a.do") []) w' text := by
  have h1 : Dos3.oneEntry.length = 245 := by decide +kernel
  have h2 : Dos3.twoEntries.length = 245 := by decide +kernel
  have f1 := finds_dos3 env (Dos3.namesDisk_length h1)
  have f2 := finds_dos3 env (Dos3.namesDisk_length h2)
  refine ⟨_, _, _, _, _, _, f1, f2, ⟨(Dos3.namesDisk_facts h1).1, Dos3.namesDisk_chain h1⟩,
    ⟨(Dos3.namesDisk_facts h2).1, Dos3.namesDisk_chain h2⟩, ?_, ?_, str "A\nB\n", ?_, ?_⟩
  · rw [Dos3.namesDisk_entries h1]; decide +kernel
  · rw [Dos3.namesDisk_entries h2]; decide +kernel
  · obtain ⟨w', e1, e2, e3⟩ := C71_ls_dos3 f1 false (Dos3.namesDisk_facts h1).1 _ (Dos3.namesDisk_chain h1)
    refine ⟨w', e1, e2, ?_⟩
    rw [e3]
    refine congrArg _ ?_
    show ((entries (Dos3.namesDisk Dos3.oneEntry) _).filter _).flatMap _ = _
    rw [Dos3.namesDisk_entries h1]; decide +kernel
  · obtain ⟨w', e1, e2, e3⟩ := C71_ls_dos3 f2 false (Dos3.namesDisk_facts h2).1 _ (Dos3.namesDisk_chain h2)
    refine ⟨w', e1, e2, ?_⟩
    rw [e3]
    refine congrArg _ ?_
    show ((entries (Dos3.namesDisk Dos3.twoEntries) _).filter _).flatMap _ = _
    rw [Dos3.namesDisk_entries h2]; decide +kernel

end Verif.Cmd

namespace Verif.Cmd
open Disk Spec

/-- The hypotheses of `C112_nakedos` are met, for a disk with a file. -/
example (env : Env) : ∃ (w : World) (o : Supermon.Operator) (text : Bytes) (l : List Str),
    Finds env w (str "a.do") orderDO (str "nakedos") (.nakedos o) orderDO ∧
    Prints env (.ls orderDO (str "nakedos") false (str "a.do") []) w text ∧ Lines text l ∧ l ≠ [] := by
  obtain ⟨w, o, hf, _, s, _, _, h5⟩ := listed_wit env
  obtain ⟨text, files, line, h1, _, h3, h4, _⟩ := C112_nakedos hf false
  refine ⟨w, o, text, _, hf, h1, h4, fun e => ?_⟩
  have := (h3 5).2 ⟨⟨by decide, by decide, by decide⟩, h5⟩
  rw [List.map_eq_nil_iff.1 e] at this
  cases this

end Verif.Cmd
