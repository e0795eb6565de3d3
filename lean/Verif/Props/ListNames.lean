import Verif.Spec.ListNames
import Verif.Props.NamesRun

/-!
# C99: names that `ls` prints
-/

set_option autoImplicit false

namespace Verif.Supermon
open Spec

/-- A decoded symbol consists of capital letters and digits. -/
theorem decodeLoop_chars (v : Nat) : ∀ c ∈ decodeLoop v, c ≠ 0x3A := by
  induction v using Nat.strongRecOn with
  | ind v ih =>
    rw [decodeLoop]
    split
    · rename_i h
      have key : ∀ (k n : Nat) (P : k < 256), k ≠ 0x3A → n < v → ∀ c ∈ UInt8.ofNat k :: decodeLoop n, c ≠ 0x3A := by
        intro k n hk hne hn c hc
        rcases List.mem_cons.1 hc with rfl | hc
        · intro he
          have := congrArg UInt8.toNat he
          rw [UInt8.toNat_ofNat'] at this
          have e : (0x3A : UInt8).toNat = 0x3A := rfl
          omega
        · exact ih n hn c hc
      split
      · exact key _ _ (by omega) (by omega) (by omega)
      · split
        · exact key _ _ (by omega) (by omega) (by omega)
        · exact key _ _ (by omega) (by omega) (by omega)
    · simp

theorem parseSymbols_names {a b : Vector UInt8 0x1000} : ∀ (n : Nat) (h : n ≤ 819) {st : SymbolTable}, parseSymbols a b n h = .ok st →
    ∀ s ∈ st, (0x3A : UInt8) ∉ s.name := by
  intro n
  induction n with
  | zero =>
    intro h st e s hs
    simp only [parseSymbols, Out.ok.injEq] at e
    subst e
    simp at hs
  | succ n ih =>
    intro h st e s hs
    unfold parseSymbols at e
    obtain ⟨table, e1, e⟩ := Out.bind_eq_ok.1 e
    obtain ⟨sym, e2, e⟩ := Out.bind_eq_ok.1 e
    simp only [Out.ok.injEq] at e
    subst e
    rcases List.mem_append.1 hs with hs | hs
    · exact ih _ e1 s hs
    · rw [List.mem_singleton] at hs
      subst hs
      have hd : ∀ f x, (0x3A : UInt8) ∉ decodeSymbol f x := fun f x hm => decodeLoop_chars _ _ hm rfl
      unfold parseSymbol at e2
      simp only at e2
      split at e2
      · cases e2; simp [Symbol.empty]
      · split at e2
        · split at e2
          · simp at e2
          · split at e2
            · simp at e2
            · cases e2; exact hd _ _
        · cases e2; exact hd _ _

/-- No symbol read from a disk has a colon in its name. -/
theorem opened_no_colon {img : Bytes} {o : Operator} (h : openOperator img = .ok o) : ∀ s ∈ o.table, (0x3A : UInt8) ∉ s.name := by
  unfold openOperator at h
  obtain ⟨sm, _, h⟩ := Out.bind_eq_ok.1 h
  obtain ⟨_, _, h⟩ := Out.bind_eq_ok.1 h
  cases hr : readSymbolTable sm img with
  | ok st =>
    rw [hr] at h
    cases h
    show ∀ s ∈ st, _
    unfold readSymbolTable at hr
    obtain ⟨t1, _, hr⟩ := Out.bind_eq_ok.1 hr
    split at hr
    · obtain ⟨t2, _, hr⟩ := Out.bind_eq_ok.1 hr
      split at hr
      · obtain ⟨table, hp, hr⟩ := Out.bind_eq_ok.1 hr
        obtain ⟨_, _, hr⟩ := Out.bind_eq_ok.1 hr
        cases hr
        exact parseSymbols_names _ _ hp
      · simp at hr
    · simp at hr
  | err k => rw [hr] at h; cases h; intro s hs; simp [Operator.table] at hs
  | panic => rw [hr] at h; simp at h
  | timeout => rw [hr] at h; simp at h

theorem sameName_colon {a b : Str} (h : SameName a b) (hb : (0x3A : UInt8) ∈ b) : (0x3A : UInt8) ∈ a := by
  have h' : toUpper a = toUpper b := h
  have hu : (0x3A : UInt8) ∈ toUpper b := by
    unfold toUpper
    exact List.mem_map.2 ⟨0x3A, hb, by decide⟩
  rw [← h'] at hu
  unfold toUpper at hu
  obtain ⟨c, hc, e⟩ := List.mem_map.1 hu
  have : ∀ c : UInt8, upperByte c = 0x3A → c = 0x3A := by decide +kernel
  rw [← this c e]
  exact hc

/-- A name with a colon stands for no file. -/
theorem colon_unknown {st : SymbolTable} (hst : ∀ s ∈ st, (0x3A : UInt8) ∉ s.name) {name : Str} (hn : (0x3A : UInt8) ∈ name) :
    ∀ f, fileForName st name ≠ .ok f := by
  intro f hf
  rcases (C34_resolves_iff st name f).1 hf with h | ⟨_, _, x, hx, _⟩
  · rcases h.2 with h | h
    · exact Cmd.hexNumeral_no_colon h hn
    · exact Cmd.hexNumeral_no_colon h hn
  · have hs := List.mem_of_find?_eq_some hx
    have he : SameName x.name name := by simpa using List.find?_some hx
    exact hst x hs (sameName_colon he hn)

/-- In a table without ambiguous names, the short name of a file leads to the file. -/
theorem short_resolves {st : SymbolTable} (h : Unmistakable st) {f : UInt8} (hf : IsFileNumber f) :
    fileForName st (Cmd.nakedName st true f) = .ok f := by
  unfold Cmd.nakedName
  cases hx : st.find? (fun s => decide (s.address.toNat = 0xDF00 + f.toNat)) with
  | none => exact fileForName_dfName hf st
  | some s =>
    have hs := List.mem_of_find?_eq_some hx
    have ha : s.address.toNat = 0xDF00 + f.toNat := by simpa using List.find?_some hx
    have b1 : f.toNat ≠ 0 := fun e => hf.1 (UInt8.toNat_inj.1 e)
    have b2 : f.toNat ≠ 0xFE := fun e => hf.2.1 (UInt8.toNat_inj.1 e)
    have b3 : f.toNat ≠ 0xFF := fun e => hf.2.2 (UInt8.toNat_inj.1 e)
    have b4 := f.toNat_lt
    obtain ⟨h1, h2⟩ := h s hs (by omega) (by omega)
    show fileForName st s.name = .ok f
    rw [C34_resolves_iff]
    refine Or.inr ⟨h1, hf, ?_⟩
    cases hy : st.find? (fun x => decide (SameName x.name s.name)) with
    | none =>
      have := List.find?_eq_none.1 hy s hs
      simp [SameName] at this
    | some x =>
      refine ⟨x, rfl, ?_⟩
      rw [h2 x (List.mem_of_find?_eq_some hy) (by simpa using List.find?_some hy)]
      exact ha

theorem tidy_unmistakable {st : SymbolTable} (h : Tidy st) : Unmistakable st := by
  intro s hs h1 h2
  have e : ∀ x ∈ st, x.address ≠ 0 → Symbolic x.name ∧ toUpper x.name = x.name := by
    intro x hx hx0
    rcases h.entries x hx with rfl | ⟨_, g1, g2⟩
    · exact absurd rfl hx0
    · exact ⟨g1, g2⟩
  have hs0 : s.address ≠ 0 := by
    intro hc; rw [hc] at h1; simp at h1
  refine ⟨(e s hs hs0).1.2, fun s' hs' hn => ?_⟩
  have hn' : toUpper s'.name = toUpper s.name := hn
  rw [(e s hs hs0).2] at hn'
  have hs0' : s'.address ≠ 0 := by
    intro hc
    rcases h.entries s' hs' with rfl | ⟨g, _⟩
    · have := legal_ne_nil (e s hs hs0).1.1
      exact this (by rw [← hn']; rfl)
    · exact g hc
  rw [(e s' hs' hs0').2] at hn'
  obtain ⟨i, hi⟩ := List.mem_iff_getElem?.1 hs
  obtain ⟨j, hj⟩ := List.mem_iff_getElem?.1 hs'
  have := h.unique j i s' s hj hi hs0' hn'
  subst this
  rw [hi] at hj
  cases hj
  rfl

/-- A table with one symbol, for file 3, that reads like the number of another file. -/
def dfabTable : SymbolTable := ⟨0xDF03, str "DFAB", -1⟩ :: List.replicate 818 Symbol.empty

theorem dfabTable_get (i : Nat) (s : Symbol) (h : dfabTable[i]? = some s) :
    (i = 0 ∧ s = ⟨0xDF03, str "DFAB", -1⟩) ∨ s = Symbol.empty := by
  match i, h with
  | 0, h => left; exact ⟨rfl, (Option.some.inj h).symm⟩
  | i + 1, h =>
    right
    unfold dfabTable at h
    simp only [List.getElem?_cons_succ] at h
    exact (List.mem_replicate.1 (List.mem_of_getElem? h)).2

theorem dfabTable_wf : WellFormed dfabTable where
  length := by unfold dfabTable; simp only [List.length_cons, List.length_replicate]
  names := by
    intro s hs
    obtain ⟨i, hi, e⟩ := List.getElem_of_mem hs
    rcases dfabTable_get i s (by rw [List.getElem?_eq_getElem hi, e]) with ⟨_, rfl⟩ | rfl
    · right; decide +kernel
    · left; rfl
  links := by
    intro i s hi h0
    rcases dfabTable_get i s hi with ⟨_, rfl⟩ | rfl
    · exact Or.inl rfl
    · exact absurd rfl h0

theorem dfabTable_canonical : dfabTable.map canonical = dfabTable := by
  conv_rhs => rw [← List.map_id dfabTable]
  apply List.map_congr_left
  intro s hs
  obtain ⟨i, hi, e⟩ := List.getElem_of_mem hs
  rcases dfabTable_get i s (by rw [List.getElem?_eq_getElem hi, e]) with ⟨_, rfl⟩ | rfl
  · decide +kernel
  · decide +kernel

theorem dfabTable_short : Cmd.nakedName dfabTable true 3 = str "DFAB" := by
  unfold dfabTable Cmd.nakedName
  rw [List.find?_cons_of_pos (by decide)]
  rfl

theorem isFileAB : IsFileNumber 0xAB := by unfold IsFileNumber; decide

theorem dfab_numeric (st : SymbolTable) : fileForName st (str "DFAB") = .ok 0xAB := by
  have e : str "DFAB" = dfName 0xAB := by decide +kernel
  rw [e]
  exact fileForName_dfName isFileAB st

/-- A disk with this table: file 3 has contents, file 0xAB has none. -/
theorem dfab_disk : ∃ img sm, Good sm img ∧ openOperator img = .ok ⟨img, sm, some dfabTable⟩ ∧
    ownedBy (own sm) 3 ≠ [] ∧ ownedBy (own sm) 0xAB = [] := by
  have hw := fresh_room _ dfabTable_wf
  have hk := keep_writeSymbolTable fresh_good dfabTable
  have ho : openOperator (writeSymbolTable freshMap freshImg dfabTable).2.2 =
      .ok ⟨(writeSymbolTable freshMap freshImg dfabTable).2.2, (writeSymbolTable freshMap freshImg dfabTable).2.1,
        some (dfabTable.map canonical)⟩ := by
    unfold openOperator
    rw [hk.good.loaded, Out.bind_ok, (verify_ok_iff _).2 hk.good.legal, Out.bind_ok, C31_write_read fresh_good dfabTable_wf hw]
  rw [dfabTable_canonical] at ho
  refine ⟨_, _, hk.good, ho, ?_, ?_⟩
  · intro e
    have := (writeSymbolTable_sizes fresh_good hw).1
    rw [e] at this
    simp at this
  · rw [hk.sect 0xAB isFileAB (by decide)]
    exact freshMap_file isFileAB

end Verif.Supermon

namespace Verif.Cmd
open Disk Spec

variable {env : Env} {w : World} {image : Str} {order : DiskOrder} {system : Str} {ord : DiskOrder}

/-- What `ls` prints of a NakedOS disk, and which files it lists. -/
theorem ls_lists {o : Supermon.Operator} (h : Finds env w image order system (.nakedos o) ord) (short : Bool) :
    ∃ w', ∃ listed : List UInt8, run env (.ls order system short image []) w = (.ok (), w') ∧
      w'.stdout = w.stdout ++ listed.flatMap (fun f => nakedName o.table short f ++ [0x0A]) ∧ listed.Pairwise (· < ·) ∧
      ∀ f, f ∈ listed ↔ IsFileNumber f ∧ fileOnDisk o.data f ≠ [] := by
  obtain ⟨raw, _, hopen⟩ := id h
  have hnk := open_naked hopen
  obtain ⟨w', e1, _, e3⟩ := C71_ls_nakedos h short
  refine ⟨w', _, e1, e3, ?_, ?_⟩
  · refine List.Pairwise.filter _ (List.pairwise_map.2 (List.pairwise_lt_range.imp_of_mem ?_))
    intro a b ha hb hab
    rw [List.mem_range] at ha hb
    rw [UInt8.lt_iff_toNat_lt]
    simp only [UInt8.toNat_ofNat']
    omega
  · intro f
    rw [List.mem_filter, decide_eq_true_eq, Ne, Ne, Ne, Ne, Ne, Supermon.fileOnDisk_nil hnk.good]
    constructor
    · exact fun h => ⟨⟨h.2.1, h.2.2.1, h.2.2.2.1⟩, h.2.2.2.2⟩
    · refine fun h => ⟨?_, h.1.1, h.1.2.1, h.1.2.2, h.2⟩
      exact List.mem_map.2 ⟨f.toNat, List.mem_range.2 f.toNat_lt, by simp⟩

/-- C99, NakedOS, `ls --short`: every line is a name under which `dump` prints the file listed there, if no symbol of
the disk can be taken for something else. -/
theorem C99_short_names_partial {o : Supermon.Operator} (h : Finds env w image order system (.nakedos o) ord) (hu : Unmistakable o.table) :
    ∃ w', ∃ listed : List UInt8, ∃ line : UInt8 → Str, run env (.ls order system true image []) w = (.ok (), w') ∧
      w'.stdout = w.stdout ++ listed.flatMap (fun f => line f ++ [0x0A]) ∧ listed.Pairwise (· < ·) ∧
      (∀ f, f ∈ listed ↔ IsFileNumber f ∧ fileOnDisk o.data f ≠ []) ∧
      ∀ f ∈ listed, Dumps env w order system image (line f) (fileOnDisk o.data f) := by
  obtain ⟨w', listed, h1, h2, h3, h4⟩ := ls_lists h true
  refine ⟨w', listed, _, h1, h2, h3, h4, fun f hf => ?_⟩
  obtain ⟨hn, hne⟩ := (h4 f).1 hf
  exact (C72_dump_nakedos h _).1 f (Supermon.short_resolves hu hn) hne

theorem nakedName_cases (st : Supermon.SymbolTable) (f : UInt8) :
    nakedName st false f = dfName f ∨ ∃ n, nakedName st false f = dfName f ++ 0x3A :: n := by
  unfold nakedName
  cases st.find? (fun s => decide (s.address.toNat = 0xDF00 + f.toNat)) with
  | some s => exact Or.inr ⟨s.name, List.append_assoc _ _ _⟩
  | none => exact Or.inl rfl

/-- C99, NakedOS, `ls`: every line begins with a name under which `dump` prints the file listed there; after it comes nothing, or a colon
and a symbol. -/
theorem C99_numbers {o : Supermon.Operator} (h : Finds env w image order system (.nakedos o) ord) :
    ∃ w', ∃ listed : List UInt8, ∃ name rest : UInt8 → Str, run env (.ls order system false image []) w = (.ok (), w') ∧
      w'.stdout = w.stdout ++ listed.flatMap (fun f => name f ++ rest f ++ [0x0A]) ∧ listed.Pairwise (· < ·) ∧
      (∀ f, f ∈ listed ↔ IsFileNumber f ∧ fileOnDisk o.data f ≠ []) ∧
      ∀ f ∈ listed, (rest f = [] ∨ ∃ n, rest f = 0x3A :: n) ∧ (0x3A : UInt8) ∉ name f ∧ Dumps env w order system image (name f) (fileOnDisk o.data f) := by
  obtain ⟨w', listed, h1, h2, h3, h4⟩ := ls_lists h false
  refine ⟨w', listed, dfName, fun f => (nakedName o.table false f).drop (dfName f).length, h1, ?_, h3, h4, fun f hf => ?_⟩
  · rw [h2]
    refine congrArg (w.stdout ++ ·) (List.flatMap_congr fun f _ => ?_)
    refine congrArg (· ++ [0x0A]) ?_
    rcases nakedName_cases o.table f with e | ⟨n, e⟩ <;> simp [e]
  · obtain ⟨hn, hne⟩ := (h4 f).1 hf
    refine ⟨?_, Supermon.no_colon_dfName f, (C72_dump_nakedos h _).1 f (Supermon.fileForName_dfName hn _) hne⟩
    rcases nakedName_cases o.table f with e | ⟨n, e⟩
    · exact Or.inl (by simp [e])
    · exact Or.inr ⟨n, by simp [e]⟩

/-- C99: the lines of `ls` that have a colon are no names: neither `dump` nor `rm` finds anything under them, on any NakedOS disk. -/
theorem C99_compound_unknown {o : Supermon.Operator} (h : Finds env w image order system (.nakedos o) ord) {name : Str}
    (hc : (0x3A : UInt8) ∈ name) :
    DumpFails env w order system image name ∧ ∀ m, (run env (.rm order system m image name) w).1 = .err .fileNotFound := by
  obtain ⟨raw, _, hopen⟩ := id h
  have hno := Supermon.colon_unknown (Supermon.opened_no_colon (open_naked hopen).opened) hc
  refine ⟨?_, fun m => (C73_unknown_name h m name hno).1⟩
  obtain ⟨_, _, d3, d4⟩ := C72_dump_nakedos h name
  rcases d4 with ⟨f, hf⟩ | ⟨k, hk⟩
  · exact absurd hf (hno f)
  · exact d3 k hk

/-- A disk with a file under DF05:GAME. -/
theorem game_there (env : Env) : ∃ w m z t, HasFiles w (str "a.do") orderDO m ∧ HasNames env w (str "a.do") orderDO z t ∧
    t (str "GAME") = some 5 ∧ m 5 ≠ [] := by
  obtain ⟨img, sm, hg, ho, hroom, h5⟩ := tabled5
  obtain ⟨hf, hn, hok⟩ := game_disk env hg ho hroom h5
  have hi : str "a.do" ≠ str "-" := by decide +kernel
  have hs1 : Session env (str "a.do") (twoFiles img) [(twoFiles img, putGame)] (run env putGame (twoFiles img)).2 :=
    Session.step rfl (Session.done rfl)
  obtain ⟨chs, hch, hf1, hn1⟩ := C83_session_partial hi hs1 (fun p hp => by
    simp only [List.mem_cons, List.not_mem_nil, or_false] at hp
    subst hp
    exact game_careful putGame (by simp)) hf hn
  obtain ⟨c, rfl, hd⟩ := changes_one hch
  have := does_putGame hd hok (twoFiles_x img)
  subst this
  obtain ⟨v1, v2, v3, _⟩ := game_names (fileOnDisk img) (fun _ => none)
  exact ⟨_, _, _, _, hf1, hn1, v2, by rw [v1]; exact padded_one⟩

/-- C99 fails for the full names: there is a disk on which `ls` prints a line that both `dump` and `rm` take for an unknown name. -/
theorem C99_violated_full_names (env : Env) : ∃ w w' line before after, HasNames env w (str "a.do") orderDO before after ∧
    run env (.ls orderDO (str "nakedos") false (str "a.do") []) w = (.ok (), w') ∧
    (∃ l1 l2 : List Str, w'.stdout = w.stdout ++ (l1 ++ line :: l2).flatMap (fun l => l ++ [0x0A])) ∧
    DumpFails env w orderDO (str "nakedos") (str "a.do") line ∧
    (run env (.rm orderDO (str "nakedos") true (str "a.do") line) w).1 = .err .fileNotFound := by
  obtain ⟨w, m, z, t, hf, hn, ht, hm⟩ := game_there env
  have hi : str "a.do" ≠ str "-" := by decide +kernel
  generalize str "a.do" = image at *
  obtain ⟨w', line, listed, h1, _, h3, _, h5, h6⟩ := C83_ls hi hf hn false
  have hord : Ordinary 5 := ⟨numeric5.1, by decide, by decide⟩
  have h5' := (h5 5 hord).2 hm
  have hl : ∃ n, line 5 = dfName 5 ++ str ":" ++ n := by
    rcases h6 5 h5' with ⟨n, _, _, e⟩ | ⟨hno, _⟩
    · exact ⟨n, by rw [e]; rfl⟩
    · exact absurd ht (hno _ game_symbolic)
  obtain ⟨n, hl⟩ := hl
  have hc : (0x3A : UInt8) ∈ line 5 := by
    rw [hl]
    exact List.mem_append_left _ (List.mem_append_right _ (by decide))
  obtain ⟨raw, o, st, g1, g2, _, _⟩ := id hn
  have hfi : Finds env w image orderDO (str "nakedos") (.nakedos o) orderDO :=
    ⟨raw, by unfold given; rw [if_neg hi, g1], by rw [if_neg hi]; exact g2⟩
  obtain ⟨k1, k2⟩ := C99_compound_unknown hfi hc
  obtain ⟨a, b, hab⟩ := List.append_of_mem h5'
  refine ⟨w, w', line 5, z, t, hn, h1, ⟨a.map line, b.map line, ?_⟩, k1, k2 true⟩
  rw [h3, hab]
  simp [List.flatMap_append, List.flatMap_map]

/-- Non-vacuity of `C99_short_names_partial`: the same disk, which has a symbol that stands for a file. -/
theorem listed_wit (env : Env) : ∃ w o, Finds env w (str "a.do") orderDO (str "nakedos") (.nakedos o) orderDO ∧ Unmistakable o.table ∧
    ∃ s ∈ o.table, s.address.toNat = 0xDF05 ∧ fileOnDisk o.data 5 ≠ [] := by
  obtain ⟨w, m, z, t, hf, hn, ht, hm⟩ := game_there env
  have hi : str "a.do" ≠ str "-" := by decide +kernel
  generalize str "a.do" = image at *
  obtain ⟨raw, o, st, g1, g2, hst, hk⟩ := id hn
  have htab : o.table = st := by unfold Supermon.Operator.table; rw [hst]; rfl
  obtain ⟨_, s, hs, _, ha⟩ := (hk.2.2 _ game_symbolic 5).1 ht
  refine ⟨w, o, ⟨raw, by unfold given; rw [if_neg hi, g1], by rw [if_neg hi]; exact g2⟩, by rw [htab]; exact Supermon.tidy_unmistakable hk.1, s,
    by rw [htab]; exact hs, ha, ?_⟩
  rw [hasFiles_view hf g1 (open_naked g2) 5 ⟨numeric5.1, by decide, by decide⟩]
  exact hm

/-- C99 fails for short names without the condition: there is a NakedOS disk for which `ls --short` prints a line under which `dump`
finds nothing. -/
theorem C99_violated_short_names (env : Env) : ∃ w w' o line, Finds env w (str "a.do") orderDO (str "nakedos") (.nakedos o) orderDO ∧
    run env (.ls orderDO (str "nakedos") true (str "a.do") []) w = (.ok (), w') ∧
    (∃ l1 l2 : List Str, w'.stdout = w.stdout ++ (l1 ++ line :: l2).flatMap (fun l => l ++ [0x0A])) ∧
    DumpFails env w orderDO (str "nakedos") (str "a.do") line := by
  obtain ⟨img, sm, hg, ho, h3, hab⟩ := Supermon.dfab_disk
  have hopen := open_view env hg (Or.inl rfl) (str "a.do") (ord := orderDO)
  have e : Supermon.tableOn sm img = some Supermon.dfabTable := (Supermon.opened_table (o := ⟨img, sm, some _⟩) hg ho).symm
  rw [e] at hopen
  have hfi : Finds env (twoFiles img) (str "a.do") orderDO (str "nakedos") (.nakedos ⟨img, sm, some Supermon.dfabTable⟩) orderDO :=
    ⟨_, by unfold given; rw [if_neg (by decide +kernel), twoFiles_a], by rw [if_neg (by decide +kernel)]; exact hopen⟩
  obtain ⟨w', listed, k1, k2, _, k4⟩ := ls_lists hfi true
  have hm : (3 : UInt8) ∈ listed := (k4 3).2 ⟨Supermon.isFile3, fun hx => h3 ((Supermon.fileOnDisk_nil hg 3).1 hx)⟩
  obtain ⟨a, b, hl⟩ := List.append_of_mem hm
  refine ⟨_, w', _, str "DFAB", hfi, k1, ⟨a.map (nakedName Supermon.dfabTable true), b.map (nakedName Supermon.dfabTable true), ?_⟩, ?_⟩
  · rw [k2, hl]
    have : (⟨img, sm, some Supermon.dfabTable⟩ : Supermon.Operator).table = Supermon.dfabTable := rfl
    have h5 := Supermon.dfabTable_short
    rw [this]
    clear this k2 k4 hfi hopen e ho
    generalize Supermon.dfabTable = T at h5 ⊢
    simp only [List.flatMap_append, List.flatMap_cons, List.flatMap_map, h5]
  · exact (C72_dump_nakedos hfi _).2.1 0xAB (Supermon.dfab_numeric _) ((Supermon.fileOnDisk_nil hg 0xAB).2 hab)

/-- C99, DOS 3.3: every line is the name of a live entry of the catalog, and `dump` of the line prints the contents of this entry, if no other
live entry has the same name. -/
theorem C99_dos3_partial {o : Dos3.Operator} (h : Finds env w image order system (.dos3 o) ord) (short : Bool)
    (hv : Spec.NormalVTOC o.data) (chain : List (Nat × Nat))
    (hc : Spec.Chain o.data (CatalogPlace o.data) (linkOf o.data vtocAt) chain) :
    ∃ w', ∃ listed : List Bytes, run env (.ls order system short image []) w = (.ok (), w') ∧
      w'.stdout = w.stdout ++ listed.flatMap (fun e => entryName e ++ [0x0A]) ∧
      (∀ e, e ∈ listed ↔ e ∈ entries o.data chain ∧ LiveEntry e) ∧
      ∀ e ∈ listed, (∀ e' ∈ listed, entryName e' = entryName e → e' = e) → ∀ lists data,
        Spec.Chain o.data (OnImage o.data) ((e.getD 0 0).toNat, (e.getD 1 0).toNat) lists → LastListUsed o.data lists →
        (∀ p ∈ lists, ∀ q ∈ pairs o.data p, q ≠ (0, 0) → OnImage o.data q) →
        DosFile (e.getD 2 0 &&& 0x7f) (pairsData o.data (filePairs o.data lists)) data →
        Dumps env w order system image (entryName e) data := by
  obtain ⟨w', h1, _, h3⟩ := C71_ls_dos3 h short hv chain hc
  refine ⟨w', _, h1, h3, fun e => by rw [List.mem_filter, decide_eq_true_eq], fun e he hu lists data g1 g2 g3 g4 => ?_⟩
  refine (C72_dump_dos3_partial h hv chain hc (entryName e)).1 e lists data ?_ g1 g2 g3 g4
  cases hx : ((entries o.data chain).filter (fun e => LiveEntry e)).find? (fun x => entryName x = entryName e) with
  | none =>
    have := List.find?_eq_none.1 hx e he
    simp at this
  | some x => rw [hu x (List.mem_of_find?_eq_some hx) (by simpa using List.find?_some hx)]

end Verif.Cmd
