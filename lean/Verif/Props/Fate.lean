import Verif.Proofs.Fate
import Verif.Props.PutEmpty
import Verif.Props.MoreWit

/-!
# C103: what becomes of the names when a file is put or deleted
-/

set_option autoImplicit false

namespace Verif.Supermon
open Disk Spec

/-- The table found after a changed one was written. -/
theorem tableOn_written {sm : SectorMap} {img : Bytes} (h : Good sm img) {st : SymbolTable} (hlen : st.length = 819)
    (hl : ∀ s ∈ st, LinkRange s) (hw : (writeSymbolTable sm img st).1 = .ok ()) :
    (Readable st → tableOn (writeSymbolTable sm img st).2.1 (writeSymbolTable sm img st).2.2 = some (st.map reread)) ∧
    (¬ Readable st → tableOn (writeSymbolTable sm img st).2.1 (writeSymbolTable sm img st).2.2 = none) := by
  have hr := read_write h hlen hl hw
  have hc := checkLinks_reread st
  constructor
  · intro hre
    unfold tableOn
    rw [hr, hc.2 hre]
    rfl
  · intro hre
    apply tableOn_none
    intro t ht
    rw [hr] at ht
    obtain ⟨u, hu, _⟩ := Out.bind_eq_ok.1 ht
    exact hre (hc.1 hu)

/-- The names after a symbol was added to a table. -/
theorem names_added {st : SymbolTable} (h : FromDisk st) {sym : Str} {f : UInt8} (hf : IsFileNumber f)
    (hok : (addSymbol st sym (0xDF00 + f.toUInt16)).1 = .ok ())
    (hst : StoredWell st sym) {n : Str} (hn : n ≠ []) (g : UInt8) :
    StandsFor ((addSymbol st sym (0xDF00 + f.toUInt16)).2.map reread) n g ↔
      if SameName n (stored sym) then g = f else StandsFor st n g := by
  have haddr : (0xDF00 + f.toUInt16 : UInt16).toNat = 0xDF00 + f.toNat := by
    have := f.toNat_lt
    rw [UInt16.toNat_add]
    have e : (0xDF00 : UInt16).toNat = 0xDF00 := rfl
    rw [e, UInt8.toNat_toUInt16]
    omega
  have ha : (0xDF00 + f.toUInt16 : UInt16) ≠ 0 := by
    intro e
    rw [e] at haddr
    simp at haddr
    omega
  obtain ⟨k, hk, hkl, hwhere⟩ := h.keys_add ha hok
  have hst : SameName (stored sym) sym ∨ ∀ s ∈ st, s.address ≠ 0 → ¬ SameName s.name (stored sym) := by
    refine hst.imp (fun hl => ?_) id
    rw [stored_eq, List.filter_eq_self.2 fun c hc => by
      unfold alnum
      rcases hl.2.2.1 c hc with h | h <;> rw [h] <;> simp]
    exact upper_upper sym
  rw [standsFor_byName, byName_eq, hk]
  by_cases hs : SameName n (stored sym)
  · rw [if_pos hs, lookup_set_hit (by rw [keys_length]; exact hkl) (equalFold_iff.2 hs)]
    · rw [haddr]
      constructor
      · rintro ⟨_, e⟩
        apply UInt8.toNat_inj.1
        omega
      · rintro rfl; exact ⟨hf, rfl⟩
    · intro j hj x hx
      rw [keys_getElem?] at hx
      cases hy : st[j]? with
      | none => rw [hy] at hx; simp at hx
      | some y =>
        rw [hy] at hx
        simp only [Option.map_some, Option.some.injEq] at hx
        subst hx
        rw [equalFold_false]
        intro hc
        have hc : SameName y.name (stored sym) := hc.symm.trans hs
        have hym := List.mem_of_getElem? hy
        rcases hst with hst | hst
        · have hc := hc.trans hst
          rcases hwhere with ⟨s, hat⟩ | ⟨hno, _⟩
          · exact hat.2.2 j y hj hy hc
          · exact hno y hym hc
        · by_cases h0 : y.address = 0
          · have := h.unused y hym h0
            rw [this] at hc
            exact hn (sameName_nil.1 (hs.trans hc.symm))
          · exact hst y hym h0 hc
  · rw [if_neg hs, lookup_set_miss (equalFold_false.2 hs), ← byName_eq, ← standsFor_byName]
    intro x hx
    rw [keys_getElem?] at hx
    cases hy : st[k]? with
    | none => rw [hy] at hx; simp at hx
    | some y =>
      rw [hy] at hx
      simp only [Option.map_some, Option.some.injEq] at hx
      subst hx
      rw [equalFold_false]
      intro hc
      change SameName n y.name at hc
      have hym := List.mem_of_getElem? hy
      rcases hwhere with ⟨s, hat⟩ | ⟨_, ⟨s, h1, h2⟩, _⟩
      · have := hat.1
        rw [hy] at this
        cases this
        have e := stored_same hat.2.1 (h.names y hym)
        rw [e] at hs
        exact hs hc
      · rw [hy] at h1
        cases h1
        have := h.unused y hym h2
        rw [this] at hc
        exact hn (sameName_nil.1 hc)

/-- The names after a symbol was deleted from a table. -/
theorem names_deleted {st : SymbolTable} (h : FromDisk st) {name : Str} {b a : SymbolTable} {s : Symbol} (hf : FirstOf st name b s a)
    {n : Str} (hn : n ≠ []) (g : UInt8) :
    StandsFor ((deleteSymbol st name).2.map reread) n g ↔ if SameName n name then StandsFor a n g else StandsFor st n g := by
  have hk := h.keys_del hf
  obtain ⟨e, h2, h3⟩ := hf
  have look : ∀ (l : List (UInt16 × Str)), (∀ x ∈ l, equalFold n x.2 = false) → ∀ l', lookup (l ++ l') n = lookup l' n := by
    intro l hl l'
    unfold lookup
    rw [List.find?_append, List.find?_eq_none.2 (fun x hx => by rw [hl x hx]; simp)]
    rfl
  have cons : ∀ (x : UInt16 × Str) l', equalFold n x.2 = false → lookup (x :: l') n = lookup l' n := by
    intro x l' hx
    unfold lookup
    rw [List.find?_cons, hx]
  have hnil : equalFold n [] = false := equalFold_false.2 fun hc => hn (sameName_nil.1 hc)
  rw [standsFor_byName, byName_eq, hk]
  by_cases hs : SameName n name
  · rw [if_pos hs, standsFor_byName, byName_eq, look, cons _ _ hnil]
    intro x hx
    unfold keys at hx
    obtain ⟨t, ht, rfl⟩ := List.mem_map.1 hx
    exact equalFold_false.2 fun hc => h3 t ht (SameName.trans (SameName.symm hc) hs)
  · rw [if_neg hs, standsFor_byName, byName_eq, e]
    have e2 : keys (b ++ s :: a) = keys b ++ (s.address, s.name) :: keys a := by unfold keys; simp
    rw [e2]
    have hsn : equalFold n s.name = false := equalFold_false.2 fun hc => hs (SameName.trans hc h2)
    have : ∀ l : List (UInt16 × Str), lookup (l ++ (0, []) :: keys a) n = lookup (l ++ (s.address, s.name) :: keys a) n := by
      intro l
      unfold lookup
      rw [List.find?_append, List.find?_append, List.find?_cons, List.find?_cons, hnil, hsn]
    rw [this]

/-- What the operator's put does with a name. -/
theorem putFile_is {o : Operator} (h : Good o.sm o.data) {name : Str} {data : Bytes} {ow : Bool} {a : UInt16}
    (hok : (o.putFile ⟨{ name := name, length := data.length, type := filetypeBinary }, data, a⟩ ow).out = .ok ())
    {f : UInt8} {sym : Str} (hm : PutMeans (fileOnDisk o.data) o.table name f sym) :
    ∃ nf, o.putFile ⟨{ name := name, length := data.length, type := filetypeBinary }, data, a⟩ ow = o.putNumbered f nf sym data ow ∧
      (sym ≠ [] → (nf = f ↔ StandsFor o.table sym f)) := by
  unfold Operator.putFile at hok ⊢
  rw [if_neg (by simp), if_neg (by simp)] at hok ⊢
  dsimp only at hok ⊢
  rcases compound_means (fileOnDisk o.data) o.table name with ⟨n, nf, sym', hc, hm', hs⟩ | ⟨hc, hm'⟩
  swap
  · exact absurd hm (hm' f sym)
  rw [hc] at hok ⊢
  dsimp only at hok ⊢
  obtain ⟨rfl, hnum⟩ := (hm' f sym).1 hm
  split at hok
  · simp at hok
  · rename_i c1
    rw [if_neg c1]
    split at hok
    · simp at hok
    · rename_i c2
      rw [if_neg c2]
      have e : (if n = 0 then firstFreeFile o.sm else n) = f := by
        by_cases e : n = 0
        · rw [if_pos e] at hnum ⊢
          exact ((firstUnused_iff h f).1 hnum).2.symm
        · rw [if_neg e] at hnum ⊢
          exact hnum.symm
      rw [e] at hok ⊢
      rw [if_neg (putMeans_file hm).1]
      exact ⟨nf, rfl, hs f hm⟩

theorem fileAddress (f : UInt8) : (0xDF00 + f.toUInt16 : UInt16).toNat = 0xDF00 + f.toNat := by
  have := f.toNat_lt
  rw [UInt16.toNat_add]
  have e : (0xDF00 : UInt16).toNat = 0xDF00 := rfl
  rw [e, UInt8.toNat_toUInt16]
  omega

/-- What a put of numbered file does to the symbol table. -/
theorem putNumbered_fate {o : Operator} (h : Good o.sm o.data) (ho : openOperator o.data = .ok o) {f nf : UInt8} (hf : IsFileNumber f)
    {sym : Str} {data : Bytes} {ow : Bool} (hok : (o.putNumbered f nf sym data ow).out = .ok ()) :
    Good (o.putNumbered f nf sym data ow).op.sm (o.putNumbered f nf sym data ow).op.data ∧
    (nf = f ∨ sym = [] → f ≠ 3 → f ≠ 4 →
      tableOn (o.putNumbered f nf sym data ow).op.sm (o.putNumbered f nf sym data ow).op.data = o.st) ∧
    (nf ≠ f → sym ≠ [] → ∃ st, o.st = some st ∧ FromDisk st ∧ (addSymbol st sym (0xDF00 + f.toUInt16)).1 = .ok () ∧
      (AddingSpoils st sym (0xDF00 + f.toUInt16) →
        tableOn (o.putNumbered f nf sym data ow).op.sm (o.putNumbered f nf sym data ow).op.data = none) ∧
      (¬ AddingSpoils st sym (0xDF00 + f.toUInt16) →
        tableOn (o.putNumbered f nf sym data ow).op.sm (o.putNumbered f nf sym data ow).op.data =
          some ((addSymbol st sym (0xDF00 + f.toUInt16)).2.map reread))) := by
  obtain ⟨hg2, hcase⟩ := putNumbered_ok h hf hok
  refine ⟨hg2, ?_, ?_⟩
  · intro hor h3 h4
    have hnp : (writeFile o.sm o.data f data ow).out ≠ .panic := by
      intro hc
      have := putNumbered_panic (nf := nf) (sym := sym) hc
      rw [hok] at this
      simp at this
    have hk : Keep (· = f) o.sm o.data (o.putNumbered f nf sym data ow).op.sm (o.putNumbered f nf sym data ow).op.data := by
      have hk := keep_writeFile h hf hnp
      unfold Operator.putNumbered
      simp only
      split
      · rw [if_neg (fun h => hor.elim (fun e => h.1 e) (fun e => h.2 e))]
        exact hk
      · exact hk
    rw [tableOn_congr h hg2 (hk.bytes 3 isFile3 (fun h => h3 h.symm)) (hk.bytes 4 isFile4 (fun h => h4 h.symm)), ← opened_table h ho]
  · intro hnf hs0
    rcases hcase with ⟨hor, _⟩ | ⟨_, _, st, hst, hadd, hst', _⟩
    · rcases hor with e | e
      · exact absurd e hnf
      · exact absurd e hs0
    have hd := opened_fromDisk ho hst
    refine ⟨st, hst, hd, hadd, ?_⟩
    have hlive := hd.live hs0
    have hre := readable_add hd.readable hlive hadd
    have hrange := hd.range_add hlive (0xDF00 + f.toUInt16)
    have hlen : (addSymbol st sym (0xDF00 + f.toUInt16)).2.length = 819 := by rw [addSymbol_length]; exact hd.length
    have hw : (writeFile o.sm o.data f data ow).out = .ok () := by
      unfold Operator.putNumbered at hok
      simp only at hok
      split at hok
      · assumption
      · exact hok
    have hk := keep_writeFile h hf (c := data) (ow := ow) (by rw [hw]; simp)
    unfold Operator.putNumbered at hok ⊢
    simp only [hw, if_pos (And.intro hnf hs0), hst] at hok ⊢
    rcases hx : addSymbol st sym (0xDF00 + f.toUInt16) with ⟨out, st'⟩
    rw [hx] at hadd hok hre hrange hlen
    simp only at hadd hre hrange hlen
    subst hadd
    simp only at hok ⊢
    obtain ⟨k1, k2⟩ := tableOn_written hk.good hlen hrange hok
    rw [hre] at k1 k2
    exact ⟨fun e => k2 (not_not.2 e), k1⟩

/-- What a delete does to the symbol table. -/
theorem delete_fate {o : Operator} (h : Good o.sm o.data) (ho : openOperator o.data = .ok o) {name : Str}
    (hok : (o.delete name).out = .ok ()) :
    ∃ f, NameOf o.table name f ∧ Good (o.delete name).op.sm (o.delete name).op.data ∧
    ((∀ s ∈ o.table, ¬ SameName s.name name) →
      (f ≠ 3 → f ≠ 4 → tableOn (o.delete name).op.sm (o.delete name).op.data = o.st) ∧
      (f = 3 ∨ f = 4 → tableOn (o.delete name).op.sm (o.delete name).op.data = none)) ∧
    ((∃ s ∈ o.table, SameName s.name name) → ∃ st, o.st = some st ∧ FromDisk st ∧
      (DeletingSpoils st name → tableOn (o.delete name).op.sm (o.delete name).op.data = none) ∧
      (¬ DeletingSpoils st name → tableOn (o.delete name).op.sm (o.delete name).op.data = some ((deleteSymbol st name).2.map reread))) := by
  obtain ⟨f, hn, _, hcase⟩ := delete_split h hok
  have hf := fileForName_file hn
  obtain ⟨hp, hk⟩ := keep_delete h hf
  have hg2 := (good_op_delete h name).1
  refine ⟨f, (nameOf_iff f).1 hn, hg2, ?_, ?_⟩
  · intro hno
    rcases hcase with ⟨_, e⟩ | ⟨st, hst, ⟨s, hs, hs'⟩, _⟩
    swap
    · exact absurd hs'.symm (hno s (by unfold Operator.table; rw [hst]; exact hs))
    rw [e]
    rw [e] at hg2
    dsimp only at hg2 ⊢
    constructor
    · intro h3 h4
      rw [tableOn_congr h hg2 (hk.bytes 3 isFile3 (fun h => h3 h.symm)) (hk.bytes 4 isFile4 (fun h => h4 h.symm)), ← opened_table h ho]
    · intro hor
      apply tableOn_none
      intro t ht
      have hself := ownedBy_deleteFile_self o.sm hf.2.2
      have hz : fileBytes (own (deleteFile o.sm f)) (put o.data 2512 (deleteFile o.sm f).toList) f = [] := by
        unfold fileBytes
        rw [hself]; rfl
      rw [readSymbolTable_eq hg2.len] at ht
      unfold tableOf at ht
      split at ht
      · rename_i h1
        rcases hor with rfl | rfl
        · rw [hz] at h1; simp at h1
        · split at ht
          · rename_i h2; rw [hz] at h2; simp at h2
          · simp at ht
      · simp at ht
  · rintro ⟨s, hs, hs'⟩
    rcases hcase with ⟨hno, _⟩ | ⟨st, hst, _, hw, e⟩
    · exact absurd hs'.symm (hno s hs)
    have hd := opened_fromDisk ho hst
    have htab : o.table = st := by unfold Operator.table; rw [hst]; rfl
    refine ⟨st, hst, hd, ?_⟩
    have hlive : ∀ i t, NamedAt st name i t → t.address ≠ 0 := by
      by_cases h0 : name = []
      · subst h0
        intro i t hat
        have hso := (nameOf_iff f).1 hn
        rw [htab] at hso
        rcases hso with hnum | ⟨_, hsf⟩
        · have := (parseAddressFilename_iff hnum.1.1).2 hnum
          exact absurd this.symm hnum.1.1
        · obtain ⟨_, b, x, a, ⟨e1, e2, e3⟩, e4⟩ := hsf
          have hat' : NamedAt st [] b.length x := by
            rw [e1]
            refine ⟨by simp, e2, fun k t hk ht => ?_⟩
            rw [List.getElem?_append_left hk] at ht
            exact e3 t (List.mem_of_getElem? ht)
          obtain ⟨q1, q2⟩ := namedAt_iff.1 hat
          obtain ⟨q3, q4⟩ := namedAt_iff.1 hat'
          rw [q1] at q3
          cases q3
          rw [q2] at q4
          cases q4
          intro hz
          rw [hz] at e4
          simp at e4
          omega
      · exact hd.live h0
    have hre := readable_delete hd.readable hlive
    have hrange := hd.range_delete hlive
    have hlen : (deleteSymbol st name).2.length = 819 := by rw [deleteSymbol_length]; exact hd.length
    obtain ⟨k1, k2⟩ := tableOn_written hk.good hlen hrange hw
    rw [hre] at k1 k2
    rw [e]
    exact ⟨fun e => k2 (not_not.2 e), k1⟩

end Verif.Supermon

namespace Verif.Cmd
open Disk Spec Supermon

theorem set_core {env : Env} {raw : Bytes} {image order system : Str} {o : Supermon.Operator} {ord : DiskOrder}
    (hi : image ≠ str "-") (hopen : openImage raw image order system (factories env) = .ok (.nakedos o, ord)) {name : Str} {data : Bytes}
    {ow : Bool} {a : UInt16}
    (hok : (o.putFile ⟨{ name := name, length := data.length, type := filetypeBinary }, data, a⟩ ow).out = .ok ()) {new : Bytes}
    (hw : writeBackBytes (AnyOp.nakedos
      (o.putFile ⟨{ name := name, length := data.length, type := filetypeBinary }, data, a⟩ ow).op) ord = .ok new) {w' : World}
    (hnew : w'.files image = some new) {f : UInt8} {sym : Str} (hm : PutMeans (fileOnDisk o.data) o.table name f sym) :
    ∃ o', Finds env w' image ord (str "nakedos") (.nakedos o') ord ∧
      (sym = [] ∨ StandsFor o.table sym f → f ≠ 3 → f ≠ 4 → o'.st = o.st) ∧
      (sym ≠ [] → ¬ StandsFor o.table sym f → SymbolSet o.st o'.st sym f) := by
  have hnk := open_naked hopen
  have hop := hnk.opened
  rw [← hnk.data] at hop
  obtain ⟨nf, e, hnf⟩ := Supermon.putFile_is hnk.good hok hm
  rw [e] at hok hw
  have hf := Supermon.putMeans_file hm
  obtain ⟨g1, g2, g3⟩ := Supermon.putNumbered_fate hnk.good hop hf hok
  obtain ⟨hbl, hv⟩ := written_view g1.len hnk.order hw
  have ho2 := Supermon.open_of_good g1
  have ho3 := open_explicit (env := env) hbl hnk.order (by rw [hv]; exact ho2) image
  refine ⟨_, ⟨new, by unfold given; rw [if_neg hi]; exact hnew, by rw [if_neg hi]; exact ho3⟩, ?_, ?_⟩
  · intro hor
    refine g2 ?_
    rcases hor with hs | hs
    · exact Or.inr hs
    · by_cases e0 : sym = []
      · exact Or.inr e0
      · exact Or.inl ((hnf e0).2 hs)
  · intro hs hns
    obtain ⟨st, k1, k2, k3, k4, k5⟩ := g3 (fun e => hns ((hnf hs).1 e)) hs
    exact ⟨st, k1, k4, fun hno => ⟨_, k5 hno, fun hw n hn g => Supermon.names_added k2 hf k3 hw hn g⟩⟩

/-- C103: what becomes of the names on a NakedOS disk when something is put there under the name `name`, which means the file `f` and the
symbol `sym`.  Without a new symbol the symbol table stays as it was.  With one, it stands for `f` afterwards and the others for what they
stood for, or none for anything. -/
theorem C103_put {env : Env} {w : World} {image order system : Str} {o : Supermon.Operator} {ord : DiskOrder}
    (hi : image ≠ str "-") (ho : Finds env w image order system (.nakedos o) ord) {source ty name : Str} {ow : Bool} {a : UInt16}
    (hok : (run env (.put order system ty ow a image name source) w).1 = .ok ())
    {f : UInt8} {sym : Str} (hm : PutMeans (fileOnDisk o.data) o.table name f sym) :
    ∃ o', Finds env (run env (.put order system ty ow a image name source) w).2 image ord (str "nakedos") (.nakedos o') ord ∧
      (sym = [] ∨ StandsFor o.table sym f → f ≠ 3 → f ≠ 4 → o'.st = o.st) ∧
      (sym ≠ [] → ¬ StandsFor o.table sym f → SymbolSet o.st o'.st sym f) := by
  obtain ⟨raw, hg, hopen⟩ := ho
  unfold given at hg
  rw [if_neg hi] at hg hopen
  obtain ⟨raw', o', ord', data', ft, new, h1, h2, h3, h4, h5, h6, h7⟩ := put_inv_type hi hok
  rw [hg] at h1
  cases h1
  rw [hopen] at h2
  cases h2
  have hft := (Supermon.putFile_checks h4).1
  dsimp only at hft
  subst hft
  exact set_core hi hopen h4 h5 h6 hm

/-- C103: a new symbol of letters and digits is found after a successful put exactly if adding it does not spoil the table. -/
theorem C103_found_iff {env : Env} {w : World} {image order system : Str} {o : Supermon.Operator} {ord : DiskOrder}
    (hi : image ≠ str "-") (ho : Finds env w image order system (.nakedos o) ord) {source ty name : Str} {ow : Bool} {a : UInt16}
    (hok : (run env (.put order system ty ow a image name source) w).1 = .ok ())
    {f : UInt8} {sym : Str} (hm : PutMeans (fileOnDisk o.data) o.table name f sym) (hs : LegalName sym) (hnew : ¬ StandsFor o.table sym f) :
    ∃ o', Finds env (run env (.put order system ty ow a image name source) w).2 image ord (str "nakedos") (.nakedos o') ord ∧
      (StandsFor o'.table sym f ↔ ¬ AddingSpoils o.table sym (0xDF00 + f.toUInt16)) := by
  have hs0 : sym ≠ [] := by
    rintro rfl
    have := hs.1
    simp at this
  obtain ⟨o', h1, _, h3⟩ := C103_put hi ho hok hm
  obtain ⟨st, e, h4, h5⟩ := h3 hs0 hnew
  have htab : o.table = st := by unfold Supermon.Operator.table; rw [e]; rfl
  refine ⟨o', h1, ?_⟩
  rw [htab]
  have hsame : SameName sym (stored sym) := by
    rw [Supermon.stored_eq, List.filter_eq_self.2 fun c hc => by
      unfold Supermon.alnum
      rcases hs.2.2.1 c hc with h | h <;> rw [h] <;> simp]
    exact (Supermon.upper_upper sym).symm
  constructor
  · intro hf hsp
    have := h4 hsp
    obtain ⟨_, b, x, a, ⟨e2, _⟩, _⟩ := hf
    unfold Supermon.Operator.table at e2
    rw [this] at e2
    simp at e2
  · intro hno
    obtain ⟨st', k1, k2⟩ := h5 hno
    have htab' : o'.table = st' := by unfold Supermon.Operator.table; rw [k1]; rfl
    rw [htab', k2 (Or.inl hs) sym hs0 f, if_pos hsame]

/-- C103: what becomes of the names when `mkhello` succeeds: FHELLO stands for file 1 afterwards and the other symbols for what they stood for,
or none for anything. -/
theorem C103_mkhello {env : Env} {w : World} {image order : Str} {o : Supermon.Operator} {ord : DiskOrder}
    (hi : image ≠ str "-") (ho : Finds env w image order (str "auto") (.nakedos o) ord) {name : Str} {a s : UInt16}
    (hok : (run env (.mkhello order image name a s) w).1 = .ok ()) :
    ∃ o', Finds env (run env (.mkhello order image name a s) w).2 image ord (str "nakedos") (.nakedos o') ord ∧
      (StandsFor o.table (str "FHELLO") 1 → o'.st = o.st) ∧
      (¬ StandsFor o.table (str "FHELLO") 1 → SymbolSet o.st o'.st (str "FHELLO") 1) := by
  obtain ⟨raw, hg, hopen⟩ := ho
  unfold given at hg
  rw [if_neg hi] at hg hopen
  obtain ⟨_, _, raw', o', ord', f, new, h1, h2, _, h4, h5, h6⟩ := mkhello_inv hi hok
  rw [hg] at h1
  cases h1
  rw [hopen] at h2
  cases h2
  have hm : PutMeans (fileOnDisk o.data) o.table (str "DF01:FHELLO") 1 (str "FHELLO") := by
    refine Or.inr (Or.inr ⟨str "DF01", by decide +kernel, (Supermon.parseAddressFilename_iff (by decide)).1 (by decide +kernel), by decide +kernel, ?_⟩)
    intro g hg
    have := (Supermon.parseAddressFilename_iff hg.1.1).2 hg
    rw [show Supermon.parseAddressFilename (str "FHELLO") = 0 by decide +kernel] at this
    exact hg.1.1 this.symm
  obtain ⟨o', k1, k2, k3⟩ := set_core hi hopen h4 h5 h6 hm
  exact ⟨o', k1, fun h => k2 (Or.inr h) (by decide) (by decide), k3 (by decide +kernel)⟩

/-- C103: what becomes of the names on a NakedOS disk when `rm` deletes the file `f` by the name `name`.  If no symbol has this name, the
symbol table stays as it was, or is gone if the file was one of its two.  Otherwise, if deleting it spoils the table, nothing is a symbol any
more; and if it does not, this name stands for what the entries after the first with this name say, and all other symbols stand for what
they stood for. -/
theorem C103_rm {env : Env} {w : World} {image order system : Str} {o : Supermon.Operator} {ord : DiskOrder}
    (hi : image ≠ str "-") (ho : Finds env w image order system (.nakedos o) ord) {name : Str} {m : Bool}
    (hok : (run env (.rm order system m image name) w).1 = .ok ()) {f : UInt8} (hm : NameOf o.table name f) :
    ∃ o', Finds env (run env (.rm order system m image name) w).2 image ord (str "nakedos") (.nakedos o') ord ∧
      ((∀ s ∈ o.table, ¬ SameName s.name name) → o'.st = if f = 3 ∨ f = 4 then none else o.st) ∧
      (∀ before s after, FirstOf o.table name before s after → ∃ st, o.st = some st ∧
        (DeletingSpoils st name → o'.st = none) ∧
        (¬ DeletingSpoils st name → ∃ st', o'.st = some st' ∧
          ∀ n, n ≠ [] → ∀ g, StandsFor st' n g ↔ if SameName n name then StandsFor after n g else StandsFor st n g)) := by
  obtain ⟨raw, hg, hopen⟩ := ho
  unfold given at hg
  rw [if_neg hi] at hg hopen
  have hnk := open_naked hopen
  have hop := hnk.opened
  rw [← hnk.data] at hop
  obtain ⟨raw', o', ord', new, h1, h2, h3, h4, h5, h6⟩ := rm_inv hi hok
  rw [hg] at h1
  cases h1
  rw [hopen] at h2
  cases h2
  obtain ⟨f', n1, g1, g2, g3⟩ := Supermon.delete_fate hnk.good hop h3
  have hff : f' = f := by
    have e1 := (Supermon.nameOf_iff f').2 n1
    rw [(Supermon.nameOf_iff f).2 hm] at e1
    cases e1
    rfl
  subst hff
  obtain ⟨hbl, hv⟩ := written_view g1.len hnk.order h5
  have ho2 := Supermon.open_of_good g1
  have ho3 := open_explicit (env := env) hbl hnk.order (by rw [hv]; exact ho2) image
  refine ⟨_, ⟨new, by unfold given; rw [if_neg hi]; exact h6, by rw [if_neg hi]; exact ho3⟩, ?_, ?_⟩
  · intro hno
    obtain ⟨k1, k2⟩ := g2 hno
    by_cases hc : f' = 3 ∨ f' = 4
    · rw [if_pos hc]; exact k2 hc
    · rw [if_neg hc]
      rw [not_or] at hc
      exact k1 hc.1 hc.2
  · intro b s a hfo
    obtain ⟨st, k1, k2, k3, k4⟩ := g3 ⟨s, by rw [hfo.1]; simp, hfo.2.1⟩
    have htab : o.table = st := by unfold Supermon.Operator.table; rw [k1]; rfl
    rw [htab] at hfo
    exact ⟨st, k1, k3, fun hno => ⟨_, k4 hno, fun n hn g => Supermon.names_deleted k2 hfo hn g⟩⟩

end Verif.Cmd

namespace Verif.Supermon
open Disk Spec

theorem chainTable_foo_fits : ¬ AddingSpoils chainTable (str "FOO") (0xDF00 + (5 : UInt8).toUInt16) := by
  rintro (⟨i, s, h, _⟩ | ⟨_, p, j, t, ⟨⟨x, h1, h2⟩, _⟩, ⟨h3, _, h4, h5⟩, _⟩)
  · exact chainTable_noFoo s (List.mem_of_getElem? h.1) h.2.1.symm
  · rcases chainTable_get j t h3 with ⟨_, rfl⟩ | ⟨_, rfl⟩ | rfl
    · simp only at h5; omega
    · have : p = 0 := by simp only at h5; omega
      subst this
      rcases chainTable_get 0 x h1 with ⟨_, rfl⟩ | ⟨h, _⟩ | rfl
      · exact absurd h2 (by decide)
      · exact absurd h (by decide)
      · have h0 : chainTable[0]? = some ⟨1, str "AAA", -1⟩ := by unfold chainTable; rfl
        rw [h0] at h1
        exact absurd (Option.some.inj h1) (by decide +kernel)
    · exact h4 rfl

theorem chainTable_aaa_spoils : AddingSpoils chainTable (str "AAA") (0xDF00 + (5 : UInt8).toUInt16) := by
  have h0 : chainTable[0]? = some ⟨1, str "AAA", -1⟩ := by unfold chainTable; rfl
  have h1 : chainTable[1]? = some ⟨0, [], 0⟩ := by unfold chainTable; rfl
  have h2 : chainTable[2]? = some ⟨0x100, str "BBB", 0⟩ := by unfold chainTable; rfl
  refine Or.inl ⟨0, _, ⟨h0, SameName.refl _, fun k t hk => absurd hk (by omega)⟩, by decide +kernel, ?_⟩
  exact ⟨_, 2, _, h0, ⟨h2, by decide, by decide, rfl⟩, Or.inl ⟨⟨1, _, by decide, by decide, h1, rfl⟩, by decide +kernel⟩⟩

theorem dfab_fits : ¬ DeletingSpoils dfabTable (str "DFAB") := by
  rintro ⟨i, s, _, s', j, t, _, ⟨h1, _, h2, h3⟩, _⟩
  rcases dfabTable_get j t h1 with ⟨_, rfl⟩ | rfl
  · simp only at h3; omega
  · exact h2 rfl

theorem means_number_symbol (m : Files) (st : SymbolTable) {a sym : Str} {f : UInt8} (ha : NumericName a f) (hc : (0x3A : UInt8) ∉ sym)
    (hn : parseAddressFilename sym = 0) : PutMeans m st (a ++ 0x3A :: sym) f sym :=
  Or.inr (Or.inr ⟨a, rfl, ha, hc, (parse_zero_iff sym).1 hn⟩)

end Verif.Supermon

namespace Verif.Cmd
open Disk Spec Supermon

/-- Non-vacuity of C103: a put of "DF05:FOO" that adds a symbol to a table without spoiling it. -/
example (env : Env) : ∃ w o, Finds env w (str "a.do") (str "do") (str "nakedos") (.nakedos o) orderDO ∧
    (run env (.put (str "do") (str "nakedos") (str "B") true 0 (str "a.do") (str "DF05:FOO") (str "src")) w).1 = .ok () ∧
    PutMeans (fileOnDisk o.data) o.table (str "DF05:FOO") 5 (str "FOO") ∧ LegalName (str "FOO") ∧ ¬ StandsFor o.table (str "FOO") 5 ∧
    ¬ AddingSpoils o.table (str "FOO") (0xDF00 + (5 : UInt8).toUInt16) := by
  obtain ⟨img, sm, hg, ho, hroom⟩ := tabled
  have e := tabled_split (str "DF05:FOO") (str "FOO") 5 (by decide)
    (chainTable_foo (str "DF05") 5 (by decide +kernel) (by decide +kernel) (by decide)) (by decide +kernel) sm img [1, 2, 3] true
  obtain ⟨h1, h2⟩ := put_new_symbol' (data := [1, 2, 3]) hg chainTable_sound
    (name := str "FOO") (by decide +kernel) chainTable_noFoo
    ⟨⟨0, [], 0⟩, List.mem_of_getElem? (i := 1) (by unfold chainTable; rfl), rfl⟩ hroom
    (f := 5) (by unfold IsFileNumber; decide) (by simp) (by simp)
  rw [← e] at h1 h2
  have hi : str "a.do" ≠ str "-" := by decide +kernel
  refine ⟨diskWorld img, ⟨img, sm, some chainTable⟩, ⟨viewOf orderRaw orderDO img, by unfold given; rw [if_neg hi]; unfold diskWorld; simp only [if_true],
    by rw [if_neg hi]; exact diskWorld_open hg.len ho⟩, ?_, ?_, by decide +kernel, ?_, chainTable_foo_fits⟩
  · rw [diskWorld_put hg.len ho h1 h2.len]
  · exact means_number_symbol (a := str "DF05") _ _ ((parseAddressFilename_iff (by decide)).1 (by decide +kernel)) (by decide +kernel) (by decide +kernel)
  · rintro ⟨_, b, s, a, ⟨e1, e2, _⟩, _⟩
    exact chainTable_noFoo s (by change chainTable = _ at e1; rw [e1]; simp) e2.symm

/-- Non-vacuity of C103: a put of "DF05:AAA" after which no symbol is left. -/
example (env : Env) : ∃ w o, Finds env w (str "a.do") (str "do") (str "nakedos") (.nakedos o) orderDO ∧
    (run env (.put (str "do") (str "nakedos") (str "B") true 0 (str "a.do") (str "DF05:AAA") (str "src")) w).1 = .ok () ∧
    PutMeans (fileOnDisk o.data) o.table (str "DF05:AAA") 5 (str "AAA") ∧ LegalName (str "AAA") ∧
    AddingSpoils o.table (str "AAA") (0xDF00 + (5 : UInt8).toUInt16) := by
  obtain ⟨img, sm, hg, hopen, hroom⟩ := tabled
  obtain ⟨h1, h2, h3⟩ := tabled_aaa hg hroom
  have hi : str "a.do" ≠ str "-" := by decide +kernel
  refine ⟨diskWorld img, ⟨img, sm, some chainTable⟩, ⟨viewOf orderRaw orderDO img, by unfold given; rw [if_neg hi]; unfold diskWorld; simp only [if_true],
    by rw [if_neg hi]; exact diskWorld_open hg.len hopen⟩, ?_, ?_, by decide +kernel, chainTable_aaa_spoils⟩
  · rw [diskWorld_put hg.len hopen h1 h2.len]
  · exact means_number_symbol (a := str "DF05") _ _ ((parseAddressFilename_iff (by decide)).1 (by decide +kernel)) (by decide +kernel) (by decide +kernel)

/-- Non-vacuity of C103 for `rm`: the name is that of a file that is not there, and also a symbol, which is deleted. -/
example (env : Env) : ∃ w o b s a, Finds env w (str "a.do") (str "do") (str "nakedos") (.nakedos o) orderDO ∧
    (run env (.rm (str "do") (str "nakedos") true (str "a.do") (str "DFAB")) w).1 = .ok () ∧ NameOf o.table (str "DFAB") 0xAB ∧
    FirstOf o.table (str "DFAB") b s a ∧ ¬ DeletingSpoils o.table (str "DFAB") := by
  obtain ⟨img, sm, hg, ho, _, _⟩ := dfab_disk
  have hi : str "a.do" ≠ str "-" := by decide +kernel
  have hfi : Finds env (diskWorld img) (str "a.do") (str "do") (str "nakedos") (.nakedos ⟨img, sm, some dfabTable⟩) orderDO :=
    ⟨viewOf orderRaw orderDO img, by unfold given; rw [if_neg hi]; unfold diskWorld; simp only [if_true], by rw [if_neg hi]; exact diskWorld_open hg.len ho⟩
  have hn : NameOf dfabTable (str "DFAB") 0xAB := (nameOf_iff _).1 (dfab_numeric _)
  have hfo : FirstOf dfabTable (str "DFAB") [] ⟨0xDF03, str "DFAB", -1⟩ (List.replicate 818 Symbol.empty) :=
    ⟨rfl, SameName.refl _, fun t ht => absurd ht (by simp)⟩
  refine ⟨_, _, [], _, _, hfi, (C94_rm hi hfi).2 ⟨0xAB, hn, Or.inr rfl, ?_⟩, hn, hfo, dfab_fits⟩
  intro b s a h e he
  obtain ⟨rfl, rfl, rfl⟩ := firstOf_unique hfo h
  simp only [List.nil_append] at he
  rw [(List.mem_replicate.1 he).2]
  exact Or.inl rfl

end Verif.Cmd
