import Verif.Props.PutAny

/-!
# C80 and C91 for contents without bytes, on every NakedOS disk
-/

set_option autoImplicit false

namespace Verif.Supermon
open Disk Spec

/-- The operator's put gets as far as writing exactly if the name says where to, and a symbol can be stored. -/
theorem putFile_reaches {o : Operator} (h : Good o.sm o.data) {name : Str} {data : Bytes} {ow : Bool} {a : UInt16} {x : Out Unit}
    (hx : ∀ k, x ≠ .err k) :
    (o.putFile ⟨{ name := name, length := data.length, type := filetypeBinary }, data, a⟩ ow).out = x ↔
      ∃ f sym nf, PutMeans (fileOnDisk o.data) o.table name f sym ∧ IsFileNumber f ∧ Storable sym ∧
        (sym ≠ [] → ∃ st, o.st = some st ∧ (nf = f ↔ StandsFor st sym f)) ∧ (o.putNumbered f nf sym data ow).out = x := by
  unfold Operator.putFile
  rw [if_neg (by simp), if_neg (by simp)]
  dsimp only
  rcases compound_means (fileOnDisk o.data) o.table name with ⟨n, nf, sym, hc, hm, hs⟩ | ⟨hc, hm⟩
  swap
  · rw [hc]
    constructor
    · intro e; exact absurd e.symm (hx _)
    · rintro ⟨f, sym, nf, e, _⟩; exact absurd e (hm f sym)
  rw [hc]
  dsimp only
  by_cases c1 : sym ≠ [] ∧ o.st = none
  · rw [if_pos c1]
    constructor
    · intro e; exact absurd e.symm (hx _)
    · rintro ⟨f, s, nf, e1, _, _, e2, _⟩
      obtain ⟨rfl, _⟩ := (hm f s).1 e1
      obtain ⟨st, e3, _⟩ := e2 c1.1
      rw [c1.2] at e3
      simp at e3
  rw [if_neg c1]
  by_cases c2 : sym ≠ [] ∧ (encodeSymbol sym).isErr = true
  · rw [if_pos c2]
    constructor
    · intro e; exact absurd e.symm (hx _)
    · rintro ⟨f, s, nf, e1, _, e3, _⟩
      obtain ⟨rfl, _⟩ := (hm f s).1 e1
      obtain ⟨six, e3⟩ := storable_encode.1 e3
      rw [e3] at c2
      simp [Out.isErr] at c2
  rw [if_neg c2]
  have hsym : Storable sym := by
    by_cases e : sym = []
    · exact Or.inl e
    · rw [storable_encode]
      cases hx : encodeSymbol sym with
      | ok six => exact ⟨six, rfl⟩
      | err k => rw [hx] at c2; exact absurd ⟨e, rfl⟩ c2
      | panic => rw [encodeSymbol_eq e] at hx; split at hx <;> simp at hx
      | timeout => rw [encodeSymbol_eq e] at hx; split at hx <;> simp at hx
  have hst : sym ≠ [] → ∃ st, o.st = some st ∧ o.table = st := by
    intro e
    cases h1 : o.st with
    | none => exact absurd ⟨e, h1⟩ c1
    | some st => exact ⟨st, rfl, by unfold Operator.table; rw [h1]; rfl⟩
  have hnum : ∀ f, (if n = 0 then FirstUnused (fileOnDisk o.data) f else f = n) ↔
      (if n = 0 then firstFreeFile o.sm else n) ≠ 0 ∧ f = if n = 0 then firstFreeFile o.sm else n := by
    intro f
    by_cases e : n = 0
    · rw [if_pos e, if_pos e]; exact firstUnused_iff h f
    · rw [if_neg e, if_neg e]; exact ⟨fun h => ⟨e, h⟩, fun h => h.2⟩
  have hm' : ∀ f s, PutMeans (fileOnDisk o.data) o.table name f s ↔
      s = sym ∧ (if n = 0 then firstFreeFile o.sm else n) ≠ 0 ∧ f = if n = 0 then firstFreeFile o.sm else n := by
    intro f s; rw [hm, hnum]
  clear hm hnum
  have hisf : (if n = 0 then firstFreeFile o.sm else n) ≠ 0 → IsFileNumber (if n = 0 then firstFreeFile o.sm else n) := by
    intro e
    by_cases e0 : n = 0
    · rw [if_pos e0] at e ⊢; exact firstFreeFile_file e
    · rw [if_neg e0]; exact filesForCompoundName_file hc e0
  generalize (if n = 0 then firstFreeFile o.sm else n) = num at hm' hisf ⊢
  by_cases c3 : num = 0
  · rw [if_pos c3]
    constructor
    · intro e; exact absurd e.symm (hx _)
    · rintro ⟨f, s, nf, e1, _⟩
      exact absurd c3 ((hm' f s).1 e1).2.1
  rw [if_neg c3]
  have hmean := (hm' num sym).2 ⟨rfl, c3, rfl⟩
  constructor
  · intro e
    refine ⟨num, sym, nf, hmean, hisf c3, hsym, fun k => ?_, e⟩
    obtain ⟨st, e1, e2⟩ := hst k
    refine ⟨st, e1, ?_⟩
    rw [← e2]
    exact hs num hmean k
  · rintro ⟨f, s, nf', e1, _, _, h3, h4⟩
    obtain ⟨rfl, _, rfl⟩ := (hm' f s).1 e1
    rw [← h4]
    -- the number the symbol stands for matters only where it is compared
    by_cases e : s = []
    · subst e
      unfold Operator.putNumbered
      simp
    · obtain ⟨st, k1, k2⟩ := h3 e
      obtain ⟨st', k3, k4⟩ := hst e
      rw [k1] at k3
      cases k3
      have := hs f hmean e
      rw [k4, ← k2] at this
      unfold Operator.putNumbered
      simp only [ne_eq, this]

theorem putMeans_file {m : Files} {st : SymbolTable} {name sym : Str} {f : UInt8} (h : PutMeans m st name f sym) : IsFileNumber f := by
  rcases h with ⟨h, _⟩ | ⟨_, _, _, h | ⟨_, h⟩⟩ | ⟨_, _, h, _⟩
  · exact h.1
  · exact h.1
  · exact h.1
  · exact h.1

/-- Writing nothing. -/
theorem writeEmpty_cases {sm : SectorMap} {img : Bytes} (hi : img.length = 143360) {f : UInt8} (hf : IsFileNumber f) (ow : Bool) :
    ((writeFile sm img f [] ow).out = .ok () ↔ ownedBy (own sm) f = [] ∧ ownedBy (own sm) 0xFF = []) ∧
    ((writeFile sm img f [] ow).out = .panic ↔
      (ow = true ∨ ownedBy (own sm) f = []) ∧ (ownedBy (own sm) f ≠ [] ∨ ownedBy (own sm) 0xFF ≠ [])) := by
  have hfree := ownedBy_deleteFile_free sm hf.2.2
  have hnil : ownedBy (own (deleteFile sm f)) 0xFF = [] ↔ ownedBy (own sm) f = [] ∧ ownedBy (own sm) 0xFF = [] := by
    rw [← List.length_eq_zero_iff, hfree, ← List.length_eq_zero_iff, ← List.length_eq_zero_iff]
    omega
  by_cases hx : ow = true ∨ ownedBy (own sm) f = []
  · rw [writeFile_empty hi hx]
    by_cases hc : ownedBy (own (deleteFile sm f)) 0xFF = []
    · rw [if_pos hc]
      have := hnil.1 hc
      simp [this]
    · rw [if_neg hc]
      rw [hnil] at hc
      simp only [reduceCtorEq, false_iff, true_iff]
      refine ⟨hc, hx, ?_⟩
      by_cases e : ownedBy (own sm) f = []
      · exact Or.inr fun e2 => hc ⟨e, e2⟩
      · exact Or.inl e
  · rw [not_or] at hx
    have e : (writeFile sm img f [] ow).out = .err .fileExists := by
      have how : ow = false := by simpa using hx.1
      subst how
      rw [writeFile_exists (by simp [Fits]) hx.2]
    rw [e]
    simp only [reduceCtorEq, false_iff]
    exact ⟨fun h => hx.2 h.1, fun h => h.1.elim hx.1 hx.2⟩

theorem putNumbered_empty {o : Operator} (h : Good o.sm o.data) (ho : openOperator o.data = .ok o) (hlen : o.table.length ≤ 819)
    {f nf : UInt8} {sym : Str} {ow : Bool} (hf : IsFileNumber f) (hsym : Storable sym) :
    ((o.putNumbered f nf sym [] ow).out = .ok () ↔
      ownedBy (own o.sm) f = [] ∧ ownedBy (own o.sm) 0xFF = [] ∧
      (nf ≠ f → sym ≠ [] → ∃ st, o.st = some st ∧ PlaceFor st sym ∧ ∀ e ∈ st, Storable e.name)) ∧
    ((o.putNumbered f nf sym [] ow).out = .panic ↔
      (ow = true ∨ ownedBy (own o.sm) f = []) ∧ (ownedBy (own o.sm) f ≠ [] ∨ ownedBy (own o.sm) 0xFF ≠ [])) := by
  obtain ⟨w1, w2⟩ := writeEmpty_cases (sm := o.sm) h.len hf ow
  by_cases hok : (writeFile o.sm o.data f [] ow).out = .ok ()
  swap
  · have hsame : (o.putNumbered f nf sym [] ow).out = (writeFile o.sm o.data f [] ow).out := by
      unfold Operator.putNumbered
      simp only
      split
      · rename_i e; exact absurd e hok
      · rfl
    rw [hsame, w2]
    refine ⟨⟨fun e => absurd e hok, fun e => absurd (w1.2 ⟨e.1, e.2.1⟩) hok⟩, Iff.rfl⟩
  obtain ⟨hab, hfr⟩ := w1.1 hok
  have hnp : (writeFile o.sm o.data f [] ow).out ≠ .panic := by rw [hok]; simp
  have hk := keep_writeFile (c := []) (ow := ow) h hf hnp
  have hg := hk.good
  have hsm : (writeFile o.sm o.data f [] ow).sm = o.sm := by
    rw [writeFile_empty h.len (Or.inr hab), deleteFile_absent hab, if_pos hfr]
  have hpanic : ¬ ((ow = true ∨ ownedBy (own o.sm) f = []) ∧ (ownedBy (own o.sm) f ≠ [] ∨ ownedBy (own o.sm) 0xFF ≠ [])) := by
    simp [hab, hfr]
  have hrest : ((o.putNumbered f nf sym [] ow).out = .ok () ↔
      (nf ≠ f → sym ≠ [] → ∃ st, o.st = some st ∧ PlaceFor st sym ∧ ∀ e ∈ st, Storable e.name)) ∧
      (o.putNumbered f nf sym [] ow).out ≠ .panic := by
    unfold Operator.putNumbered
    simp only
    rw [hok]
    dsimp only
    by_cases hc : nf ≠ f ∧ sym ≠ []
    · rw [if_pos hc]
      cases hst : o.st with
      | none =>
        dsimp only
        refine ⟨⟨fun e => by simp at e, fun e => ?_⟩, by simp⟩
        obtain ⟨st, e, _⟩ := e hc.1 hc.2
        simp at e
      | some st =>
        dsimp only
        have htab : o.table = st := by unfold Operator.table; rw [hst]; rfl
        rw [htab] at hlen
        have hz : ∀ s ∈ st, s.address = 0 → s.name = [] := by rw [← htab]; exact opened_unused ho
        obtain ⟨s3, s4⟩ := table_sizes h ho hst
        rw [hsm] at hg ⊢
        have hp := addSymbol_succeeds (st := st) (name := sym) (addr_ne_zero f)
        have hs := storable_add (st := st) (a := 0xDF00 + f.toUInt16) hz hsym
        have hr := addSymbol_returns st sym (0xDF00 + f.toUInt16)
        rcases hy : addSymbol st sym (0xDF00 + f.toUInt16) with ⟨out, st'⟩
        rw [hy] at hp hs hr
        dsimp only at hp hs hr
        by_cases ho' : out = .ok ()
        · subst ho'
          obtain ⟨hl, hs⟩ := hs rfl
          have hw := writeSymbolTable_iff hg (st := st') (by omega) (by omega) (by omega)
          have hwr := writeSymbolTable_returns hg (st := st') (by omega)
          dsimp only
          refine ⟨?_, fun e => by rw [e] at hwr; simp at hwr⟩
          rw [hw, hs]
          constructor
          · intro e _ _; exact ⟨st, rfl, hp.1 rfl, e⟩
          · intro e
            obtain ⟨st', e1, _, e2⟩ := e hc.1 hc.2
            cases e1
            exact e2
        · have hout : out = .err .other := hr.resolve_left ho'
          subst hout
          dsimp only
          refine ⟨⟨fun e => by simp at e, fun e => ?_⟩, by simp⟩
          obtain ⟨st', e1, e2, _⟩ := e hc.1 hc.2
          cases e1
          exact absurd (hp.2 e2) ho'
    · rw [if_neg hc]
      refine ⟨?_, by simp⟩
      simp only [true_iff]
      intro h1 h2
      exact absurd ⟨h1, h2⟩ hc
  refine ⟨?_, fun e => absurd e hrest.2, fun e => absurd e hpanic⟩
  rw [hrest.1]
  exact ⟨fun e => ⟨hab, hfr, e⟩, fun e => e.2.2⟩

end Verif.Supermon

namespace Verif.Cmd
open Disk Spec

theorem put_panic_iff {env : Env} {w : World} {image order system : Str} {o : Supermon.Operator} {ord : DiskOrder}
    (hi : image ≠ str "-") (ho : Finds env w image order system (.nakedos o) ord) {source ty name : Str} {data : Bytes}
    (hdata : given w source = some data) {ow : Bool} {a : UInt16} :
    (run env (.put order system ty ow a image name source) w).1 = .panic ↔
      Types.filetypeForName ty = .ok filetypeBinary ∧
      (o.putFile ⟨{ name := name, length := data.length, type := filetypeBinary }, data, a⟩ ow).out = .panic := by
  obtain ⟨raw, hg, hopen⟩ := ho
  unfold given at hg
  rw [if_neg hi] at hg hopen
  change (putCmd env World.writeOutput order system ty ow a image name source w).1 = _ ↔ _
  unfold putCmd
  rw [if_neg (fun h => hi h.1), bind_run (a := (.nakedos o, ord)) (w' := w) (by rw [openDisk_eq hi hg, hopen])]
  dsimp only
  rw [bind_run (a := data) (w' := afterReading w source) (contentsOf_eq_given hdata)]
  cases hft : Types.filetypeForName ty with
  | ok ft =>
    rw [bind_run (a := ft) (w' := afterReading w source) (by unfold lift; rfl)]
    by_cases hb : ft = filetypeBinary
    · subst hb
      simp only [true_and]
      generalize hfi : (⟨{ name := name, length := data.length, type := filetypeBinary }, data, a⟩ : FileInfo) = fi
      unfold AnyOp.putFile
      dsimp only
      generalize hr : o.putFile fi ow = r
      obtain ⟨ex, out, op'⟩ := r
      dsimp only
      cases out with
      | ok u =>
        dsimp only
        rw [bind_run (m := lift (.ok ex)) (a := ex) (w' := afterReading w source) rfl]
        have := writeDisk_ne_panic image (.nakedos op') ord (afterReading w source)
        simpa using this
      | err k => dsimp only; rw [bind_err (m := lift (.err k)) rfl]
      | panic => simp [lift, bind, Act.bind]
      | timeout => simp [lift, bind, Act.bind]
    · have e : o.putFile ⟨{ name := name, length := data.length, type := ft }, data, a⟩ ow = ⟨false, .err .other, o⟩ := by
        unfold Supermon.Operator.putFile
        rw [if_pos hb]
      unfold AnyOp.putFile
      dsimp only
      rw [e]
      dsimp only
      rw [bind_err (m := lift (.err .other)) rfl]
      simp [hb]
  | err k => rw [bind_err (m := lift (.err k)) rfl]; simp
  | panic => exact absurd hft (by unfold Types.filetypeForName; split <;> simp)
  | timeout => simp [lift, bind, Act.bind]

/-- C80, for contents without bytes, on every NakedOS disk and for every name: `put` crashes exactly if the file type is binary, the name says
where to put the file, a symbol given can be stored, a file that is there may be replaced, and, without it, a sector is free. -/
theorem C80_put_empty_exact {env : Env} {w : World} {image order system : Str} {o : Supermon.Operator} {ord : DiskOrder}
    (hi : image ≠ str "-") (ho : Finds env w image order system (.nakedos o) ord) {source ty name : Str}
    (hdata : given w source = some []) {ow : Bool} {a : UInt16} :
    (run env (.put order system ty ow a image name source) w).1 = .panic ↔
      Types.filetypeForName ty = .ok filetypeBinary ∧
      ∃ f sym, PutMeans (fileOnDisk o.data) o.table name f sym ∧ (sym ≠ [] → o.st ≠ none ∧ Storable sym) ∧
        (ow = true ∨ fileOnDisk o.data f = []) ∧ (fileOnDisk o.data f ≠ [] ∨ ownedBy (owner o.data) 0xFF ≠ []) := by
  obtain ⟨hgood, hlen⟩ := finds_naked ho
  have hop : Supermon.openOperator o.data = .ok o := by
    obtain ⟨raw, _, hopen⟩ := id ho
    have hnk := open_naked hopen
    rw [hnk.data]; exact hnk.opened
  have hown : ∀ g, ownedBy (owner o.data) g = ownedBy (own o.sm) g := by
    intro g
    unfold ownedBy
    apply List.filter_congr
    intro n hn
    rw [(Supermon.loaded_iff (by have := hgood.len; omega) o.sm).1 hgood.loaded n (List.mem_range.1 hn)]
  rw [put_panic_iff hi ho hdata, Supermon.putFile_reaches hgood (by simp)]
  refine and_congr_right fun _ => ?_
  constructor
  · rintro ⟨f, sym, nf, h1, h2, h3, h4, h5⟩
    refine ⟨f, sym, h1, fun e => ⟨?_, h3⟩, ?_⟩
    · obtain ⟨st, e1, _⟩ := h4 e
      rw [e1]; simp
    · rw [ne_eq, Supermon.fileOnDisk_nil hgood, hown]
      exact (Supermon.putNumbered_empty hgood hop hlen h2 h3).2.1 h5
  · rintro ⟨f, sym, h1, h2, h3⟩
    have hsym : Storable sym := by
      by_cases e : sym = []
      · exact Or.inl e
      · exact (h2 e).2
    have hf : IsFileNumber f := Supermon.putMeans_file h1
    rw [ne_eq, Supermon.fileOnDisk_nil hgood, hown] at h3
    by_cases e : ∃ st, o.st = some st ∧ StandsFor st sym f
    · obtain ⟨st, e1, e2⟩ := e
      exact ⟨f, sym, f, h1, hf, hsym, fun _ => ⟨st, e1, by simp [e2]⟩, (Supermon.putNumbered_empty hgood hop hlen hf hsym).2.2 h3⟩
    · refine ⟨f, sym, 0, h1, hf, hsym, fun k => ?_, (Supermon.putNumbered_empty hgood hop hlen hf hsym).2.2 h3⟩
      obtain ⟨st, hst⟩ := Option.ne_none_iff_exists'.1 (h2 k).1
      exact ⟨st, hst, fun h0 => absurd h0.symm hf.1, fun h0 => absurd ⟨st, hst, h0⟩ e⟩

/-- C91 for contents without bytes: `put` succeeds exactly if the file type is binary, the name says where to put the file, that file is not
there, no sector is free, and the symbol can be entered, as in `C91_put`.  (While a sector is free it crashes: `C80_put_empty_exact`.) -/
theorem C91_put_empty {env : Env} {w : World} {image order system : Str} {o : Supermon.Operator} {ord : DiskOrder}
    (hi : image ≠ str "-") (ho : Finds env w image order system (.nakedos o) ord) {source ty name : Str}
    (hdata : given w source = some []) {ow : Bool} {a : UInt16} :
    (run env (.put order system ty ow a image name source) w).1 = .ok () ↔
      Types.filetypeForName ty = .ok filetypeBinary ∧
      ∃ f sym, PutMeans (fileOnDisk o.data) o.table name f sym ∧ fileOnDisk o.data f = [] ∧ ownedBy (owner o.data) 0xFF = [] ∧
        (sym ≠ [] → ∃ st, o.st = some st ∧ Storable sym ∧ (StandsFor st sym f ∨ PlaceFor st sym ∧ ∀ e ∈ st, Storable e.name)) := by
  obtain ⟨hgood, hlen⟩ := finds_naked ho
  have hop : Supermon.openOperator o.data = .ok o := by
    obtain ⟨raw, _, hopen⟩ := id ho
    have hnk := open_naked hopen
    rw [hnk.data]; exact hnk.opened
  have hown : ∀ g, ownedBy (owner o.data) g = ownedBy (own o.sm) g := by
    intro g
    unfold ownedBy
    apply List.filter_congr
    intro n hn
    rw [(Supermon.loaded_iff (by have := hgood.len; omega) o.sm).1 hgood.loaded n (List.mem_range.1 hn)]
  rw [put_ok_iff hi ho hdata, Supermon.putFile_reaches hgood (by simp)]
  refine and_congr_right fun _ => ?_
  constructor
  · rintro ⟨f, sym, nf, h1, h2, h3, h4, h5⟩
    obtain ⟨k1, k2, k3⟩ := (Supermon.putNumbered_empty hgood hop hlen h2 h3).1.1 h5
    refine ⟨f, sym, h1, (Supermon.fileOnDisk_nil hgood f).2 k1, by rw [hown]; exact k2, fun e => ?_⟩
    obtain ⟨st, e1, e2⟩ := h4 e
    refine ⟨st, e1, h3, ?_⟩
    by_cases e3 : nf = f
    · exact Or.inl (e2.1 e3)
    · obtain ⟨st', e4, e5⟩ := k3 e3 e
      rw [e1] at e4
      cases e4
      exact Or.inr e5
  · rintro ⟨f, sym, h1, h2, h3, h4⟩
    have hsym : Storable sym := by
      by_cases e : sym = []
      · exact Or.inl e
      · obtain ⟨_, _, h, _⟩ := h4 e
        exact h
    have hf : IsFileNumber f := Supermon.putMeans_file h1
    rw [Supermon.fileOnDisk_nil hgood] at h2
    rw [hown] at h3
    by_cases e : ∃ st, o.st = some st ∧ StandsFor st sym f
    · obtain ⟨st, e1, e2⟩ := e
      exact ⟨f, sym, f, h1, hf, hsym, fun _ => ⟨st, e1, by simp [e2]⟩,
        (Supermon.putNumbered_empty hgood hop hlen hf hsym).1.2 ⟨h2, h3, fun k => absurd rfl k⟩⟩
    · refine ⟨f, sym, 0, h1, hf, hsym, fun k => ?_, (Supermon.putNumbered_empty hgood hop hlen hf hsym).1.2 ⟨h2, h3, fun _ k => ?_⟩⟩
      · obtain ⟨st, hst, _⟩ := h4 k
        exact ⟨st, hst, fun h0 => absurd h0.symm hf.1, fun h0 => absurd ⟨st, hst, h0⟩ e⟩
      · obtain ⟨st, hst, _, h5 | h5⟩ := h4 k
        · exact absurd ⟨st, hst, h5⟩ e
        · exact ⟨st, hst, h5⟩

/-- A disk on which no sector is free: file 8 has them all. -/
def crammedMap : Supermon.SectorMap := Vector.ofFn fun n : Fin 560 => if n.val < 12 then 0xFE else 8
def crammedImg : Bytes := put (zeros 143360) 2512 crammedMap.toList

open Supermon in
theorem own_crammedMap {n : Nat} (h : n < 560) : own crammedMap n = if n < 12 then 0xFE else 8 := by
  rw [own_eq h]; simp [crammedMap]

open Supermon in
theorem crammed_good : Good crammedMap crammedImg where
  len := by
    unfold crammedImg
    rw [put_length] <;> simp [zeros_length]
  legal := by
    constructor
    · intro n hn; rw [own_crammedMap (by omega), if_pos hn]
    · intro n hn; rw [own_crammedMap hn]; split <;> decide
  loaded := loaded_put (by simp) _

open Supermon in
theorem crammed_owned (f : UInt8) : ownedBy (own crammedMap) f =
    (List.range 560).filter fun n => (if n < 12 then (0xFE : UInt8) else 8) = f :=
  List.filter_congr fun n hn => by rw [own_crammedMap (List.mem_range.1 hn)]

theorem crammed_free : ownedBy (own crammedMap) 0xFF = [] := by rw [crammed_owned]; decide +kernel
theorem crammed_9 : ownedBy (own crammedMap) 9 = [] := by rw [crammed_owned]; decide +kernel
theorem crammed_3 : ownedBy (own crammedMap) 3 = [] := by rw [crammed_owned]; decide +kernel
theorem crammed_8 : (ownedBy (own crammedMap) 8).length = 548 := by rw [crammed_owned]; decide +kernel

open Supermon in
theorem crammed_open : openOperator crammedImg = .ok ⟨crammedImg, crammedMap, none⟩ := by
  rw [open_of_good crammed_good]
  refine congrArg (fun t => Out.ok (⟨crammedImg, crammedMap, t⟩ : Operator)) (tableOn_none ?_)
  intro t
  unfold readSymbolTable
  rw [readFile_eq crammed_good.len]
  unfold fileBytes
  rw [crammed_3]
  simp

/-- Non-vacuity of both theorems: on a disk without a free sector, putting nothing as file 9, which is not there, succeeds; putting nothing in
place of file 8 crashes with `--overwrite` and is an error without; under a symbol it is an error, for the disk has no symbol table. -/
theorem empty_witness (env : Env) :
    (run env (.put (str "do") (str "nakedos") (str "B") false 0 (str "a.do") (str "DF09") (str "-")) (diskWorld crammedImg)).1 = .ok () ∧
    (run env (.put (str "do") (str "nakedos") (str "B") true 0 (str "a.do") (str "DF08") (str "-")) (diskWorld crammedImg)).1 = .panic ∧
    (run env (.put (str "do") (str "nakedos") (str "B") false 0 (str "a.do") (str "DF08") (str "-")) (diskWorld crammedImg)).1 ≠ .panic ∧
    (run env (.put (str "do") (str "nakedos") (str "B") false 0 (str "a.do") (str "DF09:HELLO") (str "-")) (diskWorld crammedImg)).1 ≠ .ok () := by
  have hf := finds_nakedos env crammed_good.len crammed_open
  have hi : str "a.do" ≠ str "-" := by decide +kernel
  have hgx : given (diskWorld crammedImg) (str "-") = some [] := by unfold given; rw [if_pos rfl]; rfl
  have hty : Types.filetypeForName (str "B") = .ok filetypeBinary := by decide +kernel
  have hown : ∀ g, ownedBy (owner crammedImg) g = ownedBy (own crammedMap) g := by
    intro g
    unfold ownedBy
    apply List.filter_congr
    intro n hn
    rw [(Supermon.loaded_iff (by have := crammed_good.len; omega) _).1 crammed_good.loaded n (List.mem_range.1 hn)]
  have h9 : NumericName (str "DF09") 9 := (Supermon.parseAddressFilename_iff (by decide)).1 (by decide +kernel)
  have h8 : NumericName (str "DF08") 8 := (Supermon.parseAddressFilename_iff (by decide)).1 (by decide +kernel)
  have n9 : fileOnDisk crammedImg 9 = [] := (Supermon.fileOnDisk_nil crammed_good 9).2 crammed_9
  have n8 : fileOnDisk crammedImg 8 ≠ [] := by
    rw [ne_eq, Supermon.fileOnDisk_nil crammed_good]
    intro e
    have := crammed_8
    rw [e] at this
    simp at this
  have hnf : ownedBy (owner crammedImg) 0xFF = [] := by rw [hown, crammed_free]
  refine ⟨?_, ?_, ?_, ?_⟩
  · rw [C91_put_empty hi hf hgx]
    exact ⟨hty, 9, [], Or.inl ⟨h9, rfl⟩, n9, hnf, fun h => absurd rfl h⟩
  · rw [C80_put_empty_exact hi hf hgx]
    exact ⟨hty, 8, [], Or.inl ⟨h8, rfl⟩, fun h => absurd rfl h, Or.inl rfl, Or.inl n8⟩
  · rw [ne_eq, C80_put_empty_exact hi hf hgx]
    rintro ⟨_, f, sym, hm, _, hx, _⟩
    have : f = 8 := by
      rcases hm with ⟨h, _⟩ | ⟨_, h, _⟩ | ⟨a, e, _⟩
      · exact Supermon.C34_numeric_unique h h8
      · exact absurd h8 (h 8)
      · exfalso
        have : (0x3A : UInt8) ∈ str "DF08" := by rw [e]; simp
        revert this
        decide +kernel
    subst this
    rcases hx with hx | hx
    · simp at hx
    · exact n8 hx
  · rw [ne_eq, C91_put_empty hi hf hgx]
    rintro ⟨_, f, sym, hm, _, _, hs⟩
    have hsym : sym ≠ [] := by
      rcases hm with ⟨h, _⟩ | ⟨h, _⟩ | ⟨a, e, _, h, _⟩
      · exact absurd h ((Supermon.parse_zero_iff _).1 (by decide +kernel) f)
      · exfalso
        revert h
        decide +kernel
      · rintro rfl
        have : (str "DF09:HELLO").getLast? = some 0x3A := by rw [e]; simp
        revert this
        decide +kernel
    obtain ⟨st, h, _⟩ := hs hsym
    simp at h

end Verif.Cmd
