import Verif.Spec.Life
import Verif.Props.Fate

/-!
# C105: a session on any NakedOS disk keeps the names or loses them all
-/

set_option autoImplicit false

namespace Verif.Supermon
open Disk Spec

/-- `entriesOf`, by names and addresses alone. -/
def entriesK (ks : List (UInt16 × Str)) (n : Str) : List UInt16 :=
  (ks.filter fun k => decide (k.1 ≠ 0 ∧ SameName k.2 n)).map fun k => k.1

theorem entriesOf_keys (st : SymbolTable) (n : Str) : entriesOf st n = entriesK (keys st) n := by
  unfold entriesOf entriesK keys
  rw [List.filter_map, List.map_map]
  rfl

theorem entriesK_append (a b : List (UInt16 × Str)) (n : Str) : entriesK (a ++ b) n = entriesK a n ++ entriesK b n := by
  unfold entriesK; simp

theorem entriesK_cons (k : UInt16 × Str) (l : List (UInt16 × Str)) (n : Str) :
    entriesK (k :: l) n = if k.1 ≠ 0 ∧ SameName k.2 n then k.1 :: entriesK l n else entriesK l n := by
  unfold entriesK
  rw [List.filter_cons]
  by_cases h : k.1 ≠ 0 ∧ SameName k.2 n
  · rw [if_pos h, decide_eq_true h]; rfl
  · rw [if_neg h, decide_eq_false h]; rfl

theorem entriesK_nil {l : List (UInt16 × Str)} {n : Str} (h : ∀ k ∈ l, ¬ SameName k.2 n) : entriesK l n = [] := by
  unfold entriesK
  rw [List.filter_eq_nil_iff.2 fun k hk => by simp [h k hk]]
  rfl

/-- In a table from a disk, a name has entries exactly if there is an entry with this name. -/
theorem FromDisk.entries_nil {st : SymbolTable} (h : FromDisk st) {n : Str} (hn : n ≠ []) :
    entriesOf st n = [] ↔ ∀ s ∈ st, ¬ SameName s.name n := by
  unfold entriesOf
  rw [List.map_eq_nil_iff, List.filter_eq_nil_iff]
  refine forall_congr' fun s => forall_congr' fun hs => ?_
  simp only [ne_eq, decide_eq_true_eq, not_and]
  constructor
  · intro h1 h2
    by_cases h0 : s.address = 0
    · have := h.unused s hs h0
      rw [this] at h2
      exact hn (sameName_nil.1 h2.symm)
    · exact h1 h0 h2
  · exact fun h1 _ => h1

theorem FromDisk.entries_first {st : SymbolTable} (h : FromDisk st) {n : Str} (hn : n ≠ []) {b a : SymbolTable} {s : Symbol}
    (hf : FirstOf st n b s a) : entriesOf st n = s.address :: entriesOf a n := by
  obtain ⟨rfl, h2, h3⟩ := hf
  have h0 : s.address ≠ 0 := by
    intro h0
    have := h.unused s (by simp) h0
    rw [this] at h2
    exact hn (sameName_nil.1 h2.symm)
  rw [entriesOf_keys, entriesOf_keys]
  have e2 : keys (b ++ s :: a) = keys b ++ (s.address, s.name) :: keys a := by unfold keys; simp
  rw [e2, entriesK_append, entriesK_nil, entriesK_cons, if_pos ⟨h0, h2⟩]
  · rfl
  · intro k hk
    unfold keys at hk
    obtain ⟨t, ht, rfl⟩ := List.mem_map.1 hk
    exact h3 t ht

/-- The meaning of a symbol and its entries. -/
theorem FromDisk.standsFor_entries {st : SymbolTable} (h : FromDisk st) {n : Str} (hn : n ≠ []) {f : UInt8} :
    StandsFor st n f ↔ IsFileNumber f ∧ ∃ a rest, entriesOf st n = a :: rest ∧ a.toNat = 0xDF00 + f.toNat := by
  unfold StandsFor
  refine and_congr_right fun _ => ?_
  constructor
  · rintro ⟨b, s, a, hf, e⟩
    exact ⟨_, _, h.entries_first hn hf, e⟩
  · rintro ⟨x, rest, e, hx⟩
    cases hfi : st.find? (fun x => decide (SameName x.name n)) with
    | none =>
      rw [List.find?_eq_none] at hfi
      rw [(h.entries_nil hn).2 fun s hs hc => hfi s hs (decide_eq_true hc)] at e
      cases e
    | some s =>
      obtain ⟨b, a, hf⟩ := firstOf_find.1 hfi
      rw [h.entries_first hn hf] at e
      cases e
      exact ⟨b, s, a, hf, hx⟩

theorem list_split {α : Type} {l : List α} {k : Nat} {x : α} (h : l[k]? = some x) (y : α) :
    ∃ b c, l = b ++ x :: c ∧ l.set k y = b ++ y :: c ∧ b.length = k := by
  have hk := (List.getElem?_eq_some_iff.1 h).1
  have hx := (List.getElem?_eq_some_iff.1 h).2
  refine ⟨l.take k, l.drop (k + 1), ?_, ?_, by simp; omega⟩
  · rw [← hx, List.cons_getElem_drop_succ, List.take_append_drop]
  · rw [List.set_eq_take_append_cons_drop, if_pos hk]

/-- The entries after a symbol was added. -/
theorem FromDisk.entries_add {st : SymbolTable} (h : FromDisk st) {sym : Str} {f : UInt8}
    (hok : (addSymbol st sym (0xDF00 + f.toUInt16)).1 = .ok ()) (hs0 : sym ≠ []) (n : Str) :
    (¬ SameName n (stored sym) → entriesOf ((addSymbol st sym (0xDF00 + f.toUInt16)).2.map reread) n = entriesOf st n) ∧
    (LegalName sym → SameName n sym →
      entriesOf ((addSymbol st sym (0xDF00 + f.toUInt16)).2.map reread) n = (0xDF00 + f.toUInt16) :: (entriesOf st n).tail) := by
  have ha : (0xDF00 + f.toUInt16 : UInt16) ≠ 0 := by
    intro e
    have := fileAddress f
    rw [e] at this
    simp at this
    omega
  obtain ⟨k, hk, hkl, hwhere⟩ := h.keys_add ha hok
  obtain ⟨y, hy⟩ : ∃ y, st[k]? = some y := ⟨st[k], List.getElem?_eq_getElem hkl⟩
  have hym := List.mem_of_getElem? hy
  have hky : (keys st)[k]? = some (y.address, y.name) := by rw [keys_getElem?, hy]; rfl
  obtain ⟨b, c, e1, e2, e3⟩ := list_split hky (0xDF00 + f.toUInt16, stored sym)
  rw [entriesOf_keys, entriesOf_keys, hk, e2, e1]
  rw [entriesK_append, entriesK_append, entriesK_cons, entriesK_cons]
  constructor
  · intro hns
    rw [if_neg (fun hc => hns hc.2.symm), if_neg]
    rintro ⟨h0, hc⟩
    dsimp only at h0 hc
    rcases hwhere with ⟨s, hat⟩ | ⟨_, ⟨s, h1, h2⟩, _⟩
    · have := hat.1
      rw [hy] at this
      cases this
      rw [stored_same hat.2.1 (h.names y hym)] at hns
      exact hns hc.symm
    · rw [hy] at h1
      cases h1
      exact h0 h2
  · intro hl hs
    have hst : SameName (stored sym) sym := by
      rw [stored_eq, List.filter_eq_self.2 fun c hc => by
        unfold alnum
        rcases hl.2.2.1 c hc with h | h <;> rw [h] <;> simp]
      exact upper_upper sym
    have hb : entriesK b n = [] := by
      apply entriesK_nil
      intro x hx hc
      obtain ⟨j, hj⟩ := List.getElem?_of_mem hx
      have hjl : j < b.length := (List.getElem?_eq_some_iff.1 hj).1
      have hj2 : (keys st)[j]? = some x := by rw [e1, List.getElem?_append_left hjl]; exact hj
      rw [keys_getElem?] at hj2
      cases hz : st[j]? with
      | none => rw [hz] at hj2; simp at hj2
      | some z =>
        rw [hz] at hj2
        simp only [Option.map_some, Option.some.injEq] at hj2
        subst hj2
        have hc : SameName z.name sym := SameName.trans hc hs
        rcases hwhere with ⟨s, hat⟩ | ⟨hno, _⟩
        · exact hat.2.2 j z (by omega) hz hc
        · exact hno z (List.mem_of_getElem? hz) hc
    rw [hb, if_pos ⟨ha, hst.trans hs.symm⟩]
    simp only [List.nil_append]
    rcases hwhere with ⟨s, hat⟩ | ⟨hno, ⟨s, h1, h2⟩, _⟩
    · have h1 := hat.1
      rw [hy] at h1
      cases h1
      have h0 := h.live hs0 k y hat
      rw [if_pos ⟨h0, hat.2.1.trans hs.symm⟩]
      rfl
    · rw [hy] at h1
      cases h1
      rw [if_neg (fun hc => hc.1 h2)]
      have hc : entriesK c n = [] := by
        apply entriesK_nil
        intro x hx hc
        have hx2 : x ∈ keys st := by rw [e1]; simp [hx]
        unfold keys at hx2
        obtain ⟨z, hz, rfl⟩ := List.mem_map.1 hx2
        exact hno z hz (SameName.trans hc hs)
      rw [hc]
      rfl

/-- The entries after a symbol was deleted. -/
theorem FromDisk.entries_del {st : SymbolTable} (h : FromDisk st) {name : Str} {b a : SymbolTable} {s : Symbol} (hf : FirstOf st name b s a)
    {n : Str} (hn : n ≠ []) :
    entriesOf ((deleteSymbol st name).2.map reread) n = if SameName n name then (entriesOf st n).tail else entriesOf st n := by
  have hk := h.keys_del hf
  rw [entriesOf_keys, hk, entriesK_append, entriesK_cons, if_neg (fun hc => hc.1 rfl)]
  by_cases hs : SameName n name
  · rw [if_pos hs]
    have hf2 : FirstOf st n b s a := ⟨hf.1, hf.2.1.trans hs.symm, fun t ht hc => hf.2.2 t ht (hc.trans hs)⟩
    rw [h.entries_first hn hf2, entriesK_nil]
    · rw [entriesOf_keys]; rfl
    · intro k hk
      unfold keys at hk
      obtain ⟨t, ht, rfl⟩ := List.mem_map.1 hk
      exact hf2.2.2 t ht
  · rw [if_neg hs, entriesOf_keys]
    have e2 : keys st = keys b ++ (s.address, s.name) :: keys a := by rw [hf.1]; unfold keys; simp
    rw [e2, entriesK_append, entriesK_cons, if_neg]
    rintro ⟨_, hc⟩
    exact hs (SameName.trans (SameName.symm hc) hf.2.1)

/-- What a successful put of the operator means and does. -/
theorem put_life {o : Operator} (h : Good o.sm o.data) (ho : openOperator o.data = .ok o) {name : Str} {data : Bytes} {ow : Bool} {a : UInt16}
    (hok : (o.putFile ⟨{ name := name, length := data.length, type := filetypeBinary }, data, a⟩ ow).out = .ok ()) :
    ∃ f sym op2, (o.putFile ⟨{ name := name, length := data.length, type := filetypeBinary }, data, a⟩ ow).op = op2 ∧
      PutMeans (fileOnDisk o.data) o.table name f sym ∧ Good op2.sm op2.data ∧
      (∀ g, Ordinary g → fileOnDisk op2.data g = if g = f then padded data else fileOnDisk o.data g) ∧
      (ow = false → fileOnDisk o.data f = []) ∧
      (sym = [] ∨ StandsFor o.table sym f → f ≠ 3 → f ≠ 4 → tableOn op2.sm op2.data = o.st) ∧
      (sym ≠ [] → ¬ StandsFor o.table sym f → ∃ st, o.st = some st ∧ FromDisk st ∧ (addSymbol st sym (0xDF00 + f.toUInt16)).1 = .ok () ∧
        (tableOn op2.sm op2.data = none ∨ tableOn op2.sm op2.data = some ((addSymbol st sym (0xDF00 + f.toUInt16)).2.map reread))) := by
  obtain ⟨f, sym, hm⟩ : ∃ f sym, PutMeans (fileOnDisk o.data) o.table name f sym := by
    rcases compound_means (fileOnDisk o.data) o.table name with ⟨n, nf, sym', hc, hm', hs⟩ | ⟨hc, hm'⟩
    · refine ⟨if n = 0 then firstFreeFile o.sm else n, sym', (hm' _ _).2 ⟨rfl, ?_⟩⟩
      split
      · rename_i h0
        refine (firstUnused_iff h _).2 ⟨?_, rfl⟩
        intro hz
        unfold Operator.putFile at hok
        rw [if_neg (by simp), if_neg (by simp)] at hok
        dsimp only at hok
        rw [hc] at hok
        dsimp only at hok
        rw [if_pos h0, hz] at hok
        split at hok
        · simp at hok
        · split at hok
          · simp at hok
          · simp at hok
      · rfl
    · unfold Operator.putFile at hok
      rw [if_neg (by simp), if_neg (by simp)] at hok
      dsimp only at hok
      rw [hc] at hok
      simp at hok
  obtain ⟨nf, e, hnf⟩ := putFile_is h hok hm
  rw [e] at hok ⊢
  have hf := putMeans_file hm
  obtain ⟨g1, g2, g3⟩ := putNumbered_fate h ho hf hok
  obtain ⟨_, hcase⟩ := putNumbered_ok h hf hok
  have hw : (writeFile o.sm o.data f data ow).out = .ok () := by
    unfold Operator.putNumbered at hok
    simp only at hok
    split at hok
    · assumption
    · exact hok
  have hkeep := keep_putNumbered (nf := nf) (sym := sym) h hf (show (writeFile o.sm o.data f data ow).out ≠ .panic by rw [hw]; simp)
  refine ⟨f, sym, _, rfl, hm, g1, ?_, ?_, ?_, ?_⟩
  · intro g hg
    rw [← g1.onDisk, ← h.onDisk]
    by_cases e : g = f
    · subst e
      rw [if_pos rfl]
      rcases hcase with ⟨_, _, hb⟩ | ⟨_, _, st, _, _, _, hb⟩
      · exact hb
      · exact hb hg.2
    · rw [if_neg e]
      exact hkeep.bytes g hg.1 (by simp [e, hg.2.1, hg.2.2])
  · intro how
    rw [← h.onDisk]
    exact (writeFile_bytes h hf hw).2 how
  · intro hor
    refine g2 ?_
    rcases hor with hs | hs
    · exact Or.inr hs
    · by_cases e0 : sym = []
      · exact Or.inr e0
      · exact Or.inl ((hnf e0).2 hs)
  · intro hs hns
    obtain ⟨st, k1, k2, k3, k4, k5⟩ := g3 (fun e => hns ((hnf hs).1 e)) hs
    refine ⟨st, k1, k2, k3, ?_⟩
    by_cases hsp : AddingSpoils st sym (0xDF00 + f.toUInt16)
    · exact Or.inl (k4 hsp)
    · exact Or.inr (k5 hsp)

end Verif.Supermon

namespace Verif.Cmd
open Disk Spec Supermon

/-- What the command `c`, run in `w` with the files `m` and the names `t` on the image, does to these. -/
inductive Acts (env : Env) (image : Str) (w : World) (m : Files) (t : Option Entries) : Command → Files → Option Entries → Prop
  | failed {c : Command} : (run env c w).1 ≠ .ok () → Acts env image w m t c m t
  | elsewhere {c : Command} : target c ≠ some image → Acts env image w m t c m t
  | put {order : DiskOrder} {system ty : Str} {ow : Bool} {a : UInt16} {name source : Str} {f : UInt8} {data : Bytes} {sym : Str}
      {t' : Option Entries} : (run env (.put order system ty ow a image name source) w).1 = .ok () →
      given w source = some data → PutAt m t name f sym → (ow = false → Ordinary f → m f = []) → AfterPut t f sym t' →
      Acts env image w m t (.put order system ty ow a image name source) ((Event.put f data).apply m) t'
  | rm {order : DiskOrder} {system : Str} {missingOk : Bool} {name : Str} {f : UInt8} {t' : Option Entries} :
      (run env (.rm order system missingOk image name) w).1 = .ok () → IsFileNumber f → RmAt t name f →
      (missingOk = false → Ordinary f → m f ≠ []) → AfterRm t f name t' →
      Acts env image w m t (.rm order system missingOk image name) ((Event.rm f).apply m) t'
  | mkhello {order : DiskOrder} {name : Str} {a s : UInt16} {f : UInt8} {t' : Option Entries} :
      (run env (.mkhello order image name a s) w).1 = .ok () →
      (∀ part g, Supermon.PartOf name part → NumericName part g → f = g) →
      (name ≠ [] → (0x3A : UInt8) ∉ name → (∀ g, ¬ NumericName name g) → Means t name f) → AfterPut t 1 (str "FHELLO") t' →
      Acts env image w m t (.mkhello order image name a s) ((Event.put 1 (helloBytes f a (UInt16.ofNat (startOf a s)))).apply m) t'

/-- One command after the other. -/
inductive ActsAll (env : Env) (image : Str) : Files → Option Entries → List (World × Command) → Files → Option Entries → Prop
  | done {m : Files} {t : Option Entries} : ActsAll env image m t [] m t
  | step {m m' m'' : Files} {t t' t'' : Option Entries} {w : World} {c : Command} {l : List (World × Command)} :
      Acts env image w m t c m' t' → ActsAll env image m' t' l m'' t'' → ActsAll env image m t ((w, c) :: l) m'' t''

/-- The names of an opened disk. -/
theorem means_iff {o : Supermon.Operator} (ho : openOperator o.data = .ok o) {t : Option Entries}
    (h : (t = none ∧ o.st = none) ∨ ∃ d st, t = some d ∧ o.st = some st ∧ ∀ n, n ≠ [] → entriesOf st n = d n) {n : Str} (hn : n ≠ []) (f : UInt8) :
    StandsFor o.table n f ↔ Means t n f := by
  rcases h with ⟨rfl, h⟩ | ⟨d, st, rfl, h, hd⟩
  · have htab : o.table = [] := by unfold Supermon.Operator.table; rw [h]; rfl
    rw [htab]
    constructor
    · rintro ⟨_, b, s, a, ⟨e, _⟩, _⟩; simp at e
    · rintro ⟨_, d, a, rest, e, _⟩; cases e
  · have htab : o.table = st := by unfold Supermon.Operator.table; rw [h]; rfl
    rw [htab, (opened_fromDisk ho h).standsFor_entries hn, hd n hn]
    unfold Means
    refine and_congr_right fun _ => ?_
    constructor
    · rintro ⟨a, rest, h⟩; exact ⟨d, a, rest, rfl, h⟩
    · rintro ⟨d', a, rest, e, h⟩; cases e; exact ⟨a, rest, h⟩

theorem acts_one {env : Env} {image : Str} {w : World} {ord : DiskOrder} {m : Files} {t : Option Entries} {c : Command} (hi : image ≠ str "-")
    (ha : Agrees image ord c) (h : HasFiles w image ord m) (hn : HoldsNames env w image ord t) :
    ∃ m' t', Acts env image w m t c m' t' ∧ HasFiles (run env c w).2 image ord m' ∧ HoldsNames env (run env c w).2 image ord t' := by
  have same : (run env c w).2.files image = w.files image → HasFiles (run env c w).2 image ord m ∧ HoldsNames env (run env c w).2 image ord t := by
    rintro e
    obtain ⟨raw, img, h1, h2⟩ := h
    obtain ⟨raw', o, h1', h2'⟩ := hn
    exact ⟨⟨raw, img, e.trans h1, h2⟩, ⟨raw', o, e.trans h1', h2'⟩⟩
  by_cases hok : (run env c w).1 = .ok ()
  swap
  · exact ⟨m, t, .failed hok, same (congrFun (C59_failure_changes_nothing env c w hok).1 image)⟩
  by_cases ht : target c = some image
  swap
  · exact ⟨m, t, .elsewhere ht, same (C59_other_files_untouched env c w image ht)⟩
  -- a put through the operator
  have viaPut : ∀ {order system : Str} {raw new : Bytes} {o : Supermon.Operator} {ord' : DiskOrder} {name : Str} {data : Bytes} {a : UInt16} {ow : Bool},
      CandidateOrders order (toLower (pathExt image)) [ord] → w.files image = some raw →
      openImage raw image order system (factories env) = .ok (.nakedos o, ord') →
      (o.putFile ⟨{ name := name, length := data.length, type := filetypeBinary }, data, a⟩ ow).out = .ok () →
      writeBackBytes (AnyOp.nakedos (o.putFile ⟨{ name := name, length := data.length, type := filetypeBinary }, data, a⟩ ow).op) ord' = .ok new →
      (run env c w).2.files image = some new →
      ∃ f sym t', PutAt m t name f sym ∧ (ow = false → Ordinary f → m f = []) ∧ AfterPut t f sym t' ∧
        HasFiles (run env c w).2 image ord ((Event.put f data).apply m) ∧ HoldsNames env (run env c w).2 image ord t' := by
    intro order system raw new o ord' name data a ow hca h1 h2 h3 h4 h5
    have := open_order hca h2
    subst this
    have hnk := open_naked h2
    have hm := hasFiles_view h h1 hnk
    obtain ⟨raw', o', h1', h2', hst⟩ := hn
    rw [h1] at h1'
    cases h1'
    have := names_operator h2 h2'
    subst this
    have hop := hnk.opened
    rw [← hnk.data] at hop
    obtain ⟨f, sym, op2, e, hmean, hg2, hfiles, how, hkeep, hset⟩ := put_life hnk.good hop h3
    rw [e] at h4
    obtain ⟨hbl, hv⟩ := written_view hg2.len hnk.order h4
    have ho2 := Supermon.open_of_good hg2
    have hopen := open_explicit (env := env) hbl hnk.order (by rw [hv]; exact ho2) image
    have hmi : ∀ n, n ≠ [] → ∀ f, StandsFor o.table n f ↔ Means t n f := fun n hn f => means_iff hop hst hn f
    have hput : PutAt m t name f sym := by
      rcases hmean with h | ⟨k1, k2, k3, k4⟩ | h
      · exact Or.inl h
      · refine Or.inr (Or.inl ⟨k1, k2, k3, fun hne => ?_⟩)
        rcases k4 with k4 | ⟨k4, k5⟩
        · exact Or.inl ((hmi _ hne f).1 k4)
        · have hne' : sym ≠ [] := by rw [k3]; exact hne
          obtain ⟨st, s1, s2, _⟩ := hset hne' (by rw [k3]; exact k4 f)
          obtain ⟨n3, n4⟩ := table_files hnk.good hop s1
          have hof : Ordinary f := by
            refine ⟨k5.1, ?_, ?_⟩
            · rintro rfl; exact n3 ((fileOnDisk_nil hnk.good 3).1 k5.2.1)
            · rintro rfl; exact n4 ((fileOnDisk_nil hnk.good 4).1 k5.2.1)
          exact Or.inr ⟨fun g hg => k4 g ((hmi _ hne g).2 hg), hof, by rw [← hm f hof]; exact k5.2.1⟩
      · exact Or.inr (Or.inr h)
    have hfiles' : HasFiles (run env c w).2 image ord' ((Event.put f data).apply m) := by
      refine hasFiles_of h5 (open_naked hopen) fun g hg => ?_
      rw [hfiles g hg]
      show _ = if g = f then _ else _
      rw [hm g hg]
    have how' : ow = false → Ordinary f → m f = [] := fun e hf => by rw [← hm f hf]; exact how e
    by_cases hcase : sym = [] ∨ StandsFor o.table sym f
    · have hcase' : sym = [] ∨ Means t sym f := by
        rcases hcase with e | hs
        · exact Or.inl e
        · by_cases e : sym = []
          · exact Or.inl e
          · exact Or.inr ((hmi sym e f).1 hs)
      by_cases h34 : f ≠ 3 ∧ f ≠ 4
      · have hsame := hkeep hcase h34.1 h34.2
        refine ⟨f, sym, t, hput, how', ⟨fun _ _ _ => rfl, fun h0 hnm => absurd hcase' (not_or.2 ⟨h0, hnm⟩)⟩, hfiles', new, _, h5, hopen, ?_⟩
        dsimp only
        rw [hsame]
        exact hst
      · cases htab : tableOn op2.sm op2.data with
        | none =>
          exact ⟨f, sym, none, hput, how', ⟨fun _ a b => absurd ⟨a, b⟩ h34, fun h0 hnm => absurd hcase' (not_or.2 ⟨h0, hnm⟩)⟩, hfiles',
            new, _, h5, hopen, Or.inl ⟨rfl, htab⟩⟩
        | some st =>
          exact ⟨f, sym, some (entriesOf st), hput, how', ⟨fun _ a b => absurd ⟨a, b⟩ h34, fun h0 hnm => absurd hcase' (not_or.2 ⟨h0, hnm⟩)⟩, hfiles',
            new, _, h5, hopen, Or.inr ⟨_, st, rfl, htab, fun _ _ => rfl⟩⟩
    · rw [not_or] at hcase
      obtain ⟨st, s1, s2, s3, s4⟩ := hset hcase.1 hcase.2
      have hnm : ¬ Means t sym f := fun hc => hcase.2 ((hmi sym hcase.1 f).2 hc)
      obtain ⟨d, rfl, hd⟩ : ∃ d, t = some d ∧ ∀ n, n ≠ [] → entriesOf st n = d n := by
        rcases hst with ⟨_, h0⟩ | ⟨d, st', e1, e2, e3⟩
        · rw [s1] at h0; cases h0
        · rw [s1] at e2; cases e2; exact ⟨d, e1, e3⟩
      rcases s4 with s4 | s4
      · exact ⟨f, sym, none, hput, how', ⟨fun h => absurd h (not_or.2 ⟨hcase.1, hnm⟩), fun _ _ => ⟨d, rfl, Or.inl rfl⟩⟩, hfiles',
          new, _, h5, hopen, Or.inl ⟨rfl, s4⟩⟩
      · refine ⟨f, sym, some fun n => if n = [] then d n else entriesOf ((addSymbol st sym (0xDF00 + f.toUInt16)).2.map reread) n, hput, how',
          ⟨fun h => absurd h (not_or.2 ⟨hcase.1, hnm⟩), fun _ _ => ⟨d, rfl, Or.inr ⟨_, rfl, ?_, ?_⟩⟩⟩, hfiles', new, _, h5, hopen,
          Or.inr ⟨_, _, rfl, s4, fun n hn => by rw [if_neg hn]⟩⟩
        · intro n hns
          dsimp only
          by_cases e : n = []
          · rw [if_pos e]
          · rw [if_neg e, (s2.entries_add s3 hcase.1 n).1 hns, hd n e]
        · intro hl n hs
          have e : n ≠ [] := by
            rintro rfl
            exact hcase.1 (sameName_nil.1 hs.symm)
          dsimp only
          rw [if_neg e, (s2.entries_add s3 hcase.1 n).2 hl hs, hd n e]
  cases c with
  | put order system ty ow a i name source =>
    cases ht
    obtain ⟨raw, o, ord', data, ft, new, h1, h2, h3, h4, h5, h6⟩ := put_inv hi hok
    have hft := (Supermon.putFile_checks h4).1
    dsimp only at hft
    subst hft
    obtain ⟨f, sym, t', g1, g2, g3, g4, g5⟩ := viaPut (ha rfl) h1 h2 h4 h5 h6
    exact ⟨_, t', .put hok h3 g1 g2 g3, g4, g5⟩
  | rm order system mo i name =>
    cases ht
    obtain ⟨raw, o, ord', new, h1, h2, h3, h4, h5, h6⟩ := rm_inv hi hok
    have := open_order (ha rfl) h2
    subst this
    have hnk := open_naked h2
    have hm := hasFiles_view h h1 hnk
    obtain ⟨raw', o', h1', h2', hst⟩ := hn
    rw [h1] at h1'
    cases h1'
    have := names_operator h2 h2'
    subst this
    have hop := hnk.opened
    rw [← hnk.data] at hop
    obtain ⟨f, n1, g1, g2, g3⟩ := Supermon.delete_fate hnk.good hop h3
    obtain ⟨o2, f', q1, q2, q3, q4, q5, q6, q7, _⟩ := Supermon.reopen_delete hnk.good hop h3
    have hff : f' = f := by
      rw [(Supermon.nameOf_iff f).2 n1] at q4
      cases q4; rfl
    subst hff
    obtain ⟨hbl, hv⟩ := written_view g1.len hnk.order h5
    have ho2 := Supermon.open_of_good g1
    have hopen := open_explicit (env := env) hbl hnk.order (by rw [hv]; exact ho2) image
    have hmi : ∀ n, n ≠ [] → ∀ f, StandsFor o.table n f ↔ Means t n f := fun n hn f => means_iff hop hst hn f
    have hfn : IsFileNumber f' := Supermon.fileForName_file q4
    have hrm : RmAt t name f' := by
      rcases n1 with h | ⟨k1, k2⟩
      · exact Or.inl h
      · exact Or.inr ⟨k1, fun hne => (hmi name hne f').1 k2⟩
    have hfiles' : HasFiles (run env (.rm order system mo image name) w).2 image ord' ((Event.rm f').apply m) := by
      refine hasFiles_of h6 (open_naked hopen) fun g hg => ?_
      show fileOnDisk (o.delete name).op.data g = if g = f' then _ else _
      rw [← q3]
      by_cases e : g = f'
      · subst e
        rw [if_pos rfl, q6 (Or.inl hg.2)]
      · rw [if_neg e, q7 g hg.1 e (Or.inl hg.2), hm g hg]
    have hex : mo = false → Ordinary f' → m f' ≠ [] := by
      intro hmo hf
      rw [← hm f' hf]
      rcases h4 with h4 | h4
      · exact q5.1 h4
      · rw [hmo] at h4; simp at h4
    by_cases hsym : ∃ s ∈ o.table, SameName s.name name
    · obtain ⟨st, s1, s2, s3, s4⟩ := g3 hsym
      have htab : o.table = st := by unfold Supermon.Operator.table; rw [s1]; rfl
      obtain ⟨d, rfl, hd⟩ : ∃ d, t = some d ∧ ∀ n, n ≠ [] → entriesOf st n = d n := by
        rcases hst with ⟨_, h0⟩ | ⟨d, st', e1, e2, e3⟩
        · rw [s1] at h0; cases h0
        · rw [s1] at e2; cases e2; exact ⟨d, e1, e3⟩
      have hnonil : name ≠ [] → d name ≠ [] := by
        intro hne hc
        rw [← hd name hne] at hc
        obtain ⟨s, hs, hs'⟩ := hsym
        rw [htab] at hs
        exact (s2.entries_nil hne).1 hc s hs hs'
      by_cases hsp : DeletingSpoils st name
      · exact ⟨_, none, .rm hok hfn hrm hex ⟨fun hne hno => absurd (hno d rfl) (hnonil hne), fun _ _ _ _ => Or.inl rfl, fun _ => Or.inl rfl⟩,
          hfiles', new, _, h6, hopen, Or.inl ⟨rfl, s3 hsp⟩⟩
      · obtain ⟨b, s, a, hfo⟩ : ∃ b s a, FirstOf st name b s a := by
          cases hfi : st.find? (fun x => decide (SameName x.name name)) with
          | none =>
            rw [List.find?_eq_none] at hfi
            obtain ⟨s, hs, hs'⟩ := hsym
            rw [htab] at hs
            exact absurd (decide_eq_true hs') (hfi s hs)
          | some s =>
            obtain ⟨b, a, hf⟩ := firstOf_find.1 hfi
            exact ⟨b, s, a, hf⟩
        have hent := fun n hn => s2.entries_del hfo (n := n) hn
        by_cases hne : name = []
        · refine ⟨_, some d, .rm hok hfn hrm hex ⟨fun h => absurd hne h, fun _ h => absurd hne h, fun _ => Or.inr rfl⟩, hfiles', new, _, h6, hopen,
            Or.inr ⟨d, _, rfl, s4 hsp, fun n hn => ?_⟩⟩
          rw [hent n hn, if_neg, hd n hn]
          intro hc
          rw [hne] at hc
          exact hn (sameName_nil.1 hc)
        · refine ⟨_, some fun n => if SameName n name then (d n).tail else d n,
            .rm hok hfn hrm hex ⟨fun _ hno => absurd (hno d rfl) (hnonil hne), ?_, fun h => absurd h hne⟩, hfiles', new, _, h6, hopen,
            Or.inr ⟨_, _, rfl, s4 hsp, fun n hn => ?_⟩⟩
          · intro d' _ e _
            cases e
            exact Or.inr ⟨_, rfl, fun _ => rfl⟩
          · rw [hent n hn, hd n hn]
    · have hno : ∀ s ∈ o.table, ¬ SameName s.name name := fun s hs hc => hsym ⟨s, hs, hc⟩
      obtain ⟨k1, k2⟩ := g2 hno
      have hne : ∀ d, name ≠ [] → t = some d → d name = [] := by
        rintro d hne rfl
        rcases hst with ⟨h0, _⟩ | ⟨d', st, e1, e2, e3⟩
        · cases h0
        · cases e1
          have htab : o.table = st := by unfold Supermon.Operator.table; rw [e2]; rfl
          rw [← e3 name hne, (opened_fromDisk hop e2).entries_nil hne, ← htab]
          exact hno
      by_cases h34 : f' = 3 ∨ f' = 4
      · exact ⟨_, none, .rm hok hfn hrm hex ⟨fun _ _ => by rw [if_pos h34], fun d h0 e hd => absurd (hne d h0 e) hd, fun _ => Or.inl rfl⟩, hfiles', new, _,
          h6, hopen, Or.inl ⟨rfl, k2 h34⟩⟩
      · refine ⟨_, t, .rm hok hfn hrm hex ⟨fun _ _ => by rw [if_neg h34], fun d h0 e hd => absurd (hne d h0 e) hd, fun _ => Or.inr rfl⟩, hfiles', new, _,
          h6, hopen, ?_⟩
        rw [not_or] at h34
        dsimp only
        rw [k1 h34.1 h34.2]
        exact hst
  | mkhello order i name a s =>
    cases ht
    obtain ⟨ha1, _, raw, o, ord', f, new, h1, h2, hask, h4, h5, h6⟩ := mkhello_inv hi hok
    have hsplit : str "DF01:FHELLO" = str "DF01" ++ 0x3A :: str "FHELLO" := by decide +kernel
    have hn1 : NumericName (str "DF01") 1 := (Supermon.parseAddressFilename_iff (by decide)).1 (by decide +kernel)
    have he : helloProgram f a (effectiveStart a s) = helloBytes f a (UInt16.ofNat (startOf a s)) := by
      rw [helloProgram_eq f ha1]
      congr 1
      apply UInt16.toNat_inj.1
      rw [effectiveStart_toNat, UInt16.toNat_ofNat']
      have : startOf a s < 65536 := by rw [← effectiveStart_toNat]; exact UInt16.toNat_lt _
      omega
    have hsym : name ≠ [] → (0x3A : UInt8) ∉ name → (∀ g, ¬ NumericName name g) → Means t name f := by
      intro hne hnc hnn
      have hord := open_order (ha rfl) h2
      subst hord
      obtain ⟨raw', o', h1', h2', hst⟩ := hn
      rw [h1] at h1'
      cases h1'
      have := names_operator h2 h2'
      subst this
      have hop := (open_naked h2).opened
      rw [← (open_naked h2).data] at hop
      refine (means_iff hop hst hne f).1 ?_
      rcases hask with ⟨_, hask⟩ | ⟨a, b, e, _⟩
      · rcases (nameOf_iff f).1 hask with h | h
        · exact absurd h (hnn f)
        · exact h.2
      · rw [e] at hnc; simp at hnc
    obtain ⟨f1, sym, t', g1, _, g3, g4, g5⟩ := viaPut (ha rfl) h1 h2 h4 h5 h6
    have hfs : f1 = 1 ∧ sym = str "FHELLO" := by
      rw [hsplit] at g1
      rcases g1 with ⟨h, _⟩ | ⟨h, _⟩ | ⟨a', e, h, _⟩
      · have := Supermon.numeric_no_colon h; simp at this
      · simp at h
      · obtain ⟨rfl, rfl⟩ := first_colon (Supermon.numeric_no_colon hn1) (Supermon.numeric_no_colon h) e
        exact ⟨Supermon.C34_numeric_unique h hn1, rfl⟩
    obtain ⟨rfl, rfl⟩ := hfs
    rw [he] at g4
    exact ⟨_, t', .mkhello hok (fun part g hp hg => asksFor_number hask hp hg) hsym g3, g4, g5⟩
  | reorder o n ow i j => exact absurd ht ha
  | mksd o i b a s => exact absurd ht ha
  | ls _ _ _ _ _ => cases ht
  | filetypes _ => cases ht
  | dump _ _ _ _ => cases ht
  | decode _ _ _ => cases ht

/-- C105: every session with `put`, `rm` and `mkhello` on a NakedOS image, and any other commands, whatever the disk and its symbol table,
does to its files and names what its commands, one after the other, are asked to do; except that a change of a name may cost all names. -/
theorem C105_session {env : Env} {image : Str} {ord : DiskOrder} {w w' : World} {l : List (World × Command)} (hi : image ≠ str "-")
    (hs : Session env image w l w') (ha : ∀ p ∈ l, Agrees image ord p.2) {m : Files} {t : Option Entries} (h : HasFiles w image ord m)
    (hn : HoldsNames env w image ord t) :
    ∃ m' t', ActsAll env image m t l m' t' ∧ HasFiles w' image ord m' ∧ HoldsNames env w' image ord t' := by
  have move : ∀ {w1 w2 : World} {m t}, w2.files image = w1.files image → HasFiles w1 image ord m → HoldsNames env w1 image ord t →
      HasFiles w2 image ord m ∧ HoldsNames env w2 image ord t := by
    rintro w1 w2 m t e ⟨raw, img, h1, h2⟩ ⟨raw', o, h1', h2'⟩
    exact ⟨⟨raw, img, e.trans h1, h2⟩, ⟨raw', o, e.trans h1', h2'⟩⟩
  induction hs generalizing m t with
  | done e =>
    obtain ⟨a, b⟩ := move e h hn
    exact ⟨m, t, .done, a, b⟩
  | @step w w1 w' c l e _ ih =>
    obtain ⟨a, b⟩ := move e h hn
    obtain ⟨m1, t1, h1, h2, h3⟩ := acts_one (env := env) hi (ha (w1, c) (by simp)) a b
    obtain ⟨m2, t2, h4, h5, h6⟩ := ih (fun p hp => ha p (by simp [hp])) h2 h3
    exact ⟨m2, t2, .step h1 h4, h5, h6⟩

/-- Every NakedOS disk has such files and names to begin with. -/
theorem C105_begin {env : Env} {w : World} {image order system : Str} {o : Supermon.Operator} {ord : DiskOrder} (hi : image ≠ str "-")
    (ho : Finds env w image order system (.nakedos o) ord) :
    HasFiles w image ord (fileOnDisk o.data) ∧ HoldsNames env w image ord (o.st.map entriesOf) := by
  obtain ⟨raw, hg, hopen⟩ := ho
  unfold given at hg
  rw [if_neg hi] at hg hopen
  have hnk := open_naked hopen
  have hop := hnk.opened
  refine ⟨hasFiles_of hg hnk fun _ _ => rfl, raw, o, hg, open_explicit hnk.len hnk.order hop image, ?_⟩
  cases h : o.st with
  | none => exact Or.inl ⟨rfl, rfl⟩
  | some st => exact Or.inr ⟨_, st, rfl, rfl, fun _ _ => rfl⟩

/-- C105: and a symbol that means a file is a name of this file for `dump`. -/
theorem C105_dump {env : Env} {image : Str} {ord : DiskOrder} {w : World} {m : Files} {t : Option Entries} (hi : image ≠ str "-")
    (h : HasFiles w image ord m) (hn : HoldsNames env w image ord t) {n : Str} (hn0 : n ≠ []) (hnn : ∀ g, ¬ NumericName n g) :
    (∀ f, Means t n f → Ordinary f → m f ≠ [] → Dumps env w ord (str "nakedos") image n (m f)) ∧
    (∀ f, Means t n f → Ordinary f → m f = [] → DumpFails env w ord (str "nakedos") image n) ∧
    ((∀ f, ¬ Means t n f) → DumpFails env w ord (str "nakedos") image n) := by
  obtain ⟨raw, o, h1, h2, hst⟩ := hn
  have hnk := open_naked h2
  have hm := hasFiles_view h h1 hnk
  have hop := hnk.opened
  rw [← hnk.data] at hop
  have hfi : Finds env w image ord (str "nakedos") (.nakedos o) ord :=
    ⟨raw, by unfold given; rw [if_neg hi, h1], by rw [if_neg hi]; exact h2⟩
  obtain ⟨d1, d2, d3, _⟩ := C72_dump_nakedos hfi n
  have key : ∀ f, Means t n f → fileForName o.table n = .ok f :=
    fun f hf => (nameOf_iff f).2 (Or.inr ⟨hnn, (means_iff hop hst hn0 f).2 hf⟩)
  refine ⟨?_, ?_, ?_⟩
  · intro f hf hof hne
    rw [← hm f hof] at hne ⊢
    exact d1 f (key f hf) hne
  · intro f hf hof he
    rw [← hm f hof] at he
    exact d2 f (key f hf) he
  · intro hno
    rcases C34_resolution_total o.table n with ⟨f, hf, _⟩ | hf
    · rcases (nameOf_iff f).1 hf with hx | ⟨_, hx⟩
      · exact absurd hx (hnn f)
      · exact absurd ((means_iff hop hst hn0 f).1 hx) (hno f)
    · exact d3 _ hf

theorem noTableFile_means {t : Option Entries} (h : NoTableFile t) {k : Str} (hk : k ≠ []) {f : UInt8} (hm : Means t k f) : f ≠ 3 ∧ f ≠ 4 := by
  obtain ⟨_, d, a, rest, e1, e2, e3⟩ := hm
  have := h d e1 k hk
  rw [e2] at this
  constructor <;> rintro rfl
  · exact this.1 (by rw [show a = 0xDF03 from UInt16.toNat_inj.1 e3]; simp)
  · exact this.2 (by rw [show a = 0xDF04 from UInt16.toNat_inj.1 e3]; simp)

/-- The names are kept as far as `n` is concerned. -/
def KeepsName (n : Str) (t t' : Option Entries) : Prop := t' = none ∨ ∃ d d', t = some d ∧ t' = some d' ∧ d' n = d n

theorem KeepsName.refl (n : Str) (t : Option Entries) : KeepsName n t t := by
  cases t with
  | none => exact Or.inl rfl
  | some d => exact Or.inr ⟨d, d, rfl, rfl, rfl⟩

theorem KeepsName.trans {n : Str} {t t' t'' : Option Entries} (h : KeepsName n t t') (h' : KeepsName n t' t'') : KeepsName n t t'' := by
  rcases h' with h' | ⟨d1, d2, e1, e2, e3⟩
  · exact Or.inl h'
  · rcases h with h | ⟨d, d', k1, k2, k3⟩
    · rw [h] at e1; cases e1
    · rw [k2] at e1
      cases e1
      exact Or.inr ⟨d, d2, k1, e2, e3.trans k3⟩

theorem afterPut_keeps {n : Str} {t t' : Option Entries} {f : UInt8} {sym : Str} (ht : NoTableFile t) (hf : f ≠ 3 ∧ f ≠ 4)
    (hs : sym = [] ∨ LegalName sym ∧ ¬ SameName n sym) (h : AfterPut t f sym t') : NoTableFile t' ∧ KeepsName n t t' := by
  obtain ⟨h1, h2⟩ := h
  by_cases hc : sym = [] ∨ Means t sym f
  · rw [h1 hc hf.1 hf.2]
    exact ⟨ht, .refl n t⟩
  · rw [not_or] at hc
    obtain ⟨d, rfl, rfl | ⟨d', rfl, k1, k2⟩⟩ := h2 hc.1 hc.2
    · exact ⟨fun d e => (by cases e), Or.inl rfl⟩
    · obtain ⟨hl, hns⟩ := hs.resolve_left hc.1
      have hst : SameName (stored sym) sym := by
        rw [stored_eq, List.filter_eq_self.2 fun c hc => by
          unfold alnum
          rcases hl.2.2.1 c hc with h | h <;> rw [h] <;> simp]
        exact upper_upper sym
      refine ⟨?_, Or.inr ⟨d, d', rfl, rfl, k1 n fun hc => hns (hc.trans hst)⟩⟩
      rintro x e k hk
      cases e
      have hd := ht d rfl k hk
      have ha : ∀ g : UInt8, g ≠ f → (0xDF00 + f.toUInt16 : UInt16) ≠ 0xDF00 + g.toUInt16 := by
        intro g hg e
        have e2 := congrArg UInt16.toNat e
        rw [fileAddress, fileAddress] at e2
        exact hg (UInt8.toNat_inj.1 (by omega))
      by_cases hsk : SameName k sym
      · rw [k2 hl k hsk]
        simp only [List.mem_cons, not_or]
        refine ⟨⟨fun e => ha 3 hf.1.symm ?_, fun hm => hd.1 (List.mem_of_mem_tail hm)⟩, ⟨fun e => ha 4 hf.2.symm ?_, fun hm => hd.2 (List.mem_of_mem_tail hm)⟩⟩
        · rw [← e]; rfl
        · rw [← e]; rfl
      · rw [k1 k fun hc => hsk (hc.trans hst)]
        exact hd

theorem acts_keeps {env : Env} {image : Str} {w : World} {m m' : Files} {t t' : Option Entries} {c : Command} {n : Str}
    (h : Acts env image w m t c m' t') (hc : Spares image n c) (ht : NoTableFile t) : NoTableFile t' ∧ KeepsName n t t' := by
  cases h with
  | failed _ => exact ⟨ht, .refl n t⟩
  | elsewhere _ => exact ⟨ht, .refl n t⟩
  | @put _ _ _ _ _ name _ f data sym _ _ _ hp _ haf =>
    rcases hc rfl with ⟨g, hg, hg3, hg4⟩ | ⟨hl, hnn, hns⟩ | ⟨a, b, g, hab, hg, hg3, hg4, hl, hns⟩
    · rcases hp with ⟨h1, h2⟩ | ⟨_, h1, _⟩ | ⟨a, h1, _⟩
      · cases Supermon.C34_numeric_unique h1 hg
        exact afterPut_keeps ht ⟨hg3, hg4⟩ (Or.inl h2) haf
      · exact absurd hg (h1 g)
      · have := Supermon.numeric_no_colon hg
        rw [h1] at this; simp at this
    · have hne : name ≠ [] := by
        rintro rfl
        have := hl.1
        simp at this
      have hcol : (0x3A : UInt8) ∉ name := by
        intro hm
        have := hl.2.2.1 _ hm
        revert this
        decide
      rcases hp with ⟨h1, _⟩ | ⟨_, _, h2, h3⟩ | ⟨a, h1, _⟩
      · exact absurd h1 (hnn f)
      · subst h2
        refine afterPut_keeps ht ?_ (Or.inr ⟨hl, hns⟩) haf
        rcases h3 hne with h3 | ⟨_, h3, _⟩
        · exact noTableFile_means ht hne h3
        · exact h3.2
      · rw [h1] at hcol; simp at hcol
    · have hnc := Supermon.numeric_no_colon hg
      rcases hp with ⟨h1, _⟩ | ⟨h1, _⟩ | ⟨a', h1, h2, _⟩
      · have := Supermon.numeric_no_colon h1
        rw [hab] at this; simp at this
      · rw [hab] at h1; simp at h1
      · obtain ⟨rfl, rfl⟩ := first_colon hnc (Supermon.numeric_no_colon h2) (hab.symm.trans h1)
        cases Supermon.C34_numeric_unique h2 hg
        exact afterPut_keeps ht ⟨hg3, hg4⟩ (Or.inr ⟨hl, hns⟩) haf
  | @rm _ _ _ name f _ _ _ hr _ haf =>
    obtain ⟨hne, hns, h34⟩ := hc rfl
    obtain ⟨h1, h2, _⟩ := haf
    have hf : f ≠ 3 ∧ f ≠ 4 := by
      rcases hr with h | ⟨_, h⟩
      · exact h34 f h
      · exact noTableFile_means ht hne (h hne)
    by_cases hno : ∀ d, t = some d → d name = []
    · rw [h1 hne hno, if_neg (not_or.2 hf)]
      exact ⟨ht, .refl n t⟩
    · obtain ⟨d, e, hd⟩ : ∃ d, t = some d ∧ d name ≠ [] := by
        by_contra hx
        exact hno fun d e => by_contra fun hd => hx ⟨d, e, hd⟩
      subst e
      rcases h2 d hne rfl hd with rfl | ⟨d', rfl, k⟩
      · exact ⟨fun d e => (by cases e), Or.inl rfl⟩
      · refine ⟨?_, Or.inr ⟨d, d', rfl, rfl, by rw [k n, if_neg hns]⟩⟩
        rintro x e q hq
        cases e
        have hdq := ht d rfl q hq
        rw [k q]
        split
        · exact ⟨fun hm => hdq.1 (List.mem_of_mem_tail hm), fun hm => hdq.2 (List.mem_of_mem_tail hm)⟩
        · exact hdq
  | mkhello _ _ _ haf =>
    exact afterPut_keeps ht (by decide) (Or.inr ⟨by decide +kernel, hc rfl⟩) haf

/-- C105: a symbol that no command names either means at the end of a session what it meant at the beginning, or no symbol means anything any more.
(The commands keep away from the symbol table's own files, and no symbol stands for one of these.) -/
theorem C105_name_kept {env : Env} {image : Str} {ord : DiskOrder} {w w' : World} {l : List (World × Command)} (hi : image ≠ str "-")
    (hs : Session env image w l w') {n : Str} (ha : ∀ p ∈ l, Agrees image ord p.2 ∧ Spares image n p.2) {m : Files} {t : Option Entries}
    (h : HasFiles w image ord m) (hn : HoldsNames env w image ord t) (ht : NoTableFile t) :
    ∃ t', HoldsNames env w' image ord t' ∧ ((∀ k f, ¬ Means t' k f) ∨ ∀ f, Means t' n f ↔ Means t n f) := by
  obtain ⟨m', t', h1, h2, h3⟩ := C105_session hi hs (fun p hp => (ha p hp).1) h hn
  refine ⟨t', h3, ?_⟩
  have hb : ∀ p ∈ l, Spares image n p.2 := fun p hp => (ha p hp).2
  clear h hn h2 h3 hs ha
  have key : KeepsName n t t' := by
    induction h1 with
    | done => exact .refl n _
    | @step m m' m'' t t' t'' w c l hact _ ih =>
      obtain ⟨k1, k2⟩ := acts_keeps hact (hb (w, c) (by simp)) ht
      exact k2.trans (ih k1 fun p hp => hb p (by simp [hp]))
  rcases key with rfl | ⟨d, d', rfl, rfl, e⟩
  · left
    rintro k f ⟨_, d, _, _, e, _⟩
    cases e
  · right
    intro f
    unfold Means
    refine and_congr_right fun _ => ⟨?_, ?_⟩
    · rintro ⟨x, a, rest, e1, e2, e3⟩
      cases e1
      exact ⟨d, a, rest, rfl, e ▸ e2, e3⟩
    · rintro ⟨x, a, rest, e1, e2, e3⟩
      cases e1
      exact ⟨d', a, rest, rfl, e.trans e2, e3⟩

end Verif.Cmd
