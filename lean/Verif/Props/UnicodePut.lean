import Verif.Props.Unicode

/-!
# C111: putting a file under any name
-/

set_option autoImplicit false

namespace Verif.Unicode

open Verif Verif.Spec

theorem multi_conts {b : UInt8} {rest : Bytes} {r k : Nat} (h : multi b rest = some (r, k)) :
    k ≤ rest.length ∧ ∀ c ∈ rest.take k, 0x80 ≤ c.toNat ∧ c.toNat ≤ 0xBF := by
  unfold multi at h
  split at h
  · split at h
    · split at h
      · rename_i hc
        simp only [Option.some.injEq, Prod.mk.injEq] at h
        obtain ⟨_, rfl⟩ := h
        refine ⟨by simp, fun x hx => ?_⟩
        simp only [List.take_succ_cons, List.take_zero, List.mem_singleton] at hx
        subst hx; exact cont_nat hc
      · cases h
    · cases h
  split at h
  · split at h
    · split at h
      · rename_i hc
        simp only [Option.some.injEq, Prod.mk.injEq] at h
        obtain ⟨_, rfl⟩ := h
        refine ⟨by simp, fun x hx => ?_⟩
        simp only [List.take_succ_cons, List.take_zero, List.mem_cons, List.not_mem_nil, or_false] at hx
        rcases hx with rfl | rfl
        · exact cont_nat hc.1
        · exact cont_nat hc.2.2.2
      · cases h
    · cases h
  split at h
  · split at h
    · split at h
      · rename_i hc
        simp only [Option.some.injEq, Prod.mk.injEq] at h
        obtain ⟨_, rfl⟩ := h
        refine ⟨by simp, fun x hx => ?_⟩
        simp only [List.take_succ_cons, List.take_zero, List.mem_cons, List.not_mem_nil, or_false] at hx
        rcases hx with rfl | rfl | rfl
        · exact cont_nat hc.1
        · exact cont_nat hc.2.2.2.1
        · exact cont_nat hc.2.2.2.2
      · cases h
    · cases h
  · cases h

/-- The first rune of a string that does not start with ASCII. -/
theorem runes_other_full {b : UInt8} (h : 0x80 ≤ b.toNat) (rest : Bytes) : ∃ r k, runes (b :: rest) = r :: runes (rest.drop k) ∧
    0x80 ≤ r ∧ k ≤ rest.length ∧ (∀ c ∈ rest.take k, 0x80 ≤ c.toNat ∧ c.toNat ≤ 0xBF) ∧
    (r = 0x131 → dotlessI <+: b :: rest ∧ k = 1) ∧ (r = 0x17F → longS <+: b :: rest ∧ k = 1) := by
  rw [runes, if_neg (by rw [UInt8.lt_iff_toNat_lt]; exact Nat.not_lt.2 h)]
  cases hm : multi b rest with
  | none => exact ⟨0xFFFD, 0, by simp, by omega, by simp, by simp, fun e => by omega, fun e => by omega⟩
  | some p =>
    obtain ⟨r, k⟩ := p
    obtain ⟨h1, h2, h3, h4, h5⟩ := multi_spec hm
    refine ⟨r, k, rfl, h1, (multi_conts hm).1, (multi_conts hm).2, fun e => ⟨h3 e, ?_⟩, fun e => ⟨h4 e, ?_⟩⟩
    · obtain ⟨z, hz⟩ := h3 e
      cases hz
      revert hm
      simp [multi, isCont]
      intro _ e; exact e.symm
    · obtain ⟨z, hz⟩ := h4 e
      cases hz
      revert hm
      simp [multi, isCont]
      intro _ e; exact e.symm

theorem stored_other {b : UInt8} {rest : Str} (h1 : ¬ longS <+: b :: rest) (h2 : ¬ dotlessI <+: b :: rest) : storedAs (b :: rest) = b :: storedAs rest := by
  rw [storedAs]
  · rintro z rfl rfl; exact h1 ⟨z, rfl⟩
  · rintro z rfl rfl; exact h2 ⟨z, rfl⟩

theorem stored_ascii {b : UInt8} (h : b.toNat < 0x80) (rest : Str) : storedAs (b :: rest) = b :: storedAs rest :=
  stored_other (by rintro ⟨z, hz⟩; cases hz; simp at h) (by rintro ⟨z, hz⟩; cases hz; simp at h)

/-- The bytes of a valid sequence after the first do not start one. -/
theorem stored_skip : ∀ (k : Nat) (rest : Str), (∀ c ∈ rest.take k, 0x80 ≤ c.toNat ∧ c.toNat ≤ 0xBF) → k ≤ rest.length →
    storedAs rest = rest.take k ++ storedAs (rest.drop k) := by
  intro k
  induction k with
  | zero => intro rest _ _; simp
  | succ k ih =>
    intro rest h hl
    cases rest with
    | nil => simp at hl
    | cons c rest =>
      have hc := h c (by simp)
      rw [stored_other (by rintro ⟨z, hz⟩; cases hz; simp at hc) (by rintro ⟨z, hz⟩; cases hz; simp at hc), List.take_succ_cons, List.drop_succ_cons,
        List.cons_append, ih rest (fun x hx => h x (by rw [List.take_succ_cons]; exact List.mem_cons_of_mem _ hx)) (by simpa using hl)]

/-- Go's upper case of any name has the same letters and digits, in the same order, as the ASCII one once the long s and the dotless i
are written as s and i. -/
theorem toUpper_stored {T : Tables} (hT : IsUnicode T) : ∀ (n : Nat) (s : Str), s.length ≤ n →
    (toUpper T s).filter counts = (Verif.toUpper (storedAs s)).filter counts := by
  intro n
  induction n with
  | zero =>
    intro s hs
    obtain rfl : s = [] := List.length_eq_zero_iff.1 (by omega)
    unfold toUpper
    rw [runes_nil]; rfl
  | succ n ih =>
    intro s hs
    cases s with
    | nil => unfold toUpper; rw [runes_nil]; rfl
    | cons b s =>
      rw [List.length_cons] at hs
      have step : ∀ (r : Nat) (a : UInt8) (s' : Str), s'.length ≤ n → encodeRune (T.upper r) = [upperByte a] →
          ((r :: runes s').flatMap fun r => encodeRune (T.upper r)).filter counts = (Verif.toUpper (a :: storedAs s')).filter counts := by
        intro r a s' hn h2
        have h1 := ih s' hn
        unfold toUpper Verif.toUpper at h1
        rw [List.flatMap_cons, List.filter_append, h1, h2]
        unfold Verif.toUpper
        rw [List.map_cons, List.filter_cons (xs := (storedAs s').map upperByte), List.filter_cons, List.filter_nil]
        split <;> rfl
      by_cases hb : b.toNat < 0x80
      · unfold toUpper
        rw [runes_ascii_cons hb, stored_ascii hb]
        refine step _ b s (by omega) ?_
        rw [hT.upper_ascii _ hb]
        have := (by decide +kernel : ∀ x : Fin 128, encodeRune (if 0x61 ≤ x.val ∧ x.val ≤ 0x7A then x.val - 0x20 else x.val) =
          [upperByte (UInt8.ofNat x.val)]) ⟨b.toNat, hb⟩
        simpa only [UInt8.ofNat_toNat] using this
      · obtain ⟨r, k, e, h1, hk, h2, h3, h4⟩ := runes_other_full (Nat.not_lt.1 hb) s
        unfold toUpper
        rw [e]
        by_cases hi : r = 0x131
        · obtain ⟨⟨z, hz⟩, rfl⟩ := h3 hi
          cases hz
          subst hi
          exact step 0x131 0x69 z (by simp at hs; omega) (by rw [hT.upper_i]; decide)
        by_cases hl : r = 0x17F
        · obtain ⟨⟨z, hz⟩, rfl⟩ := h4 hl
          cases hz
          subst hl
          exact step 0x17F 0x73 z (by simp at hs; omega) (by rw [hT.upper_s]; decide)
        have hnl : ¬ longS <+: b :: s := by
          rintro ⟨z, hz⟩
          cases hz
          revert e
          rw [runes]
          simp [multi, isCont]
          intro e; omega
        have hni : ¬ dotlessI <+: b :: s := by
          rintro ⟨z, hz⟩
          cases hz
          revert e
          rw [runes]
          simp [multi, isCont]
          intro e; omega
        have h5 : 0x80 ≤ T.upper r := by
          refine Nat.not_lt.1 fun hlt => ?_
          rcases (hT.upper_other r h1).1 hlt with e | e
          · exact hi e
          · exact hl e
        have h6 := ih (s.drop k) (by rw [List.length_drop]; omega)
        unfold toUpper at h6
        rw [List.flatMap_cons, List.filter_append, filter_high (encodeRune_high h5), List.nil_append, h6, stored_other hnl hni, stored_skip k s h2 hk]
        unfold Verif.toUpper
        have hhigh : ∀ c ∈ upperByte b :: (s.take k).map upperByte, 0x80 ≤ c.toNat := ?_
        · rw [List.map_cons, List.map_append, ← List.cons_append, List.filter_append, filter_high hhigh, List.nil_append]
        intro c hc
        rcases List.mem_cons.1 hc with rfl | hc
        · rw [upperByte_high (Nat.not_lt.1 hb)]; omega
        · obtain ⟨x, hx, rfl⟩ := List.mem_map.1 hc
          rw [upperByte_high (h2 x hx).1]; exact (h2 x hx).1

theorem encode_stored {T : Tables} (hT : IsUnicode T) (s : Str) : (Supermon.unicode T).encode s = threeLetters.encode s := by
  unfold Supermon.unicode threeLetters
  dsimp only
  rw [encodeLoop_filter _ 0 0 (by omega), encodeLoop_filter (Verif.toUpper (storedAs s)).reverse 0 0 (by omega), List.filter_reverse, List.filter_reverse,
    toUpper_stored hT s.length s (Nat.le_refl _)]

theorem spell_capitals : ∀ (t : Str), Capitals t → spell t = t := by
  intro t
  induction t with
  | nil => intro _; rw [spell]
  | cons c t ih =>
    intro h
    have hc := h c List.mem_cons_self
    rw [spell_ascii (by omega), ih fun x hx => h x (List.mem_cons_of_mem _ hx)]

end Verif.Unicode

namespace Verif.Supermon

open Spec Unicode

namespace Naming

variable {N N' : Naming} {st : SymbolTable} {name : Str}

/-- Two namings that encode alike, and compare one name to the names of a table alike. -/
structure Alike (N N' : Naming) (st : SymbolTable) (name : Str) : Prop where
  same : ∀ s ∈ st, N.same name s.name = N'.same name s.name
  same' : ∀ s ∈ st, N.same s.name name = N'.same s.name name

theorem fillTables_alike (he : ∀ s, N.encode s = N'.encode s) : ∀ (st : SymbolTable) (i : Nat) (t1 t2 : Bytes),
    N.fillTables st i t1 t2 = N'.fillTables st i t1 t2 := by
  intro st
  induction st with
  | nil => intro i t1 t2; rfl
  | cons s rest ih =>
    intro i t1 t2
    unfold fillTables
    simp only [he, ih]

theorem writeSymbolTable_alike (he : ∀ s, N.encode s = N'.encode s) (sm : SectorMap) (img : Bytes) (st : SymbolTable) :
    N.writeSymbolTable sm img st = N'.writeSymbolTable sm img st := by
  unfold writeSymbolTable
  rw [fillTables_alike he]

theorem findName_alike : ∀ (st : SymbolTable), (∀ s ∈ st, N.same name s.name = N'.same name s.name) →
    N.findName st name = N'.findName st name := by
  intro st h
  unfold findName
  induction st with
  | nil => rfl
  | cons s rest ih =>
    rw [List.findIdx?_cons, List.findIdx?_cons, h s List.mem_cons_self, ih fun x hx => h x (List.mem_cons_of_mem _ hx)]

theorem addScan_alike (hash : UInt8) : ∀ (st : SymbolTable) (j : Nat) (pos : Option Nat), (∀ s ∈ st, N.same name s.name = N'.same name s.name) →
    N.addScan name hash st j pos = N'.addScan name hash st j pos := by
  intro st
  induction st with
  | nil => intro j pos _; rfl
  | cons s rest ih =>
    intro j pos h
    unfold addScan
    rw [h s List.mem_cons_self]
    have : ∀ j pos, N.addScan name hash rest j pos = N'.addScan name hash rest j pos :=
      fun j pos => ih j pos fun x hx => h x (List.mem_cons_of_mem _ hx)
    simp only [this]

theorem addSymbol_alike (a : UInt16) (h : ∀ s ∈ st, N.same name s.name = N'.same name s.name) :
    N.addSymbol st name a = N'.addSymbol st name a := by
  unfold addSymbol deleteSymbol
  rw [addScan_alike _ st _ _ h, findName_alike st h]

theorem fileForSymbol_alike : ∀ (st : SymbolTable), (∀ s ∈ st, N.same s.name name = N'.same s.name name) →
    N.fileForSymbol name st = N'.fileForSymbol name st := by
  intro st
  induction st with
  | nil => intro _; rfl
  | cons s rest ih =>
    intro h
    unfold fileForSymbol
    rw [h s List.mem_cons_self, ih fun x hx => h x (List.mem_cons_of_mem _ hx)]

theorem putNumbered_alike {o : Operator} (he : ∀ s, N.encode s = N'.encode s) (h : ∀ name, Alike N N' o.table name) (f nf : UInt8) (sym : Str)
    (data : Bytes) (ow : Bool) : N.putNumbered o f nf sym data ow = N'.putNumbered o f nf sym data ow := by
  unfold putNumbered
  cases hst : o.st with
  | none => rfl
  | some st =>
    have ht : o.table = st := by unfold Operator.table; rw [hst]; rfl
    rw [ht] at h
    dsimp only
    simp only [addSymbol_alike _ (h sym).same, writeSymbolTable_alike he]

theorem filesForCompoundName_alike (h : ∀ name, Alike N N' st name) (name : Str) :
    N.filesForCompoundName st name = N'.filesForCompoundName st name := by
  have hf : ∀ p, N.fileForName st p = N'.fileForName st p := fun p => by
    unfold fileForName
    rw [fileForSymbol_alike st (h p).same']
  unfold filesForCompoundName
  simp only [hf]

theorem putFile_alike {o : Operator} (he : ∀ s, N.encode s = N'.encode s) (h : ∀ name, Alike N N' o.table name) (fi : FileInfo) (ow : Bool) :
    N.putFile o fi ow = N'.putFile o fi ow := by
  unfold putFile
  simp only [filesForCompoundName_alike h, he, putNumbered_alike he h]

end Naming

theorem alike_letters {T : Tables} (hT : IsUnicode T) {img : Bytes} {o : Operator} (ho : openOperator img = .ok o) (name : Str) :
    Naming.Alike (unicode T) threeLetters o.table name where
  same s hs := by
    show Unicode.equalFold T name s.name = equalFold (spell name) (spell s.name)
    rw [spell_capitals _ (opened_capitals ho s hs)]
    exact equalFold_spell hT _ _ _ (Nat.le_refl _) (opened_capitals ho s hs)
  same' s hs := by
    show Unicode.equalFold T s.name name = equalFold (spell s.name) (spell name)
    rw [spell_capitals _ (opened_capitals ho s hs), Unicode.equalFold_comm, equalFold_spell hT _ _ _ (Nat.le_refl _) (opened_capitals ho s hs)]
    unfold equalFold
    exact decide_eq_decide.2 eq_comm

/-- C111: what putting a file under any name, of whatever bytes, does: a name on the disk counts as the same if it is but for the case of A–Z
once each long s is written as s and each Kelvin sign as k, and the name is stored as it is with each long s written as s and
each dotless i as i.  No other property of Unicode's tables has any effect. -/
theorem C111_put {T : Tables} (hT : IsUnicode T) {img : Bytes} {o : Operator} (ho : openOperator img = .ok o) (fi : FileInfo) (ow : Bool) :
    (unicode T).putFile o fi ow = threeLetters.putFile o fi ow :=
  Naming.putFile_alike (encode_stored hT) (alike_letters hT ho) fi ow

end Verif.Supermon

namespace Verif.Supermon

open Spec Unicode

namespace Naming

variable {N : Naming} {st : SymbolTable} {n n' : Str}

/-- Two symbols that are written alike. -/
def Written (N : Naming) (s s' : Symbol) : Prop := s.address = s'.address ∧ s.link = s'.link ∧ N.encode s.name = encodeSymbol s'.name

theorem fillTables_written : ∀ {st st' : SymbolTable}, List.Forall₂ (Written N) st st' → ∀ (i : Nat) (t1 t2 : Bytes),
    N.fillTables st i t1 t2 = Supermon.fillTables st' i t1 t2 := by
  intro st st' h
  induction h with
  | nil => intro i t1 t2; rfl
  | cons h _ ih =>
    intro i t1 t2
    unfold fillTables Supermon.fillTables
    rw [h.1, h.2.1, h.2.2]
    simp only [ih]

theorem set_written {s s' : Symbol} (hs : Written N s s') : ∀ {st st' : SymbolTable} (i : Nat), List.Forall₂ (Written N) st st' →
    List.Forall₂ (Written N) (st.set i s) (st'.set i s') := by
  intro st st' i h
  induction h generalizing i with
  | nil => exact .nil
  | cons h ht ih =>
    cases i with
    | zero => exact .cons hs ht
    | succ i => exact .cons h (ih i)

theorem insertAt_written (he : ∀ s ∈ st, N.encode s.name = encodeSymbol s.name) (hn : N.encode n = encodeSymbol n') (a : UInt16) (pos : Nat) :
    List.Forall₂ (Written N) (insertAt st n a pos) (insertAt st n' a pos) := by
  unfold insertAt
  refine set_written (N := N) (s := ⟨a, n, -1⟩) (s' := ⟨a, n', -1⟩) ⟨rfl, rfl, hn⟩ pos (List.forall₂_same.2 fun s hs => ⟨rfl, rfl, ?_⟩)
  obtain ⟨s', hs', e⟩ := linkTail_names _ _ _ s hs
  rw [e]; exact he s' hs'

theorem addScan_new (h : UInt8) : ∀ (st : SymbolTable) (j : Nat) (pos : Option Nat), (∀ s ∈ st, N.same n s.name = false) →
    (∀ s ∈ st, equalFold n' s.name = false) → N.addScan n h st j pos = Supermon.addScan n' h st j pos ∧ ∃ p, N.addScan n h st j pos = .free p := by
  intro st
  induction st with
  | nil => intro j pos _ _; exact ⟨rfl, pos, rfl⟩
  | cons s rest ih =>
    intro j pos h1 h2
    unfold addScan Supermon.addScan
    simp only [h1 s List.mem_cons_self, h2 s List.mem_cons_self, Bool.false_eq_true, if_false]
    have ih := fun j pos => ih j pos (fun x hx => h1 x (List.mem_cons_of_mem _ hx)) fun x hx => h2 x (List.mem_cons_of_mem _ hx)
    split
    · exact ih _ _
    · exact ih _ _

/-- A new symbol is written as another that it is stored as. -/
theorem putNumbered_new {o : Operator} (hst : o.st = some st) (h1 : ∀ s ∈ st, N.same n s.name = false) (h2 : ∀ s ∈ st, equalFold n' s.name = false)
    (he : ∀ s ∈ st, N.encode s.name = encodeSymbol s.name) (hn : N.encode n = encodeSymbol n') (h3 : n ≠ []) (h4 : n' ≠ []) (f nf : UInt8)
    (data : Bytes) (ow : Bool) : (N.putNumbered o f nf n data ow).out = (o.putNumbered f nf n' data ow).out ∧
      (N.putNumbered o f nf n data ow).op.data = (o.putNumbered f nf n' data ow).op.data := by
  unfold putNumbered Operator.putNumbered
  dsimp only
  generalize writeFile o.sm o.data f data ow = r
  cases r.out with
  | err k => exact ⟨rfl, rfl⟩
  | panic => exact ⟨rfl, rfl⟩
  | timeout => exact ⟨rfl, rfl⟩
  | ok u =>
    dsimp only
    by_cases hf : nf = f
    · rw [if_neg (fun h => h.1 hf), if_neg (fun h => h.1 hf)]; exact ⟨rfl, rfl⟩
    rw [if_pos ⟨hf, h3⟩, if_pos ⟨hf, h4⟩, hst]
    dsimp only
    unfold addSymbol Supermon.addSymbol
    by_cases ha : 0xDF00 + f.toUInt16 = 0
    · rw [if_pos ha, if_pos ha]; exact ⟨rfl, rfl⟩
    rw [if_neg ha, if_neg ha]
    obtain ⟨e, p, hp⟩ := addScan_new (N := N) (n := n) (n' := n') (addrHash (0xDF00 + f.toUInt16)) st 0 none h1 h2
    rw [← e, hp]
    cases p with
    | none => exact ⟨rfl, rfl⟩
    | some pos =>
      dsimp only
      have hw : N.writeSymbolTable r.sm r.img (insertAt st n (0xDF00 + f.toUInt16) pos) =
          Supermon.writeSymbolTable r.sm r.img (insertAt st n' (0xDF00 + f.toUInt16) pos) := by
        unfold writeSymbolTable Supermon.writeSymbolTable
        rw [fillTables_written (insertAt_written he hn _ pos)]
        rfl
      rw [hw]
      exact ⟨rfl, rfl⟩

end Naming

end Verif.Supermon

namespace Verif.Cmd
open Disk Spec

/-- A disk to which a file 5 named IAA can be added. -/
theorem iaa_disk (env : Env) : ∃ (img : Bytes) (sm : Supermon.SectorMap) (ft : Filetype) (o2 : Supermon.Operator),
    Supermon.openOperator img = .ok ⟨img, sm, some Supermon.chainTable⟩ ∧
    ((⟨img, sm, some Supermon.chainTable⟩ : Supermon.Operator).putFile ⟨{ name := str "DF05:IAA", length := 1, type := ft }, [1], 0⟩ false).out = .ok () ∧
    Supermon.openOperator ((⟨img, sm, some Supermon.chainTable⟩ : Supermon.Operator).putFile
      ⟨{ name := str "DF05:IAA", length := 1, type := ft }, [1], 0⟩ false).op.data = .ok o2 ∧ Supermon.Good o2.sm o2.data ∧
    Supermon.fileForName o2.table (str "IAA") = .ok 5 ∧ fileOnDisk o2.data 5 = padded [1] := by
  obtain ⟨img, sm, hg, ho, hroom, h5⟩ := tabled5
  obtain ⟨hfi, _, _⟩ := copy_disk env hg ho hroom h5 (d := [1]) (by simp) (by simp) (str "B")
  have hsplit : str "DF05:IAA" = str "DF05" ++ 0x3A :: str "IAA" := by decide +kernel
  have hsym : Symbolic (str "IAA") := chain_symbolic _ (by decide +kernel) (by decide +kernel)
  have hpn : Supermon.PutName (str "AAA") (fun _ => none) (str "DF05:IAA") :=
    Or.inr (Or.inr ⟨str "DF05", str "IAA", 5, hsplit, numeric5, by decide, by decide, hsym, fun e => absurd e (by decide +kernel)⟩)
  have hi : str "a.do" ≠ str "-" := by decide +kernel
  have hok : (run env (.put (str "do") (str "nakedos") (str "B") false 0 (str "a.do") (str "DF05:IAA") (str "x")) (copyWorld img [1])).1 = .ok () := by
    have hown : ∀ g, ownedBy (owner img) g = ownedBy (own sm) g := by
      intro g
      unfold ownedBy
      apply List.filter_congr
      intro n hn
      rw [(Supermon.loaded_iff (by have := hg.len; omega) sm).1 hg.loaded n (List.mem_range.1 hn)]
    rw [C91_tidy hi hfi rfl chainTable_knows (by decide +kernel) (copyWorld_x img [1]) (by simp) fun _ => hpn]
    refine ⟨by decide +kernel, 5, some (str "IAA"), ⟨numeric5.1, by decide, by decide⟩,
      Or.inr (Or.inr ⟨_, _, hsplit, numeric5, hsym, rfl⟩), ?_, Or.inr ((Supermon.fileOnDisk_nil hg 5).2 h5), fun s _ =>
        (Or.inr ⟨⟨0, [], 0⟩, List.mem_cons_of_mem _ List.mem_cons_self, rfl⟩)⟩
    dsimp only
    rw [hown, hown, Supermon.sectorsNeeded_eq]
    simp only [List.length_cons, List.length_nil]
    omega
  obtain ⟨raw, o, ord, data, ft, new, h1, h2, h3, h4, _⟩ := put_inv_type hi hok
  have ho' : o = ⟨img, sm, some Supermon.chainTable⟩ := by
    obtain ⟨raw', g1, g2⟩ := hfi
    unfold given at g1
    rw [if_neg hi] at g1 g2
    rw [h1] at g1
    cases g1
    rw [h2] at g2
    cases g2
    rfl
  subst ho'
  have hd : data = [1] := by
    unfold given at h3
    rw [if_neg (by decide +kernel), copyWorld_x] at h3
    cases h3; rfl
  subst hd
  obtain ⟨f, sym, o2, st2, p1, p2, _, p4, p5, p6, p7, p8, p9⟩ := Supermon.put_names (o := ⟨img, sm, some Supermon.chainTable⟩) (st := Supermon.chainTable) hg ho rfl chainTable_knows
    (fi := ⟨{ name := str "DF05:IAA", length := 1, type := ft }, [1], 0⟩) hpn h4
  have hkey : f = 5 ∧ sym = some (str "IAA") := by
    dsimp only at p2
    rcases p2 with ⟨hnn, _⟩ | ⟨hsy, e, _⟩ | ⟨x, y, e, hx, hy, es⟩
    · have hcol := Supermon.numeric_no_colon hnn
      exact absurd hcol (by decide +kernel)
    · have hcol := Supermon.symbolic_no_colon hsy
      exact absurd hcol (by decide +kernel)
    · have hcx := Supermon.numeric_no_colon hx
      rw [hsplit] at e
      obtain ⟨rfl, rfl⟩ := first_colon (Supermon.numeric_no_colon numeric5) hcx e
      refine ⟨?_, es⟩
      have a1 := (Supermon.parseAddressFilename_iff hx.1.1).2 hx
      have a2 := (Supermon.parseAddressFilename_iff numeric5.1.1).2 numeric5
      rw [a1] at a2
      exact a2
  obtain ⟨rfl, rfl⟩ := hkey
  refine ⟨img, sm, ft, o2, ho, h4, p4, p5, ?_, ?_⟩
  · have htab : o2.table = st2 := by unfold Supermon.Operator.table; rw [p8]; rfl
    rw [htab]
    refine ((Supermon.knows_name p9 hsym).1 5).2 ?_
    simp [Change.names, SameName]
  · rw [p7 5 p1, if_pos rfl]

end Verif.Cmd

namespace Verif.Supermon

open Spec Unicode

theorem dotless_differs {t : Str} (hc : Capitals t) (x : Str) : equalFold (dotlessI ++ x) t = false ∧ equalFold t (dotlessI ++ x) = false := by
  have key : toUpper t ≠ toUpper (dotlessI ++ x) := by
    intro he
    have hu : toUpper (dotlessI ++ x) = 0xC4 :: 0xB1 :: toUpper x := by
      show upperByte 0xC4 :: upperByte 0xB1 :: toUpper x = _
      rw [show upperByte 0xC4 = 0xC4 by decide, show upperByte 0xB1 = 0xB1 by decide]
    rw [hu] at he
    cases t with
    | nil => simp [toUpper] at he
    | cons c n =>
      have h3 := hc c List.mem_cons_self
      have h4 : upperByte c = 0xC4 := (List.cons.inj he).1
      exact high_differs 0xC4 c (by decide) (by omega) (by rw [h4]; decide)
  unfold equalFold
  exact ⟨decide_eq_false fun h => key h.symm, decide_eq_false key⟩

/-- C111: a file put under a name with a dotless i is on the disk under I, and not found under the name it was put under. -/
theorem C111_violated_put {T : Tables} (hT : IsUnicode T) : ∃ (img : Bytes) (o o2 : Operator) (fi : FileInfo), openOperator img = .ok o ∧
    fi.descriptor.name = str "DF05:" ++ dotlessI ++ str "AA" ∧ ((unicode T).putFile o fi false).out = .ok () ∧
    openOperator ((unicode T).putFile o fi false).op.data = .ok o2 ∧
    (∃ got, (unicode T).getFile o2 (str "IAA") = .ok got ∧ got.data = padded fi.data) ∧
    (unicode T).getFile o2 (dotlessI ++ str "AA") = .err .fileNotFound := by
  obtain ⟨img, sm, ft, o2, ho, hok, ho2, hg2, h5, hp⟩ := Cmd.iaa_disk ⟨0, RangeOrder.stored⟩
  have htab : Operator.table ⟨img, sm, some chainTable⟩ = chainTable := rfl
  have hcap : ∀ s ∈ chainTable, Capitals s.name := opened_capitals ho
  have hspell : spell (dotlessI ++ str "AA") = dotlessI ++ str "AA" := by decide +kernel
  have hput : ((unicode T).putFile ⟨img, sm, some chainTable⟩ ⟨{ name := str "DF05:" ++ dotlessI ++ str "AA", length := 1, type := ft }, [1], 0⟩ false).out =
        ((⟨img, sm, some chainTable⟩ : Operator).putFile ⟨{ name := str "DF05:IAA", length := 1, type := ft }, [1], 0⟩ false).out ∧
      ((unicode T).putFile ⟨img, sm, some chainTable⟩ ⟨{ name := str "DF05:" ++ dotlessI ++ str "AA", length := 1, type := ft }, [1], 0⟩ false).op.data =
        ((⟨img, sm, some chainTable⟩ : Operator).putFile ⟨{ name := str "DF05:IAA", length := 1, type := ft }, [1], 0⟩ false).op.data := by
    have hsame : ∀ s ∈ chainTable, (unicode T).same (dotlessI ++ str "AA") s.name = false := fun s hs => by
      rw [(finds_spell hT ho (dotlessI ++ str "AA")).same s hs, hspell]
      exact (dotless_differs (hcap s hs) _).1
    have hsame' : ∀ s ∈ chainTable, (unicode T).same s.name (dotlessI ++ str "AA") = false := fun s hs => by
      rw [(finds_spell hT ho (dotlessI ++ str "AA")).same' s hs, hspell]
      exact (dotless_differs (hcap s hs) _).2
    have hother : ∀ s ∈ chainTable, equalFold (str "IAA") s.name = false ∧ equalFold s.name (str "IAA") = false := by
      intro s hs
      obtain ⟨i, hi, e⟩ := List.getElem_of_mem hs
      rcases chainTable_get i s (by rw [List.getElem?_eq_getElem hi, e]) with ⟨_, rfl⟩ | ⟨_, rfl⟩ | rfl
      · exact ⟨by decide +kernel, by decide +kernel⟩
      · exact ⟨by decide +kernel, by decide +kernel⟩
      · exact ⟨by decide +kernel, by decide +kernel⟩
    have hnone : ∀ (N : Naming) (n : Str) (st : SymbolTable), (∀ s ∈ st, N.same s.name n = false) → N.fileForSymbol n st = none := by
      intro N n st
      induction st with
      | nil => intro _; rfl
      | cons s st ih =>
        intro h
        unfold Naming.fileForSymbol
        rw [if_neg (by rw [h s List.mem_cons_self]; simp), ih fun x hx => h x (List.mem_cons_of_mem _ hx)]
    have hnone' : ∀ (n : Str) (st : SymbolTable), (∀ s ∈ st, equalFold s.name n = false) → fileForSymbol n st = none := by
      intro n st
      induction st with
      | nil => intro _; rfl
      | cons s st ih =>
        intro h
        unfold fileForSymbol
        rw [if_neg (by rw [h s List.mem_cons_self]; simp), ih fun x hx => h x (List.mem_cons_of_mem _ hx)]
    have e1 : (unicode T).filesForCompoundName chainTable (str "DF05:" ++ dotlessI ++ str "AA") = .ok (5, 0, dotlessI ++ str "AA") := by
      unfold Naming.filesForCompoundName
      rw [show splitColon (str "DF05:" ++ dotlessI ++ str "AA") = [str "DF05", dotlessI ++ str "AA"] by decide +kernel]
      dsimp only
      rw [show parseAddressFilename (str "DF05") = 5 by decide +kernel, show parseAddressFilename (dotlessI ++ str "AA") = 0 by decide +kernel,
        if_neg (by decide), if_neg (by decide)]
      unfold Naming.fileForName
      rw [if_neg (by decide +kernel), hnone _ _ _ hsame']
    have e2 : filesForCompoundName chainTable (str "DF05:IAA") = .ok (5, 0, str "IAA") := by
      unfold filesForCompoundName
      rw [show splitColon (str "DF05:IAA") = [str "DF05", str "IAA"] by decide +kernel]
      dsimp only
      rw [show parseAddressFilename (str "DF05") = 5 by decide +kernel, show parseAddressFilename (str "IAA") = 0 by decide +kernel,
        if_neg (by decide), if_neg (by decide)]
      unfold fileForName
      rw [if_neg (by decide +kernel), hnone' _ _ fun s hs => (hother s hs).2]
    have hn : (unicode T).encode (dotlessI ++ str "AA") = encodeSymbol (str "IAA") := by
      rw [encode_stored hT]; decide +kernel
    unfold Naming.putFile Operator.putFile
    dsimp only
    rw [htab, e1, e2]
    dsimp only
    rw [hn]
    split
    · exact ⟨rfl, rfl⟩
    split
    · exact ⟨rfl, rfl⟩
    have h5 : ¬ (5 : UInt8) = 0 := by decide
    rw [if_neg h5, if_neg h5, if_neg (fun h => absurd h.2 (by simp)), if_neg (fun h => absurd h.2 (by decide +kernel)),
      if_neg (fun h => absurd h.2 (by simp)), if_neg (fun h => absurd h.2 (by decide +kernel))]
    exact Naming.putNumbered_new rfl hsame (fun s hs => (hother s hs).1) (fun s hs => encode_plain hT (capitals_plain (hcap s hs))) hn
      (by decide +kernel) (by decide +kernel) _ _ _ _
  refine ⟨img, _, o2, _, ho, rfl, hput.1.trans hok, by rw [hput.2]; exact ho2, ?_, ?_⟩
  · rw [C111_get hT ho2, show spell (str "IAA") = str "IAA" by decide +kernel, getFile_eq hg2.len h5, hg2.onDisk, hp, if_neg]
    · exact ⟨_, rfl, rfl⟩
    · intro e
      have := congrArg List.length e
      rw [padded_length] at this
      simp at this
  · rw [C111_get hT ho2, hspell]
    have h1 : ∀ st : SymbolTable, (∀ s ∈ st, Capitals s.name) → fileForSymbol (dotlessI ++ str "AA") st = none := by
      intro st
      induction st with
      | nil => intro _; rfl
      | cons s st ih =>
        intro h
        unfold fileForSymbol
        rw [if_neg (by rw [(dotless_differs (h s List.mem_cons_self) _).2]; simp), ih fun x hx => h x (List.mem_cons_of_mem _ hx)]
    have h2 : fileForName o2.table (dotlessI ++ str "AA") = .err .fileNotFound := by
      unfold fileForName
      rw [if_neg (by decide +kernel), h1 _ (opened_capitals ho2)]
    unfold Operator.getFile
    rw [h2]
    rfl

end Verif.Supermon
