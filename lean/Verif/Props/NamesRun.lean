import Verif.Props.Names
import Verif.Props.HistoryWit

/-!
# C83: when careful commands succeed; a session
-/

set_option autoImplicit false

namespace Verif.Supermon
open Disk Spec

theorem firstFreeFile_ne {sm : SectorMap} {f : UInt8} (hf : IsFileNumber f) (h : ownedBy (own sm) f = []) : firstFreeFile sm ≠ 0 := by
  have key : ∀ l : List UInt8, (∀ x ∈ l, x ≠ 0) → f ∈ l → firstFreeFileLoop sm l ≠ 0 := by
    intro l
    induction l with
    | nil => intro _ hm; simp at hm
    | cons a l ih =>
      intro h0 hm
      unfold firstFreeFileLoop
      split
      · exact h0 a (by simp)
      · rename_i hne
        refine ih (fun x hx => h0 x (by simp [hx])) ?_
        rcases List.mem_cons.1 hm with rfl | hm
        · rw [sectorsForFile_eq, List.length_map, h] at hne
          simp at hne
        · exact hm
  exact key allFiles (fun x hx => (mem_allFiles.1 hx).1) (mem_allFiles.2 hf)

theorem table_sizes {o : Operator} (h : Good o.sm o.data) (ho : openOperator o.data = .ok o) {st : SymbolTable} (hst : o.st = some st) :
    (ownedBy (own o.sm) 3).length = 16 ∧ (ownedBy (own o.sm) 4).length = 16 := by
  have := opened_table h ho
  rw [hst] at this
  unfold tableOn at this
  rw [readSymbolTable_eq h.len] at this
  unfold tableOf at this
  have h1 : (fileBytes (own o.sm) o.data 3).length = 0x1000 := by
    by_contra hc
    rw [dif_neg hc] at this
    simp at this
  rw [dif_pos h1] at this
  have h2 : (fileBytes (own o.sm) o.data 4).length = 0x1000 := by
    by_contra hc
    rw [dif_neg hc] at this
    simp at this
  rw [fileBytes_length h.len] at h1 h2
  omega

theorem putNumbered_succeeds {o : Operator} (h : Good o.sm o.data) (ho : openOperator o.data = .ok o) {f nf : UInt8} {sym : Str} {data : Bytes}
    {ow : Bool} (hf : IsFileNumber f) (h3 : f ≠ 3) (h4 : f ≠ 4) {st : SymbolTable} (hst : o.st = some st) (hd : data ≠ [])
    (hfit : Fits o.sm f data) (hx : ow = true ∨ ownedBy (own o.sm) f = [])
    (hadd : nf ≠ f → sym ≠ [] → (addSymbol st sym (0xDF00 + f.toUInt16)).1 = .ok () ∧ WellFormed (addSymbol st sym (0xDF00 + f.toUInt16)).2) :
    (o.putNumbered f nf sym data ow).out = .ok () := by
  have e := writeFile_ok (img := o.data) (ow := ow) h.len hf hd hfit hx
  have hk := keep_writeFile (c := data) (ow := ow) h hf (by rw [e]; simp)
  obtain ⟨s3, s4⟩ := table_sizes h ho hst
  have s3' := hk.sect 3 isFile3 (fun h => h3 h.symm)
  have s4' := hk.sect 4 isFile4 (fun h => h4 h.symm)
  have hg := hk.good
  unfold Operator.putNumbered
  simp only
  rw [e] at s3' s4' hg ⊢
  dsimp only at s3' s4' hg ⊢
  split
  · rename_i hc
    obtain ⟨h1, h2⟩ := hadd hc.1 hc.2
    rw [hst]
    dsimp only
    rcases hy : addSymbol st sym (0xDF00 + f.toUInt16) with ⟨out, st'⟩
    rw [hy] at h1 h2
    dsimp only at h1 h2
    subst h1
    exact C31_write_succeeds hg h2 (by rw [s3', s3]; omega) (by rw [s3', s4', s3, s4]; omega)
  · rfl

/-- A symbol can be added exactly if the table has an entry for it or an unused one. -/
theorem addSymbol_succeeds {st : SymbolTable} {name : Str} {a : UInt16} (ha : a ≠ 0) :
    (addSymbol st name a).1 = .ok () ↔ PlaceFor st name := by
  rcases addSymbol_cases st name a with ⟨h0, e⟩ | ⟨h0, i, s, hi, hsi, hh, e⟩ |
    ⟨h0, i, s, hi, hsi, hh, e⟩ | ⟨h0, hnf, hf, e⟩ | ⟨h0, hnf, p, s, hp, hz, e⟩
  · exact absurd h0 ha
  · rw [e]
    simp only [true_iff]
    obtain ⟨s, hs, hq, _⟩ := findName_some hi
    exact Or.inl ⟨s, List.mem_of_getElem? hs, (equalFold_iff.1 hq).symm⟩
  · rw [e]
    simp only [true_iff]
    obtain ⟨s, hs, hq, _⟩ := findName_some hi
    exact Or.inl ⟨s, List.mem_of_getElem? hs, (equalFold_iff.1 hq).symm⟩
  · rw [e]
    simp only [reduceCtorEq, false_iff]
    rintro (⟨s, hs, hq⟩ | ⟨s, hs, h0⟩)
    · exact equalFold_false.1 (findName_none hnf s hs) hq.symm
    · exact hf s hs h0
  · rw [e]
    simp only [true_iff]
    exact Or.inr ⟨s, List.mem_of_getElem? hp, hz⟩

theorem putFile_succeeds {o : Operator} (h : Good o.sm o.data) (ho : openOperator o.data = .ok o) {st : SymbolTable} (hst : o.st = some st)
    {z : Str} {t : Names} (hk : Knows st z t) {name : Str} (hname : PutName z t name) {f : UInt8} {sym : Option Str} (hf : Ordinary f)
    (hto : PutTo (fileOnDisk o.data) t name f sym) {data : Bytes} (hd : data ≠ []) (hfit : Fits o.sm f data) {ow : Bool}
    (hx : ow = true ∨ ownedBy (own o.sm) f = []) (hroom : ∀ s, sym = some s → PlaceFor st s) (a : UInt16) :
    (o.putFile ⟨{ name := name, length := data.length, type := filetypeBinary }, data, a⟩ ow).out = .ok () := by
  have htab : o.table = st := by unfold Operator.table; rw [hst]; rfl
  -- the symbol, if there is one to be added
  have hadd : ∀ {g : UInt8} {s : Str}, sym = some s → IsFileNumber g → Symbolic s → ¬ SameName s z →
      (addSymbol st s (0xDF00 + g.toUInt16)).1 = .ok () ∧ WellFormed (addSymbol st s (0xDF00 + g.toUInt16)).2 := by
    intro g s hs hg hsy hz
    have h1 : (addSymbol st s (0xDF00 + g.toUInt16)).1 = .ok () := (addSymbol_succeeds (addr_ne_zero g)).2 (hroom s hs)
    exact ⟨h1, (knows_add hk hsy hz hg h1).1⟩
  have henc : ∀ {s : Str}, Symbolic s → ¬ (s ≠ [] ∧ (encodeSymbol s).isErr = true) := by
    intro s hs hc
    obtain ⟨six, e⟩ := legal_encode hs.1
    rw [e] at hc
    simp at hc
  unfold Operator.putFile
  dsimp only
  rw [if_neg (by simp), if_neg (by simp), htab]
  rcases hto with ⟨hn, hs⟩ | ⟨hsy, hs, hw⟩ | ⟨c, b, e, hn, hsy, hs⟩
  · rw [(C39_plain st (numeric_no_colon hn)).1 f hn]
    dsimp only
    rw [if_neg (by simp), if_neg (by simp), if_neg hf.1.1, if_neg hf.1.1]
    exact putNumbered_succeeds h ho hf.1 hf.2.1 hf.2.2 hst hd hfit hx (fun _ hc => absurd rfl hc)
  · obtain ⟨k1, k2⟩ := knows_name hk hsy
    have hc := symbolic_no_colon hsy
    rcases hw with hw | ⟨hw, hm⟩
    · rw [(C39_plain st hc).2.1 hsy.2 f ((k1 f).2 hw)]
      dsimp only
      rw [if_neg (fun h => by rw [hst] at h; simp at h), if_neg (henc hsy), if_neg hf.1.1, if_neg hf.1.1]
      exact putNumbered_succeeds h ho hf.1 hf.2.1 hf.2.2 hst hd hfit hx (fun hc => absurd rfl hc)
    · rw [(C39_plain st hc).2.2 hsy.2 (k2.2 hw)]
      dsimp only
      have hfree := (fileOnDisk_nil h f).1 hm
      have hne := firstFreeFile_ne hf.1 hfree
      obtain ⟨_, hemp⟩ := firstFreeFileLoop_mem (sm := o.sm) (l := allFiles) hne
      rw [if_neg (fun h => by rw [hst] at h; simp at h), if_neg (henc hsy), if_pos rfl, if_neg hne]
      obtain ⟨tf3, tf4⟩ := table_files h ho hst
      have hz : ¬ SameName name z := by
        rcases hname with ⟨g, hg, _⟩ | ⟨_, _, _, hz⟩ | ⟨x, y, _, hxy, _⟩
        · exact absurd hg (hsy.2 g)
        · exact fun e => hz e hw
        · rw [hxy] at hc; simp at hc
      refine putNumbered_succeeds h ho (firstFreeFile_file hne) (fun e => ?_) (fun e => ?_) hst hd ?_ (Or.inr hemp)
        (fun _ _ => hadd hs (firstFreeFile_file hne) hsy hz)
      · exact tf3 (by rw [← e]; exact hemp)
      · exact tf4 (by rw [← e]; exact hemp)
      · unfold Fits at hfit ⊢
        rw [hfree] at hfit
        rw [show ownedBy (own o.sm) (firstFreeFile o.sm) = [] from hemp]
        exact hfit
  · obtain ⟨k1, k2⟩ := knows_name hk hsy
    subst e
    have hca := numeric_no_colon hn
    have hcb := symbolic_no_colon hsy
    have hz : SameName b z → t b = some f := by
      rcases hname with ⟨g, hg, _⟩ | ⟨h1, _⟩ | ⟨c', b', f', e, hn', _, _, _, hz⟩
      · have := numeric_no_colon hg; simp at this
      · have := symbolic_no_colon h1; simp at this
      · obtain ⟨rfl, rfl⟩ := Cmd.first_colon hca (numeric_no_colon hn') e
        rw [C34_numeric_unique hn hn']
        exact hz
    rcases C34_resolution_total st b with ⟨g, hg, _⟩ | hg
    · rw [((C39_compound st hca hcb).1 f hn hsy.2).1 g hg]
      dsimp only
      rw [if_neg (fun h => by rw [hst] at h; simp at h), if_neg (henc hsy), if_neg hf.1.1, if_neg hf.1.1]
      refine putNumbered_succeeds h ho hf.1 hf.2.1 hf.2.2 hst hd hfit hx (fun hne _ => hadd hs hf.1 hsy fun hc => ?_)
      have := (k1 g).1 hg
      rw [hz hc] at this
      cases this
      exact hne rfl
    · rw [((C39_compound st hca hcb).1 f hn hsy.2).2 hg]
      dsimp only
      rw [if_neg (fun h => by rw [hst] at h; simp at h), if_neg (henc hsy), if_neg hf.1.1, if_neg hf.1.1]
      refine putNumbered_succeeds h ho hf.1 hf.2.1 hf.2.2 hst hd hfit hx (fun hne _ => hadd hs hf.1 hsy fun hc => ?_)
      have := k2.1 hg
      rw [hz hc] at this
      cases this

theorem delete_succeeds {o : Operator} (h : Good o.sm o.data) (ho : openOperator o.data = .ok o) {st : SymbolTable} (hst : o.st = some st)
    {z : Str} {t : Names} (hk : Knows st z t) {name : Str} (hsy : Symbolic name) (hz : ¬ SameName name z) {f : UInt8} (hf : t name = some f)
    (h3 : f ≠ 3) (h4 : f ≠ 4) : (o.delete name).out = .ok () := by
  have htab : o.table = st := by unfold Operator.table; rw [hst]; rfl
  have hn := ((knows_name hk hsy).1 f).2 hf
  have hff := fileForName_file hn
  obtain ⟨hp, hkd⟩ := keep_delete h hff
  obtain ⟨s3, s4⟩ := table_sizes h ho hst
  have s3' := hkd.sect 3 isFile3 (fun h => h3 h.symm)
  have s4' := hkd.sect 4 isFile4 (fun h => h4 h.symm)
  have hw := (knows_delete hk hsy hz).1
  unfold Operator.delete
  rw [htab, hn]
  simp only [hp, hst]
  rcases hd : deleteSymbol st name with ⟨b, st'⟩
  rw [hd] at hw
  cases b with
  | true => exact C31_write_succeeds hkd.good hw (by rw [s3', s3]; omega) (by rw [s3', s4', s3, s4]; omega)
  | false => rfl

end Verif.Supermon

namespace Verif.Cmd
open Disk Spec

/-- C83: a careful `put` of a non-empty file succeeds if the sectors it needs are free or those of the file it replaces, it replaces no
file unless it is allowed to, and, if there is a symbol in the name, the symbol table is not full. -/
theorem C83_put_succeeds {env : Env} {w : World} {image order system : Str} {o : Supermon.Operator} {ord : DiskOrder}
    (hi : image ≠ str "-") (ho : Finds env w image order system (.nakedos o) ord) {st : Supermon.SymbolTable} (hst : o.st = some st)
    {z : Str} {t : Names} (hk : Knows st z t) {source ty name : Str} (hs : source ≠ str "-") {data : Bytes}
    (hdata : w.files source = some data) (hd : data ≠ []) (hty : Types.filetypeForName ty = .ok filetypeBinary) {ow : Bool} {a : UInt16}
    (hc : Careful image z t (.put order system ty ow a image name source)) {f : UInt8} {sym : Option Str} (hf : Ordinary f)
    (hto : PutTo (fileOnDisk o.data) t name f sym)
    (hroom : sectorsNeeded data.length ≤ (ownedBy (owner o.data) 0xFF).length + (ownedBy (owner o.data) f).length)
    (hx : ow = true ∨ fileOnDisk o.data f = []) (hfull : sym = none ∨ ∃ s ∈ st, s.address = 0) :
    (run env (.put order system ty ow a image name source) w).1 = .ok () := by
  obtain ⟨raw, hg, hopen⟩ := ho
  unfold given at hg
  rw [if_neg hi] at hg hopen
  have hnk := open_naked hopen
  have hop := hnk.opened
  rw [← hnk.data] at hop
  have hown : ∀ g, ownedBy (owner o.data) g = ownedBy (own o.sm) g := by
    intro g
    unfold ownedBy
    apply List.filter_congr
    intro n hn
    rw [(Supermon.loaded_iff (by have := hnk.good.len; omega) o.sm).1 hnk.good.loaded n (List.mem_range.1 hn)]
  rw [hown, hown, Supermon.sectorsNeeded_eq] at hroom
  rw [Supermon.fileOnDisk_nil hnk.good] at hx
  have hput := Supermon.putFile_succeeds hnk.good hop hst hk (hc rfl) hf hto hd hroom hx
    (fun s hs => hfull.elim (fun h => by rw [h] at hs; cases hs) Or.inr) a
  obtain ⟨_, _, o2, _, _, _, _, _, g2, g3, _⟩ := Supermon.put_names hnk.good hop hst hk (fi := ⟨{ name := name, length := data.length, type := filetypeBinary }, data, a⟩) (hc rfl) hput
  rw [put_runs hi hs hg hdata hnk.order hopen hty hput (by rw [← g3]; exact g2.len)]

/-- C83: a careful `rm` of a symbol succeeds if the symbol stands for a file that is there, or need not be. -/
theorem C83_rm_succeeds {env : Env} {w : World} {image order system : Str} {o : Supermon.Operator} {ord : DiskOrder}
    (hi : image ≠ str "-") (ho : Finds env w image order system (.nakedos o) ord) {st : Supermon.SymbolTable} (hst : o.st = some st)
    {z : Str} {t : Names} (hk : Knows st z t) {name : Str} (hsy : Symbolic name) {missingOk : Bool}
    (hc : Careful image z t (.rm order system missingOk image name)) {f : UInt8} (hf : t name = some f)
    (hm : fileOnDisk o.data f ≠ [] ∨ missingOk = true) :
    (run env (.rm order system missingOk image name) w).1 = .ok () := by
  obtain ⟨raw, _, hopen⟩ := id ho
  have hnk := open_naked hopen
  have hop := hnk.opened
  rw [← hnk.data] at hop
  have hc := hc rfl
  have hcs : ¬ SameName name z ∧ f ≠ 3 ∧ f ≠ 4 := by
    rcases hc with ⟨g, hg, _⟩ | ⟨_, hz, h3, h4⟩
    · exact absurd hg (hsy.2 g)
    · exact ⟨hz, fun e => h3 (by rw [hf, e]), fun e => h4 (by rw [hf, e])⟩
  have hout := Supermon.delete_succeeds hnk.good hop hst hk hsy hcs.1 hf hcs.2.1 hcs.2.2
  have hg2 := (Supermon.good_op_delete hnk.good name).1
  obtain ⟨f', _, _, _, _, hto, hex, _⟩ := Supermon.delete_names hnk.good hop hst hk hc hout
  have hff : f' = f := by
    rcases hto with ⟨hn, _⟩ | ⟨_, _, hn⟩
    · exact absurd hn (hsy.2 f')
    · rw [hf] at hn; cases hn; rfl
  subst hff
  change (rm env World.writeOutput order system missingOk image name w).1 = _
  unfold rm
  rw [bind_run (openDisk_finds ho)]
  dsimp only
  have e : AnyOp.delete (.nakedos o) name = (.ok (o.delete name).existed, .nakedos (o.delete name).op) := by
    unfold AnyOp.delete
    dsimp only
    rw [hout]
  rw [e]
  dsimp only
  rw [bind_run (m := lift (.ok (o.delete name).existed)) (a := (o.delete name).existed) (w' := afterReading w image) rfl]
  rw [if_neg (by
    rintro ⟨ha, hb⟩
    rcases hm with hm | hm
    · rw [hex.2 hm] at ha; simp at ha
    · rw [hm] at hb; simp at hb)]
  unfold writeDisk writeBackVia
  rw [writeBack_naked hg2.len hnk.order]
  dsimp only
  unfold World.writeOutput
  rw [if_neg hi, if_neg (by simp)]

/-! ## A session -/

theorem chain_symbolic (n : Str) (hl : LegalName n) (h0 : Supermon.parseAddressFilename n = 0) : Symbolic n := by
  refine ⟨hl, fun f hf => ?_⟩
  have := (Supermon.parseAddressFilename_iff hf.1.1).2 hf
  rw [h0] at this
  exact hf.1.1 this.symm

/-- The table of `C33_violated` is in order. -/
theorem chainTable_knows : Knows Supermon.chainTable (str "AAA") (fun _ => none) := by
  have get := Supermon.chainTable_get
  have ha : Symbolic (str "AAA") := chain_symbolic _ (by decide +kernel) (by decide +kernel)
  have hb : Symbolic (str "BBB") := chain_symbolic _ (by decide +kernel) (by decide +kernel)
  have hne : str "AAA" ≠ str "BBB" := by decide +kernel
  have mem : ∀ s ∈ Supermon.chainTable, s = ⟨1, str "AAA", -1⟩ ∨ s = ⟨0x100, str "BBB", 0⟩ ∨ s = ⟨0, [], 0⟩ := by
    intro s hs
    obtain ⟨i, hi, e⟩ := List.getElem_of_mem hs
    rcases get i s (by rw [List.getElem?_eq_getElem hi, e]) with h | h | h
    · exact Or.inl h.2
    · exact Or.inr (Or.inl h.2)
    · exact Or.inr (Or.inr h)
  refine ⟨⟨Supermon.chainTable_wf.length, ?_, ?_, ?_, ?_, ?_⟩, ⟨⟨1, str "AAA", -1⟩, rfl, by decide, rfl⟩, ?_⟩
  · intro s hs
    rcases mem s hs with rfl | rfl | rfl
    · exact Or.inr ⟨by decide, ha, by decide +kernel⟩
    · exact Or.inr ⟨by decide, hb, by decide +kernel⟩
    · exact Or.inl rfl
  · intro i j s t hi hj hs he
    rcases get i s hi with ⟨rfl, rfl⟩ | ⟨rfl, rfl⟩ | rfl
    · rcases get j t hj with ⟨rfl, rfl⟩ | ⟨rfl, rfl⟩ | rfl
      · rfl
      · exact absurd he hne
      · exact absurd he (by decide +kernel)
    · rcases get j t hj with ⟨rfl, rfl⟩ | ⟨rfl, rfl⟩ | rfl
      · exact absurd he.symm hne
      · rfl
      · exact absurd he (by decide +kernel)
    · exact absurd rfl hs
  · intro i s hi hs
    rcases get i s hi with ⟨rfl, rfl⟩ | ⟨rfl, rfl⟩ | rfl
    · exact Or.inl rfl
    · exact Or.inr ⟨0, ⟨1, str "AAA", -1⟩, rfl, rfl, by decide, by decide +kernel⟩
    · exact absurd rfl hs
  · intro i i' s s' hi hi' hs hs' h1 h2
    rcases get i s hi with ⟨rfl, rfl⟩ | ⟨rfl, rfl⟩ | rfl
    · exact absurd rfl h1
    · rcases get i' s' hi' with ⟨rfl, rfl⟩ | ⟨rfl, rfl⟩ | rfl
      · exact absurd h2.symm (by decide)
      · rfl
      · exact absurd rfl hs'
    · exact absurd rfl hs
  · refine ⟨id, fun i j s hi hs hl => ?_⟩
    rcases get i s hi with ⟨rfl, rfl⟩ | ⟨rfl, rfl⟩ | rfl
    · simp only at hl; omega
    · simp only at hl
      simp only [id]; omega
    · exact absurd rfl hs
  · intro n _ f
    simp only [reduceCtorEq, false_iff]
    rintro ⟨hf, s, hs, _, hsa⟩
    rcases mem s hs with rfl | rfl | rfl <;> simp at hsa <;> omega

def putGame : Command := .put (str "do") (str "nakedos") (str "B") false 0 (str "a.do") (str "DF05:GAME") (str "x")
def rmGame : Command := .rm (str "do") (str "nakedos") false (str "a.do") (str "GAME")

theorem game_split : str "DF05:GAME" = str "DF05" ++ 0x3A :: str "GAME" := by decide +kernel
theorem game_symbolic : Symbolic (str "GAME") := chain_symbolic _ (by decide +kernel) (by decide +kernel)

theorem game_careful : ∀ p ∈ [putGame, rmGame], Agrees (str "a.do") orderDO p ∧ Careful (str "a.do") (str "AAA") (fun _ => none) p := by
  intro p hp
  simp only [List.mem_cons, List.not_mem_nil, or_false] at hp
  rcases hp with rfl | rfl
  · exact ⟨fun _ => CandidateOrders.explicitDO _, fun _ => Or.inr (Or.inr ⟨str "DF05", str "GAME", 5, game_split, numeric5, by decide, by decide,
      game_symbolic, fun e => absurd e (by decide +kernel)⟩)⟩
  · have h : ¬ SameName (str "GAME") (str "AAA") := by decide +kernel
    have h3 : (none : Option UInt8) ≠ some 3 := by simp
    have h4 : (none : Option UInt8) ≠ some 4 := by simp
    exact ⟨fun _ => CandidateOrders.explicitDO _, fun _ => Or.inr ⟨game_symbolic, h, h3, h4⟩⟩

theorem tabled5 : ∃ img sm, Supermon.Good sm img ∧ Supermon.openOperator img = .ok ⟨img, sm, some Supermon.chainTable⟩ ∧
    33 ≤ (ownedBy (own sm) 0xFF).length ∧ ownedBy (own sm) 5 = [] := by
  have ho := Supermon.tabled_open
  rw [Supermon.chainTable_canonical] at ho
  have hk := Supermon.keep_writeSymbolTable Supermon.fresh_good Supermon.chainTable
  refine ⟨_, _, hk.good, ho, ?_, ?_⟩
  · obtain ⟨s3, s4, sf⟩ := Supermon.writeSymbolTable_sizes Supermon.fresh_good (Supermon.fresh_room _ Supermon.chainTable_wf)
    rw [Supermon.freshMap_free, Supermon.freshMap_file Supermon.isFile3, Supermon.freshMap_file Supermon.isFile4] at sf
    simp only [List.length_nil] at sf
    omega
  · rw [hk.sect 5 (by unfold IsFileNumber; decide) (by decide)]
    exact Supermon.freshMap_file (by unfold IsFileNumber; decide)

theorem game_disk (env : Env) {sm : Supermon.SectorMap} {img : Bytes} (hg : Supermon.Good sm img)
    (ho : Supermon.openOperator img = .ok ⟨img, sm, some Supermon.chainTable⟩) (hroom : 33 ≤ (ownedBy (own sm) 0xFF).length)
    (h5 : ownedBy (own sm) 5 = []) :
    HasFiles (twoFiles img) (str "a.do") orderDO (fileOnDisk img) ∧
    HasNames env (twoFiles img) (str "a.do") orderDO (str "AAA") (fun _ => none) ∧ (run env putGame (twoFiles img)).1 = .ok () := by
  have hopen := open_view env hg (Or.inl rfl) (str "a.do") (ord := orderDO)
  have e : Supermon.tableOn sm img = some Supermon.chainTable := (Supermon.opened_table (o := ⟨img, sm, some _⟩) hg ho).symm
  rw [e] at hopen
  refine ⟨hasFiles_good hg (twoFiles_a img), ⟨_, _, _, twoFiles_a img, hopen, rfl, chainTable_knows⟩, ?_⟩
  have hfi : Finds env (twoFiles img) (str "a.do") (str "do") (str "nakedos") (.nakedos ⟨img, sm, some Supermon.chainTable⟩) orderDO :=
    ⟨_, by unfold given; rw [if_neg (by decide +kernel), twoFiles_a], by rw [if_neg (by decide +kernel)]; exact hopen⟩
  have hown : ∀ g, ownedBy (owner img) g = ownedBy (own sm) g := by
    intro g
    unfold ownedBy
    apply List.filter_congr
    intro n hn
    rw [(Supermon.loaded_iff (by have := hg.len; omega) sm).1 hg.loaded n (List.mem_range.1 hn)]
  refine C83_put_succeeds (by decide +kernel) hfi rfl chainTable_knows (by decide +kernel) (twoFiles_x img) (by simp) (by decide +kernel)
    (game_careful putGame (by simp)).2 (f := 5) (sym := some (str "GAME")) ⟨numeric5.1, by decide, by decide⟩
    (Or.inr (Or.inr ⟨_, _, game_split, numeric5, game_symbolic, rfl⟩)) ?_ (Or.inr ((Supermon.fileOnDisk_nil hg 5).2 h5))
    (Or.inr ⟨⟨0, [], 0⟩, List.mem_cons_of_mem _ List.mem_cons_self, rfl⟩)
  dsimp only
  rw [hown, hown, Supermon.sectorsNeeded_eq]
  simp only [List.length_cons, List.length_nil]
  omega

theorem changes_one {env : Env} {image : Str} {m : Files} {t : Names} {p : World × Command} {chs : List Change}
    (h : Changes env image m t [p] chs) : ∃ c, chs = [c] ∧ Does env image p.1 m t p.2 c := by
  cases h with
  | step d1 r =>
    cases r
    exact ⟨_, rfl, d1⟩

theorem game_names (m : Files) (t : Names) :
    [Change.put 5 [1] (some (str "GAME"))].foldl Change.files m 5 = padded [1] ∧
    [Change.put 5 [1] (some (str "GAME"))].foldl Change.names t (str "GAME") = some 5 ∧
    [Change.put 5 [1] (some (str "GAME"))].foldl Change.names t (str "game") = some 5 ∧
    [Change.rm 5 (some (str "GAME"))].foldl Change.names t (str "game") = none := by
  have h1 : SameName (str "GAME") (str "GAME") := rfl
  have h2 : SameName (str "game") (str "GAME") := by decide +kernel
  exact ⟨rfl, if_pos (e := t (str "GAME")) h1, if_pos (e := t (str "game")) h2, if_pos (e := t (str "game")) h2⟩

theorem padded_one : padded [1] ≠ [] := by decide +kernel

theorem does_putGame {env : Env} {w : World} {m : Files} {t : Names} {ch : Change} (h : Does env (str "a.do") w m t putGame ch)
    (hok : (run env putGame w).1 = .ok ()) (hx : w.files (str "x") = some [1]) : ch = .put 5 [1] (some (str "GAME")) := by
  unfold putGame at h hok
  cases h with
  | failed h => exact absurd hok h
  | elsewhere h => exact absurd rfl h
  | put _ hg hf hto how =>
    unfold given at hg
    rw [if_neg (by decide +kernel), hx] at hg
    cases hg
    rw [game_split] at hto
    rcases hto with ⟨hn, _⟩ | ⟨hn, _⟩ | ⟨a, b, e, hn, hsy, hs⟩
    · have := Supermon.numeric_no_colon hn; simp at this
    · have := Supermon.symbolic_no_colon hn; simp at this
    · obtain ⟨rfl, rfl⟩ := first_colon (Supermon.numeric_no_colon numeric5) (Supermon.numeric_no_colon hn) e
      rw [hs, Supermon.C34_numeric_unique hn numeric5]

theorem does_rmGame {env : Env} {w : World} {m : Files} {t : Names} {ch : Change} (h : Does env (str "a.do") w m t rmGame ch)
    (hok : (run env rmGame w).1 = .ok ()) (ht : t (str "GAME") = some 5) : ch = .rm 5 (some (str "GAME")) := by
  unfold rmGame at h hok
  cases h with
  | failed h => exact absurd hok h
  | elsewhere h => exact absurd rfl h
  | rm _ hf hto how =>
    rcases hto with ⟨hn, _⟩ | ⟨_, hs, hf⟩
    · exact absurd hn (game_symbolic.2 _)
    · rw [ht] at hf
      cases hf
      rw [hs]

/-- Non-vacuity of C83: a file is put under a number and a symbol, is printed by the symbol, and is removed by the symbol. -/
theorem game_session (env : Env) : ∃ w w1 w2 m, Session env (str "a.do") w [(w, putGame), (w1, rmGame)] w2 ∧
    (∀ p ∈ [(w, putGame), (w1, rmGame)], Agrees (str "a.do") orderDO p.2 ∧ Careful (str "a.do") (str "AAA") (fun _ => none) p.2) ∧
    HasFiles w (str "a.do") orderDO m ∧ HasNames env w (str "a.do") orderDO (str "AAA") (fun _ => none) ∧
    Dumps env w1 orderDO (str "nakedos") (str "a.do") (str "game") (padded [1]) ∧
    DumpFails env w2 orderDO (str "nakedos") (str "a.do") (str "game") := by
  obtain ⟨img, sm, hg, ho, hroom, h5⟩ := tabled5
  obtain ⟨hf, hn, hok⟩ := game_disk env hg ho hroom h5
  have hi : str "a.do" ≠ str "-" := by decide +kernel
  -- the first command
  have hs1 : Session env (str "a.do") (twoFiles img) [(twoFiles img, putGame)] (run env putGame (twoFiles img)).2 :=
    Session.step rfl (Session.done rfl)
  obtain ⟨chs, hch, hf1, hn1⟩ := C83_session_partial hi hs1 (fun p hp => by
    simp only [List.mem_cons, List.not_mem_nil, or_false] at hp
    subst hp
    exact game_careful putGame (by simp)) hf hn
  obtain ⟨c, rfl, hd⟩ := changes_one hch
  have := does_putGame hd hok (twoFiles_x img)
  subst this
  have hw1 : ∃ w1, (run env putGame (twoFiles img)).2 = w1 := ⟨_, rfl⟩
  obtain ⟨w1, hw1⟩ := hw1
  rw [hw1] at hf1 hn1
  obtain ⟨v1, v2, v3, _⟩ := game_names (fileOnDisk img) (fun _ => none)
  have hgs : Symbolic (str "game") := chain_symbolic _ (by decide +kernel) (by decide +kernel)
  have hord : Ordinary 5 := ⟨numeric5.1, by decide, by decide⟩
  have hw : Within (str "AAA") (fun _ => none) ([Change.put 5 [1] (some (str "GAME"))].foldl Change.names (fun _ => none)) := by
    rw [List.foldl_cons, List.foldl_nil]
    refine within_put (t := fun _ => none) (data := [1]) ⟨fun _ _ h => h, fun _ _ h => h, fun _ _ _ => rfl⟩ hord ?_
    rintro s hs n _ h1 h2
    cases hs
    exact absurd (h1.symm.trans h2) (by decide +kernel)
  generalize [Change.put 5 [1] (some (str "GAME"))].foldl Change.files (fileOnDisk img) = m1 at hf1 v1
  generalize [Change.put 5 [1] (some (str "GAME"))].foldl Change.names (fun _ => none) = t1 at hn1 v2 v3 hw
  have hd1 := (C83_dump hi hf1 hn1 hgs).1 5 v3 hord (by rw [v1]; exact padded_one)
  rw [v1] at hd1
  -- the second command
  have hok2 : (run env rmGame w1).1 = .ok () := by
    obtain ⟨raw, o, st, h1, h2, hst, hk⟩ := id hn1
    have hfi : Finds env w1 (str "a.do") (str "do") (str "nakedos") (.nakedos o) orderDO :=
      ⟨raw, by unfold given; rw [if_neg hi, h1], by rw [if_neg hi]; exact h2⟩
    have hm := hasFiles_view hf1 h1 (open_naked h2)
    exact C83_rm_succeeds hi hfi hst hk game_symbolic (careful_now hw (game_careful rmGame (by simp)).2) v2 (Or.inl (by rw [hm 5 hord, v1]; exact padded_one))
  have hs2 : Session env (str "a.do") w1 [(w1, rmGame)] (run env rmGame w1).2 := Session.step rfl (Session.done rfl)
  obtain ⟨chs, hch, hf2, hn2⟩ := C83_session_partial hi hs2 (fun p hp => by
    simp only [List.mem_cons, List.not_mem_nil, or_false] at hp
    subst hp
    exact ⟨(game_careful rmGame (by simp)).1, careful_now hw (game_careful rmGame (by simp)).2⟩) hf1 hn1
  obtain ⟨c, rfl, hd⟩ := changes_one hch
  have := does_rmGame hd hok2 v2
  subst this
  refine ⟨twoFiles img, w1, _, fileOnDisk img, Session.step rfl (by rw [hw1]; exact hs2), ?_, hf, hn, hd1,
    (C83_dump hi hf2 hn2 hgs).2.2 (game_names m1 t1).2.2.2⟩
  intro p hp
  simp only [List.mem_cons, List.not_mem_nil, or_false] at hp
  rcases hp with rfl | rfl
  · exact game_careful putGame (by simp)
  · exact game_careful rmGame (by simp)

/-- C83 fails for the symbol of the table's first entry, if it ends the chain of another: after a `put` under this symbol that succeeds,
the disk has no symbol table that can be read any more, and the symbol is unknown. -/
theorem C83_violated (env : Env) : ∃ w w', HasNames env w (str "a.do") orderDO (str "AAA") (fun _ => none) ∧
    run env (.put (str "do") (str "nakedos") (str "B") true 0 (str "a.do") (str "DF05:AAA") (str "src")) w = (.ok (), w') ∧
    (∀ z t, ¬ HasNames env w' (str "a.do") orderDO z t) ∧
    run env (.dump (str "do") (str "nakedos") (str "a.do") (str "AAA")) w' = (.err .fileNotFound, w') := by
  obtain ⟨img, sm, hg, hopen, hroom⟩ := Supermon.tabled
  obtain ⟨h1, h2, h3⟩ := Supermon.tabled_aaa hg hroom
  refine ⟨diskWorld img, _, ?_, diskWorld_put hg.len hopen h1 h2.len, ?_, ?_⟩
  · exact ⟨_, _, _, by unfold diskWorld; dsimp only; rw [if_pos rfl], diskWorld_open hg.len hopen, rfl, chainTable_knows⟩
  · generalize (⟨img, sm, some Supermon.chainTable⟩ : Supermon.Operator).putFile
      ⟨{ name := str "DF05:AAA", length := ([1, 2, 3] : Bytes).length, type := filetypeBinary }, [1, 2, 3], 0⟩ true = r at h2 h3 ⊢
    have ho := Supermon.open_of_good h2
    rw [h3] at ho
    rintro z t ⟨raw, o, st, g1, g2, g3, _⟩
    unfold World.writeFile at g1
    simp only [if_true, Option.some.injEq] at g1
    subst g1
    have := diskWorld_open (env := env) h2.len ho
    change openImage _ _ (str "do") _ _ = _ at g2
    rw [this] at g2
    cases g2
    cases g3
  · generalize (⟨img, sm, some Supermon.chainTable⟩ : Supermon.Operator).putFile
      ⟨{ name := str "DF05:AAA", length := ([1, 2, 3] : Bytes).length, type := filetypeBinary }, [1, 2, 3], 0⟩ true = r at h2 h3 ⊢
    have ho := Supermon.open_of_good h2
    rw [h3] at ho
    rw [dump_runs (by decide +kernel) (raw := viewOf orderRaw orderDO r.op.data) (by unfold World.writeFile; simp only [if_true])
      (diskWorld_open h2.len ho)]
    unfold AnyOp.getFile
    dsimp only
    rw [no_symbols rfl (by decide +kernel)]

end Verif.Cmd
