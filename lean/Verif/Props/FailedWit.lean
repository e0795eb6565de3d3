import Verif.Props.Failed
import Verif.Props.TableRm

/-!
# C116: calls that fail and leave their traces
-/

set_option autoImplicit false
set_option maxRecDepth 20000

namespace Verif.Supermon
open Disk Spec

/-! ## A disk with a symbol that can be read and not written -/

/-- The first half of a table on a disk: FOO for file 5, and a symbol with one letter. -/
def shortHalf1 : Bytes := [0x05, 0xDF, 0, 0, 0, 0x01, 0xD0, 0, 0, 0] ++ zeros 4086
/-- The second half. -/
def shortHalf2 : Bytes := [230, 61, 0, 0, 0, 1, 0, 0, 0, 0] ++ zeros 4086
/-- The table. -/
def shortTable : SymbolTable := ⟨0xDF05, str "FOO", -1⟩ :: ⟨0xD001, str "A", -1⟩ :: List.replicate 817 Symbol.empty

theorem shortHalf1_length : shortHalf1.length = 4096 := by
  unfold shortHalf1; rw [List.length_append, zeros_length]; rfl
theorem shortHalf2_length : shortHalf2.length = 4096 := by
  unfold shortHalf2; rw [List.length_append, zeros_length]; rfl

theorem half_get1 {i : Nat} (h : i < 10) (hi : i < shortHalf1.length) : shortHalf1[i] = [0x05, 0xDF, 0, 0, 0, 0x01, 0xD0, 0, 0, 0][i] := by
  exact List.getElem_append_left (bs := zeros 4086) h
theorem half_get2 {i : Nat} (h : i < 10) (hi : i < shortHalf2.length) : shortHalf2[i] = [230, 61, 0, 0, 0, 1, 0, 0, 0, 0][i] := by
  exact List.getElem_append_left (bs := zeros 4086) h
theorem half_rest {i : Nat} (h : 10 ≤ i) (hi : i < shortHalf1.length) : shortHalf1[i] = 0 := by
  refine (List.getElem_append_right (as := [0x05, 0xDF, 0, 0, 0, 0x01, 0xD0, 0, 0, 0]) (bs := zeros 4086) (h₁ := h)).trans ?_
  exact List.getElem_replicate _

theorem checkLinks_none {t : SymbolTable} : ∀ (l : SymbolTable) (i : Nat), (∀ s ∈ l, s.address = 0 ∨ s.link = -1) → checkLinks t l i = .ok () := by
  intro l
  induction l with
  | nil => intros; rfl
  | cons s l ih =>
    intro i h
    unfold checkLinks checkLink
    rw [if_neg (by rcases h s (by simp) with e | e <;> simp [e]), Out.bind_ok]
    exact ih _ fun x hx => h x (by simp [hx])

theorem parse_short {a b : Vector UInt8 0x1000} {s0 s1 : Symbol} (h0 : parseSymbol a b 0 (by decide) = .ok s0)
    (h1 : parseSymbol a b 5 (by decide) = .ok s1) (hz : ∀ (i : Nat) (h : i < 0x1000), 10 ≤ i → a[i] = 0) :
    ∀ (n : Nat) (h : n + 2 ≤ 819), parseSymbols a b (n + 2) h = .ok (s0 :: s1 :: List.replicate n Symbol.empty) := by
  intro n
  induction n with
  | zero =>
    intro h
    unfold parseSymbols parseSymbols parseSymbols
    simp only [Out.bind_ok, Nat.mul_zero, Nat.mul_one, h0, h1, List.nil_append, List.replicate_zero, List.cons_append]
  | succ n ih =>
    intro h
    show parseSymbols a b ((n + 2) + 1) h = _
    unfold parseSymbols
    rw [ih (by omega), Out.bind_ok]
    have e : parseSymbol a b (5 * (n + 2)) (by omega) = .ok Symbol.empty := by
      unfold parseSymbol
      simp only
      rw [hz _ _ (by omega), hz _ _ (by omega)]
      rfl
    rw [e, Out.bind_ok, List.replicate_succ', List.cons_append, List.cons_append]

theorem parse_first {a b : Vector UInt8 0x1000}
    (h1 : ∀ i (h : i < 10), a[i] = ([0x05, 0xDF, 0, 0, 0, 0x01, 0xD0, 0, 0, 0] : Bytes)[i])
    (h2 : ∀ i (h : i < 10), b[i] = ([230, 61, 0, 0, 0, 1, 0, 0, 0, 0] : Bytes)[i]) :
    parseSymbol a b 0 (by decide) = .ok ⟨0xDF05, str "FOO", -1⟩ ∧ parseSymbol a b 5 (by decide) = .ok ⟨0xD001, str "A", -1⟩ := by
  unfold parseSymbol
  constructor
  · have e : (Vector.ofFn fun k : Fin 5 => b[0 + k.val]) = #v[230, 61, 0, 0, 0] := by
      apply Vector.ext
      intro i hi
      rw [Vector.getElem_ofFn, h2 _ (by omega)]
      have : i = 0 ∨ i = 1 ∨ i = 2 ∨ i = 3 ∨ i = 4 := by omega
      rcases this with rfl | rfl | rfl | rfl | rfl <;> rfl
    rw [e, h1 0 (by decide), h1 (0 + 1) (by decide), h1 (0 + 2) (by decide), h1 (0 + 3) (by decide), h1 (0 + 4) (by decide)]
    decide +kernel
  · have e : (Vector.ofFn fun k : Fin 5 => b[5 + k.val]) = #v[1, 0, 0, 0, 0] := by
      apply Vector.ext
      intro i hi
      rw [Vector.getElem_ofFn, h2 _ (by omega)]
      have : i = 0 ∨ i = 1 ∨ i = 2 ∨ i = 3 ∨ i = 4 := by omega
      rcases this with rfl | rfl | rfl | rfl | rfl <;> rfl
    rw [e, h1 5 (by decide), h1 (5 + 1) (by decide), h1 (5 + 2) (by decide), h1 (5 + 3) (by decide), h1 (5 + 4) (by decide)]
    decide +kernel

theorem vec_get {l : Bytes} {n : Nat} (h : l.toArray.size = n) (i : Nat) (hi : i < n) (hl : i < l.length) :
    (⟨l.toArray, h⟩ : Vector UInt8 n)[i] = l[i] := rfl

theorem short_table : tableOf shortHalf1 shortHalf2 = .ok shortTable := by
  unfold tableOf
  rw [dif_pos shortHalf1_length, dif_pos shortHalf2_length]
  have l1 := shortHalf1_length
  have l2 := shortHalf2_length
  obtain ⟨p0, p1⟩ := parse_first (a := ⟨shortHalf1.toArray, by rw [List.size_toArray]; exact l1⟩)
    (b := ⟨shortHalf2.toArray, by rw [List.size_toArray]; exact l2⟩)
    (fun i h => (vec_get _ i (by omega) (by omega)).trans (half_get1 h (by omega)))
    (fun i h => (vec_get _ i (by omega) (by omega)).trans (half_get2 h (by omega)))
  rw [parse_short p0 p1 (fun i h h10 => (vec_get _ i h (by omega)).trans (half_rest h10 (by omega))) 817 (Nat.le_refl _), Out.bind_ok]
  rw [checkLinks_none]
  · rfl
  · intro s hs
    rcases List.mem_cons.1 hs with rfl | hs
    · exact Or.inr rfl
    · rcases List.mem_cons.1 hs with rfl | hs
      · exact Or.inr rfl
      · rw [(List.mem_replicate.1 hs).2]; exact Or.inl rfl

theorem isFile5 : IsFileNumber 5 := by unfold IsFileNumber; decide

/-- One file written. -/
theorem write_step {sm : SectorMap} {img : Bytes} (h : Good sm img) {f : UInt8} (hf : IsFileNumber f) {c : Bytes} (hc : c ≠ [])
    (hfit : (c.length + 255) / 256 ≤ (ownedBy (own sm) 0xFF).length) (hnew : ownedBy (own sm) f = []) :
    ∃ sm' img', Good sm' img' ∧ fileOnDisk img' f = padded c ∧ (∀ g, IsFileNumber g → g ≠ f → fileOnDisk img' g = fileOnDisk img g) ∧
      (∀ g, IsFileNumber g → g ≠ f → ownedBy (own sm') g = ownedBy (own sm) g) ∧
      (ownedBy (own sm') 0xFF).length + (c.length + 255) / 256 = (ownedBy (own sm) 0xFF).length := by
  have fit : Fits sm f c := by unfold Fits; omega
  have hw := writeFile_ok (ow := true) h.len hf hc fit (Or.inl rfl)
  have hk := keep_writeFile (c := c) (ow := true) h hf (by rw [hw]; simp)
  rw [hw] at hk
  dsimp only at hk
  refine ⟨_, _, hk.good, ?_, ?_, hk.sect, ?_⟩
  · rw [← hk.good.onDisk]; exact fileBytes_new_self h.len hf fit h.legal
  · intro g hg hne
    rw [← hk.good.onDisk, hk.bytes g hg hne, h.onDisk]
  · have := ownedBy_newMap_free (sm := sm) (c := c) hf.2.2
    rw [targets_length hf.2.2 fit, hnew] at this
    simpa using this

theorem padded_4096 {c : Bytes} (h : c.length = 4096) : padded c = c := by
  unfold padded
  rw [h]
  simp

/-- The disk: the two files of the table, and file 5. -/
theorem short_disk : ∃ img o, img.length = 143360 ∧ openOperator img = .ok o ∧ o.st = some shortTable ∧ fileOnDisk img 5 ≠ [] ∧
    fileOnDisk img 7 = [] ∧ 1 ≤ (ownedBy (owner img) 0xFF).length := by
  have n1 : shortHalf1 ≠ [] := by intro e; have := shortHalf1_length; rw [e] at this; simp at this
  have n2 : shortHalf2 ≠ [] := by intro e; have := shortHalf2_length; rw [e] at this; simp at this
  have is7 : IsFileNumber 7 := by unfold IsFileNumber; decide
  obtain ⟨sm1, img1, g1, c1, d1, s1, r1⟩ := write_step fresh_good isFile3 n1 (by rw [shortHalf1_length, freshMap_free]; decide) (freshMap_file isFile3)
  rw [freshMap_free, shortHalf1_length] at r1
  obtain ⟨sm2, img2, g2, c2, d2, s2, r2⟩ := write_step g1 isFile4 n2 (by rw [shortHalf2_length]; omega)
    (by rw [s1 4 isFile4 (by decide)]; exact freshMap_file isFile4)
  rw [shortHalf2_length] at r2
  obtain ⟨sm3, img3, g3, c3, d3, s3, r3⟩ := write_step g2 isFile5 (c := [1]) (by simp) (by simp; omega)
    (by rw [s2 5 isFile5 (by decide), s1 5 isFile5 (by decide)]; exact freshMap_file isFile5)
  have h3 : fileOnDisk img3 3 = shortHalf1 := by
    rw [d3 3 isFile3 (by decide), d2 3 isFile3 (by decide), c1, padded_4096 shortHalf1_length]
  have h4 : fileOnDisk img3 4 = shortHalf2 := by
    rw [d3 4 isFile4 (by decide), c2, padded_4096 shortHalf2_length]
  have ho : openOperator img3 = .ok ⟨img3, sm3, some shortTable⟩ := by
    unfold openOperator
    rw [g3.loaded, Out.bind_ok, (verify_ok_iff _).2 g3.legal, Out.bind_ok, readSymbolTable_eq g3.len, g3.onDisk, g3.onDisk, h3, h4, short_table]
  refine ⟨img3, _, g3.len, ho, rfl, ?_, ?_, ?_⟩
  · rw [c3]; decide +kernel
  · rw [fileOnDisk_nil g3, s3 7 is7 (by decide), s2 7 is7 (by decide), s1 7 is7 (by decide)]
    exact freshMap_file is7
  · have e : ownedBy (owner img3) 0xFF = ownedBy (own sm3) 0xFF := by
      unfold ownedBy
      exact List.filter_congr fun n hn => by rw [(loaded_iff (by have := g3.len; omega) sm3).1 g3.loaded n (List.mem_range.1 hn)]
    rw [e]
    simp at r3
    omega

theorem short_not : ¬ Storable (str "A") := by decide +kernel

/-- C116 fails for PutFile: on a disk with a symbol of one letter, storing one byte as DF07:GAME, without overwriting, fails; and the file
is stored all the same, in place of none. -/
theorem C116_violated_put : ∃ img o fi, img.length = 143360 ∧ openOperator img = .ok o ∧ fi.data ≠ [] ∧
    (∃ k, (o.putFile fi false).out = .err k) ∧ fileOnDisk img 7 = [] ∧ fileOnDisk (o.putFile fi false).op.data 7 = padded fi.data ∧
    (o.putFile fi false).op ≠ o := by
  obtain ⟨img, o, hl, ho, hst, h5, h7, hroom⟩ := short_disk
  obtain ⟨hg, hdata⟩ := open_good hl ho
  have hlen := opened_length hl ho
  have htab : o.table = shortTable := by unfold Operator.table; rw [hst]; rfl
  have num7 : NumericName (str "DF07") 7 := (parseAddressFilename_iff (by decide)).1 (by decide +kernel)
  have hname : str "DF07:GAME" = str "DF07" ++ 0x3A :: str "GAME" := by decide +kernel
  have hmean : PutMeans (fileOnDisk img) shortTable (str "DF07:GAME") 7 (str "GAME") :=
    Or.inr (Or.inr ⟨str "DF07", hname, num7, by decide +kernel, Cmd.game_symbolic.2⟩)
  have hns : ¬ StandsFor shortTable (str "GAME") 7 := by
    rw [standsFor_byName]
    have : byName shortTable (str "GAME") = 0 := by decide +kernel
    rw [this]
    simp
  have hmem : (⟨0xD001, str "A", -1⟩ : Symbol) ∈ shortTable := by unfold shortTable; simp
  have hhalf : HalfPut img shortTable (str "DF07:GAME") [9] false 7 (str "GAME") := by
    refine ⟨hmean, ?_, Or.inr h7, by decide +kernel, by decide +kernel, hns, fun hc => short_not (hc.2 _ hmem)⟩
    have : sectorsNeeded ([9] : Bytes).length = 1 := by decide
    rw [this]; omega
  let fi : FileInfo := ⟨{ name := str "DF07:GAME", length := ([9] : Bytes).length, type := filetypeBinary }, [9], 0⟩
  have hd : fi.data ≠ [] := by show ([9] : Bytes) ≠ []; simp
  have hfail : (o.putFile fi false).out ≠ .ok () := by
    intro hc
    have ho' := ho
    rw [← hdata] at ho'
    obtain ⟨f, sym, k1, _, _, k2⟩ := (putFile_iff hg ho' hlen (data := [9]) (ow := false) (a := 0) (by simp)).1 hc
    rw [hdata, htab] at k1
    have hu : f = 7 ∧ sym = str "GAME" := by
      rcases k1 with ⟨k1, _⟩ | ⟨k1, _⟩ | ⟨a, k1, k3, _⟩
      · exact absurd (numeric_no_colon k1) (by decide +kernel)
      · exact absurd k1 (by decide +kernel)
      · rw [hname] at k1
        obtain ⟨rfl, rfl⟩ := Cmd.first_colon (by decide +kernel) (numeric_no_colon k3) k1
        exact ⟨C34_numeric_unique k3 num7, rfl⟩
    obtain ⟨rfl, rfl⟩ := hu
    obtain ⟨st, e, _, e1 | e1⟩ := k2 (by decide +kernel)
    · rw [hst] at e; cases e; exact hns e1
    · rw [hst] at e; cases e; exact short_not (e1.2 _ hmem)
  obtain ⟨hk, ⟨_, hno⟩ | ⟨st, f, sym, q1, _, _, q2, q3, _⟩⟩ := C116_put_exact hl ho fi false hd hfail
  · exact absurd hhalf (hno shortTable 7 (str "GAME") hst rfl rfl)
  · rw [hst] at q1
    cases q1
    have hf : f = 7 := by
      have k1 : PutMeans (fileOnDisk img) shortTable (str "DF07:GAME") f sym := q2.1
      rcases k1 with ⟨k1, _⟩ | ⟨k1, _⟩ | ⟨a, k1, k3, _⟩
      · exact absurd (numeric_no_colon k1) (by decide +kernel)
      · exact absurd k1 (by decide +kernel)
      · rw [hname] at k1
        obtain ⟨rfl, rfl⟩ := Cmd.first_colon (by decide +kernel) (numeric_no_colon k3) k1
        exact C34_numeric_unique k3 num7
    subst hf
    refine ⟨img, o, fi, hl, ho, hd, hk, h7, q3, fun hc => ?_⟩
    rw [hc, hdata, h7] at q3
    exact absurd q3 (by show [] ≠ padded [9]; decide +kernel)

/-- C116 fails for Delete: on the same disk deleting FOO fails, and file 5 is gone all the same. -/
theorem C116_violated_delete : ∃ img o, img.length = 143360 ∧ openOperator img = .ok o ∧ (∃ k, (o.delete (str "FOO")).out = .err k) ∧
    fileOnDisk img 5 ≠ [] ∧ fileOnDisk (o.delete (str "FOO")).op.data 5 = [] := by
  obtain ⟨img, o, hl, ho, hst, h5, h7, hroom⟩ := short_disk
  obtain ⟨hg, hdata⟩ := open_good hl ho
  have hlen := opened_length hl ho
  have htab : o.table = shortTable := by unfold Operator.table; rw [hst]; rfl
  have hfirst : FirstOf shortTable (str "FOO") [] ⟨0xDF05, str "FOO", -1⟩ (⟨0xD001, str "A", -1⟩ :: List.replicate 817 Symbol.empty) :=
    ⟨rfl, rfl, by simp⟩
  have hname : NameOf shortTable (str "FOO") 5 := by
    refine (nameOf_iff 5).1 ?_
    have e : byName shortTable (str "FOO") = 0xDF05 := by
      unfold shortTable byName
      rw [if_pos (by decide +kernel)]
    unfold fileForName
    decide +kernel
  have hfail : (o.delete (str "FOO")).out ≠ .ok () := by
    intro hc
    have ho' := ho
    rw [← hdata] at ho'
    obtain ⟨f, _, hall⟩ := (delete_iff hg ho' hlen).1 hc
    rw [htab] at hall
    exact short_not (hall _ _ _ hfirst ⟨0xD001, str "A", -1⟩ (by simp))
  obtain ⟨hk, ⟨_, hno⟩ | ⟨f, ⟨q1, _⟩, q2, _⟩⟩ := C116_delete_exact hl ho (str "FOO") hfail
  · rw [htab] at hno
    exact absurd hname (hno 5)
  · rw [htab] at q1
    have e1 := (nameOf_iff f).2 q1
    have e2 := (nameOf_iff 5).2 hname
    rw [e1] at e2
    cases e2
    exact ⟨img, o, hl, ho, hk, h5, q2⟩

/-- C116 fails for WriteFile: a write of one byte to file FE, with permission to overwrite, fails on a new disk; and the boot sector, track 0
sector 0, is overwritten all the same. -/
theorem C116_violated_write_file : (writeFile freshMap freshImg 0xFE [1] true).out = .err .other ∧
    slice (writeFile freshMap freshImg 0xFE [1] true).img 0 256 = padded [1] ∧ slice freshImg 0 256 ≠ padded [1] ∧
    ∀ n, n < 560 → own (writeFile freshMap freshImg 0xFE [1] true).sm n = 0xFF := by
  have h := C116_write_file_illegal (sm := freshMap) (img := freshImg) (f := 0xFE) (c := [1]) true freshImg_length
    (by unfold IsFileNumber; decide) (by simp)
  have hroom := freshMap_free
  dsimp only at h
  rcases h with ⟨h, _⟩ | ⟨_, _, h, _⟩ | ⟨_, _, h1, h2, n, hn, h3, h4, _, h5, _⟩
  · have : sectorsNeeded ([1] : Bytes).length = 1 := by decide
    rw [this] at h
    omega
  · simp at h
  · have hn0 : n = 0 := by
      by_contra hc
      have := (h4 0 (by omega)).1
      rw [own_freshMap (by decide)] at this
      simp at this
    subst hn0
    refine ⟨h1, ?_, ?_, ?_⟩
    · rw [h5]; decide +kernel
    · intro hc
      have e := congrArg (fun l => l[0]?) hc
      unfold freshImg at e
      rw [slice_put_of_disjoint (by simp) (by simp)] at e
      have : (padded [1])[0]? = some 1 := by decide +kernel
      rw [this] at e
      have e0 : ∀ n, n ≠ 0 → (slice (zeros n) 0 256)[0]? = some 0 := by
        intro n hn
        unfold slice zeros
        cases n with
        | zero => exact absurd rfl hn
        | succ n => rfl
      rw [e0 _ (by decide)] at e
      cases e
    · intro m hm
      rw [h2 m hm, own_freshMap hm]
      split <;> simp

/-- What the partial theorems are about: a disk with one symbol, on which there is no BAR to remove, and file 3 is there already. -/
example : ∃ img o, ∃ fi : FileInfo, img.length = 143360 ∧ openOperator img = .ok o ∧ fi.data ≠ [] ∧
    (∀ st, o.st = some st → (∃ e ∈ st, e.address = 0) ∧ ∀ e ∈ st, Storable e.name) ∧ (∀ e ∈ o.table, Storable e.name) ∧
    (o.putFile fi false).out ≠ .ok () ∧ (o.delete (str "BAR")).out ≠ .ok () := by
  obtain ⟨img, sm, hg, ho, h3⟩ := foo_disk
  have hs : ∀ e ∈ fooTable, Storable e.name := by
    intro e he
    obtain ⟨i, hi, rfl⟩ := List.getElem_of_mem he
    rcases fooTable_get i _ (List.getElem?_eq_getElem hi) with ⟨_, e⟩ | e <;> rw [e] <;> decide +kernel
  have num3 : NumericName (str "DF03") 3 := (parseAddressFilename_iff (by decide)).1 (by decide +kernel)
  refine ⟨img, _, ⟨{ name := str "DF03", length := ([1] : Bytes).length, type := filetypeBinary }, [1], 0⟩, hg.len, ho, by simp, ?_, hs, ?_, ?_⟩
  · intro st e
    cases e
    exact ⟨⟨Symbol.empty, by unfold fooTable; simp, rfl⟩, hs⟩
  · intro hc
    obtain ⟨f, sym, hm, _, how, _⟩ := (putFile_iff (o := ⟨img, sm, some fooTable⟩) hg ho (Nat.le_of_eq fooTable_wf.length) (by simp)).1 hc
    have hf : f = 3 := by
      rcases hm with ⟨h, _⟩ | ⟨_, h, _⟩ | ⟨a, h, _⟩
      · exact numericName_unique h num3
      · exact absurd num3 (h 3)
      · have : (0x3A : UInt8) ∈ str "DF03" := by rw [h]; simp
        exact absurd this (by decide +kernel)
    subst hf
    rcases how with h | h
    · exact absurd h (by simp)
    · exact h3 ((fileOnDisk_nil hg 3).2 h)
  · have hn : fileForName fooTable (str "BAR") = .err .fileNotFound := by decide +kernel
    rw [op_delete_err (o := ⟨img, sm, some fooTable⟩) hn]
    simp

end Verif.Supermon

namespace Verif.Prodos
open Spec Spec.Prodos

/-- C116, writing a bitmap, exactly: it fails exactly if some part belongs in a block that is not there, and by then the parts before the
first such one have been written, and no other. -/
theorem C116_bitmap_exact (vbm : VolumeBitMap) (img : Bytes) :
    ((writeBitMap vbm img).1 = .ok () ∧ ∀ p ∈ vbm, OnDevice img p.block.toNat) ∨
    ∃ before p after, vbm = before ++ p :: after ∧ ¬ OnDevice img p.block.toNat ∧ (∀ q ∈ before, OnDevice img q.block.toNat) ∧
      (writeBitMap vbm img).1 = .err .other ∧ (writeBitMap before img).1 = .ok () ∧ (writeBitMap vbm img).2 = (writeBitMap before img).2 := by
  induction vbm generalizing img with
  | nil => exact Or.inl ⟨rfl, by simp⟩
  | cons q vbm ih =>
    rw [writeBitMap, writeBlock_eq]
    by_cases h : 512 * q.block.toNat + 512 ≤ img.length
    · rw [if_pos h]
      simp only
      have hlen : (put img (512 * q.block.toNat) q.data.toList).length = img.length := by
        rw [put_length (by simp; omega)]
      have hdev : ∀ b, OnDevice (put img (512 * q.block.toNat) q.data.toList) b ↔ OnDevice img b := by
        intro b; unfold OnDevice; rw [hlen]
      rcases ih (put img (512 * q.block.toNat) q.data.toList) with ⟨h1, h2⟩ | ⟨before, p, after, rfl, h2, h3, h4, h5, h6⟩
      · refine Or.inl ⟨h1, fun p hp => ?_⟩
        rcases List.mem_cons.1 hp with rfl | hp
        · exact h
        · exact (hdev _).1 (h2 p hp)
      · refine Or.inr ⟨q :: before, p, after, rfl, fun hc => h2 ((hdev _).2 hc), fun r hr => ?_, h4, ?_, ?_⟩
        · rcases List.mem_cons.1 hr with rfl | hr
          · exact h
          · exact (hdev _).1 (h3 r hr)
        · rw [writeBitMap, writeBlock_eq, if_pos h]; exact h5
        · rw [h6]
          conv_rhs => rw [writeBitMap, writeBlock_eq, if_pos h]
    · rw [if_neg h]
      exact Or.inr ⟨[], q, vbm, rfl, h, by simp, rfl, rfl, rfl⟩

/-- C116, writing a bitmap all of whose parts belong in one block: if it fails it changes nothing. -/
theorem C116_bitmap_partial (vbm : VolumeBitMap) (img : Bytes) (h1 : vbm.length ≤ 1) (hfail : (writeBitMap vbm img).1 ≠ .ok ()) :
    (writeBitMap vbm img).2 = img := by
  rcases C116_bitmap_exact vbm img with ⟨h, _⟩ | ⟨before, p, after, rfl, _, _, _, _, h⟩
  · exact absurd h hfail
  · have : before = [] := by
      rw [List.length_append, List.length_cons] at h1
      exact List.eq_nil_of_length_eq_zero (by omega)
    rw [h, this]
    rfl

/-- C116 fails for the bitmap: one that starts in the last block of a device of two, and needs a second block, is not written; but its first
part is. -/
theorem C116_violated_bitmap : ∃ vbm img, (writeBitMap vbm img).1 = .err .other ∧ (writeBitMap vbm img).2 ≠ img := by
  refine ⟨[{ data := Vector.replicate 512 0xFF, block := 1 }, { block := 2 }], zeros 1024, ?_⟩
  have hl : (zeros 1024).length = 1024 := zeros_length _
  rw [writeBitMap, writeBlock_eq, if_pos (by rw [hl]; decide)]
  simp only
  rw [writeBitMap, writeBlock_eq, if_neg (by rw [put_length (by rw [hl]; simp), hl]; decide)]
  refine ⟨rfl, fun hc => ?_⟩
  have e := congrArg (fun l => l[512]?) hc
  simp only at e
  rw [getElem?_put (by rw [hl]; decide), if_neg (by decide), if_pos (by simp)] at e
  unfold zeros at e
  simp at e

end Verif.Prodos
