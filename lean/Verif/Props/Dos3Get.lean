import Verif.Props.Dos3

/-!
# C18-C20: DOS 3.3 file look-up and typed contents
-/

set_option autoImplicit false
set_option maxRecDepth 20000

namespace Verif.Dos3

open Verif Verif.Disk Verif.Spec

/-! ## C20 -/

theorem trim_append_spaces (s : Str) (n : Nat) (h : s.getLast? ≠ some 0x20) :
    trimRightSpaces (s ++ List.replicate n 0x20) = s := by
  unfold trimRightSpaces
  rw [List.reverse_append, List.reverse_replicate, List.dropWhile_append_of_pos (by
    intro x hx
    simpa using (List.mem_replicate.1 hx).2)]
  cases hs : s.reverse with
  | nil => simp [List.reverse_eq_nil_iff.1 hs]
  | cons c cs =>
    have : s.getLast? = some c := by
      rw [List.getLast?_eq_head?_reverse, hs]; rfl
    rw [this] at h
    have hc : c ≠ 0x20 := fun e => h (by rw [e])
    rw [List.dropWhile_cons, if_neg (by simpa using hc), ← hs, List.reverse_reverse]

/-- C20: a name of at most 30 characters that does not end in a space, stored as DOS stores it in an
entry that is not deleted, is shown as itself. -/
theorem C20_decode (name : Str) (hl : name.length ≤ 30) (hs : name.getLast? ≠ some 0x20) (fd : FileDesc)
    (hn : fd.filename.toList = storedName name) (hd : fd.trackSectorListTrack ≠ 0xff) :
    fd.filenameString = name := by
  have hst : fd.status ≠ .deleted := by
    unfold FileDesc.status
    rw [if_neg hd]
    split <;> simp
  unfold FileDesc.filenameString
  simp only [if_neg hst]
  rw [hn, storedName, List.map_append, List.map_map, List.map_replicate]
  have e : (fun b : UInt8 => b - 0x80) ∘ (fun b => b + 0x80) = id := by
    funext b; simp
  rw [e, List.map_id]
  exact trim_append_spaces name _ hs

/-- C20: for a deleted file the last byte is the old track number and is left out. -/
theorem C20_decode_deleted (name : Str) (hl : name.length ≤ 29) (hs : name.getLast? ≠ some 0x20) (fd : FileDesc)
    (track : UInt8) (hn : fd.filename.toList = (storedName name).take 29 ++ [track])
    (hd : fd.trackSectorListTrack = 0xff) : fd.filenameString = name := by
  have hst : fd.status = .deleted := by
    unfold FileDesc.status
    rw [hd, if_neg (by decide), if_pos rfl]
  unfold FileDesc.filenameString
  simp only [if_pos hst]
  have h30 : (storedName name).length = 30 := by simp [storedName]; omega
  rw [hn, List.take_append_of_le_length (by rw [List.length_take, h30]; omega), List.take_take]
  rw [storedName, List.take_append, List.take_of_length_le (by simp; omega), List.take_replicate,
    List.map_append, List.map_map, List.map_replicate]
  have e : (fun b : UInt8 => b - 0x80) ∘ (fun b => b + 0x80) = id := by
    funext b; simp
  rw [e, List.map_id]
  exact trim_append_spaces name _ hs

/-- Non-vacuity: a name with an inner space. -/
example : ∃ fd : FileDesc, fd.filename.toList = storedName (str "HELLO 2") ∧ fd.trackSectorListTrack ≠ 0xff ∧
    (str "HELLO 2").getLast? ≠ some 0x20 :=
  ⟨{ filename := ⟨(storedName (str "HELLO 2")).toArray, by decide +kernel⟩ }, by simp [Vector.toList], by decide, by decide⟩

theorem find?_congr' {α : Type} {l : List α} {p q : α → Bool} (h : ∀ x ∈ l, p x = q x) : l.find? p = l.find? q := by
  induction l with
  | nil => rfl
  | cons a l ih =>
    rw [List.find?_cons, List.find?_cons, h a (by simp), ih (fun x hx => h x (by simp [hx]))]

theorem lookup_tail (r : Option FileDesc) :
    (match r with
      | some fd => Out.ok fd
      | none => Out.err ErrKind.other) =
    (match r.map FileDesc.toBytes with
      | some e => Out.ok (FileDesc.fromBytes e 0)
      | none => Out.err ErrKind.other) := by
  cases r with
  | none => rfl
  | some fd =>
    rw [Option.map_some]
    exact congrArg Out.ok (C12_filedesc_value fd).2.symm

/-- C20: look-up finds exactly the first live entry of the catalog chain whose name is the argument,
and reports an error when there is none. -/
theorem C20_lookup (img : Bytes) (hv : NormalVTOC img) (chain : List (Nat × Nat))
    (hc : Chain img (CatalogPlace img) (linkOf img vtocAt) chain) (n : Str) :
    Operator.fileForFilename ⟨img⟩ n =
      match ((entries img chain).filter (fun e => LiveEntry e)).find? (fun e => entryName e = n) with
      | some e => .ok (FileDesc.fromBytes e 0)
      | none => .err .other := by
  obtain ⟨files, deleted, hr, hf, _⟩ := C15_catalog_complete img hv chain hc
  unfold Operator.fileForFilename
  rw [show readCatalog (Operator.mk img).data = .ok (files, deleted) from hr, Out.bind_ok, ← hf, List.find?_map]
  simp only
  have hlive : ∀ fd ∈ files, fd.status ≠ .deleted := by
    intro fd hfd
    have : fd.toBytes ∈ (entries img chain).filter (fun e => LiveEntry e) := by
      rw [← hf]; exact List.mem_map.2 ⟨fd, hfd, rfl⟩
    have := (List.mem_filter.1 this).2
    rw [decide_eq_true_iff, ← status_normal] at this
    rw [this]; decide
  rw [find?_congr' (q := (fun e => decide (entryName e = n)) ∘ FileDesc.toBytes) (fun fd hfd => by
    rw [Function.comp_apply, filenameString_eq fd (hlive fd hfd)])]
  generalize files.find? ((fun e => decide (entryName e = n)) ∘ FileDesc.toBytes) = r
  exact lookup_tail r

/-- C20: without a readable catalog, look-up fails the same way. -/
theorem C20_unreadable (img : Bytes) (n : Str) (k : ErrKind) (h : readCatalog img = .err k) :
    Operator.fileForFilename ⟨img⟩ n = .err k ∧ Operator.getFile ⟨img⟩ n = .err k ∧
      Operator.catalog ⟨img⟩ n = .err k := by
  have h1 : Operator.fileForFilename ⟨img⟩ n = .err k := by
    unfold Operator.fileForFilename
    rw [show readCatalog (Operator.mk img).data = .err k from h]; rfl
  refine ⟨h1, ?_, ?_⟩
  · unfold Operator.getFile
    rw [h1]; rfl
  · unfold Operator.catalog
    rw [show readCatalog (Operator.mk img).data = .err k from h]; rfl

/-! ## C19 -/

section
variable {o : Operator} {name : Str} {fd : FileDesc} {s : Slice}

theorem getFile_eq (h1 : o.fileForFilename name = .ok fd) (h2 : contents fd o.data = .ok s) :
    o.getFile name =
      (if fd.filetype &&& 0x7f = 0x00 then do
        let data ← Operator.trimZeros s.data
        .ok { descriptor := { fd.descriptor with length := data.length }, data := data }
      else if fd.filetype &&& 0x7f = 0x01 ∨ fd.filetype &&& 0x7f = 0x02 ∨ fd.filetype &&& 0x7f = 0x04 then do
        let start : UInt16 := if fd.filetype &&& 0x7f = 0x02 then 0x801 else 0
        let (start, s) ← (if fd.filetype &&& 0x7f = 0x04 then
          match s.data with
          | b0 :: b1 :: rest => Out.ok (b0.toUInt16 + (b1.toUInt16 <<< 8), (⟨rest, s.spare⟩ : Slice))
          | _ => Out.panic
          else Out.ok (start, s))
        let (length, data) ← Operator.sized s
        .ok { descriptor := { fd.descriptor with length := length }, data := data, startAddress := start }
      else .err .other : Out FileInfo) := by
  unfold Operator.getFile
  rw [h1, Out.bind_ok, h2, Out.bind_ok]
  rfl

/-- C19, text: the contents without trailing zeros, if they are not all zeros.
Missing: contents of zeros only, see `C19_text_all_zero`. -/
theorem C19_text_partial (h1 : o.fileForFilename name = .ok fd) (h2 : contents fd o.data = .ok s)
    (ht : fd.filetype &&& 0x7f = 0x00) (hz : ∃ b ∈ s.data, b ≠ 0) :
    o.getFile name = .ok
      { descriptor := { fd.descriptor with length := (withoutTrailing 0 s.data).length }
        data := withoutTrailing 0 s.data
        startAddress := 0 } := by
  rw [getFile_eq h1 h2, if_pos ht]
  have : Operator.trimZeros s.data = .ok (withoutTrailing 0 s.data) := by
    unfold Operator.trimZeros withoutTrailing
    split
    · rename_i heq
      obtain ⟨b, hb, hne⟩ := hz
      have : withoutTrailing 0 s.data = [] := by
        unfold withoutTrailing; rw [heq]; rfl
      exact absurd (withoutTrailing_eq_nil this b hb) hne
    · rfl
  rw [this]; rfl

/-- C19, text: when all bytes are zero the program crashes. -/
theorem C19_text_all_zero (h1 : o.fileForFilename name = .ok fd) (h2 : contents fd o.data = .ok s)
    (ht : fd.filetype &&& 0x7f = 0x00) (hz : ∀ b ∈ s.data, b = 0) : o.getFile name = .panic := by
  rw [getFile_eq h1 h2, if_pos ht]
  have : Operator.trimZeros s.data = .panic := by
    unfold Operator.trimZeros
    have : s.data.reverse.dropWhile (fun b => decide (b = 0)) = [] := by
      have hz' : ∀ b ∈ s.data.reverse, b = 0 := fun b hb => hz b (by simpa using hb)
      generalize s.data.reverse = m at hz'
      induction m with
      | nil => rfl
      | cons y m ih =>
        rw [List.dropWhile_cons, if_pos (by simpa using hz' y (by simp))]
        exact ih fun b hb => hz' b (by simp [hb])
    rw [this]
  rw [this]; rfl

theorem sized_eq {d : Bytes} {n : Nat} (h : 2 ≤ d.length) :
    Operator.sized ⟨d, n⟩ =
      (let L := (d.getD 0 0).toNat + 256 * (d.getD 1 0).toNat
       if L + 2 ≤ d.length then .ok (L, (d.drop 2).take L)
       else if L + 2 ≤ d.length + n then .ok (L, d.drop 2 ++ zeros (L + 2 - d.length))
       else .panic) := by
  match d, h with
  | b0 :: b1 :: rest, _ =>
    unfold Operator.sized Operator.reslice
    simp only [List.getD_cons_zero, List.getD_cons_succ, List.drop_succ_cons, List.drop_zero, List.length_cons]
    have hcomm : b1.toNat * 256 = 256 * b1.toNat := Nat.mul_comm _ _
    rw [hcomm]
    by_cases hL : b0.toNat + 256 * b1.toNat + 2 ≤ rest.length + 1 + 1
    · rw [if_pos hL, if_neg (by omega)]
      simp only
      congr 2
      unfold slice
      rw [List.cons_append, List.cons_append]
      simp only [List.drop_succ_cons, List.drop_zero]
      rw [show b0.toNat + 256 * b1.toNat + 2 - 2 = b0.toNat + 256 * b1.toNat by omega,
        List.take_append_of_le_length (by omega)]
    · rw [if_neg hL]
      by_cases hc : b0.toNat + 256 * b1.toNat + 2 ≤ rest.length + 1 + 1 + n
      · rw [if_pos hc, if_neg (by omega)]
        simp only
        congr 2
        unfold slice
        rw [List.cons_append, List.cons_append]
        simp only [List.drop_succ_cons, List.drop_zero]
        rw [show b0.toNat + 256 * b1.toNat + 2 - 2 = b0.toNat + 256 * b1.toNat by omega,
          List.take_append, List.take_of_length_le (by omega)]
        congr 1
        unfold zeros
        rw [List.take_replicate]
        congr 1; omega
      · rw [if_neg hc, if_pos (by omega)]

/-- The load address reported for a BASIC file. -/
def basicStart (t : UInt8) : UInt16 := if t = 0x02 then 0x801 else 0

/-- C19, Integer BASIC (type 1) and Applesoft (type 2): the bytes after the two-byte length, as many as it says,
if the contents hold that many.  Missing: longer lengths, see `C19_basic_long`. -/
theorem C19_basic_partial (h1 : o.fileForFilename name = .ok fd) (h2 : contents fd o.data = .ok s)
    (ht : fd.filetype &&& 0x7f = 0x01 ∨ fd.filetype &&& 0x7f = 0x02) (hlen : 2 ≤ s.data.length)
    (L : Nat) (hL : L = (s.data.getD 0 0).toNat + 256 * (s.data.getD 1 0).toNat)
    (hfit : 2 + L ≤ s.data.length) :
    o.getFile name = .ok
      { descriptor := { fd.descriptor with length := L }
        data := (s.data.drop 2).take L
        startAddress := basicStart (fd.filetype &&& 0x7f) } := by
  subst hL
  rw [getFile_eq h1 h2, if_neg (by rcases ht with h | h <;> rw [h] <;> decide),
    if_pos (by rcases ht with h | h <;> simp [h])]
  simp only
  rw [if_neg (show ¬ (fd.filetype &&& 0x7f = 0x04) by rcases ht with h | h <;> rw [h] <;> decide)]
  simp only [Out.bind_ok]
  rw [show s = ⟨s.data, s.spare⟩ from rfl, sized_eq hlen]
  simp only
  rw [if_pos (by omega), Out.bind_ok]
  rfl

/-- C19, BASIC with a length beyond the contents: zeros are made up, or the program crashes when the length
exceeds even the reserved space (122 sectors per list). -/
theorem C19_basic_long (h1 : o.fileForFilename name = .ok fd) (h2 : contents fd o.data = .ok s)
    (ht : fd.filetype &&& 0x7f = 0x01 ∨ fd.filetype &&& 0x7f = 0x02) (hlen : 2 ≤ s.data.length)
    (L : Nat) (hL : L = (s.data.getD 0 0).toNat + 256 * (s.data.getD 1 0).toNat)
    (hlong : s.data.length < 2 + L) :
    o.getFile name =
      if 2 + L ≤ s.data.length + s.spare then .ok
        { descriptor := { fd.descriptor with length := L }
          data := s.data.drop 2 ++ zeros (2 + L - s.data.length)
          startAddress := basicStart (fd.filetype &&& 0x7f) }
      else .panic := by
  subst hL
  rw [getFile_eq h1 h2, if_neg (by rcases ht with h | h <;> rw [h] <;> decide),
    if_pos (by rcases ht with h | h <;> simp [h])]
  simp only
  rw [if_neg (show ¬ (fd.filetype &&& 0x7f = 0x04) by rcases ht with h | h <;> rw [h] <;> decide)]
  simp only [Out.bind_ok]
  rw [show s = ⟨s.data, s.spare⟩ from rfl, sized_eq hlen]
  simp only
  rw [if_neg (by omega)]
  have hc : ∀ L : Nat, L + 2 = 2 + L := fun L => Nat.add_comm _ _
  simp only [hc]
  split
  · rw [Out.bind_ok]; rfl
  · rfl

theorem start_le16 : ∀ b0 b1 : UInt8, b0.toUInt16 + (b1.toUInt16 <<< 8) = le16 b0 b1 := by
  intro b0 b1
  apply UInt16.toNat_inj.1
  rw [le16_toNat, UInt16.toNat_add, UInt16.toNat_shiftLeft]
  simp only [UInt8.toNat_toUInt16, UInt16.reduceToNat, Nat.reduceMod]
  have h0 := b0.toNat_lt
  have h1 := b1.toNat_lt
  rw [Nat.shiftLeft_eq]
  omega

/-- C19, binary: the bytes after the four-byte header, as many as its length says, and its load address,
if the contents hold that many.  Missing: longer lengths, see `C19_binary_long`. -/
theorem C19_binary_partial (h1 : o.fileForFilename name = .ok fd) (h2 : contents fd o.data = .ok s)
    (ht : fd.filetype &&& 0x7f = 0x04) (hlen : 4 ≤ s.data.length)
    (L : Nat) (hL : L = (s.data.getD 2 0).toNat + 256 * (s.data.getD 3 0).toNat)
    (hfit : 4 + L ≤ s.data.length) :
    o.getFile name = .ok
      { descriptor := { fd.descriptor with length := L }
        data := (s.data.drop 4).take L
        startAddress := le16 (s.data.getD 0 0) (s.data.getD 1 0) } := by
  subst hL
  rw [getFile_eq h1 h2, if_neg (by rw [ht]; decide), if_pos (by simp [ht])]
  simp only
  rw [if_pos ht]
  obtain ⟨d, n⟩ := s
  match d, hlen with
  | b0 :: b1 :: rest, hlen =>
    simp only [Out.bind_ok]
    simp only [List.length_cons, List.getD_cons_zero, List.getD_cons_succ, List.drop_succ_cons] at hlen hfit ⊢
    rw [sized_eq (by omega)]
    simp only
    rw [if_pos (by omega), Out.bind_ok, start_le16]

/-- C19, binary with a length beyond the contents: zeros are made up, or the program crashes. -/
theorem C19_binary_long (h1 : o.fileForFilename name = .ok fd) (h2 : contents fd o.data = .ok s)
    (ht : fd.filetype &&& 0x7f = 0x04) (hlen : 4 ≤ s.data.length)
    (L : Nat) (hL : L = (s.data.getD 2 0).toNat + 256 * (s.data.getD 3 0).toNat)
    (hlong : s.data.length < 4 + L) :
    o.getFile name =
      if 4 + L ≤ s.data.length + s.spare then .ok
        { descriptor := { fd.descriptor with length := L }
          data := s.data.drop 4 ++ zeros (4 + L - s.data.length)
          startAddress := le16 (s.data.getD 0 0) (s.data.getD 1 0) }
      else .panic := by
  subst hL
  rw [getFile_eq h1 h2, if_neg (by rw [ht]; decide), if_pos (by simp [ht])]
  simp only
  rw [if_pos ht]
  obtain ⟨d, n⟩ := s
  match d, hlen with
  | b0 :: b1 :: rest, hlen =>
    simp only [Out.bind_ok]
    simp only [List.length_cons, List.getD_cons_zero, List.getD_cons_succ, List.drop_succ_cons] at hlen hlong ⊢
    rw [sized_eq (by omega)]
    simp only
    rw [if_neg (by omega)]
    generalize hk : (List.getD rest 0 0).toNat + 256 * (List.getD rest 1 0).toNat = L at hlong ⊢
    by_cases hc : L + 2 ≤ rest.length + n
    · rw [if_pos hc, if_pos (by omega), Out.bind_ok, start_le16]
      rw [show L + 2 - rest.length = 4 + L - (rest.length + 1 + 1) by omega]
    · rw [if_neg hc, if_neg (by omega)]; rfl

/-- C19, all other types: an error. -/
theorem C19_other_types (h1 : o.fileForFilename name = .ok fd) (h2 : contents fd o.data = .ok s)
    (ht : fd.filetype &&& 0x7f ≠ 0x00 ∧ fd.filetype &&& 0x7f ≠ 0x01 ∧ fd.filetype &&& 0x7f ≠ 0x02 ∧
      fd.filetype &&& 0x7f ≠ 0x04) : (o.getFile name).isErr = true := by
  rw [getFile_eq h1 h2, if_neg ht.1, if_neg (by simp [ht.2.1, ht.2.2.1, ht.2.2.2])]
  rfl

/-- C19: unreadable contents, or an unknown name, are an error. -/
theorem C19_unreadable (h : (∃ k, o.fileForFilename name = .err k) ∨
    (∃ k, o.fileForFilename name = .ok fd ∧ contents fd o.data = .err k)) : (o.getFile name).isErr = true := by
  unfold Operator.getFile
  rcases h with ⟨k, h⟩ | ⟨k, h, h2⟩
  · rw [h]; rfl
  · rw [h, Out.bind_ok, h2]; rfl

/-- C19: contents of a file of a readable catalog are never shorter than a sector, so the header
conditions above always hold; and the reserved space is 122 sectors per list. -/
theorem C19_contents_size (h1 : o.fileForFilename name = .ok fd) (h2 : contents fd o.data = .ok s) :
    256 ≤ s.data.length ∧ ∃ n, 1 ≤ n ∧ s.data.length + s.spare = 31232 * n := by
  have hlive : fd.trackSectorListTrack ≠ 0 := by
    unfold Operator.fileForFilename at h1
    obtain ⟨⟨files, deleted⟩, h3, h4⟩ := Out.bind_eq_ok.1 h1
    simp only at h4
    split at h4
    · rename_i fd' hfd
      rw [← Out.ok.inj h4]
      have hm := List.mem_of_find?_eq_some hfd
      obtain ⟨_, l, _, _, e⟩ := readCatalogFuel_ok h3
      rw [(Prod.mk.inj e).1] at hm
      have hst := (List.mem_filter.1 hm).2
      rw [decide_eq_true_iff] at hst
      intro h0
      unfold FileDesc.status at hst
      rw [if_pos h0] at hst
      simp at hst
    · simp at h4
  rcases Classical.em (∃ l, Chain o.data (OnImage o.data) (nat2 fd.trackSectorListTrack fd.trackSectorListSector) l)
    with ⟨l, hl⟩ | hn
  · rw [(contents_eq fd o.data).1 l hl] at h2
    by_cases hr : Readable o.data (codePairs o.data l)
    · rw [if_pos hr] at h2
      have hs := Out.ok.inj h2
      have hne : l ≠ [] := by
        intro e
        rw [e] at hl
        have : nat2 fd.trackSectorListTrack fd.trackSectorListSector = (0, 0) := by
          generalize nat2 fd.trackSectorListTrack fd.trackSectorListSector = p at hl
          cases hl; rfl
        exact hlive (nat2_eq_zero.1 this).1
      have hlen := pairsData_length hr
      have h3 := codePairs_length_le (img := o.data) l
      have h4 := List.length_pos_iff.2 (codePairs_ne_nil (img := o.data) hne)
      have h5 := List.length_pos_iff.2 hne
      rw [← hs]
      simp only
      refine ⟨by omega, l.length, by omega, by omega⟩
    · rw [if_neg hr] at h2; simp at h2
  · rw [(contents_eq fd o.data).2 hn] at h2; simp at h2

end

end Verif.Dos3
