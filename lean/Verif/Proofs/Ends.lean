import Verif.Proofs.Crash
import Verif.Props.Dos3
import Verif.Props.Recognise

/-!
# What never runs out of budget
-/

set_option autoImplicit false

namespace Verif

theorem Out.bind_ends {α β : Type} {x : Out α} {f : α → Out β} (hx : x ≠ .timeout) (hf : ∀ a, x = .ok a → f a ≠ .timeout) :
    (x >>= f) ≠ .timeout := by
  cases x with
  | ok a => exact hf a rfl
  | err k => simp
  | panic => simp
  | timeout => exact absurd rfl hx

theorem Out.returns_ends {α : Type} {x : Out α} (h : x.returns = true) : x ≠ .timeout := by
  rintro rfl; cases h

namespace Disk

theorem readSector_ends (img : Bytes) (t s : UInt8) : readSector img t s ≠ .timeout := by
  unfold readSector; dsimp only; split <;> simp

theorem writeSector_ends (img : Bytes) (t s : UInt8) (d : Bytes) : (writeSector img t s d).1 ≠ .timeout := by
  unfold writeSector; dsimp only; repeat' split
  all_goals simp

theorem swizzle_ends (img : Bytes) (o : List Int) : swizzle img o ≠ .timeout := Out.returns_ends (C05_swizzle_accepts_iff img o).2

end Disk

namespace Supermon
open Disk

theorem loadSectorMap_ends (img : Bytes) : loadSectorMap img ≠ .timeout := by
  unfold loadSectorMap
  refine Out.bind_ends (readSector_ends _ _ _) fun _ _ => Out.bind_ends (readSector_ends _ _ _) fun _ _ =>
    Out.bind_ends (readSector_ends _ _ _) fun _ _ => ?_
  dsimp only; split <;> simp

theorem persist_ends (sm : SectorMap) (img : Bytes) : (persist sm img).1 ≠ .timeout := by
  unfold persist
  cases h : readSector img 0 9 with
  | ok b =>
    dsimp only
    have h1 := writeSector_ends img 0 9 (put b 0xd0 (slice sm.toList 0 0x30))
    rcases e1 : writeSector img 0 9 (put b 0xd0 (slice sm.toList 0 0x30)) with ⟨o, i1⟩
    rw [e1] at h1
    cases o with
    | ok _ =>
      dsimp only
      have h2 := writeSector_ends i1 0 0xA (slice sm.toList 0x30 0x100)
      rcases e2 : writeSector i1 0 0xA (slice sm.toList 0x30 0x100) with ⟨o, i2⟩
      rw [e2] at h2
      cases o with
      | ok _ => exact writeSector_ends _ _ _ _
      | err k => simp
      | panic => simp
      | timeout => exact h2
    | err k => simp
    | panic => simp
    | timeout => exact h1
  | err k => simp
  | panic => simp
  | timeout => exact absurd h (readSector_ends _ _ _)

theorem verify_ends (sm : SectorMap) : verify sm ≠ .timeout := by
  unfold verify; split
  · simp
  · split <;> simp

theorem readFileLoop_ends (img : Bytes) (l : List (UInt8 × UInt8)) (r : Bytes) : readFileLoop img l r ≠ .timeout := by
  induction l generalizing r with
  | nil => simp [readFileLoop]
  | cons ts l ih => rw [readFileLoop]; exact Out.bind_ends (readSector_ends _ _ _) fun _ _ => ih _

theorem writeLoop_ends (cts : Bytes) (n : Nat) (file : UInt8) (l : List (UInt8 × UInt8)) (i : Nat) (sm : SectorMap) (img : Bytes) :
    (writeLoop cts n file l i sm img).1 ≠ .timeout := by
  induction l generalizing i sm img with
  | nil => simp [writeLoop]
  | cons ts l ih =>
    rw [writeLoop]
    by_cases hf : fileForSector sm ts.1 ts.2 = fileFree
    · rw [if_pos hf]
      split
      · simp
      · have h1 := writeSector_ends img ts.1 ts.2 (slice cts (i * 256) 256)
        rcases e1 : writeSector img ts.1 ts.2 (slice cts (i * 256) 256) with ⟨o, i1⟩
        rw [e1] at h1
        cases o with
        | ok _ =>
          dsimp only
          have h2 : (setFileForSector sm ts.1 ts.2 file).1 ≠ .timeout := by
            unfold setFileForSector
            repeat' split
            all_goals simp
          rcases e2 : setFileForSector sm ts.1 ts.2 file with ⟨o, i2⟩
          rw [e2] at h2
          cases o with
          | ok _ =>
            dsimp only
            split
            · simp
            · exact ih _ _ _
          | err k => simp
          | panic => simp
          | timeout => exact h2
        | err k => simp
        | panic => simp
        | timeout => exact h1
    · rw [if_neg hf]; exact ih _ _ _

theorem writeFile_ends (sm : SectorMap) (img : Bytes) (file : UInt8) (c : Bytes) (ow : Bool) : (writeFile sm img file c ow).out ≠ .timeout := by
  unfold writeFile
  dsimp only
  split
  · simp
  · split
    · simp
    · generalize (if (decide ((sectorsForFile sm file).length > 0)) = true then deleteFile sm file else sm) = sm1
      have h1 := writeLoop_ends (put (zeros (256 * ((c.length + 255) / 256))) 0 c) ((c.length + 255) / 256) file allSectors 0 sm1 img
      generalize writeLoop (put (zeros (256 * ((c.length + 255) / 256))) 0 c) ((c.length + 255) / 256) file allSectors 0 sm1 img = r at h1 ⊢
      obtain ⟨o, s, i⟩ := r
      cases o with
      | ok _ => exact persist_ends _ _
      | err k => simp
      | panic => simp
      | timeout => exact h1

theorem encodeLoop_ends (s : Str) (v b : Nat) : encodeLoop s v b ≠ .timeout := by
  induction s generalizing v b with
  | nil => simp [encodeLoop]
  | cons c s ih =>
    rw [encodeLoop]
    split
    · simp
    · exact ih _ _

theorem encodeSymbol_ends (s : Str) : encodeSymbol s ≠ .timeout := by
  unfold encodeSymbol
  repeat' split
  · simp
  · simp
  · simp
  · exact Out.bind_ends (encodeLoop_ends _ _ _) fun _ _ => by simp

theorem parseSymbols_ends (a b : Vector UInt8 0x1000) (n : Nat) (h : n ≤ 819) : parseSymbols a b n h ≠ .timeout := by
  induction n with
  | zero => simp [parseSymbols]
  | succ n ih =>
    rw [parseSymbols]
    refine Out.bind_ends (ih _) fun _ _ => Out.bind_ends ?_ fun _ _ => by simp
    unfold parseSymbol
    dsimp only
    repeat' split
    all_goals simp

theorem checkLinks_ends (t l : SymbolTable) (i : Nat) : checkLinks t l i ≠ .timeout := by
  induction l generalizing i with
  | nil => simp [checkLinks]
  | cons s l ih =>
    rw [checkLinks]
    refine Out.bind_ends ?_ fun _ _ => ih _
    unfold checkLink
    repeat' split
    all_goals simp

theorem readSymbolTable_ends (sm : SectorMap) (img : Bytes) : readSymbolTable sm img ≠ .timeout := by
  unfold readSymbolTable
  refine Out.bind_ends (readFileLoop_ends _ _ _) fun _ _ => ?_
  split
  · refine Out.bind_ends (readFileLoop_ends _ _ _) fun _ _ => ?_
    split
    · exact Out.bind_ends (parseSymbols_ends _ _ _ _) fun _ _ => Out.bind_ends (checkLinks_ends _ _ _) fun _ _ => by simp
    · simp
  · simp

theorem fillTables_ends (l : SymbolTable) (i : Nat) (a b : Bytes) : fillTables l i a b ≠ .timeout := by
  induction l generalizing i a b with
  | nil => simp [fillTables]
  | cons s l ih =>
    rw [fillTables]
    refine Out.bind_ends (encodeSymbol_ends _) fun _ _ => ?_
    dsimp only
    split
    · simp
    · exact ih _ _ _

theorem writeSymbolTable_ends (sm : SectorMap) (img : Bytes) (st : SymbolTable) : (writeSymbolTable sm img st).1 ≠ .timeout := by
  have hf := fillTables_ends st 0 (zeros 0x1000) (zeros 0x1000)
  unfold writeSymbolTable
  generalize fillTables st 0 (zeros 0x1000) (zeros 0x1000) = r at hf ⊢
  cases r with
  | ok p =>
    obtain ⟨t1, t2⟩ := p
    dsimp only
    have h1 := writeFile_ends sm img 3 t1 true
    generalize writeFile sm img 3 t1 true = r1 at h1 ⊢
    obtain ⟨e1, o1, s1, i1⟩ := r1
    cases o1 with
    | ok _ =>
      dsimp only
      have h2 := writeFile_ends s1 i1 4 t2 true
      generalize writeFile s1 i1 4 t2 true = r2 at h2 ⊢
      obtain ⟨e2, o2, s2, i2⟩ := r2
      cases o2 with
      | ok _ => simp
      | err k => simp
      | panic => simp
      | timeout => exact absurd rfl h2
    | err k => simp
    | panic => simp
    | timeout => exact absurd rfl h1
  | err k => simp
  | panic => simp
  | timeout => exact absurd rfl hf

theorem addSymbol_ends (st : SymbolTable) (n : Str) (a : UInt16) : (addSymbol st n a).1 ≠ .timeout := by
  unfold addSymbol
  repeat' split
  all_goals simp

theorem fileForName_ends (st : SymbolTable) (n : Str) : fileForName st n ≠ .timeout := by
  unfold fileForName
  repeat' split
  all_goals simp

theorem filesForCompoundName_ends (st : SymbolTable) (n : Str) : filesForCompoundName st n ≠ .timeout := by
  unfold filesForCompoundName
  split
  · dsimp only; split
    · simp
    · split <;> simp
  · dsimp only; split
    · simp
    · split
      · simp
      · split <;> simp
  · simp

theorem getFile_ends (o : Operator) (n : Str) : o.getFile n ≠ .timeout := by
  unfold Operator.getFile
  refine Out.bind_ends (fileForName_ends _ _) fun f _ => ?_
  cases h : readFile o.sm o.data f with
  | ok d => dsimp only; split <;> simp
  | err k => simp
  | panic => simp
  | timeout => exact absurd h (readFileLoop_ends _ _ _)

theorem delete_ends (o : Operator) (n : Str) : (o.delete n).out ≠ .timeout := by
  unfold Operator.delete
  cases h : fileForName o.table n with
  | ok f =>
    dsimp only
    have h1 := persist_ends (deleteFile o.sm f) o.data
    generalize persist (deleteFile o.sm f) o.data = r at h1 ⊢
    obtain ⟨r, i⟩ := r
    cases r with
    | ok _ =>
      dsimp only
      cases o.st with
      | none => simp
      | some st =>
        dsimp only
        rcases deleteSymbol st n with ⟨b, st'⟩
        cases b with
        | false => simp
        | true => exact writeSymbolTable_ends _ _ _
    | err k => simp
    | panic => simp
    | timeout => exact h1
  | err k => simp
  | panic => simp
  | timeout => exact absurd h (fileForName_ends _ _)

theorem putNumbered_ends (o : Operator) (k b : UInt8) (s : Str) (d : Bytes) (ow : Bool) : (o.putNumbered k b s d ow).out ≠ .timeout := by
  unfold Operator.putNumbered
  dsimp only
  have h1 := writeFile_ends o.sm o.data k d ow
  generalize writeFile o.sm o.data k d ow = r at h1 ⊢
  obtain ⟨e, r, sm, img⟩ := r
  cases r with
  | ok _ =>
    dsimp only
    split
    · cases o.st with
      | none => simp
      | some st =>
        dsimp only
        have h2 := addSymbol_ends st s (0xDF00 + k.toUInt16)
        generalize addSymbol st s (0xDF00 + k.toUInt16) = q at h2 ⊢
        obtain ⟨q, st'⟩ := q
        cases q with
        | ok _ => exact writeSymbolTable_ends _ _ _
        | err k => simp
        | panic => simp
        | timeout => exact h2
    · simp
  | err k => simp
  | panic => simp
  | timeout => exact h1

theorem putFile_ends (o : Operator) (fi : FileInfo) (ow : Bool) : (o.putFile fi ow).out ≠ .timeout := by
  unfold Operator.putFile
  split
  · simp
  · split
    · simp
    · cases h : filesForCompoundName o.table fi.descriptor.name with
      | ok p =>
        obtain ⟨a, b, s⟩ := p
        dsimp only
        split
        · simp
        · split
          · simp
          · generalize (if a = 0 then firstFreeFile o.sm else a) = k
            split
            · simp
            · exact putNumbered_ends _ _ _ _ _ _
      | err k => simp
      | panic => simp
      | timeout => exact absurd h (filesForCompoundName_ends _ _)

theorem openOperator_ends (img : Bytes) : openOperator img ≠ .timeout := by
  unfold openOperator
  refine Out.bind_ends (loadSectorMap_ends _) fun sm _ => Out.bind_ends (verify_ends _) fun _ _ => ?_
  cases h : readSymbolTable sm img with
  | ok d => simp
  | err k => simp
  | panic => simp
  | timeout => exact absurd h (readSymbolTable_ends _ _)

theorem seemsToMatch_ends (img : Bytes) : seemsToMatch img ≠ .timeout := by
  unfold seemsToMatch
  cases h : loadSectorMap img with
  | ok sm =>
    dsimp only
    cases h' : verify sm with
    | ok d => simp
    | err k => simp
    | panic => simp
    | timeout => exact absurd h' (verify_ends _)
  | err k => simp
  | panic => simp
  | timeout => exact absurd h (loadSectorMap_ends _)

end Supermon

namespace Dos3

theorem trimZeros_ends (d : Bytes) : Operator.trimZeros d ≠ .timeout := by
  unfold Operator.trimZeros; split <;> simp

theorem sized_ends (s : Slice) : Operator.sized s ≠ .timeout := by
  unfold Operator.sized
  split
  · have : ∀ a b, Operator.reslice s a b ≠ .timeout := by
      intro a b; unfold Operator.reslice; split <;> simp
    dsimp only
    split
    · simp
    · simp
    · simp
    · rename_i h; exact absurd h (this _ _)
  · simp

theorem getFile_ends {o : Operator} (h : readCatalog o.data ≠ .timeout) (n : Str) : o.getFile n ≠ .timeout := by
  unfold Operator.getFile
  refine Out.bind_ends (Out.bind_ends h fun x _ => ?_) fun fd _ => Out.bind_ends (Out.returns_ends (C17_terminates _ _)) fun s _ => ?_
  · dsimp only; split <;> simp
  · dsimp only
    split
    · exact Out.bind_ends (trimZeros_ends _) fun _ _ => by simp
    · split
      · refine Out.bind_ends ?_ fun p _ => Out.bind_ends (sized_ends _) fun _ _ => by simp
        split
        · split <;> simp
        · simp
      · simp

theorem catalog_ends {o : Operator} (h : readCatalog o.data ≠ .timeout) (d : Str) : o.catalog d ≠ .timeout := by
  unfold Operator.catalog
  exact Out.bind_ends h fun _ _ => by simp

end Dos3
end Verif
