import Verif.Props.CmdFiles
import Verif.Spec.Crash

/-!
# Which functions cannot panic
-/

set_option autoImplicit false

namespace Verif

section out
variable {α β : Type}

theorem Out.bind_ne_panic {x : Out α} {f : α → Out β} (hx : x ≠ .panic) (hf : ∀ a, x = .ok a → f a ≠ .panic) :
    (x >>= f) ≠ .panic := by
  cases x with
  | ok a => exact hf a rfl
  | err k => simp
  | panic => exact absurd rfl hx
  | timeout => simp

theorem Out.returns_ne_panic {x : Out α} (h : x.returns = true) : x ≠ .panic := by
  rintro rfl; simp at h

end out

namespace Disk

theorem swizzle_ne_panic (img : Bytes) (o : List Int) : swizzle img o ≠ .panic :=
  Out.returns_ne_panic (C05_swizzle_accepts_iff img o).2

theorem readBlock_ne_panic (img : Bytes) (i : UInt16) : readBlock img i ≠ .panic := by
  unfold readBlock; dsimp only; split <;> simp

end Disk

namespace Prodos
open Disk

theorem chainLoop_ne_panic {β : Type} {read : UInt16 → Out β} {next : β → UInt16} (h : ∀ i, read i ≠ .panic) :
    ∀ n b, chainLoop read next n b ≠ .panic := by
  intro n
  induction n with
  | zero => intro b; rw [chainLoop.eq_def]; split <;> simp
  | succ n ih =>
    intro b
    rw [chainLoop.eq_def]
    split
    · simp
    · exact Out.bind_ne_panic (h b) fun x _ => Out.bind_ne_panic (ih _) fun _ _ => by simp

theorem readSubdirectory_ne_panic (n : Nat) (img : Bytes) (fd : FileDescriptor) : readSubdirectory n img fd ≠ .panic := by
  unfold readSubdirectory unmarshalSubdirKey
  refine Out.bind_ne_panic (Out.bind_ne_panic (readBlock_ne_panic _ _) fun _ _ => by simp) fun key _ => ?_
  refine Out.bind_ne_panic (chainLoop_ne_panic (fun i => ?_) _ _) fun _ _ => by simp
  unfold unmarshalSubdirBlock
  exact Out.bind_ne_panic (readBlock_ne_panic _ _) fun _ _ => by simp

theorem subdirLoop_ne_panic (c : Nat) (img : Bytes) (n : Nat) : ∀ q bb f, subdirLoop c n img q bb f ≠ .panic := by
  induction n with
  | zero => intro q bb f; rw [subdirLoop.eq_def]; cases q <;> simp
  | succ n ih =>
    intro q bb f
    rw [subdirLoop.eq_def]
    cases q with
    | nil => simp
    | cons d rest => exact Out.bind_ne_panic (readSubdirectory_ne_panic _ _ _) fun _ _ => ih _ _ _

theorem parentDirName_ne_panic (n : Nat) : ∀ p k bb f, parentDirName n p k bb f ≠ .panic := by
  induction n with
  | zero => intro p k bb f; rw [parentDirName.eq_def]; split; · simp
            split <;> simp
  | succ n ih =>
    intro p k bb f
    rw [parentDirName.eq_def]
    split
    · simp
    · split
      · simp
      · exact Out.bind_ne_panic (ih _ _ _ _) fun _ _ => by split <;> simp

theorem nameLoop_ne_panic (n : Nat) (k : UInt16) (bb : GoMap UInt16 Subdirectory) (f : GoMap UInt16 UInt16)
    (l : List (UInt16 × Subdirectory)) : ∀ m, nameLoop n k bb f l m ≠ .panic := by
  induction l with
  | nil => intro m; simp [nameLoop]
  | cons e l ih =>
    intro m
    unfold nameLoop
    exact Out.bind_ne_panic (parentDirName_ne_panic _ _ _ _ _) fun _ _ => ih _

theorem readVolume_ne_panic {img : Bytes} (h : img.length < 2 ^ 36) (n : Nat) (ord : RangeOrder UInt16 Subdirectory)
    (k : UInt16) : readVolume n ord img k ≠ .panic := by
  unfold readVolume unmarshalVolumeKey
  refine Out.bind_ne_panic (Out.bind_ne_panic (readBlock_ne_panic _ _) fun _ _ => by simp) fun key _ => ?_
  refine Out.bind_ne_panic (Out.returns_ne_panic (readVolumeBitMap_returns h _)) fun vbm _ => ?_
  refine Out.bind_ne_panic (chainLoop_ne_panic (fun i => ?_) _ _) fun blocks _ => ?_
  · unfold unmarshalVolumeBlock
    exact Out.bind_ne_panic (readBlock_ne_panic _ _) fun _ _ => by simp
  refine Out.bind_ne_panic (subdirLoop_ne_panic _ _ _ _ _ _) fun p _ => ?_
  exact Out.bind_ne_panic (nameLoop_ne_panic _ _ _ _ _ _) fun _ _ => by simp

theorem seemsToMatch_ne_panic {img : Bytes} (h : img.length < 2 ^ 36) (n : Nat) (ord : RangeOrder UInt16 Subdirectory) :
    seemsToMatch n ord img ≠ .panic := by
  unfold seemsToMatch
  have := readVolume_ne_panic h n ord 2
  split <;> simp_all

theorem catalog_ne_panic {img : Bytes} (h : img.length < 2 ^ 36) (n : Nat) (ord : RangeOrder UInt16 Subdirectory)
    (d : Str) : Operator.catalog n ord ⟨img⟩ d ≠ .panic := by
  unfold Operator.catalog
  refine Out.bind_ne_panic (readVolume_ne_panic h n ord 2) fun v _ => ?_
  split
  · simp
  · split <;> simp

theorem operator_ne_panic (n : Nat) (ord : RangeOrder UInt16 Subdirectory) (b : Bytes) : (factory n ord).operator b ≠ .panic := by
  simp [factory]

end Prodos

namespace Supermon
open Disk Spec

theorem verify_ne_panic (sm : SectorMap) : verify sm ≠ .panic := by
  unfold verify; split
  · simp
  · split <;> simp

theorem seemsToMatch_ne_panic (img : Bytes) : seemsToMatch img ≠ .panic := by
  unfold seemsToMatch
  rcases loadSectorMap_cases img with ⟨sm, e⟩ | e
  · rw [e]
    have := verify_ne_panic sm
    dsimp only
    split <;> simp_all
  · rw [e]; simp

theorem openOperator_ne_panic {img : Bytes} (h : img.length = 143360) : openOperator img ≠ .panic := by
  unfold openOperator
  rcases loadSectorMap_cases img with ⟨sm, e⟩ | e
  · rw [e, Out.bind_ok]
    refine Out.bind_ne_panic (verify_ne_panic sm) fun _ _ => ?_
    rw [readSymbolTable_eq h]
    rcases tableOf_cases (fileBytes (own sm) img 3) (fileBytes (own sm) img 4) with ⟨t, e⟩ | e <;> rw [e] <;> simp
  · rw [e]; simp

theorem fileForName_ne_panic (st : SymbolTable) (n : Str) : fileForName st n ≠ .panic := by
  unfold fileForName; split
  · simp
  · split <;> simp

theorem filesForCompoundName_ne_panic (st : SymbolTable) (n : Str) : filesForCompoundName st n ≠ .panic := by
  unfold filesForCompoundName
  split
  · dsimp only; split
    · simp
    · split <;> simp
  · dsimp only; split
    · simp
    · split
      · simp
      · split <;> simp
  · simp

theorem getFile_ne_panic {o : Operator} (h : Good o.sm o.data) (n : Str) : o.getFile n ≠ .panic := by
  unfold Operator.getFile
  refine Out.bind_ne_panic (fileForName_ne_panic _ _) fun f _ => ?_
  rw [readFile_eq h.len]
  dsimp only
  split <;> simp

theorem delete_ne_panic {o : Operator} (h : Good o.sm o.data) (hl : o.table.length ≤ 819) (n : Str) :
    (o.delete n).out ≠ .panic := by
  cases hn : fileForName o.table n with
  | err k => rw [op_delete_err hn]; simp
  | panic => exact absurd hn (fileForName_ne_panic _ _)
  | timeout =>
    unfold fileForName at hn
    split at hn
    · simp at hn
    · split at hn <;> simp at hn
  | ok f =>
    have hf := fileForName_file hn
    obtain ⟨hp, hk⟩ := keep_delete h hf
    unfold Operator.delete
    rw [hn]
    dsimp only
    rw [hp]
    dsimp only
    cases hs : o.st with
    | none => simp
    | some st =>
      have hl' : st.length ≤ 819 := by rw [← show o.table = st by unfold Operator.table; rw [hs]; rfl]; exact hl
      dsimp only
      cases hd : deleteSymbol st n with
      | mk b st' =>
        cases b with
        | false => simp
        | true =>
          have e : st'.length = st.length := by rw [← show (deleteSymbol st n).2 = st' by rw [hd]]; exact deleteSymbol_length st n
          have := writeSymbolTable_returns hk.good (st := st') (by omega)
          dsimp only
          rcases this with e | e <;> rw [e] <;> simp

end Supermon

namespace Dos3

theorem readCatalog_ne_panic (img : Bytes) : readCatalog img ≠ .panic := by
  unfold readCatalog; exact readCatalogFuel_no_panic

theorem seemsToMatch_ne_panic (img : Bytes) : seemsToMatch img ≠ .panic := by
  unfold seemsToMatch
  have := readCatalog_ne_panic img
  split <;> simp_all

theorem catalog_ne_panic (o : Operator) (d : Str) : o.catalog d ≠ .panic := by
  unfold Operator.catalog
  exact Out.bind_ne_panic (readCatalog_ne_panic _) fun _ _ => by simp

theorem fileForFilename_ne_panic (o : Operator) (n : Str) : o.fileForFilename n ≠ .panic := by
  unfold Operator.fileForFilename
  refine Out.bind_ne_panic (readCatalog_ne_panic _) fun x _ => ?_
  obtain ⟨fds, _⟩ := x
  dsimp only
  split <;> simp

theorem operator_ne_panic (b : Bytes) : factory.operator b ≠ .panic := by simp [factory]

end Dos3

namespace Disk
variable {Ω : Type}

theorem openInner_ne_panic (e : Bool) (o : DiskOrder) (s : Bytes) (fs : List (Factory Ω))
    (h : ∀ f ∈ fs, ∀ b : Bytes, b.length = 143360 → f.seemsToMatch b ≠ .panic ∧ f.operator b ≠ .panic) :
    openInner e o s fs ≠ .panic := by
  induction fs with
  | nil => simp [openInner]
  | cons f fs ih =>
    have ih := ih fun g hg => h g (by simp [hg])
    unfold openInner
    refine Out.bind_ne_panic (swizzle_ne_panic _ _) fun b hb => ?_
    have hb' : b.length = 143360 := by
      obtain ⟨h1, h2, e⟩ := swizzle_ok_iff.1 hb
      rw [e]; exact swizzled_length h1 h2
    obtain ⟨h1, h2⟩ := h f (by simp) b hb'
    split
    · exact Out.bind_ne_panic h2 fun _ _ => by simp
    · refine Out.bind_ne_panic h1 fun m _ => ?_
      split
      · split
        · simp
        · exact ih
        · rename_i e; exact absurd e h2
        · simp
      · exact ih

theorem openOuter_ne_panic (e : Bool) (raw : Bytes) (fs : List (Factory Ω))
    (h : ∀ f ∈ fs, ∀ b : Bytes, b.length = 143360 → f.seemsToMatch b ≠ .panic ∧ f.operator b ≠ .panic)
    (os : List DiskOrder) : openOuter e raw fs os ≠ .panic := by
  induction os with
  | nil => simp [openOuter]
  | cons o os ih =>
    unfold openOuter
    refine Out.bind_ne_panic (swizzle_ne_panic _ _) fun b _ => ?_
    refine Out.bind_ne_panic (openInner_ne_panic e o b fs h) fun r _ => ?_
    cases r with
    | none => exact ih
    | some x => simp

theorem openImage_ne_panic (raw : Bytes) (filename : Str) (order : DiskOrder) (system : Str) (fs : List (Factory Ω))
    (h : ∀ f ∈ fs, ∀ b : Bytes, b.length = 143360 → f.seemsToMatch b ≠ .panic ∧ f.operator b ≠ .panic)
    (h' : ∀ f ∈ fs, f.name = str "prodos" → ∀ b, f.operator b ≠ .panic) :
    openImage raw filename order system fs ≠ .panic := by
  unfold openImage
  dsimp only
  split
  · unfold openDoOrPo
    dsimp only
    split
    · simp
    · split
      · simp
      · exact openOuter_ne_panic _ _ _ (fun f hf => h f (List.mem_filter.1 hf).1) _
  · split
    · simp
    · split
      · unfold openHDV
        dsimp only
        split
        · simp
        · split
          · simp
          · split
            · simp
            · split
              · simp
              · clear h
                induction fs with
                | nil => simp [openHDVLoop]
                | cons f fs ih =>
                  unfold openHDVLoop
                  split
                  · rename_i hn
                    exact Out.bind_ne_panic (h' f (by simp) hn raw) fun _ _ => by simp
                  · exact ih fun g hg => h' g (by simp [hg])
      · simp

end Disk

namespace Cmd
open Disk

theorem map_ne_panic {Ω Ω' : Type} {g : Ω → Ω'} {f : Factory Ω} {b : Bytes} (h : f.operator b ≠ .panic) :
    (Factory.map g f).operator b ≠ .panic := by
  unfold Factory.map
  dsimp only
  split <;> simp_all

theorem lt_of_floppy {b : Bytes} (h : b.length = 143360) : b.length < 2 ^ 36 := by omega

theorem openDisk_ne_panic (env : Env) (image : Str) (order : DiskOrder) (system : Str) (w : World) :
    (openDisk env image order system w).1 ≠ .panic := by
  have key : ∀ raw name, openImage raw name order system (factories env) ≠ .panic := fun raw name => by
    refine openImage_ne_panic raw name order system _ (fun f hf b hb => ?_) fun f hf hn b => ?_
    · simp only [factories, List.mem_cons, List.not_mem_nil, or_false] at hf
      rcases hf with rfl | rfl | rfl
      · exact ⟨by simp only [Factory.map, Dos3.factory]; exact (Dos3.seemsToMatch_ne_panic b), map_ne_panic (Dos3.operator_ne_panic b)⟩
      · exact ⟨by simp only [Factory.map, Supermon.factory]; exact (Supermon.seemsToMatch_ne_panic b), map_ne_panic (Supermon.openOperator_ne_panic hb)⟩
      · exact ⟨by simp only [Factory.map, Prodos.factory]; exact (Prodos.seemsToMatch_ne_panic (lt_of_floppy hb) _ _), map_ne_panic (Prodos.operator_ne_panic _ _ b)⟩
    · simp only [factories, List.mem_cons, List.not_mem_nil, or_false] at hf
      rcases hf with rfl | rfl | rfl
      · exact map_ne_panic (Dos3.operator_ne_panic b)
      · exact absurd hn (by decide)
      · exact map_ne_panic (Prodos.operator_ne_panic _ _ b)
  unfold openDisk openFilename
  split
  · exact key _ _
  · split
    · simp
    · exact key _ _

/-- An opened ProDOS device is not large. -/
theorem open_size {env : Env} {raw : Bytes} {name : Str} {order : DiskOrder} {system : Str} {op : AnyOp} {ord : DiskOrder}
    (h : openImage raw name order system (factories env) = .ok (op, ord)) : raw.length < 2 ^ 36 := by
  unfold openImage at h
  dsimp only at h
  split at h
  · rename_i e; rw [e]; decide
  · split at h
    · simp at h
    · split at h
      · unfold openHDV at h
        dsimp only at h
        split at h
        · simp at h
        · split at h
          · simp at h
          · omega
      · simp at h

theorem writeOutput_ne_panic (w : World) (f : Str) (b : Bytes) (ow : Bool) : (w.writeOutput f b ow).1 ≠ .panic := by
  unfold World.writeOutput
  split
  · simp
  · split <;> simp

theorem writeDisk_ne_panic (p : Str) (op : AnyOp) (o : DiskOrder) (w : World) :
    (writeDisk World.writeOutput p op o w).1 ≠ .panic := by
  unfold writeDisk writeBackVia
  have : writeBackBytes op o ≠ .panic := by
    unfold writeBackBytes
    dsimp only
    split
    · simp
    · exact Out.bind_ne_panic (swizzle_ne_panic _ _) fun _ _ => swizzle_ne_panic _ _
  split
  · exact writeOutput_ne_panic _ _ _ _
  · simp
  · rename_i e; exact absurd e this
  · simp

theorem act_bind_ne_panic {α β : Type} {m : Act α} {f : α → Act β} {w : World} (hm : (m w).1 ≠ .panic)
    (hf : ∀ a w', m w = (.ok a, w') → (f a w').1 ≠ .panic) : ((m >>= f) w).1 ≠ .panic := by
  rw [bind_apply]
  unfold Act.bind
  rcases h : m w with ⟨r, w'⟩
  cases r with
  | ok a => exact hf a w' h
  | err k => simp
  | panic => rw [h] at hm; exact absurd rfl hm
  | timeout => simp

theorem contentsOf_ne_panic (p : Str) (w : World) : (contentsOf p w).1 ≠ .panic := by
  unfold contentsOf World.fileContentsOrStdIn
  split
  · simp
  · split <;> simp

end Cmd
end Verif
