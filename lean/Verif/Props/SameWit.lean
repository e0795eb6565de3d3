import Verif.Props.Same
import Verif.Props.Recognise
import Verif.Props.RecogniseWit
import Verif.Props.ProdosWit

/-!
# C86: volumes on which the order of map iteration matters
-/

set_option autoImplicit false

namespace Verif.Prodos
open Verif Verif.Disk Verif.Spec Verif.Spec.Prodos

/-- Header of a subdirectory called "B" with the given parent pointer. -/
def hdrB (parent : UInt8) : Bytes := [0xE1, 0x42] ++ (zeros 33 ++ [parent, 0, 0, 0])

/-- Two subdirectories: "A", whose parent is "A", and "B", whose parent does not exist. -/
def lostDev : Bytes :=
  dev (dirBlock 0 (zeros 39) (entry 0xD1 0x41 3) (entry 0xD1 0x42 4)) (dirBlock 0 (hdrA 3) (zeros 39) (zeros 39))
    (dirBlock 0 (hdrB 9) (zeros 39) (zeros 39))

theorem lost_length : lostDev.length = 143360 := dev_length (by decide +kernel) (by decide +kernel) (by decide +kernel)

theorem lost_read (n : Nat) : readVolume (n + 2) .stored lostDev 2 = .err .other ∧ readVolume (n + 2) .reversed lostDev 2 = .timeout := by
  have h2 : blockAt lostDev 2 = dirBlock 0 (zeros 39) (entry 0xD1 0x41 3) (entry 0xD1 0x42 4) :=
    dev_block2 (by decide +kernel) (by decide +kernel) (by decide +kernel)
  have h3 : blockAt lostDev 3 = dirBlock 0 (hdrA 3) (zeros 39) (zeros 39) :=
    dev_block3 (by decide +kernel) (by decide +kernel) (by decide +kernel)
  have h4 : blockAt lostDev 4 = dirBlock 0 (hdrB 9) (zeros 39) (zeros 39) :=
    dev_block4 (by decide +kernel) (by decide +kernel) (by decide +kernel)
  have ho : ∀ {b}, b < 280 → OnDevice lostDev b := fun hb =>
    dev_on (by decide +kernel) (by decide +kernel) (by decide +kernel) hb
  have hlen : lostDev.length < 512 * 4096 := by rw [lost_length]; omega
  have k3 : (fdOf (entry 0xD1 0x41 3)).keyPointer = 3 := by decide +kernel
  have k4 : (fdOf (entry 0xD1 0x42 4)).keyPointer = 4 := by decide +kernel
  have e3 : (3 : UInt16).toNat = 3 := rfl
  have e4 : (4 : UInt16).toNat = 4 := rfl
  have d3 : DirBlocks lostDev (3 : UInt16).toNat [] := dirBlocks_of h3 (ho (by decide)) (by decide +kernel)
  have d4 : DirBlocks lostDev (4 : UInt16).toNat [] := dirBlocks_of h4 (ho (by decide)) (by decide +kernel)
  have s3 : readSubdirectory (n + 2) lostDev (fdOf (entry 0xD1 0x41 3)) = .ok (subOf lostDev 3 []) := by
    have := readSubdirectory_of (img := lostDev) (fd := fdOf (entry 0xD1 0x41 3))
      ((congrArg (fun x => blockAt _ (UInt16.toNat x)) k3).trans h3) (by rw [k3]; exact ho (by decide)) (by decide +kernel) (n + 2)
    rw [this, k3]
  have s4 : readSubdirectory (n + 2) lostDev (fdOf (entry 0xD1 0x42 4)) = .ok (subOf lostDev 4 []) := by
    have := readSubdirectory_of (img := lostDev) (fd := fdOf (entry 0xD1 0x42 4))
      ((congrArg (fun x => blockAt _ (UInt16.toNat x)) k4).trans h4) (by rw [k4]; exact ho (by decide)) (by decide +kernel) (n + 2)
    rw [this, k4]
  have hsub3 : subdirDescriptors (subOf lostDev 3 []).descriptors = [] := by
    rw [subOf_descriptors d3, e3, dirEntries_of h3]; decide +kernel
  have hsub4 : subdirDescriptors (subOf lostDev 4 []).descriptors = [] := by
    rw [subOf_descriptors d4, e4, dirEntries_of h4]; decide +kernel
  have hloop : subdirLoop (n + 2) (n + 2) lostDev [fdOf (entry 0xD1 0x41 3), fdOf (entry 0xD1 0x42 4)] [] [] =
      .ok ([(4, subOf lostDev 4 []), (3, subOf lostDev 3 [])], []) := by
    rw [subdirLoop, s3, Out.bind_ok, hsub3, k3, List.append_nil, subdirLoop, s4, Out.bind_ok, hsub4, k4,
      List.append_nil, subdirLoop]
    rfl
  have hq : subdirDescriptors
      ((entriesOf (dirBlock 0 (zeros 39) (entry 0xD1 0x41 3) (entry 0xD1 0x42 4))).map fdOf) =
      [fdOf (entry 0xD1 0x41 3), fdOf (entry 0xD1 0x42 4)] := by decide +kernel
  have hp3 : (subOf lostDev 3 []).keyBlock.header.parentPointer = 3 := by
    rw [← UInt16.toNat_inj]
    show (subKey lostDev 3).header.parentPointer.toNat = _
    rw [subKey_parent]
    unfold parentPointer word bbyte
    rw [e3, h3]; decide +kernel
  have hp4 : (subOf lostDev 4 []).keyBlock.header.parentPointer = 9 := by
    rw [← UInt16.toNat_inj]
    show (subKey lostDev 4).header.parentPointer.toNat = _
    rw [subKey_parent]
    unfold parentPointer word bbyte
    rw [e4, h4]; decide +kernel
  have hrec : ∀ m, parentDirName m 3 2 [(4, subOf lostDev 4 []), (3, subOf lostDev 3 [])] [] = .timeout := by
    intro m
    have hf : findParent [(4, subOf lostDev 4 []), (3, subOf lostDev 3 [])] [] 3 = some (subOf lostDev 3 []) := rfl
    induction m with
    | zero => rw [parentDirName, if_neg (by decide), hf]
    | succ m ih =>
      rw [parentDirName, if_neg (by decide), hf]
      dsimp only
      rw [hp3, ih]; rfl
  have p3 : pathName (n + 2) [(4, subOf lostDev 4 []), (3, subOf lostDev 3 [])] [] (subOf lostDev 3 []) = .timeout := by
    unfold pathName
    rw [hp3, hrec]; rfl
  have p4 : pathName (n + 2) [(4, subOf lostDev 4 []), (3, subOf lostDev 3 [])] [] (subOf lostDev 4 []) = .err .other := by
    have hf : findParent [(4, subOf lostDev 4 []), (3, subOf lostDev 3 [])] [] 9 = none := rfl
    unfold pathName
    rw [hp4, parentDirName, if_neg (by decide), hf]; rfl
  constructor
  · obtain ⟨vbm, h⟩ := readVolume_of h2 (ho (by omega)) (by decide +kernel) hlen (n + 2) .stored
    rw [h, hq, hloop, Out.bind_ok]
    show (nameLoop (n + 2) 2 _ _ [(4, subOf lostDev 4 []), (3, subOf lostDev 3 [])] [] >>= _) = _
    rw [nameLoop_cons, p4]; rfl
  · obtain ⟨vbm, h⟩ := readVolume_of h2 (ho (by omega)) (by decide +kernel) hlen (n + 2) .reversed
    rw [h, hq, hloop, Out.bind_ok]
    show (nameLoop (n + 2) 2 _ _ [(3, subOf lostDev 3 []), (4, subOf lostDev 4 [])] [] >>= _) = _
    rw [nameLoop_cons, p3]; rfl

end Verif.Prodos

namespace Verif.Cmd
open Disk Spec Prodos

theorem view_po {img : Bytes} (hl : img.length = 143360) : View orderPO (str "po") img img := by
  have h : orderPO ∈ [orderDO, orderPO, orderRaw] := by simp
  refine (view_iff h h hl).2 ?_
  obtain ⟨h1, h2, h3, _⟩ := named_orders h
  unfold viewOf
  rw [swizzled_swizzled hl h1 h2 h3]

theorem opens_po {img : Bytes} (hl : img.length = 143360) (env : Env) {w : World} (hw : w.files (str "x.po") = some img) :
    openDisk env (str "x.po") (str "auto") (str "prodos") w = (.ok (.prodos ⟨img⟩, str "po"), w) := by
  obtain ⟨v, hv, h, _⟩ := C84_named (env := env) (o := str "po") hl (filename := str "x.po") (order := str "auto") CandidateOrders.byExtPO .prodos
  obtain ⟨op, ho, hop⟩ := h (by intro h; cases h)
  have hn : orderPO ∈ [orderDO, orderPO, orderRaw] := by simp
  have e : v = img := by rw [(view_iff hn hn hl).1 hv]; exact ((view_iff hn hn hl).1 (view_po hl)).symm
  have e' : op = .prodos ⟨img⟩ := by
    cases op with
    | prodos o => obtain ⟨d⟩ := o; rw [← e]; exact congrArg (fun x => AnyOp.prodos ⟨x⟩) hop
    | dos3 o => exact hop.elim
    | nakedos o => exact hop.elim
  rw [e'] at ho
  unfold openDisk openFilename
  rw [if_neg (by decide), hw]
  exact congrArg (fun x => (x, w)) ho

theorem ls_po {img : Bytes} (hl : img.length = 143360) (env : Env) {w : World} (hw : w.files (str "x.po") = some img) (dir : Str) :
    run env (.ls (str "auto") (str "prodos") false (str "x.po") dir) w =
      (lift (Prodos.Operator.catalog env.budget env.order ⟨img⟩ dir) >>= fun fds => print (lsLines false fds)) w := by
  change ls _ _ _ _ _ _ w = _
  unfold ls
  rw [bind_run (opens_po hl env hw)]
  dsimp only
  rw [if_neg (by rintro ⟨_, h⟩; cases h)]
  rfl

/-- C86 fails for two subdirectories with the same full path: what `ls` prints depends on the order in which a map is visited. -/
theorem C86_violated_twins : ∃ img : Bytes, img.length = 143360 ∧ ∀ n w, w.files (str "x.po") = some img →
    run ⟨n + 2, .stored⟩ (.ls (str "auto") (str "prodos") false (str "x.po") (str "A")) w = (.ok (), w) ∧
    run ⟨n + 2, .reversed⟩ (.ls (str "auto") (str "prodos") false (str "x.po") (str "A")) w = (.ok (), { w with stdout := w.stdout ++ str "F\n" }) := by
  have hl : twinDev.length = 143360 := dev_length (by decide +kernel) (by decide +kernel) (by decide +kernel)
  refine ⟨twinDev, hl, fun n w hw => ?_⟩
  obtain ⟨h1, h2⟩ := C48_needs_distinct_paths
  rw [ls_po hl _ hw, ls_po hl _ hw]
  have g : ∀ {ord ds}, Operator.catalog 2 ord ⟨twinDev⟩ (str "A") = .ok ds → Operator.catalog (n + 2) ord ⟨twinDev⟩ (str "A") = .ok ds := by
    intro ord ds h
    rcases (catalog_mono (show 2 ≤ n + 2 by omega) ord ⟨twinDev⟩ (str "A")).cases with e | e
    · rw [h] at e; simp at e
    · rw [← e]; exact h
  rw [g h1, g h2]
  refine ⟨?_, rfl⟩
  show (Out.ok (), { w with stdout := w.stdout ++ [] }) = _
  rw [List.append_nil]

/-- C86 fails on a damaged volume: whether `ls` ends, with an error, or never ends, depends on the order in which a map is visited. -/
theorem C86_violated_ends : ∃ img : Bytes, img.length = 143360 ∧ ∀ n w, w.files (str "x.po") = some img →
    (run ⟨n + 2, .stored⟩ (.ls (str "auto") (str "prodos") false (str "x.po") []) w).1 = .err .other ∧
    (run ⟨n + 2, .reversed⟩ (.ls (str "auto") (str "prodos") false (str "x.po") []) w).1 = .timeout := by
  refine ⟨lostDev, lost_length, fun n w hw => ?_⟩
  rw [ls_po lost_length _ hw, ls_po lost_length _ hw]
  unfold Operator.catalog
  dsimp only
  rw [(lost_read n).1, (lost_read n).2]
  exact ⟨rfl, rfl⟩

/-- Non-vacuity of C86: listing the subdirectory of the example volume meets the hypotheses. -/
example (w : World) (hw : w.files (str "x.po") = some goodDev) (n m : Nat) (ord ord' : RangeOrder UInt16 Subdirectory) :
    run ⟨n + 1, ord⟩ (.ls (str "auto") (str "prodos") false (str "x.po") (str "A")) w =
      run ⟨m + 1, ord'⟩ (.ls (str "auto") (str "prodos") false (str "x.po") (str "A")) w := by
  have hend : ∀ k o, (run ⟨k + 1, o⟩ (.ls (str "auto") (str "prodos") false (str "x.po") (str "A")) w).1 ≠ .timeout := by
    intro k o
    have h : run ⟨1, o⟩ (.ls (str "auto") (str "prodos") false (str "x.po") (str "A")) w = (.ok (), { w with stdout := w.stdout ++ str "F\n" }) := by
      rw [ls_po good_length _ hw]
      dsimp only
      rw [good_lists o]
      rfl
    rw [C86_more_time (show 1 ≤ k + 1 by omega) o _ w (by rw [h]; simp), h]
    simp
  refine C86_same_result_partial _ _ _ w (fun o s sh i d e _ => ?_) (hend n ord) (hend m ord')
  simp only [Command.ls.injEq] at e
  obtain ⟨rfl, rfl, rfl, rfl, rfl⟩ := e
  intro env op o hf
  have h := openDisk_finds hf
  rw [opens_po good_length env hw] at h
  simp only [Prod.mk.injEq, Out.ok.injEq, AnyOp.prodos.injEq] at h
  rw [← h.1.1]
  exact good_distinct

end Verif.Cmd
