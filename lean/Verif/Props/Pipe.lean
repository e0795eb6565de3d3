import Verif.Spec.Pipe
import Verif.Props.Overlap

/-!
# C101: standard input and output in place of a file
-/

set_option autoImplicit false

namespace Verif.Cmd
open Verif Verif.Disk Verif.Spec

theorem dash_ext : toLower (pathExt (str "-")) = [] := by decide +kernel
theorem stdin_ext : toLower (pathExt (str "/dev/stdin")) = [] := by decide +kernel

theorem openImage_ext {Ω : Type} (b : Bytes) {f g : Str} (h : toLower (pathExt f) = toLower (pathExt g)) (o : DiskOrder) (s : Str)
    (fs : List (Factory Ω)) : openImage b f o s fs = openImage b g o s fs := by
  unfold openImage
  simp only [h]

/-- With the order given, the extension matters only for hard disks. -/
theorem openImage_given {Ω : Type} (b : Bytes) {f g : Str} (hf : toLower (pathExt f) ≠ str ".hdv") (hg : toLower (pathExt g) ≠ str ".hdv") {o : DiskOrder}
    (ho : o ≠ orderAuto) (s : Str) (fs : List (Factory Ω)) : openImage b f o s fs = openImage b g o s fs := by
  have h : ∀ e e' : Str, ordersToTry o e = ordersToTry o e' := by
    intro e e'
    unfold ordersToTry
    rw [if_neg ho, if_neg ho]
  unfold openImage openDoOrPo
  dsimp only
  rw [h (toLower (pathExt f)) (toLower (pathExt g)), if_neg hf, if_neg hg]

theorem orderFromFilename_ext {f g : Str} (h : toLower (pathExt f) = toLower (pathExt g)) (o : DiskOrder) :
    orderFromFilename f o = orderFromFilename g o := by
  unfold orderFromFilename
  simp only [h]

section
variable {p : Str} {w w' : World}

/-- The world after reading `i` with `-` for `p`. -/
def afterPipe (p i : Str) (w' : World) : World := if i = p then { w' with stdin := [] } else w'

theorem afterPipe_files (i : Str) : (afterPipe p i w').files = w'.files := by unfold afterPipe; split <;> rfl
theorem afterPipe_stdout (i : Str) : (afterPipe p i w').stdout = w'.stdout := by unfold afterPipe; split <;> rfl

theorem dashFor_ext (hx : pathExt p = []) (i : Str) : toLower (pathExt (dashFor p i)) = toLower (pathExt i) := by
  unfold dashFor
  split
  · rename_i h
    rw [h, hx, dash_ext]
    rfl
  · rfl

theorem openDisk_piped {o : DiskOrder} (hx : pathExt p = [] ∨ (toLower (pathExt p) ≠ str ".hdv" ∧ o ≠ orderAuto)) (hr : ∀ q, q ≠ p → w'.files q = w.files q) {i : Str} (hi : i ≠ str "-")
    (hin : i = p → w.files p = some w'.stdin) (env : Env) (s : Str) :
    ∃ r, openDisk env i o s w = (r, w) ∧ openDisk env (dashFor p i) o s w' = (r, afterPipe p i w') := by
  unfold openDisk openFilename dashFor afterPipe
  rw [if_neg hi]
  by_cases h : i = p
  · rw [if_pos h, if_pos rfl, if_pos h, h, hin h]
    refine ⟨_, rfl, ?_⟩
    rcases hx with hx | ⟨hx, ho⟩
    · rw [openImage_ext (f := str "/dev/stdin") (g := p)]
      rw [hx, stdin_ext]
      rfl
    · rw [openImage_given (f := str "/dev/stdin") (g := p) _ (by rw [stdin_ext]; decide +kernel) hx ho]
  · rw [if_neg h, if_neg hi, if_neg h, hr i h]
    cases w.files i with
    | none => exact ⟨_, rfl, rfl⟩
    | some b => exact ⟨_, rfl, rfl⟩

theorem contentsOf_piped (hr : ∀ q, q ≠ p → w'.files q = w.files q) {i : Str} (hi : i ≠ str "-")
    (hin : i = p → w.files p = some w'.stdin) :
    ∃ r, contentsOf i w = (r, w) ∧ contentsOf (dashFor p i) w' = (r, afterPipe p i w') := by
  unfold contentsOf World.fileContentsOrStdIn dashFor afterPipe
  rw [if_neg hi]
  by_cases h : i = p
  · rw [if_pos h, if_pos rfl, if_pos h, h, hin h]
    exact ⟨_, rfl, rfl⟩
  · rw [if_neg h, if_neg hi, if_neg h, hr i h]
    cases w.files i with
    | none => exact ⟨_, rfl, rfl⟩
    | some b => exact ⟨_, rfl, rfl⟩

/-- Both runs stop with the same outcome before anything is written. -/
theorem likeTheFile_stop (hr : ∀ q, q ≠ p → w'.files q = w.files q) {e : Out Unit} {writes : Prop} (he : e ≠ .ok ()) {w1 : World}
    (hf : w1.files = w'.files) (ho : w1.stdout = w'.stdout) : LikeTheFile p writes w w' (e, w) (e, w1) where
  outcome := rfl
  others q hq := by rw [hf]; exact hr q hq
  untouched := by rw [hf]
  printed := ⟨[], by simp, fun _ => by simp [ho], fun h => absurd h.2 he⟩

/-- Both runs print. -/
theorem likeTheFile_print (hr : ∀ q, q ≠ p → w'.files q = w.files q) {writes : Prop} (hw : ¬ writes) (text : Bytes) {w1 : World}
    (hf : w1.files = w'.files) (ho : w1.stdout = w'.stdout) : LikeTheFile p writes w w' (print text w) (print text w1) where
  outcome := rfl
  others q hq := by rw [show (print text w1).2.files = w1.files from rfl, hf]; exact hr q hq
  untouched := by rw [show (print text w1).2.files = w1.files from rfl, hf]
  printed := ⟨text, rfl, fun _ => by rw [← ho]; rfl, fun h => absurd h.1 hw⟩

/-- Both runs write. -/
theorem likeTheFile_write (hr : ∀ q, q ≠ p → w'.files q = w.files q) {f : Str} (hf0 : f ≠ str "-") {force : Bool}
    (hforce : f = p → force = true ∨ w.files p = none) (b : Bytes) {w1 : World}
    (hf : w1.files = w'.files) (ho : w1.stdout = w'.stdout) :
    LikeTheFile p (f = p) w w' (w.writeOutput f b force) (w1.writeOutput (dashFor p f) b force) := by
  unfold World.writeOutput dashFor
  rw [if_neg hf0]
  by_cases h : f = p
  · rw [if_pos h, if_pos rfl, if_neg (by
      rintro ⟨h1, h2⟩
      rcases hforce h with h3 | h3
      · rw [h3] at h1; cases h1
      · rw [h, h3] at h2; cases h2)]
    refine ⟨rfl, fun q hq => ?_, ?_, ⟨[], ?_, ?_, ?_⟩⟩
    · show w1.files q = if q = f then some b else w.files q
      rw [if_neg (h ▸ hq), hf]
      exact hr q hq
    · show w1.files p = _
      rw [hf]
    · show w.stdout = _
      simp
    · rintro (hc | hc)
      · exact absurd h hc
      · exact absurd rfl hc
    · intro _
      refine ⟨b, ?_, ?_⟩
      · show (if p = f then some b else w.files p) = _
        rw [if_pos h.symm]
      · show w1.stdout ++ b = _
        rw [ho, List.append_nil]
  · rw [if_neg h, if_neg hf0, hf, hr f h]
    split
    · exact likeTheFile_stop hr (by simp) hf ho
    · refine ⟨rfl, fun q hq => ?_, ?_, ⟨[], ?_, ?_, ?_⟩⟩
      · show (if q = f then some b else w1.files q) = if q = f then some b else w.files q
        rw [hf, hr q hq]
      · show (if p = f then some b else w1.files p) = _
        rw [if_neg (fun e => h e.symm), hf]
      · show w.stdout = _
        simp
      · intro _
        show w1.stdout = _
        rw [ho, List.append_nil]
      · intro hc
        exact absurd hc.1 h

/-- After a common step that changes neither world's files nor output. -/
theorem likeTheFile_bind (hr : ∀ q, q ≠ p → w'.files q = w.files q) {writes : Prop} {α : Type} {m m' : Act α} {f f' : α → Act Unit} {r : Out α} {w0 w1 : World}
    (hm : m w = (r, w)) (hm' : m' w0 = (r, w1)) (hf : w1.files = w'.files) (ho : w1.stdout = w'.stdout)
    (h : ∀ a, r = .ok a → LikeTheFile p writes w w' (f a w) (f' a w1)) :
    LikeTheFile p writes w w' ((m >>= f) w) ((m' >>= f') w0) := by
  rw [bind_apply, bind_apply]
  unfold Act.bind
  rw [hm, hm']
  cases r with
  | ok a => exact h a rfl
  | err k => exact likeTheFile_stop hr (by simp) hf ho
  | panic => exact likeTheFile_stop hr (by simp) hf ho
  | timeout => exact likeTheFile_stop hr (by simp) hf ho

theorem writeDisk_piped (hr : ∀ q, q ≠ p → w'.files q = w.files q) {f : Str} (hf0 : f ≠ str "-") (op : AnyOp) (ord : DiskOrder)
    {w1 : World} (hf : w1.files = w'.files) (ho : w1.stdout = w'.stdout) :
    LikeTheFile p (f = p) w w' (writeDisk World.writeOutput f op ord w) (writeDisk World.writeOutput (dashFor p f) op ord w1) := by
  unfold writeDisk writeBackVia
  cases writeBackBytes op ord with
  | ok b => exact likeTheFile_write hr hf0 (fun _ => Or.inl rfl) b hf ho
  | err k => exact likeTheFile_stop hr (by simp) hf ho
  | panic => exact likeTheFile_stop hr (by simp) hf ho
  | timeout => exact likeTheFile_stop hr (by simp) hf ho

end

/-- **C101.** A file may be replaced by `-` on the command line, if it has no extension or the order of the image is given (and the extension is
not `.hdv`): the command reads from standard input what it would have
read from the file, and prints what it would have written there.  It ends the same way and does the same to every other file. -/
theorem C101_piped (env : Env) (c : Command) {p : Str} (hp0 : p ≠ [])
    (hx : pathExt p = [] ∨ (toLower (pathExt p) ≠ str ".hdv" ∧ OrderGiven c)) {w w' : World}
    (hc : str "-" ∉ mentions c) (hpipe : Pipeable p w c) (hr : ∀ q, q ≠ p → w'.files q = w.files q)
    (hin : p ∈ inputsOf c → w.files p = some w'.stdin) :
    LikeTheFile p (target c = some p) w w' (run env c w) (run env (piped p c) w') := by
  cases c with
  | ls o s sh i d =>
    simp only [mentions, List.mem_singleton] at hc
    simp only [inputsOf, List.mem_singleton] at hin
    obtain ⟨r, h1, h2⟩ := openDisk_piped hx hr (Ne.symm hc) (fun h => hin h.symm) env s
    change LikeTheFile p _ w w' (ls env o s sh i d w) (ls env o s sh (dashFor p i) d w')
    unfold ls
    refine likeTheFile_bind hr h1 h2 (afterPipe_files i) (afterPipe_stdout i) fun x _ => ?_
    dsimp only
    split
    · exact likeTheFile_stop hr (by simp) (afterPipe_files i) (afterPipe_stdout i)
    · exact likeTheFile_bind hr rfl rfl (afterPipe_files i) (afterPipe_stdout i) fun x _ =>
        likeTheFile_print hr (by simp [target]) _ (afterPipe_files i) (afterPipe_stdout i)
  | dump o s i n =>
    simp only [mentions, List.mem_singleton] at hc
    simp only [inputsOf, List.mem_singleton] at hin
    obtain ⟨r, h1, h2⟩ := openDisk_piped hx hr (Ne.symm hc) (fun h => hin h.symm) env s
    change LikeTheFile p _ w w' (dump env o s i n w) (dump env o s (dashFor p i) n w')
    unfold dump
    refine likeTheFile_bind hr h1 h2 (afterPipe_files i) (afterPipe_stdout i) fun x _ => ?_
    dsimp only
    exact likeTheFile_bind hr rfl rfl (afterPipe_files i) (afterPipe_stdout i) fun x _ =>
      likeTheFile_print hr (by simp [target]) _ (afterPipe_files i) (afterPipe_stdout i)
  | decode f l raw =>
    simp only [mentions, List.mem_singleton] at hc
    simp only [inputsOf, List.mem_singleton] at hin
    obtain ⟨r, h1, h2⟩ := contentsOf_piped hr (Ne.symm hc) (fun h => hin h.symm)
    change LikeTheFile p _ w w' (decodeCmd env f l raw w) (decodeCmd env (dashFor p f) l raw w')
    unfold decodeCmd
    refine likeTheFile_bind hr h1 h2 (afterPipe_files f) (afterPipe_stdout f) fun x _ => ?_
    refine likeTheFile_bind hr rfl rfl (afterPipe_files f) (afterPipe_stdout f) fun x _ => ?_
    split
    · exact likeTheFile_print hr (by simp [target]) _ (afterPipe_files f) (afterPipe_stdout f)
    · exact likeTheFile_print hr (by simp [target]) _ (afterPipe_files f) (afterPipe_stdout f)
  | filetypes a => exact likeTheFile_print hr (by simp [target]) _ rfl rfl
  | rm o s m i n =>
    simp only [mentions, List.mem_singleton] at hc
    simp only [inputsOf, List.mem_singleton] at hin
    obtain ⟨r, h1, h2⟩ := openDisk_piped hx hr (Ne.symm hc) (fun h => hin h.symm) env s
    change LikeTheFile p _ w w' (rm env World.writeOutput o s m i n w) (rm env World.writeOutput o s m (dashFor p i) n w')
    unfold rm
    refine likeTheFile_bind hr h1 h2 (afterPipe_files i) (afterPipe_stdout i) fun x _ => ?_
    dsimp only
    refine likeTheFile_bind hr rfl rfl (afterPipe_files i) (afterPipe_stdout i) fun b _ => ?_
    split
    · exact likeTheFile_stop hr (by simp) (afterPipe_files i) (afterPipe_stdout i)
    · have := writeDisk_piped hr (Ne.symm hc) ((x.1.delete n).2) x.2 (afterPipe_files (p := p) (w' := w') i) (afterPipe_stdout i)
      simpa [target] using this
  | put o s t ow a i n src =>
    simp only [mentions, List.mem_cons, List.not_mem_nil, or_false, not_or] at hc
    simp only [inputsOf, List.mem_cons, List.not_mem_nil, or_false] at hin
    obtain ⟨r, h1, h2⟩ := openDisk_piped hx hr (Ne.symm hc.1) (fun h => hin (Or.inl h.symm)) env s
    change LikeTheFile p _ w w' (putCmd env World.writeOutput o s t ow a i n src w)
      (putCmd env World.writeOutput o s t ow a (dashFor p i) n (dashFor p src) w')
    unfold putCmd
    rw [if_neg (fun h => hc.1 h.1.symm), if_neg (by
      rintro ⟨e1, e2⟩
      refine hpipe ⟨?_, ?_⟩
      · by_contra hne
        unfold dashFor at e1
        rw [if_neg hne] at e1
        exact hc.1 e1.symm
      · by_contra hne
        unfold dashFor at e2
        rw [if_neg hne] at e2
        exact hc.2 e2.symm)]
    refine likeTheFile_bind hr h1 h2 (afterPipe_files i) (afterPipe_stdout i) fun x _ => ?_
    dsimp only
    have hr2 : ∀ q, q ≠ p → (afterPipe p i w').files q = w.files q := by rw [afterPipe_files]; exact hr
    obtain ⟨r2, h3, h4⟩ := contentsOf_piped hr2 (Ne.symm hc.2) (fun h => by
      have : i ≠ p := fun e => hpipe ⟨e, h⟩
      unfold afterPipe
      rw [if_neg this]
      exact hin (Or.inr h.symm))
    have hf : (afterPipe p src (afterPipe p i w')).files = w'.files := by rw [afterPipe_files, afterPipe_files]
    have ho : (afterPipe p src (afterPipe p i w')).stdout = w'.stdout := by rw [afterPipe_stdout, afterPipe_stdout]
    refine likeTheFile_bind hr h3 h4 hf ho fun b _ => ?_
    refine likeTheFile_bind hr rfl rfl hf ho fun ft _ => ?_
    refine likeTheFile_bind hr rfl rfl hf ho fun u _ => ?_
    have := writeDisk_piped hr (Ne.symm hc.1)
      ((x.1.putFile { descriptor := { name := n, length := b.length, type := ft }, data := b, startAddress := a } ow).2) x.2 hf ho
    simpa [target] using this
  | mkhello o i n a s =>
    simp only [mentions, List.mem_singleton] at hc
    simp only [inputsOf, List.mem_singleton] at hin
    obtain ⟨r, h1, h2⟩ := openDisk_piped hx hr (Ne.symm hc) (fun h => hin h.symm) env (str "auto")
    change LikeTheFile p _ w w' (mkhello env World.writeOutput o i n a s w) (mkhello env World.writeOutput o (dashFor p i) n a s w')
    unfold mkhello
    dsimp only
    split
    · exact likeTheFile_stop hr (by simp) rfl rfl
    · split
      · exact likeTheFile_stop hr (by simp) rfl rfl
      · refine likeTheFile_bind hr h1 h2 (afterPipe_files i) (afterPipe_stdout i) fun x _ => ?_
        obtain ⟨op, ord⟩ := x
        cases op with
        | dos3 o => exact likeTheFile_stop hr (by simp) (afterPipe_files i) (afterPipe_stdout i)
        | prodos o => exact likeTheFile_stop hr (by simp) (afterPipe_files i) (afterPipe_stdout i)
        | nakedos op =>
          dsimp only
          refine likeTheFile_bind hr rfl rfl (afterPipe_files i) (afterPipe_stdout i) fun z _ => ?_
          obtain ⟨a1, a2, a3⟩ := z
          dsimp only
          split
          · exact likeTheFile_stop hr (by simp) (afterPipe_files i) (afterPipe_stdout i)
          · refine likeTheFile_bind hr rfl rfl (afterPipe_files i) (afterPipe_stdout i) fun z _ => ?_
            have := writeDisk_piped hr (Ne.symm hc) ((AnyOp.putFile (.nakedos op)
              { descriptor := { name := str "DF01:FHELLO", length := (helloProgram (if a1 = 0 then a2 else a1) a (effectiveStart a s)).length, type := filetypeBinary },
                data := helloProgram (if a1 = 0 then a2 else a1) a (effectiveStart a s) } true).2) ord (afterPipe_files (p := p) (w' := w') i) (afterPipe_stdout i)
            simpa [target] using this
  | mksd o i b a s =>
    simp only [mentions, List.mem_cons, List.not_mem_nil, or_false, not_or] at hc
    simp only [inputsOf, List.mem_singleton] at hin
    obtain ⟨r, h1, h2⟩ := contentsOf_piped hr (Ne.symm hc.2) (fun h => hin h.symm)
    change LikeTheFile p _ w w' (mksd World.writeOutput o i b a s w) (mksd World.writeOutput o (dashFor p i) (dashFor p b) a s w')
    unfold mksd
    refine likeTheFile_bind hr h1 h2 (afterPipe_files b) (afterPipe_stdout b) fun x _ => ?_
    refine likeTheFile_bind hr rfl rfl (afterPipe_files b) (afterPipe_stdout b) fun x _ => ?_
    rw [show sdOrder o (dashFor p i) = sdOrder o i from by
      unfold sdOrder
      rcases hx with hx | ⟨_, hx⟩
      · rw [orderFromFilename_ext (dashFor_ext hx i)]
      · rw [if_neg hx, if_neg hx]]
    refine likeTheFile_bind hr rfl rfl (afterPipe_files b) (afterPipe_stdout b) fun x _ => ?_
    have := likeTheFile_write hr (Ne.symm hc.1) (force := true) (fun _ => Or.inl rfl) x (afterPipe_files (p := p) (w' := w') b) (afterPipe_stdout b)
    simpa [target] using this
  | reorder o n ow i j =>
    simp only [mentions, List.mem_cons, List.not_mem_nil, or_false, not_or] at hc
    simp only [inputsOf, List.mem_singleton] at hin
    obtain ⟨r, h1, h2⟩ := contentsOf_piped hr (Ne.symm hc.1) (fun h => hin h.symm)
    unfold contentsOf at h1 h2
    change LikeTheFile p _ w w' (reorderVia World.writeOutput w o n ow i j) (reorderVia World.writeOutput w' o n ow (dashFor p i) (dashFor p j))
    unfold reorderVia
    rw [show getOrders (dashFor p i) o (dashFor p j) n = getOrders i o j n from by
      rcases hx with hx | ⟨_, hx⟩
      · unfold getOrders
        rw [orderFromFilename_ext (dashFor_ext hx i), orderFromFilename_ext (dashFor_ext hx j)]
      · unfold getOrders
        by_cases h1 : o = orderAuto
        · have h2 : n ≠ orderAuto := hx.resolve_left (fun h => h h1)
          rw [if_pos ⟨h1, h2⟩, if_pos ⟨h1, h2⟩]
        · simp only [ne_eq, h1, not_false_eq_true, if_true]]
    cases getOrders i o j n with
    | err k => exact likeTheFile_stop hr (by simp) rfl rfl
    | panic => exact likeTheFile_stop hr (by simp) rfl rfl
    | timeout => exact likeTheFile_stop hr (by simp) rfl rfl
    | ok x =>
      obtain ⟨x, y⟩ := x
      dsimp only
      rw [h1, h2]
      cases r with
      | err k => exact likeTheFile_stop hr (by simp) (afterPipe_files i) (afterPipe_stdout i)
      | panic => exact likeTheFile_stop hr (by simp) (afterPipe_files i) (afterPipe_stdout i)
      | timeout => exact likeTheFile_stop hr (by simp) (afterPipe_files i) (afterPipe_stdout i)
      | ok b =>
        dsimp only
        cases reorderBytes x y b with
        | err k => exact likeTheFile_stop hr (by simp) (afterPipe_files i) (afterPipe_stdout i)
        | panic => exact likeTheFile_stop hr (by simp) (afterPipe_files i) (afterPipe_stdout i)
        | timeout => exact likeTheFile_stop hr (by simp) (afterPipe_files i) (afterPipe_stdout i)
        | ok d =>
          dsimp only
          have hj : dashFor p j = [] ↔ j = [] := by
            unfold dashFor
            split
            · rename_i h
              rw [h]
              constructor
              · intro e; exact absurd e (by decide +kernel)
              · intro e; exact absurd e hp0
            · rfl
          by_cases hj0 : j = []
          · rw [if_pos hj0, if_pos (hj.2 hj0)]
            have := likeTheFile_write hr (Ne.symm hc.1) (force := true) (fun _ => Or.inl rfl) d (afterPipe_files (p := p) (w' := w') i) (afterPipe_stdout i)
            simpa [target, hj0] using this
          · rw [if_neg hj0, if_neg (fun e => hj0 (hj.1 e))]
            have := likeTheFile_write hr (Ne.symm hc.2) (force := ow) hpipe d (afterPipe_files (p := p) (w' := w') i) (afterPipe_stdout i)
            simpa [target, hj0] using this

/-- Non-vacuity: `put` on the image `a.do` taken from standard input.  The new image comes out on standard output. -/
theorem pipe_witness (env : Env) {sm : Supermon.SectorMap} {img : Bytes} (h : Supermon.Good sm img) (h5 : ownedBy (own sm) 5 = [])
    (hfree : 1 ≤ (ownedBy (own sm) 0xFF).length) :
    (run env (piped (str "a.do") putX) ⟨fun q => if q = str "x" then some [1] else none, viewOf orderRaw orderDO img, []⟩).1 = .ok () ∧
    (run env (piped (str "a.do") putX) ⟨fun q => if q = str "x" then some [1] else none, viewOf orderRaw orderDO img, []⟩).2.stdout =
      viewOf orderRaw orderDO (Supermon.newImg sm 5 [1] img) := by
  generalize hw : (⟨fun q => if q = str "a.do" then some (viewOf orderRaw orderDO img) else if q = str "x" then some [1] else none, [], []⟩ : World) = w
  have ha : w.files (str "a.do") = some (viewOf orderRaw orderDO img) := by rw [← hw]; dsimp only; rw [if_pos rfl]
  have hx : w.files (str "x") = some [1] := by
    rw [← hw]
    dsimp only
    rw [if_neg (by decide +kernel), if_pos rfl]
  have hso : w.stdout = [] := by rw [← hw]
  obtain ⟨r, g⟩ := putX_runs env h ha hx h5 hfree
  have hl := C101_piped env putX (p := str "a.do") (by decide +kernel) (Or.inr ⟨by decide +kernel, by show str "do" ≠ orderAuto; decide +kernel⟩)
    (w := w) (w' := ⟨fun q => if q = str "x" then some [1] else none, viewOf orderRaw orderDO img, []⟩) (by decide +kernel)
    (by show ¬ (str "a.do" = str "a.do" ∧ str "x" = str "a.do"); decide +kernel)
    (fun q hq => by rw [← hw]; dsimp only; rw [if_neg hq]) (fun _ => ha)
  obtain ⟨text, t1, _, t3⟩ := hl.printed
  refine ⟨by rw [hl.outcome, r], ?_⟩
  obtain ⟨new, n1, n2⟩ := t3 ⟨rfl, by rw [r]⟩
  rw [r] at n1 t1
  have e1 : text = [] := by
    have : w.stdout = w.stdout ++ text := t1
    rw [hso] at this
    exact this.symm
  have e2 : new = viewOf orderRaw orderDO (Supermon.newImg sm 5 [1] img) := by
    have : (w.writeFile (str "a.do") (viewOf orderRaw orderDO (Supermon.newImg sm 5 [1] img))).files (str "a.do") = some new := n1
    rw [writeFile_self] at this
    exact (Option.some.inj this).symm
  rw [n2, e1, e2]
  rfl

example (env : Env) :
    (run env (piped (str "a.do") putX) ⟨fun q => if q = str "x" then some [1] else none, viewOf orderRaw orderDO Supermon.lonelyImg, []⟩).1 = .ok () :=
  (pipe_witness env Supermon.lonely_good lonely_5 (by rw [Supermon.lonely_free]; omega)).1

/-- The condition is needed: C101 fails if the order is guessed from the extension: `reorder a.do b` succeeds, `reorder - b` does not. -/
theorem C101_order_needed (env : Env) : ∃ w w' : World, (∀ q, q ≠ str "a.do" → w'.files q = w.files q) ∧ w.files (str "a.do") = some w'.stdin ∧
    (run env (.reorder orderAuto orderAuto false (str "a.do") (str "b")) w).1 = .ok () ∧
    (run env (piped (str "a.do") (.reorder orderAuto orderAuto false (str "a.do") (str "b"))) w').1 = .err .other := by
  obtain ⟨n, hn⟩ : ∃ n, n = 143360 := ⟨_, rfl⟩
  refine ⟨⟨fun q => if q = str "a.do" then some (zeros n) else none, [], []⟩, ⟨fun _ => none, zeros n, []⟩, ?_, ?_, ?_, ?_⟩
  · intro q hq
    exact (if_neg hq).symm
  · dsimp only
    rw [if_pos rfl]
  · have hlen : (zeros n).length = 143360 := by rw [zeros_length, hn]
    obtain ⟨y, hy⟩ : ∃ y, reorderBytes orderDO orderPO (zeros n) = .ok y := by
      obtain ⟨y, hy, _⟩ := C09_reorder_involutive (a := orderDO) (b := orderPO) (by decide +kernel) (by decide +kernel) hlen
      exact ⟨y, hy⟩
    show (reorderVia World.writeOutput _ orderAuto orderAuto false (str "a.do") (str "b")).1 = _
    unfold reorderVia
    rw [show getOrders (str "a.do") orderAuto (str "b") orderAuto = .ok (orderDO, orderPO) from by decide +kernel]
    dsimp only
    unfold World.fileContentsOrStdIn
    rw [if_neg (by decide +kernel)]
    dsimp only
    rw [if_pos rfl]
    dsimp only
    rw [hy]
    dsimp only
    rw [if_neg (by decide +kernel)]
    unfold World.writeOutput
    rw [if_neg (by decide +kernel)]
    dsimp only
    rw [if_neg (by rw [if_neg (show ¬ str "b" = str "a.do" by decide +kernel)]; simp)]
  · show (reorderVia World.writeOutput _ orderAuto orderAuto false (dashFor (str "a.do") (str "a.do")) (dashFor (str "a.do") (str "b"))).1 = _
    unfold reorderVia
    rw [show getOrders (dashFor (str "a.do") (str "a.do")) orderAuto (dashFor (str "a.do") (str "b")) orderAuto = .err .other from by decide +kernel]

end Verif.Cmd
