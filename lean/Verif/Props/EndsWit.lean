import Verif.Props.Ends
import Verif.Props.SameWit

/-!
# C87: disks and programs on which commands never end
-/

set_option autoImplicit false

namespace Verif.Cmd
open Disk Spec

/-- C87 fails: on a DOS 3.3 image whose catalog goes round in a circle, `ls`, `dump`, `rm`, `put`
and `mkhello` never end. -/
theorem C87_violated_catalog : ∃ raw : Bytes, raw.length = 143360 ∧ ∀ (env : Env) (w : World) (c : Command),
    w.files (str "a.do") = some raw →
    ((∃ short dir, c = .ls (str "auto") (str "auto") short (str "a.do") dir) ∨
      (∃ name, c = .dump (str "auto") (str "auto") (str "a.do") name) ∨
      (∃ missing name, c = .rm (str "auto") (str "auto") missing (str "a.do") name) ∨
      (∃ ft ow addr name source, c = .put (str "auto") (str "auto") ft ow addr (str "a.do") name source) ∨
      ∃ name addr start, addr % 256 = 0 ∧ addr ≤ start ∧ c = .mkhello (str "auto") (str "a.do") name addr start) →
    (run env c w).1 = .timeout := by
  refine ⟨Dos3.loopDisk, Dos3.loopDisk_length, fun env w c hw hc => ?_⟩
  have ho : openImage Dos3.loopDisk (str "a.do") (str "auto") (str "auto") (factories env) = .timeout :=
    C84_hangs Dos3.loopDisk_length (o := str "do") (os := []) CandidateOrders.byExtDO (view_self Dos3.loopDisk_length) loop_endless
  have h : openDisk env (str "a.do") (str "auto") (str "auto") w = (.timeout, w) := by
    unfold openDisk openFilename
    rw [if_neg (by decide), hw]
    simp only [ho]
  rcases hc with ⟨short, dir, rfl⟩ | ⟨name, rfl⟩ | ⟨missing, name, rfl⟩ | ⟨ft, ow, addr, name, source, rfl⟩ | ⟨name, addr, start, ha, hs, rfl⟩
  · change (ls _ _ _ _ _ _ w).1 = _
    unfold ls
    rw [bind_stops h]
  · change (dump _ _ _ _ _ w).1 = _
    unfold dump
    rw [bind_stops h]
  · change (rm _ _ _ _ _ _ _ w).1 = _
    unfold rm
    rw [bind_stops h]
  · change (putCmd _ _ _ _ _ _ _ _ _ _ w).1 = _
    unfold putCmd
    rw [if_neg (fun e => absurd e.1 (by decide)), bind_stops h]
  · change (mkhello _ _ _ _ _ _ _ w).1 = _
    unfold mkhello
    dsimp only
    have he : addr ≤ effectiveStart addr start := by
      unfold effectiveStart
      split
      · exact UInt16.le_refl addr
      · exact hs
    rw [if_neg (by simpa using ha), if_neg (by simpa using he), bind_stops h]

/-- C87 fails: on a ProDOS image whose directory goes round in a circle, `ls` never ends. -/
theorem C87_violated_directory : ∃ raw : Bytes, raw.length = 143360 ∧ ∀ (env : Env) (w : World), w.files (str "x.po") = some raw →
    ∀ dir, (run env (.ls (str "auto") (str "prodos") false (str "x.po") dir) w).1 = .timeout := by
  have hl : Prodos.loopDev.length = 143360 := Prodos.dev_length (by decide +kernel) (by decide +kernel) (by decide +kernel)
  refine ⟨Prodos.loopDev, hl, fun env w hw dir => ?_⟩
  rw [ls_po hl env hw]
  unfold Prodos.Operator.catalog
  dsimp only
  rw [Prodos.C47_violated_chain]
  rfl

/-- C87 fails: `decode` never ends on a program whose only line is its own successor. -/
theorem C87_violated_program (env : Env) (w : World) (f : Str) (raw : Bool) (hf : f ≠ str "-")
    (hw : w.files f = some [0x01, 0x08, 10, 0, 0]) : (run env (.decode f 0x801 raw) w).1 = .timeout := by
  change (decodeCmd _ _ _ _ w).1 = _
  unfold decodeCmd
  have h : contentsOf f w = (.ok [0x01, 0x08, 10, 0, 0], w) := by
    unfold contentsOf World.fileContentsOrStdIn
    rw [if_neg hf, hw]
  rw [bind_run h]
  have h2 : (lift (Applesoft.decode env.budget [0x01, 0x08, 10, 0, 0] 0x801) : Act (List Basic.Line)) w = (.timeout, w) := by
    unfold lift
    rw [Applesoft.C51_violated_loop]
  rw [bind_stops h2]

theorem blank_noCircles {n : Nat} (hn : n = 143360) (name : Str) (order : DiskOrder) : NoCircles name order (zeros n) := by
  have hl : (zeros n).length = 143360 := by rw [zeros_length, hn]
  refine ⟨fun _ os hos o ho => ?_, fun h => absurd hl h⟩
  have hno := (candidateOrders_named hos).2 o ho
  have huniq : ∀ k : System, ∀ v, View o k.order (zeros n) v → v = zeros n := by
    intro k v hv
    rw [(view_iff hno (system_order_named k) hl).1 hv, ← (view_iff hno (system_order_named k) hl).1 (blank_view hn hno (system_order_named k))]
  constructor
  · intro v hv
    rw [huniq .dos3 v hv]; exact (blank_ending n).1
  · intro v hv
    rw [huniq .prodos v hv]; exact (blank_ending n).2

/-- Non-vacuity of C87: on an unused disk, `ls`, `dump`, `rm`, `put` and `mkhello` end, whatever their arguments. -/
theorem blank_ends {n : Nat} (hn : n = 143360) (c : Command) (w : World) (hc : programOf c = none)
    (hw : ∀ p o, imageOf c = some (p, o) → contentOf w p = some (zeros n)) :
    ∃ n₀, ∀ env : Env, n₀ ≤ env.budget → (run env c w).1 ≠ .timeout := by
  refine C87_ends_partial c w ⟨fun p o raw h hr => ?_, fun p l raw h => by rw [hc] at h; cases h⟩
  rw [hw p o h] at hr
  rw [← Option.some.inj hr]
  exact blank_noCircles hn _ _

/-- Non-vacuity of C87: the program `10 END` ends. -/
example : ¬ EndlessProgram [0x07, 0x08, 10, 0, 0x80, 0, 0, 0] 0x801 := by
  rintro ⟨d, hd, h⟩
  have e : d = [0x07, 0x08, 10, 0, 0x80, 0, 0, 0] := by
    rw [← Applesoft.body_eq hd]; decide
  have := (h 2).1
  rw [e] at this
  exact this (by decide)

end Verif.Cmd
