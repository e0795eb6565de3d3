import Verif.Props.Recognise
import Verif.Props.Dos3Wit
import Verif.Props.CmdFilesWit

/-!
# Examples for C84, and a disk on which it fails
-/

set_option autoImplicit false

namespace Verif.Cmd
open Disk Spec

theorem loop_endless : EndlessCatalog Dos3.loopDisk := by
  refine ⟨Dos3.loopDisk_facts.1, ?_⟩
  have hw : ∀ n, walk Dos3.loopDisk (linkOf Dos3.loopDisk vtocAt) n = vtocAt := by
    intro n
    induction n with
    | zero => exact Dos3.loopDisk_link
    | succ n ih => rw [walk, ih, Dos3.loopDisk_link]
  intro n
  rw [hw]
  refine ⟨by decide, by decide, ?_, ?_⟩
  · rw [Dos3.loopDisk_facts.2.2]; decide
  · unfold OnImage; rw [Dos3.loopDisk_length]; decide

theorem view_self {img : Bytes} (hl : img.length = 143360) : View orderDO (str "do") img img := by
  have h : orderDO ∈ [orderDO, orderPO, orderRaw] := by simp
  refine (view_iff h h hl).2 ?_
  obtain ⟨h1, h2, h3, _⟩ := named_orders h
  unfold viewOf
  rw [swizzled_swizzled hl h1 h2 h3]

theorem bind_stops {α β : Type} {m : Act α} {f : α → Act β} {w w' : World} (h : m w = (.timeout, w')) : (m >>= f) w = (.timeout, w') := by
  change Act.bind m f w = _
  unfold Act.bind
  rw [h]

/-- C84 fails on a disk whose catalog goes round in a circle: whatever the command that reads it, it never ends, however much time it is given. -/
theorem C84_violated : ∃ raw : Bytes, raw.length = 143360 ∧ ∀ (env : Env) (w : World), w.files (str "a.do") = some raw →
    (run env (.ls (str "auto") (str "auto") false (str "a.do") []) w).1 = .timeout ∧
    ∀ name, (run env (.dump (str "auto") (str "auto") (str "a.do") name) w).1 = .timeout := by
  refine ⟨Dos3.loopDisk, Dos3.loopDisk_length, fun env w hw => ?_⟩
  have ho : openImage Dos3.loopDisk (str "a.do") (str "auto") (str "auto") (factories env) = .timeout :=
    C84_hangs Dos3.loopDisk_length (o := str "do") (os := []) CandidateOrders.byExtDO (view_self Dos3.loopDisk_length) loop_endless
  have h : openDisk env (str "a.do") (str "auto") (str "auto") w = (.timeout, w) := by
    unfold openDisk openFilename
    rw [if_neg (by decide), hw]
    simp only [ho]
  refine ⟨?_, fun name => ?_⟩
  · change (ls _ _ _ _ _ _ w).1 = _
    unfold ls
    rw [bind_stops h]
  · change (dump _ _ _ _ _ w).1 = _
    unfold dump
    rw [bind_stops h]

/-- Non-vacuity of C84: a DOS 3.3 disk with five files is opened as one. -/
example (env : Env) : openImage Dos3.exDisk (str "a.dsk") (str "auto") (str "auto") (factories env) = .ok (.dos3 ⟨Dos3.exDisk⟩, str "do") :=
  C84_dos Dos3.exDisk_length (o := str "do") (os := [str "po"]) CandidateOrders.byExtDsk (Or.inl rfl) (view_self Dos3.exDisk_length)
    ⟨Dos3.exDisk_facts.1, _, Dos3.exDisk_chain⟩

/-! ### A blank disk -/

theorem blank_sector {n t s : Nat} (hn : n = 143360) (ht : t < 35) (hs : s < 16) : sectorAt (zeros n) t s = zeros 256 := by
  unfold sectorAt zeros
  rw [List.drop_replicate, List.take_replicate]
  congr 1
  omega

theorem order_lt {l : List Int} (h : IsSectorOrder l) {s d : Nat} (e : l[s]? = some (d : Int)) : d < 16 := by
  have hm : (d : Int) ∈ l := List.mem_of_getElem? e
  rw [h.mem_iff] at hm
  simp at hm
  omega

/-- A blank disk is the same in every order. -/
theorem blank_view {n : Nat} (hn : n = 143360) {o fo : DiskOrder} (ho : o ∈ [orderDO, orderPO, orderRaw]) (hf : fo ∈ [orderDO, orderPO, orderRaw]) :
    View o fo (zeros n) (zeros n) := by
  have key : ∀ {l : List Int}, IsSectorOrder l → SectorsMoved l (zeros n) (zeros n) := by
    intro l hl t ht s hs d hd
    rw [blank_sector hn ht (order_lt hl hd), blank_sector hn ht hs]
  exact ⟨rfl, _, rfl, key (named_orders ho).1, key (named_orders hf).2.1⟩

theorem blank_sbyte (n : Nat) (p : Nat × Nat) (i : Nat) : sbyte (zeros n) p i = 0 := by
  unfold sbyte sectorAt zeros
  rw [List.drop_replicate, List.take_replicate, List.getD_eq_getElem?_getD, List.getElem?_replicate]
  split <;> rfl

theorem blank_not_dos (n : Nat) : ¬ NormalVTOC (zeros n) := by
  rintro ⟨_, _, h, _⟩
  rw [blank_sbyte] at h
  exact absurd h (by decide)

theorem blank_bbyte (n i : Nat) : Prodos.bbyte (zeros n) 2 i = 0 := by
  unfold Prodos.bbyte blockAt zeros
  rw [List.drop_replicate, List.take_replicate, List.getD_eq_getElem?_getD, List.getElem?_replicate]
  split <;> rfl

theorem blank_ending (n : Nat) : ¬ EndlessCatalog (zeros n) ∧ ¬ EndlessDirectories (zeros n) := by
  have hz := blank_bbyte n
  refine ⟨fun h => blank_not_dos n h.1, ?_⟩
  have hnext : Prodos.nextOf (zeros n) 2 = 0 := by
    unfold Prodos.nextOf Prodos.word
    rw [hz, hz]; rfl
  rintro (⟨k, rfl | hk, hE⟩ | ⟨k, hk, _⟩ | ⟨k, hk, _⟩)
  · exact (hE 0).1 hnext
  all_goals exact Prodos.blank_no_subdir hz k hk

/-- Non-vacuity of `C84_finds_first_partial`: without any flags, a blank disk is opened as a ProDOS disk in DOS order. -/
theorem blank_opened {n : Nat} (hn : n = 143360) : ∃ n₀, ∀ env : Env, n₀ ≤ env.budget →
    ∃ op, openImage (zeros n) (str "a.dsk") (str "auto") (str "auto") (factories env) = .ok (.prodos op, str "do") ∧ op.data = zeros n := by
  have hl : (zeros n).length = 143360 := by rw [zeros_length, hn]
  have hdo : str "do" ∈ [orderDO, orderPO, orderRaw] := by simp [orderDO]
  have huniq : ∀ k : System, ∀ v, View (str "do") k.order (zeros n) v → v = zeros n := by
    intro k v hv
    rw [(view_iff hdo (system_order_named k) hl).1 hv, ← (view_iff hdo (system_order_named k) hl).1 (blank_view hn hdo (system_order_named k))]
  have hE : Ending (zeros n) (str "do") := by
    refine ⟨fun v hv => ?_, fun v hv => ?_⟩
    · rw [huniq .dos3 v hv]; exact (blank_ending n).1
    · rw [huniq .prodos v hv]; exact (blank_ending n).2
  have hvol : Spec.Prodos.ReadableVolume (zeros n) := by
    obtain ⟨n₀, h⟩ := Prodos.C70_blank (zeros n) (by omega) (by omega) (blank_bbyte n)
    exact (Prodos.C70_answers n₀ _ _ (by omega)).1 (h n₀ (le_refl _) ⟨id, fun _ => List.Perm.refl _⟩)
  have hos : CandidateOrders (str "auto") (toLower (pathExt (str "a.dsk"))) [str "do", str "po"] := CandidateOrders.byExtDsk
  obtain ⟨n₀, h⟩ := (C84_finds_first_partial hl hos (Or.inl rfl)).1 [(str "do", .dos3), (str "do", .nakedos)] (str "do") .prodos
    (attempts [str "po"] (str "auto")) (by unfold attempts; simp) (by
      intro p hp
      simp only [List.cons_append, List.nil_append, List.mem_cons, List.not_mem_nil, or_false] at hp
      rcases hp with rfl | rfl | rfl <;> exact hE)
    ⟨_, blank_view hn hdo (system_order_named .prodos), hvol⟩ (by
      intro p hp hc
      simp only [List.mem_cons, List.not_mem_nil, or_false] at hp
      obtain ⟨v, hv, hd⟩ := hc
      rcases hp with rfl | rfl
      · rw [huniq .dos3 v hv] at hd
        exact blank_not_dos n hd.1
      · rw [huniq .nakedos v hv] at hd
        have := hd.2.1 0 (by omega)
        unfold owner zeros at this
        rw [List.getD_eq_getElem?_getD, List.getElem?_replicate] at this
        split at this <;> exact absurd this (by decide))
  refine ⟨n₀, fun env hb => ?_⟩
  obtain ⟨op, v, h1, h2, h3⟩ := h env hb
  rw [huniq .prodos v h2] at h3
  cases op with
  | dos3 o => exact h3.elim
  | nakedos o => exact h3.elim
  | prodos o => exact ⟨o, h1, h3⟩

end Verif.Cmd
