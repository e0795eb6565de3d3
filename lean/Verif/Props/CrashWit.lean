import Verif.Props.Crash
import Verif.Props.HistoryWit

/-!
# C80: commands that always return, and concrete crashes
-/

set_option autoImplicit false
set_option maxRecDepth 20000

namespace Verif.Cmd
open Disk Spec Spec.Basic

theorem act_bind_returns {α β : Type} {m : Act α} {f : α → Act β} {w : World} (hm : (m w).1.returns = true)
    (hf : ∀ a w', m w = (.ok a, w') → (f a w').1.returns = true) : ((m >>= f) w).1.returns = true := by
  rw [bind_apply]
  unfold Act.bind
  rcases h : m w with ⟨r, w'⟩
  rw [h] at hm
  cases r with
  | ok a => exact hf a w' h
  | err k => rfl
  | panic => simp at hm
  | timeout => simp at hm

theorem bind_lift_ok {α β : Type} (a : α) (f : α → Act β) (w : World) : (lift (.ok a) >>= f) w = f a w := rfl

theorem contentsOf_returns (p : Str) (w : World) : (contentsOf p w).1.returns = true := by
  unfold contentsOf World.fileContentsOrStdIn
  split
  · rfl
  · split <;> rfl

theorem writeOutput_returns (w : World) (f : Str) (b : Bytes) (ow : Bool) : (w.writeOutput f b ow).1.returns = true := by
  unfold World.writeOutput
  split
  · rfl
  · split <;> rfl

theorem getOrders_returns (i : Str) (a : DiskOrder) (o : Str) (b : DiskOrder) : (getOrders i a o b).returns = true := by
  unfold getOrders
  split; · rfl
  split; · rfl
  split; · rfl
  split; · rfl
  dsimp only
  split; · rfl
  split; · rfl
  split <;> rfl

theorem reorderBytes_returns (a b : DiskOrder) (x : Bytes) : (reorderBytes a b x).returns = true := by
  unfold reorderBytes
  split
  · rfl
  · split
    · rfl
    · rename_i _ fo _ _ tt _
      have h1 := (C05_swizzle_accepts_iff x fo).2
      cases e : swizzle x fo with
      | ok r => rw [Out.bind_ok]; exact (C05_swizzle_accepts_iff r tt).2
      | err k => rfl
      | panic => rw [e] at h1; simp at h1
      | timeout => rw [e] at h1; simp at h1

/-- C80: the commands that do not look at what is on a disk always return: they succeed or report an error. -/
theorem C80_blind (env : Env) (c : Command) (hc : Blind c) (w : World) : (run env c w).1.returns = true := by
  cases c with
  | put => exact hc.elim
  | dump => exact hc.elim
  | decode => exact hc.elim
  | ls => exact hc.elim
  | rm => exact hc.elim
  | mkhello => exact hc.elim
  | filetypes a => rfl
  | reorder o n ow i j =>
    change (reorderVia World.writeOutput w o n ow i j).1.returns = true
    unfold reorderVia
    have h1 := getOrders_returns i o j n
    generalize getOrders i o j n = x at *
    cases x with
    | err k => rfl
    | panic => simp at h1
    | timeout => simp at h1
    | ok ab =>
      obtain ⟨a, b⟩ := ab
      dsimp only
      have h2 := contentsOf_returns i w
      unfold contentsOf at h2
      rcases hx : w.fileContentsOrStdIn i with ⟨r, w'⟩
      rw [hx] at h2
      cases r with
      | err k => rfl
      | panic => simp at h2
      | timeout => simp at h2
      | ok x =>
        dsimp only
        have h3 := reorderBytes_returns a b x
        generalize reorderBytes a b x = y at *
        cases y with
        | err k => rfl
        | panic => simp at h3
        | timeout => simp at h3
        | ok y => dsimp only; split <;> exact writeOutput_returns _ _ _ _
  | mksd o i b a s =>
    change (mksd World.writeOutput o i b a s w).1.returns = true
    unfold mksd
    refine act_bind_returns (contentsOf_returns _ _) fun contents w1 _ => ?_
    refine act_bind_returns ?_ fun disk w2 _ => ?_
    · unfold lift
      dsimp only
      by_cases hs : SdOk contents a (effectiveStart a s)
      · obtain ⟨img, e⟩ := sdImage_iff.2 hs
        rw [e]; rfl
      · rw [sdImage_err hs]; rfl
    · exact act_bind_returns (C05_swizzle_accepts_iff _ _).2 fun _ w3 _ => writeOutput_returns _ _ _ _

/-- C80 is violated by `dump`: on a DOS 3.3 disk with an empty text file, `dump` of that file crashes. -/
theorem C80_violated_dump (env : Env) : ∃ w, (run env (.dump (str "do") (str "dos3") (str "a.do") (str "EMPTY")) w).1 = .panic := by
  refine ⟨oneFile (str "a.do") (viewOf orderDO orderDO Dos3.exDisk), (C80_dump _ _ _ _ _ _).2 ?_⟩
  obtain ⟨s, hs⟩ := Dos3.exEmpty_ok
  refine ⟨⟨Dos3.exDisk⟩, orderDO, _, s, finds_dos3 env Dos3.exDisk_length,
    Dos3.exDisk_lookup (str "EMPTY") (Dos3.mkEntry 17 2 0x00 (str "EMPTY") 1) (by decide +kernel), hs, Or.inl ⟨?_, ?_⟩⟩
  · rw [Dos3.filetype_fromBytes]; decide +kernel
  · intro b hb
    rw [Dos3.exEmpty_contents s hs] at hb
    exact (List.mem_replicate.1 hb).2

/-- C80: a put of an empty file by its number crashes exactly if it is allowed and, once the old file is
gone, a sector is free. -/
theorem C80_put_empty {env : Env} {w : World} {image order system : Str} {o : Supermon.Operator} {ord : DiskOrder}
    (hi : image ≠ str "-") (ho : Finds env w image order system (.nakedos o) ord)
    {source t name : Str} (hdata : given w source = some [])
    (ht : Types.filetypeForName t = .ok filetypeBinary) {f : UInt8} (hc : (0x3A : UInt8) ∉ name) (hn : NumericName name f)
    (ow : Bool) (a : UInt16) :
    (run env (.put order system t ow a image name source) w).1 = .panic ↔
      (ow = true ∨ ownedBy (owner o.data) f = []) ∧
      0 < (ownedBy (owner o.data) 0xFF).length + (ownedBy (owner o.data) f).length := by
  obtain ⟨raw, hg, hopen⟩ := ho
  unfold given at hg
  rw [if_neg hi] at hg hopen
  have hnk := open_naked hopen
  have hown : ∀ g, ownedBy (owner o.data) g = ownedBy (own o.sm) g := by
    intro g
    unfold ownedBy
    apply List.filter_congr
    intro n hn
    rw [(Supermon.loaded_iff (by have := hnk.good.len; omega) o.sm).1 hnk.good.loaded n (List.mem_range.1 hn)]
  rw [hown, hown]
  have hod : openDisk env image order system w = (.ok (.nakedos o, ord), w) := by
    unfold openDisk openFilename
    rw [if_neg hi, hg]
    dsimp only
    rw [hopen]
  have hco : ∃ w2, contentsOf source w = (.ok [], w2) := by
    unfold given at hdata
    unfold contentsOf World.fileContentsOrStdIn
    split at hdata
    · rename_i hs
      rw [if_pos hs]
      exact ⟨_, by rw [Option.some.inj hdata]⟩
    · rename_i hs
      rw [if_neg hs, hdata]
      exact ⟨_, rfl⟩
  obtain ⟨w2, hco⟩ := hco
  have hp : o.putFile ⟨{ name := name, length := ([] : Bytes).length, type := filetypeBinary }, [], a⟩ ow = o.putNumbered f 0 [] [] ow :=
    (rfl : _ = o.putFile ⟨{ name := name, length := ([] : Bytes).length, type := filetypeBinary }, [], 0⟩ ow).trans
        (putFile_numeric o hc hn [] ow)
  have hrun : (run env (.put order system t ow a image name source) w).1 = .panic ↔
      (Supermon.writeFile o.sm o.data f [] ow).out = .panic := by
    change (putCmd env World.writeOutput order system t ow a image name source w).1 = .panic ↔ _
    unfold putCmd
    rw [if_neg (fun h => hi h.1), bind_apply]
    unfold Act.bind
    rw [hod]
    dsimp only
    rw [bind_apply]
    unfold Act.bind
    rw [hco]
    dsimp only
    rw [ht, bind_lift_ok]
    dsimp only [AnyOp.putFile]
    rw [hp, bind_apply]
    unfold Act.bind lift
    unfold Supermon.Operator.putNumbered
    dsimp only
    generalize Supermon.writeFile o.sm o.data f [] ow = r
    obtain ⟨x, out, sm', d'⟩ := r
    cases out with
    | panic => simp
    | err k => simp
    | timeout => simp
    | ok u =>
      dsimp only
      rw [if_neg (fun h => h.2 rfl)]
      have := writeDisk_ne_panic image (.nakedos ⟨d', sm', o.st⟩) ord w2
      simpa using this
  rw [hrun]
  by_cases hx : ow = true ∨ ownedBy (own o.sm) f = []
  · rw [Supermon.writeFile_empty hnk.good.len hx]
    have h1 := Supermon.ownedBy_deleteFile_free o.sm hn.1.2.2
    simp only [hx, true_and]
    split
    · rename_i h0
      rw [h0] at h1
      simp only [List.length_nil] at h1
      simp only [reduceCtorEq, false_iff]
      omega
    · rename_i h0
      have := List.length_pos_iff.2 h0
      simp only [true_iff]
      omega
  · rw [not_or] at hx
    have how : ow = false := by simpa using hx.1
    subst how
    rw [Supermon.writeFile_exists (by simp [Supermon.Fits]) hx.2]
    simp [hx.2]

/-- C80 is violated by `put`: putting an empty file on a NakedOS disk with free sectors crashes. -/
theorem C80_violated_put (env : Env) :
    ∃ w, (run env (.put (str "do") (str "nakedos") (str "B") false 0 (str "a.do") (str "DF05") (str "-")) w).1 = .panic := by
  refine ⟨diskWorld Supermon.lonelyImg, ?_⟩
  have hf := finds_nakedos env Supermon.lonely_good.len lonely_open
  have hown : ∀ g, ownedBy (owner Supermon.lonelyImg) g = ownedBy (own Supermon.lonelyMap) g := by
    intro g
    unfold ownedBy
    apply List.filter_congr
    intro n hn
    rw [(Supermon.loaded_iff (by have := Supermon.lonely_good.len; omega) _).1 Supermon.lonely_good.loaded n (List.mem_range.1 hn)]
  refine (C80_put_empty (by decide +kernel) hf (by unfold given; rw [if_pos rfl]; rfl) (by decide +kernel) (by decide +kernel) numeric5 false 0).2 ?_
  dsimp only
  rw [hown, hown, lonely_5, Supermon.lonely_free]
  exact ⟨Or.inr rfl, by simp⟩

/-- C80 is violated by `decode`: a program whose first line names an address one below the load address as the place
of the next line crashes it. -/
theorem C80_violated_decode (env : Env) (n : Nat) (hb : env.budget = n + 2) :
    ∃ w, (run env (.decode (str "-") 0x801 false) w).1 = .panic := by
  refine ⟨⟨fun _ => none, [0x00, 0x08, 10, 0, 0], []⟩, ?_⟩
  change (decodeCmd env (str "-") 0x801 false _).1 = .panic
  unfold decodeCmd
  rw [bind_apply]
  unfold Act.bind contentsOf World.fileContentsOrStdIn
  rw [if_pos rfl]
  dsimp only
  rw [bind_apply]
  unfold Act.bind lift
  rw [hb, Applesoft.C51_violated_crash n]

/-- Non-vacuity of C80's theorems: the three kinds of command. -/
example : Sturdy (.rm (str "do") (str "nakedos") false (str "a.do") (str "DF09")) ∧
    Blind (.reorder (str "do") (str "po") true (str "a.do") (str "a.po")) ∧ ¬ Blind (.ls (str "auto") (str "auto") false (str "a.do") []) :=
  ⟨trivial, trivial, id⟩

end Verif.Cmd
