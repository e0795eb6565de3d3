import Verif.Props.CrashWit
import Verif.Props.Sd
import Verif.Props.ProdosRecog

/-!
# C82: a half-written image is noticed
-/

set_option autoImplicit false
set_option maxRecDepth 20000

namespace Verif.Cmd
open Disk Spec

/-- C82: every command that writes an image and succeeds leaves a file of 143360 bytes. -/
theorem C82_images_complete (env : Env) (c : Command) (w : World) (p : Str) (hp : p ≠ str "-") (hc : target c = some p)
    (h : (run env c w).1 = .ok ()) : ∃ new, (run env c w).2.files p = some new ∧ new.length = 143360 := by
  have keep : ∀ {raw : Bytes}, inPlace c = some p → w.files p = some raw → raw.length = 143360 →
      ∃ new, (run env c w).2.files p = some new ∧ new.length = 143360 := by
    intro raw h1 h2 h3
    obtain ⟨old, new, h4, h5, h6⟩ := C59_size_kept env c w p hp h1 h
    rw [h2] at h4
    cases h4
    exact ⟨new, h5, h6.trans h3⟩
  cases c with
  | ls => simp [target] at hc
  | filetypes => simp [target] at hc
  | dump => simp [target] at hc
  | decode => simp [target] at hc
  | put o s t ow a i x y =>
    simp only [target, Option.some.injEq] at hc
    subst hc
    obtain ⟨raw, no, ord, data, ft, new, h1, h2, _⟩ := put_inv hp h
    exact keep rfl h1 (open_naked h2).len
  | rm o s m i n =>
    simp only [target, Option.some.injEq] at hc
    subst hc
    obtain ⟨raw, no, ord, new, h1, h2, _⟩ := rm_inv hp h
    exact keep rfl h1 (open_naked h2).len
  | mkhello o i n a s =>
    simp only [target, Option.some.injEq] at hc
    subst hc
    obtain ⟨_, _, raw, no, ord, f, new, h1, h2, _⟩ := mkhello_inv hp h
    exact keep rfl h1 (open_naked h2).len
  | reorder o n ow i j =>
    simp only [target, Option.some.injEq] at hc
    rcases reorder_cases World.writeOutput w o n ow i j with ⟨h1, _⟩ | ⟨b, w', old, hs, _, _, lb, e⟩
    · exact absurd h h1
    · have e1 : run env (.reorder o n ow i j) w = reorder World.writeOutput o n ow i j w := rfl
      rw [e1, e, hc] at h ⊢
      refine ⟨b, ?_, lb⟩
      generalize (if j = [] then true else ow) = fl at h ⊢
      unfold World.writeOutput at h ⊢
      rw [if_neg hp] at h ⊢
      split at h
      · simp at h
      · rename_i hh
        rw [if_neg hh]
        simp [World.writeFile]
  | mksd o i b a s =>
    simp only [target, Option.some.injEq] at hc
    subst hc
    rcases hr : run env (.mksd o i b a s) w with ⟨out, w2⟩
    rw [hr] at h
    simp only at h
    subst h
    change mksd World.writeOutput o i b a s w = _ at hr
    unfold mksd at hr
    obtain ⟨contents, w1, _, hr⟩ := bind_ok_iff.1 hr
    obtain ⟨disk, w3, hd, hr⟩ := bind_ok_iff.1 hr
    obtain ⟨raw, w4, hraw, hr⟩ := bind_ok_iff.1 hr
    have hraw : swizzle disk (physicalToLogicalByName (sdOrder o i)) = .ok raw := (Prod.mk.inj hraw).1
    obtain ⟨l1, s1, e1⟩ := swizzle_ok_iff.1 hraw
    refine ⟨raw, ?_, by rw [e1]; exact swizzled_length l1 s1⟩
    have := (C58_writes_exactly w4 i raw true hp (Or.inl rfl)).2.1
    rw [show w4.writeOutput i raw true = (.ok (), w2) from hr] at this
    exact this

theorem isErr_ne_ok {α : Type} {x : Out α} (h : x.isErr = true) : ∀ a, x ≠ .ok a := by
  intro a e; rw [e] at h; simp at h

theorem act_bind_err {α β : Type} {m : Act α} {f : α → Act β} {w : World} (hm : (m w).1.isErr = true) : ((m >>= f) w).1.isErr = true := by
  rw [bind_apply]
  unfold Act.bind
  rcases e : m w with ⟨r, w'⟩
  rw [e] at hm
  cases r with
  | err k => rfl
  | ok a => simp at hm
  | panic => simp at hm
  | timeout => simp at hm

/-- C82: every command that is told to read a file as a disk image ends with an error, prints nothing and changes nothing, if
the file has not the size of a disk and its name not the extension of hard disk images. -/
theorem C82_wrong_size_refused (env : Env) (c : Command) (w : World) (p : Str) (hp : p ≠ str "-") (hc : diskOf c = some p) {raw : Bytes}
    (hraw : w.files p = some raw) (hl : raw.length ≠ 143360) (hext : toLower (pathExt p) ≠ str ".hdv") :
    (run env c w).1.isErr = true ∧ (run env c w).2.files = w.files ∧ (run env c w).2.stdout = w.stdout := by
  have hopen : ∀ o s, (openDisk env p o s w).1.isErr = true := by
    intro o s
    unfold openDisk openFilename
    rw [if_neg hp, hraw]
    dsimp only
    rcases C08_wrong_images_refused raw p o s (factories env) with h | h | h
    · exact absurd h hl
    · exact absurd h.1 hext
    · exact h
  have key : (run env c w).1.isErr = true := by
    cases c with
    | filetypes => simp [diskOf] at hc
    | decode => simp [diskOf] at hc
    | mksd => simp [diskOf] at hc
    | ls o s sh i d =>
      simp only [diskOf, Option.some.injEq] at hc
      subst hc
      exact act_bind_err (hopen _ _)
    | dump o s i n =>
      simp only [diskOf, Option.some.injEq] at hc
      subst hc
      exact act_bind_err (hopen _ _)
    | rm o s m i n =>
      simp only [diskOf, Option.some.injEq] at hc
      subst hc
      exact act_bind_err (hopen _ _)
    | put o s t ow a i x y =>
      simp only [diskOf, Option.some.injEq] at hc
      subst hc
      change (putCmd env World.writeOutput o s t ow a i x y w).1.isErr = true
      unfold putCmd
      rw [if_neg (fun h => hp h.1)]
      exact act_bind_err (hopen _ _)
    | mkhello o i n a s =>
      simp only [diskOf, Option.some.injEq] at hc
      subst hc
      change (mkhello env World.writeOutput o i n a s w).1.isErr = true
      unfold mkhello
      dsimp only
      split
      · rfl
      · split
        · rfl
        · exact act_bind_err (hopen _ _)
    | reorder o n ow i j =>
      simp only [diskOf, Option.some.injEq] at hc
      subst hc
      have hret := C80_blind env (.reorder o n ow i j) trivial w
      rcases reorder_cases World.writeOutput w o n ow i j with ⟨h1, _⟩ | ⟨b, w', old, hs, hold, lo, lb, e⟩
      · have h1 : (run env (.reorder o n ow i j) w).1 ≠ .ok () := h1
        generalize (run env (.reorder o n ow i j) w).1 = r at h1 hret
        cases r with
        | ok a => exact absurd rfl h1
        | err k => rfl
        | panic => simp at hret
        | timeout => simp at hret
      · have := hold hp
        rw [hraw] at this
        cases this
        exact absurd lo hl
  exact ⟨key, C59_failure_changes_nothing env c w (isErr_ne_ok key ())⟩

/-- C82: if the process dies while a command writes image `p`, then `p` is as before the command, as after it, or incomplete; and
an incomplete image is never taken for a disk: every command told to read it, whatever else has changed meanwhile, ends with an error,
prints nothing and changes nothing. -/
theorem C82_torn_images_noticed_partial (env : Env) (c : Command) (w w' : World) (p : Str) (hp : p ≠ str "-") (hc : target c = some p)
    (hext : toLower (pathExt p) ≠ str ".hdv") (h : CrashState env c w w') :
    w'.files p = w.files p ∨ w'.files p = (run env c w).2.files p ∨
    ∀ c' w2, diskOf c' = some p → w2.files p = w'.files p →
      (run env c' w2).1.isErr = true ∧ (run env c' w2).2.files = w2.files ∧ (run env c' w2).2.stdout = w2.stdout := by
  rcases (C60_crash_partial env c w w' h p).2 with h | h | ⟨new, k, hok, h1, h2⟩
  · exact Or.inl h
  · exact Or.inr (Or.inl h)
  · obtain ⟨new', h3, h4⟩ := C82_images_complete env c w p hp hc hok
    rw [h1] at h3
    cases h3
    by_cases hk : new.length ≤ k
    · refine Or.inr (Or.inl ?_)
      rw [h1, h2, List.take_of_length_le hk]
    · refine Or.inr (Or.inr fun c' w2 hc' hw2 => ?_)
      exact C82_wrong_size_refused env c' w2 p hp hc' (hw2.trans h2) (by rw [List.length_take]; omega) hext

theorem torn_example (env : Env) {x : Bytes} (hx : x.length = 143360) : ∃ c w w' raw, CrashState env c w w' ∧
    target c = some (str "a.do") ∧ w.files (str "a.do") = some x ∧ w'.files (str "a.do") = some raw ∧ raw.length = 1000 := by
  obtain ⟨y, hy, _⟩ := C09_reorder_involutive (a := str "do") (b := str "po") (by simp) (by simp) hx
  have hl := (reorderBytes_lengths hy).2
  have e : ∀ wo, runVia env wo (.reorder (str "do") (str "po") false (str "a.do") []) (oneFile (str "a.do") x) =
      wo (oneFile (str "a.do") x) (str "a.do") y true := by
    intro wo
    change reorderVia wo (oneFile (str "a.do") x) (str "do") (str "po") false (str "a.do") [] = _
    unfold reorderVia
    rw [(C10_explicit_flags_honoured (str "a.do") [] (x := str "do") (y := str "po") (by simp) (by simp)).1 (by decide)]
    dsimp only
    unfold World.fileContentsOrStdIn oneFile
    rw [if_neg (by decide +kernel)]
    simp only [if_true]
    rw [hy]
  refine ⟨.reorder (str "do") (str "po") false (str "a.do") [], oneFile (str "a.do") x, _, y.take 1000, .during 1000, rfl, ?_, ?_, ?_⟩
  · simp [oneFile]
  · rw [e]
    unfold interrupted
    rw [if_neg (by decide +kernel), if_neg (by simp)]
    simp [World.writeFile]
  · rw [List.length_take, hl]; rfl

/-- Non-vacuity of C82: a command that dies after it has written 1000 bytes of an image. -/
example (env : Env) : ∃ c w w' raw, CrashState env c w w' ∧ target c = some (str "a.do") ∧ w'.files (str "a.do") = some raw ∧
    raw.length = 1000 ∧ toLower (pathExt (str "a.do")) ≠ str ".hdv" ∧
    diskOf (.ls (str "auto") (str "auto") false (str "a.do") []) = some (str "a.do") := by
  obtain ⟨c, w, w', raw, h1, h2, _, h3, h4⟩ := torn_example env (zeros_length 143360)
  exact ⟨c, w, w', raw, h1, h2, h3, h4, by decide +kernel, rfl⟩

theorem runs_reorder (env : Env) {p : Str} (hp : p ≠ str "-") {x y : Bytes} (hy : reorderBytes (str "do") (str "po") x = .ok y) (wo : Output) :
    runVia env wo (.reorder (str "do") (str "po") false p []) (oneFile p x) = wo (oneFile p x) p y true := by
  change reorderVia wo (oneFile p x) (str "do") (str "po") false p [] = _
  unfold reorderVia
  rw [(C10_explicit_flags_honoured p [] (x := str "do") (y := str "po") (by simp) (by simp)).1 (by decide)]
  dsimp only
  unfold World.fileContentsOrStdIn oneFile
  rw [if_neg hp]
  simp only [if_true]
  rw [hy]

theorem hdv_torn (env : Env) {x y : Bytes} (hy : reorderBytes (str "do") (str "po") x = .ok y)
    (hm : Prodos.seemsToMatch env.budget env.order (y.take 2048) = .ok true) :
    ∃ w', CrashState env (.reorder (str "do") (str "po") false (str "a.hdv") []) (oneFile (str "a.hdv") x) w' ∧
      w'.files (str "a.hdv") = some (y.take 2048) ∧
      (run env (.ls (str "auto") (str "auto") false (str "a.hdv") []) w').1 = .ok () := by
  have hl := (reorderBytes_lengths hy).2
  have hp : str "a.hdv" ≠ str "-" := by decide +kernel
  have hf : (interrupted 2048 (oneFile (str "a.hdv") x) (str "a.hdv") y true).2.files (str "a.hdv") = some (y.take 2048) := by
    unfold interrupted
    rw [if_neg hp, if_neg (by simp)]
    simp [World.writeFile]
  refine ⟨_, .during 2048, ?_, ?_⟩
  · rw [runs_reorder env hp hy]; exact hf
  · rw [runs_reorder env hp hy]
    generalize (interrupted 2048 (oneFile (str "a.hdv") x) (str "a.hdv") y true).2 = w' at hf
    have hlen : (y.take 2048).length = 2048 := by rw [List.length_take, hl]; rfl
    generalize y.take 2048 = z at hf hm hlen
    have hopen : openImage z (str "a.hdv") (str "auto") (str "auto") (factories env) = .ok (.prodos ⟨z⟩, str "po") := by
      have := C08_hdv_opened_by_prodos z (filename := str "a.hdv") (order := str "auto") (system := str "auto")
        (pre := [Factory.map AnyOp.dos3 Dos3.factory, Factory.map AnyOp.nakedos Supermon.factory])
        (f := Factory.map AnyOp.prodos (Prodos.factory env.budget env.order)) (post := []) (by decide +kernel) (by omega) (by omega) (by omega)
        (Or.inl rfl) (Or.inl rfl) (by
          intro g hg
          simp only [List.mem_cons, List.not_mem_nil, or_false] at hg
          rcases hg with rfl | rfl <;> decide) rfl
      exact this.trans (by rw [map_operator.2 ⟨(⟨z⟩ : Prodos.Operator), rfl, rfl⟩]; rfl)
    have hfi : Finds env w' (str "a.hdv") (str "auto") (str "auto") (.prodos ⟨z⟩) (str "po") :=
      ⟨z, by unfold given; rw [if_neg hp]; exact hf, by rw [if_neg hp]; exact hopen⟩
    have e := ls_eq hfi false []
    rw [if_neg (by simp)] at e
    unfold Prodos.seemsToMatch at hm
    cases hv : Prodos.readVolume env.budget env.order z 2 with
    | ok v =>
      rw [show (AnyOp.prodos ⟨z⟩).catalog env [] = .ok (Prodos.listed (Prodos.volumeDescriptors v.keyBlock v.blocks)) by
        change Prodos.Operator.catalog env.budget env.order ⟨z⟩ [] = _
        unfold Prodos.Operator.catalog
        rw [hv, Out.bind_ok, if_pos rfl]] at e
      rw [e]
    | err k => rw [hv] at hm; simp at hm
    | panic => rw [hv] at hm; simp at hm
    | timeout => rw [hv] at hm; simp at hm

theorem reorder_zero {x y : Bytes} (hy : reorderBytes (str "do") (str "po") x = .ok y) (hz : ∀ b ∈ x, b = 0) : ∀ b ∈ y, b = 0 := by
  unfold reorderBytes at hy
  split at hy
  · simp at hy
  · split at hy
    · simp at hy
    · obtain ⟨r, h1, h2⟩ := Out.bind_eq_ok.1 hy
      intro b hb
      exact hz b ((C03_swizzle_moves_sectors h1).2.2.mem_iff.1 ((C03_swizzle_moves_sectors h2).2.2.mem_iff.1 hb))

/-- C82 does not hold for images with the extension of hard disks: when a reorder of a blank disk in the file `a.hdv` dies after 2048 bytes,
the rest is listed as a disk. -/
theorem C82_violated_hdv : ∃ n₀, ∀ env : Env, n₀ ≤ env.budget →
    ∃ c w w' raw, CrashState env c w w' ∧ target c = some (str "a.hdv") ∧ w'.files (str "a.hdv") = some raw ∧ raw.length = 2048 ∧
      (run env (.ls (str "auto") (str "auto") false (str "a.hdv") []) w').1 = .ok () := by
  obtain ⟨y, hy, _⟩ := C09_reorder_involutive (a := str "do") (b := str "po") (by simp) (by simp) (zeros_length 143360)
  have hl := (reorderBytes_lengths hy).2
  have hz := reorder_zero hy (fun b hb => (List.mem_replicate.1 hb).2)
  have hlen : (y.take 2048).length = 2048 := by rw [List.length_take, hl]; rfl
  obtain ⟨n₀, h⟩ := Prodos.C70_blank (y.take 2048) (by omega) (by omega) (fun i => by
    unfold Prodos.bbyte blockAt
    rw [List.getD_eq_getElem?_getD]
    cases e : (List.take 512 (List.drop (512 * 2) (y.take 2048)))[i]? with
    | none => rfl
    | some b => exact hz b (List.mem_of_mem_take (List.mem_of_mem_drop (List.mem_of_mem_take (List.mem_of_getElem? e)))))
  refine ⟨n₀, fun env hn => ?_⟩
  obtain ⟨w', h1, h2, h3⟩ := hdv_torn env hy (h _ hn _)
  exact ⟨_, _, w', _, h1, rfl, h2, hlen, h3⟩

end Verif.Cmd
