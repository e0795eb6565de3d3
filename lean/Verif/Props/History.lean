import Verif.Spec.History
import Verif.Props.CmdFiles

/-!
# C77: histories of commands on one image
-/

set_option autoImplicit false

namespace Verif.Cmd
open Disk Spec

/-- `ev` is what the command `c`, run in `w` with the files `m` on the image, is expected to have done. -/
inductive Did (env : Env) (image : Str) (w : World) (m : Files) : Command → Event → Prop
  | failed {c : Command} : (run env c w).1 ≠ .ok () → Did env image w m c .nothing
  | elsewhere {c : Command} : target c ≠ some image → Did env image w m c .nothing
  | put {order : DiskOrder} {system t : Str} {ow : Bool} {a : UInt16} {name source : Str} {f : UInt8} {data : Bytes} :
      (run env (.put order system t ow a image name source) w).1 = .ok () →
      given w source = some data → IsFileNumber f →
      (∀ part g, Supermon.PartOf name part → NumericName part g → f = g) →
      (ow = false → Ordinary f → m f = []) → Did env image w m (.put order system t ow a image name source) (.put f data)
  | rm {order : DiskOrder} {system : Str} {missingOk : Bool} {name : Str} {f : UInt8} :
      (run env (.rm order system missingOk image name) w).1 = .ok () → IsFileNumber f →
      (∀ g, NumericName name g → f = g) →
      (missingOk = false → Ordinary f → m f ≠ []) → Did env image w m (.rm order system missingOk image name) (.rm f)
  | mkhello {order : DiskOrder} {name : Str} {a s : UInt16} {f : UInt8} :
      (run env (.mkhello order image name a s) w).1 = .ok () →
      (∀ part g, Supermon.PartOf name part → NumericName part g → f = g) →
      Did env image w m (.mkhello order image name a s) (.put 1 (helloBytes f a (UInt16.ofNat (startOf a s))))

/-- The events of a session, one for each command. -/
inductive Events (env : Env) (image : Str) : Files → List (World × Command) → List Event → Prop
  | done {m : Files} : Events env image m [] []
  | step {m : Files} {w : World} {c : Command} {ev : Event} {l : List (World × Command)} {evs : List Event} :
      Did env image w m c ev → Events env image (ev.apply m) l evs → Events env image m ((w, c) :: l) (ev :: evs)

theorem open_order {env : Env} {raw : Bytes} {filename : Str} {order ord ord' : DiskOrder} {system : Str} {o : Supermon.Operator}
    (hc : CandidateOrders order (toLower (pathExt filename)) [ord])
    (h : openImage raw filename order system (factories env) = .ok (.nakedos o, ord')) : ord' = ord := by
  have hl := (open_naked h).len
  unfold openImage at h
  dsimp only at h
  rw [if_pos (show raw.length = floppyDiskBytes from hl)] at h
  unfold openDoOrPo at h
  dsimp only at h
  split at h
  · simp at h
  rw [(ordersToTry_iff _ _ _).2 hc] at h
  have := openOuter_order h
  simpa using this

/-- Two readings of the same image file. -/
theorem hasFiles_view {w : World} {image : Str} {ord : DiskOrder} {m : Files} {raw : Bytes} {o : Supermon.Operator}
    (h : HasFiles w image ord m) (hr : w.files image = some raw) (ho : OpenedNaked raw o ord) :
    ∀ f, Ordinary f → fileOnDisk o.data f = m f := by
  obtain ⟨raw', img, h1, h2, _, h4⟩ := h
  rw [hr] at h1
  cases h1
  rw [ho.data, ← (view_iff (order_named ho.order) raw_named ho.len).1 h2]
  exact h4

theorem hasFiles_of {w : World} {image : Str} {ord : DiskOrder} {m : Files} {raw : Bytes} {o : Supermon.Operator}
    (hr : w.files image = some raw) (ho : OpenedNaked raw o ord) (h : ∀ f, Ordinary f → fileOnDisk o.data f = m f) :
    HasFiles w image ord m := by
  exact ⟨raw, o.data, hr, (view_iff (order_named ho.order) raw_named ho.len).2 ho.data, Supermon.good_nakedOS ho.good, h⟩

theorem hexNumeral_no_colon {s : Str} {v : Nat} (h : HexNumeral s v) : (0x3A : UInt8) ∉ s := by
  have hd : ∀ {c : UInt8} {d : Nat}, digitValue c = some d → c ≠ 0x3A := by
    rintro c d h rfl
    revert h
    rw [show digitValue 0x3A = none by decide +kernel]
    simp
  induction h with
  | one h => simpa using Ne.symm (hd h)
  | snoc _ h ih =>
    intro hm
    rcases List.mem_append.1 hm with hm | hm
    · exact ih hm
    · simp only [List.mem_singleton] at hm
      exact hd h hm.symm

theorem fileForName_numeric {st : Supermon.SymbolTable} {name : Str} {f g : UInt8} (h : Supermon.fileForName st name = .ok f)
    (hg : NumericName name g) : f = g := by
  rcases (Supermon.C34_resolves_iff st name f).1 h with h | h
  · exact Supermon.C34_numeric_unique h hg
  · exact absurd hg (h.1 g)

theorem first_colon {a b a' b' : Str} (h : (0x3A : UInt8) ∉ a) (h' : (0x3A : UInt8) ∉ a') (e : a ++ 0x3A :: b = a' ++ 0x3A :: b') :
    a = a' ∧ b = b' := by
  induction a generalizing a' with
  | nil =>
    cases a' with
    | nil => simpa using e
    | cons x a' => simp only [List.nil_append, List.cons_append, List.cons.injEq] at e; simp [e.1] at h'
  | cons x a ih =>
    cases a' with
    | nil => simp only [List.nil_append, List.cons_append, List.cons.injEq] at e; simp [e.1] at h
    | cons y a' =>
      simp only [List.cons_append, List.cons.injEq, List.mem_cons, not_or] at e h h'
      obtain ⟨rfl, rfl⟩ := ih h.2 h'.2 e.2
      exact ⟨by rw [e.1], rfl⟩

theorem asksFor_number {st : Supermon.SymbolTable} {name part : Str} {f g : UInt8} (h : AsksFor st name f)
    (hp : Supermon.PartOf name part) (hg : NumericName part g) : f = g := by
  rcases h with ⟨hc, h⟩ | ⟨a, b, rfl, ha, hb, hn, hnb⟩
  · cases hp with
    | plain _ => exact fileForName_numeric h hg
    | number _ _ => simp at hc
    | symbol _ _ => simp at hc
  · generalize e : a ++ 0x3A :: b = s at hp
    cases hp with
    | plain hc => rw [← e] at hc; simp at hc
    | @number a' b' ha' hb' =>
      obtain ⟨rfl, rfl⟩ := first_colon ha ha' e
      exact Supermon.C34_numeric_unique hn hg
    | @symbol a' b' ha' hb' =>
      obtain ⟨rfl, rfl⟩ := first_colon ha ha' e
      exact absurd hg (hnb g)

theorem did_one {env : Env} {image : Str} {w : World} {ord : DiskOrder} {m : Files} {c : Command} (hi : image ≠ str "-")
    (hc : Agrees image ord c) (h : HasFiles w image ord m) :
    ∃ ev, Did env image w m c ev ∧ HasFiles (run env c w).2 image ord (ev.apply m) := by
  have same : (run env c w).2.files image = w.files image → HasFiles (run env c w).2 image ord m := by
    rintro e
    obtain ⟨raw, img, h1, h2⟩ := h
    exact ⟨raw, img, e.trans h1, h2⟩
  by_cases hok : (run env c w).1 = .ok ()
  swap
  · exact ⟨.nothing, .failed hok, same (congrFun (C59_failure_changes_nothing env c w hok).1 image)⟩
  by_cases ht : target c = some image
  swap
  · exact ⟨.nothing, .elsewhere ht, same (C59_other_files_untouched env c w image ht)⟩
  cases c with
  | put order system t ow a i name source =>
    cases ht
    have hc := hc rfl
    obtain ⟨raw, o, ord', data, new, h1, h2, h3, h4, o', f, g1, _, g3, g4, g5, g6, g7⟩ := C63_put_partial env order system t ow a _ name source w hi hok
    have := open_order hc h2
    subst this
    have hm := hasFiles_view h h1 (open_naked h2)
    refine ⟨.put f data, .put hok h3 g3 (fun part g hp hg => (g4 part g hp hg).symm) (fun how hf => by rw [← hm f hf]; exact g6 how), ?_⟩
    refine hasFiles_of h4 (open_naked g1) fun g hg => ?_
    show _ = if g = f then _ else _
    by_cases e : g = f
    · subst e
      rw [if_pos rfl, (g7 hg.2.1 hg.2.2).1]
    · rw [if_neg e, g5 g hg.1 e hg.2.1 hg.2.2, hm g hg]
  | rm order system mo i name =>
    cases ht
    have hc := hc rfl
    obtain ⟨raw, o, ord', new, o', f, h1, h2, h3, g1, _, g3, g4, g5, g6, _⟩ := C73_rm env order system mo _ name w hi hok
    have := open_order hc h2
    subst this
    have hm := hasFiles_view h h1 (open_naked h2)
    refine ⟨.rm f, .rm hok ?_ ?_ (fun how hf => by rw [← hm f hf]; exact g4 how), ?_⟩
    · rcases Supermon.C34_resolution_total o.table name with ⟨f', e, hf'⟩ | e
      · rw [g3] at e; cases e; exact hf'
      · rw [g3] at e; cases e
    · exact fun g hg => fileForName_numeric g3 hg
    refine hasFiles_of h3 (open_naked g1) fun g hg => ?_
    show _ = if g = f then _ else _
    by_cases e : g = f
    · subst e
      rw [if_pos rfl, g5 (Or.inl ⟨hg.2.1, hg.2.2⟩)]
    · rw [if_neg e, g6 g hg.1 e (Or.inl ⟨hg.2.1, hg.2.2⟩), hm g hg]
  | mkhello order i name a s =>
    cases ht
    have hc := hc rfl
    obtain ⟨_, _, raw, o, ord', f, new, o', h1, h2, h3, h4, g1, _, g3, _, g5, _⟩ := C61_mkhello_partial hi hok
    have := open_order hc h2
    subst this
    have hm := hasFiles_view h h1 (open_naked h2)
    refine ⟨.put 1 _, .mkhello (f := f) hok (fun part g hp hg => asksFor_number h3 hp hg), ?_⟩
    refine hasFiles_of h4 (open_naked g1) fun g hg => ?_
    show _ = if g = 1 then _ else _
    by_cases e : g = 1
    · subst e
      rw [if_pos rfl, g3]
      rfl
    · rw [if_neg e, g5 g hg.1 e hg.2.1 hg.2.2, hm g hg]
  | reorder o n ow i j => exact absurd ht hc
  | mksd o i b a s => exact absurd ht hc
  | ls _ _ _ _ _ => cases ht
  | filetypes _ => cases ht
  | dump _ _ _ _ => cases ht
  | decode _ _ _ => cases ht

/-- C77: every session with `put`, `rm` and `mkhello` on an image, and any other commands, does to its files exactly what its commands, one
after the other, are asked to do: a command that fails or has another target does nothing, `put` replaces one file, that of the number
named if one is named, and without `--overwrite` one that was not there; `rm` removes one; `mkhello` replaces file 1. -/
theorem C77_session {env : Env} {image : Str} {ord : DiskOrder} {w w' : World} {l : List (World × Command)} (hi : image ≠ str "-")
    (hs : Session env image w l w') (ha : ∀ p ∈ l, Agrees image ord p.2) {m : Files} (h : HasFiles w image ord m) :
    ∃ evs, Events env image m l evs ∧ HasFiles w' image ord (evs.foldl Event.apply m) := by
  have move : ∀ {w1 w2 : World} {m}, w2.files image = w1.files image → HasFiles w1 image ord m → HasFiles w2 image ord m := by
    rintro w1 w2 m e ⟨raw, img, h1, h2⟩
    exact ⟨raw, img, e.trans h1, h2⟩
  induction hs generalizing m with
  | done e => exact ⟨[], .done, move e h⟩
  | @step w w1 w' c l e _ ih =>
    obtain ⟨ev, h1, h2⟩ := did_one (env := env) hi (ha (w1, c) (by simp)) (move e h)
    obtain ⟨evs, h3, h4⟩ := ih (fun p hp => ha p (by simp [hp])) h2
    exact ⟨ev :: evs, .step h1 h3, h4⟩

theorem nakedOS_good {img : Bytes} (h : NakedOS img) : ∃ sm, Supermon.Good sm img := by
  obtain ⟨hl, hm⟩ := h
  have : ∃ sm, Supermon.loadSectorMap img = .ok sm := by
    have hs : (slice img 2512 560).length = 560 := slice_length_of_le (by omega)
    exact ⟨⟨(slice img 2512 560).toArray, by simpa using hs⟩, (Supermon.loadSectorMap_eq _ _).2 ⟨by omega, by simp⟩⟩
  obtain ⟨sm, hs⟩ := this
  have e := (Supermon.loaded_iff (by omega) sm).1 hs
  exact ⟨sm, hl, ⟨fun n hn => by rw [e n (by omega)]; exact hm.1 n hn, fun n hn => by rw [e n hn]; exact hm.2 n hn⟩, hs⟩

/-- C77: the files of the map are those that `dump` prints, and no others. -/
theorem C77_dump {env : Env} {image : Str} {ord : DiskOrder} {w : World} {m : Files} (hi : image ≠ str "-")
    (ho : ord = orderDO ∨ ord = orderPO) (h : HasFiles w image ord m) {f : UInt8} (hf : Ordinary f) :
    (m f ≠ [] → Dumps env w ord (str "nakedos") image (dfName f) (m f)) ∧
    (m f = [] → DumpFails env w ord (str "nakedos") image (dfName f)) := by
  obtain ⟨raw, img, h1, h2, h3, h4⟩ := h
  have hl : raw.length = 143360 := by rw [← h2.1]; exact h3.1
  have hv := (view_iff (order_named ho) raw_named hl).1 h2
  obtain ⟨sm, hg⟩ := nakedOS_good h3
  have hop := Supermon.open_of_good hg
  have hop' := hop
  rw [hv] at hop'
  have he := open_explicit (env := env) hl ho hop' image
  have hfi : Finds env w image ord (str "nakedos") (.nakedos _) ord :=
    ⟨raw, by unfold given; rw [if_neg hi, h1], by rw [if_neg hi]; exact he⟩
  have hd := C72_dump_nakedos hfi (dfName f)
  rw [← hv] at hd
  have hr := fun st => Supermon.C34_dfname_resolves st hf.1
  rw [← h4 f hf]
  exact ⟨hd.1 f (hr _), hd.2.1 f (hr _)⟩

/-- C77: and `ls` lists them, in increasing order: one line for every file of the map that is there, none for one that is not, and besides
them at most lines for the files of the symbol table.  A line is the `DFxx` name, a colon and a symbol if the table has one for this file; or,
if asked for short names, only the symbol. -/
theorem C77_ls {env : Env} {image : Str} {ord : DiskOrder} {w : World} {m : Files} (hi : image ≠ str "-")
    (ho : ord = orderDO ∨ ord = orderPO) (h : HasFiles w image ord m) (short : Bool) :
    ∃ w' st, ∃ listed : List UInt8, run env (.ls ord (str "nakedos") short image []) w = (.ok (), w') ∧ w'.files = w.files ∧
      w'.stdout = w.stdout ++ listed.flatMap (fun f => nakedName st short f ++ [0x0A]) ∧
      listed.Pairwise (· < ·) ∧ (∀ f ∈ listed, IsFileNumber f) ∧ ∀ f, Ordinary f → (f ∈ listed ↔ m f ≠ []) := by
  obtain ⟨raw, img, h1, h2, h3, h4⟩ := h
  have hl : raw.length = 143360 := by rw [← h2.1]; exact h3.1
  have hv := (view_iff (order_named ho) raw_named hl).1 h2
  obtain ⟨sm, hg⟩ := nakedOS_good h3
  have hop' := Supermon.open_of_good hg
  rw [hv] at hop'
  have hfi : Finds env w image ord (str "nakedos") (.nakedos _) ord :=
    ⟨raw, by unfold given; rw [if_neg hi, h1], by rw [if_neg hi]; exact open_explicit (env := env) hl ho hop' image⟩
  obtain ⟨w', e1, e2, e3⟩ := C71_ls_nakedos hfi short
  refine ⟨w', _, _, e1, e2, e3, ?_, ?_, ?_⟩
  · refine List.Pairwise.filter _ (List.pairwise_map.2 (List.pairwise_lt_range.imp_of_mem ?_))
    intro a b ha hb hab
    rw [List.mem_range] at ha hb
    rw [UInt8.lt_iff_toNat_lt]
    simp only [UInt8.toNat_ofNat']
    omega
  · intro f hf
    have := (List.mem_filter.1 hf).2
    simp only [decide_eq_true_eq] at this
    exact ⟨this.1, this.2.1, this.2.2.1⟩
  · intro f hf
    have hfile : fileOnDisk img f = [] ↔ ownedBy (own sm) f = [] := by
      rw [← hg.onDisk, ← List.length_eq_zero_iff, Supermon.fileBytes_length hg.len, ← List.length_eq_zero_iff]
      omega
    rw [← h4 f hf, List.mem_filter, decide_eq_true_eq, Ne, Ne, Ne, Ne, Ne, hfile]
    constructor
    · exact fun h => h.2.2.2.2
    · refine fun h => ⟨?_, hf.1.1, hf.1.2.1, hf.1.2.2, h⟩
      exact List.mem_map.2 ⟨f.toNat, List.mem_range.2 f.toNat_lt, by simp⟩

/-- Commands that are not told to remove or replace anything. -/
def Harmless (image : Str) : Command → Prop
  | .put _ _ _ ow _ i _ _ => i = image → ow = false
  | .rm _ _ _ i _ => i ≠ image
  | .mkhello _ i _ _ _ => i ≠ image
  | _ => True

/-- C77: in a session without `--overwrite`, `rm` and `mkhello`, however long, no file is lost or changed. -/
theorem C77_nothing_lost {env : Env} {image : Str} {ord : DiskOrder} {w w' : World} {l : List (World × Command)} (hi : image ≠ str "-")
    (hs : Session env image w l w') (ha : ∀ p ∈ l, Agrees image ord p.2 ∧ Harmless image p.2) {m : Files} (h : HasFiles w image ord m) :
    ∃ m', HasFiles w' image ord m' ∧ ∀ f, Ordinary f → m f ≠ [] → m' f = m f := by
  obtain ⟨evs, h1, h2⟩ := C77_session hi hs (fun p hp => (ha p hp).1) h
  refine ⟨_, h2, ?_⟩
  intro f hf
  have hb : ∀ p ∈ l, Harmless image p.2 := fun p hp => (ha p hp).2
  clear h h2 hs ha
  induction h1 with
  | done => exact fun _ => rfl
  | @step m w c ev l evs hd _ ih =>
    intro hne
    have e : ev.apply m f = m f := by
      have hc := hb (w, c) (by simp)
      cases hd with
      | failed _ => rfl
      | elsewhere _ => rfl
      | @put _ _ _ ow _ _ _ g data _ _ _ _ how =>
        show (if f = g then _ else _) = _
        by_cases e : f = g
        · subst e; exact absurd (how (hc rfl) hf) hne
        · rw [if_neg e]
      | rm _ _ _ _ => exact absurd rfl hc
      | mkhello _ _ => exact absurd rfl hc
    show evs.foldl Event.apply (ev.apply m) f = m f
    rw [ih (fun p hp => hb p (by simp [hp])) (by rw [e]; exact hne), e]

end Verif.Cmd
