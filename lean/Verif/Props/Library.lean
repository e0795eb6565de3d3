import Verif.Proofs.Library

/-!
# C114: a program with any number of open disks
-/

set_option autoImplicit false

namespace Verif.Spec
open Disk Heap Cmd HeapOpen

variable {env : Env} {grow : Nat → Nat → Nat}

/-- `OpenImage` is not given a slice under a name that ends in `.hdv`. -/
def CopiesImage : LibCall → Prop
  | .openImage _ filename _ _ => toLower (pathExt filename) ≠ str ".hdv"
  | _ => True

theorem opens_match {s : Lib} {v : Vals} (h : Match s v) {x : M (HOp × DiskOrder)} {y : Out (AnyOp × DiskOrder)} (hr : Runs (Opened s.mem) s.mem x y) :
    (s.opens env (x s.mem)).1 = (opens env v y).1 ∧ Match (s.opens env (x s.mem)).2 (opens env v y).2 := by
  refine Runs.elim hr (P := fun r y => (s.opens env r).1 = (opens env v y).1 ∧ Match (s.opens env r).2 (opens env v y).2) ?_ ?_ ?_ ?_
  · rintro z ⟨d, o⟩ ⟨O, o'⟩ ⟨e, hi, ha⟩
    cases e
    have := h.add z (t := .disk d) (u := .disk O) hi ha
    exact ⟨this.seen _ _ _, this⟩
  · intro z k; exact ⟨(h.grow z).seen _ _ _, h.grow z⟩
  · intro z; exact ⟨(h.grow z).seen _ _ _, h.grow z⟩
  · intro z; exact ⟨(h.grow z).seen _ _ _, h.grow z⟩

theorem openFile_runs {m : Mem} (contents : Bytes) (filename : Str) (order : DiskOrder) (system : Str) :
    Runs (Opened m) m (HeapOpen.openFile contents filename order system (HeapOpen.factories grow env))
      (Disk.openImage contents filename order system (Cmd.factories env)) := by
  have hv := fresh_valid m contents [] (Nat.le_refl _) (Nat.le_refl contents.length)
  have hb := bytesOf_fresh m contents [] contents.length rfl
  have h := openImage_runs hv filename order system (factories_like grow env)
  rw [hb] at h
  unfold HeapOpen.openFile
  unfold Runs at h ⊢
  rw [bind_ok (alloc_run contents m)]
  rcases h with ⟨q, h1, z, p, h2, h3, h4, h5⟩ | ⟨k, hk, h1, z, h2, h3⟩
  · refine Or.inl ⟨q, h1, [contents] ++ z, p, by rw [h2, List.append_assoc], h3, by rw [← List.append_assoc]; exact h4, ?_⟩
    intro a ha
    rcases h5 a ha with ⟨_, e⟩ | e
    · rw [e]; exact Nat.le_refl _
    · rw [List.length_append] at e; omega
  · exact Or.inr ⟨k, hk, h1, [contents] ++ z, h2, by rw [h3, List.append_assoc]⟩

theorem libStep_match {s : Lib} {v : Vals} (h : Match s v) {c : LibCall} (hc : CopiesImage c) :
    (s.step env grow c).1 = (libStep env v c).1 ∧ Match (s.step env grow c).2 (libStep env v c).2 := by
  cases c with
  | make b =>
    unfold Lib.step libStep
    dsimp only
    rw [alloc_run]
    have := h.add [b] (t := .mine ⟨s.mem.length, 0, b.length, b.length⟩) (u := .mine b)
      ⟨fresh_valid s.mem b [] (Nat.le_refl _) (Nat.le_refl _), bytesOf_fresh s.mem b [] _ rfl⟩ (fun a ha => by rw [List.mem_singleton.1 ha]; exact Nat.le_refl _)
    exact ⟨this.seen _ _ _, this⟩
  | openImage k filename order system =>
    unfold Lib.step libStep
    dsimp only
    rcases h.at k with ⟨t, u, h1, h2, hi⟩ | ⟨h1, h2⟩
    · rw [h1, h2]
      dsimp only
      have hb := hi.bytes
      have hr := openImage_runs (m := s.mem) hb.1 filename order system (factories_like grow env)
      rw [hb.2] at hr
      refine opens_match h (hr.mono fun z p q hp => ⟨hp.1, hp.2.1, fun a ha => ?_⟩)
      exact (hp.2.2 a ha).resolve_left fun e => hc e.1
    · rw [h1, h2]
      exact ⟨h.seen _ _ _, h⟩
  | openFile contents filename order system =>
    unfold Lib.step libStep
    dsimp only
    exact opens_match h (openFile_runs contents filename order system)
  | get k name =>
    unfold Lib.step libStep
    dsimp only
    rcases h.at k with ⟨t, u, h1, h2, hi⟩ | ⟨h1, h2⟩
    case inr => rw [h1, h2]; exact ⟨h.seen _ _ _, h⟩
    rw [h1, h2]
    match t, u, hi with
    | .mine t, .mine b, hi => exact ⟨h.seen _ _ _, h⟩
    | .disk d, .disk O, hi =>
      dsimp only
      have hr := getFile_runs (grow := grow) hi name
      refine Runs.elim hr (P := fun r y => (s.gets env r).1 = (gets env v y).1 ∧ Match (s.gets env r).2 (gets env v y).2) ?_ ?_ ?_ ?_
      · rintro z r f ⟨hv, ha, hb⟩
        have := h.add z (t := .mine r) (u := .mine f.data) ⟨hv, hb⟩ (fun a ha' => by rw [List.mem_singleton.1 ha']; exact ha)
        exact ⟨this.seen _ _ _, this⟩
      · intro z k; exact ⟨(h.grow z).seen _ _ _, h.grow z⟩
      · intro z; exact ⟨(h.grow z).seen _ _ _, h.grow z⟩
      · intro z; exact ⟨(h.grow z).seen _ _ _, h.grow z⟩
  | put k name j lo hi overwrite =>
    unfold Lib.step libStep
    dsimp only
    rcases h.at k with ⟨t, u, h1, h2, hI⟩ | ⟨h1, h2⟩
    case inr => rw [h1, h2]; exact ⟨h.seen _ _ _, h⟩
    rw [h1, h2]
    match t, u, hI with
    | .mine t, .mine b, hI => exact ⟨h.seen _ _ _, h⟩
    | .disk d, .disk O, hI =>
      rcases h.at j with ⟨t', u', h1', h2', hi'⟩ | ⟨h1', h2'⟩
      case inr => rw [h1', h2']; exact ⟨h.seen _ _ _, h⟩
      rw [h1', h2']
      dsimp only
      obtain ⟨hv, hb⟩ := hi'.bytes
      have hl := bytesOf_length hv
      rw [hb] at hl
      rw [hl]
      by_cases hlh : lo ≤ hi ∧ hi ≤ t'.slice.len
      case neg => rw [if_neg hlh, if_neg hlh]; exact ⟨h.seen _ _ _, h⟩
      rw [if_pos hlh, if_pos hlh]
      have hp := part_valid hv hlh.1 (Nat.le_trans hlh.2 hv.len)
      have hpb : bytesOf s.mem ⟨t'.slice.arr, t'.slice.off + lo, hi - lo, t'.slice.cap - lo⟩ = slice u'.bytes lo (hi - lo) := by
        rw [← hb]; exact bytesOf_part hlh.1 hlh.2
      have hch := putFile_changes hI name hp overwrite
      change Changes s.mem d (d.putFile name ⟨t'.slice.arr, t'.slice.off + lo, hi - lo, t'.slice.cap - lo⟩ overwrite s.mem)
        (O.putFile ⟨{ name := name, length := (bytesOf s.mem ⟨t'.slice.arr, t'.slice.off + lo, hi - lo, t'.slice.cap - lo⟩).length, type := filetypeBinary },
          bytesOf s.mem ⟨t'.slice.arr, t'.slice.off + lo, hi - lo, t'.slice.cap - lo⟩, 0⟩ overwrite) at hch
      rw [hpb] at hch
      have := h.change h1 h2 (t' := .disk _) (u' := .disk _) (fun a ha => Or.inl (show a ∈ d.arrays by rw [← hch.arrays]; exact ha)) hch.is hch.other
      rw [← hch.out]
      exact ⟨this.seen _ _ _, this⟩
  | delete k name =>
    unfold Lib.step libStep
    dsimp only
    rcases h.at k with ⟨t, u, h1, h2, hi⟩ | ⟨h1, h2⟩
    case inr => rw [h1, h2]; exact ⟨h.seen _ _ _, h⟩
    rw [h1, h2]
    match t, u, hi with
    | .mine t, .mine b, hi => exact ⟨h.seen _ _ _, h⟩
    | .disk d, .disk O, hi =>
      dsimp only
      have hch := delete_changes hi name
      have := h.change h1 h2 (t' := .disk _) (u' := .disk _) (fun a ha => Or.inl (show a ∈ d.arrays by rw [← hch.arrays]; exact ha)) hch.is hch.other
      rw [← hch.out]
      exact ⟨this.seen _ _ _, this⟩
  | write k i b =>
    unfold Lib.step libStep
    dsimp only
    rcases h.at k with ⟨t, u, h1, h2, hi⟩ | ⟨h1, h2⟩
    case inr => rw [h1, h2]; exact ⟨h.seen _ _ _, h⟩
    rw [h1, h2]
    dsimp only
    obtain ⟨hv, hb⟩ := hi.bytes
    have hl := bytesOf_length hv
    rw [hb] at hl
    by_cases hlt : i < t.slice.len
    · rw [setIndex_run hv hlt, if_pos (by omega), hb]
      have hb' : (u.bytes.set i b).length = t.slice.len := by rw [List.length_set, hl]
      have := h.change h1 h2 (t' := t) (u' := u.withBytes (u.bytes.set i b)) (fun _ h => Or.inl h) (hi.store hb') (fun r hr ha =>
        ⟨hr.store hv (by rw [hb']; exact hv.len), bytesOf_store_other (fun e => ha (by rw [e]; exact slice_mem t)) _⟩)
      rw [set_same h1] at this
      exact ⟨this.seen _ _ _, this⟩
    · rw [setIndex_out hlt, if_neg (by omega)]
      exact ⟨h.seen _ _ _, h⟩
  | cut k lo hi =>
    unfold Lib.step libStep
    dsimp only
    rcases h.at k with ⟨t, u, h1, h2, hI⟩ | ⟨h1, h2⟩
    case inr => rw [h1, h2]; exact ⟨h.seen _ _ _, h⟩
    rw [h1, h2]
    match t, u, hI with
    | .disk d, .disk O, hI => exact ⟨h.seen _ _ _, h⟩
    | .mine t, .mine b, hI =>
      dsimp only
      have hl := bytesOf_length hI.1
      rw [hI.2] at hl
      rw [hl]
      by_cases hlh : lo ≤ hi ∧ hi ≤ t.len
      case neg => rw [if_neg hlh, if_neg hlh]; exact ⟨h.seen _ _ _, h⟩
      rw [if_pos hlh, if_pos hlh]
      have hpb : bytesOf s.mem ⟨t.arr, t.off + lo, hi - lo, t.cap - lo⟩ = slice b lo (hi - lo) := by
        rw [← hI.2]; exact bytesOf_part hlh.1 hlh.2
      have := h.change h1 h2 (t' := .mine ⟨t.arr, t.off + lo, hi - lo, t.cap - lo⟩) (u' := .mine (slice b lo (hi - lo))) (fun _ h => Or.inl h)
        ⟨part_valid hI.1 hlh.1 (Nat.le_trans hlh.2 hI.1.len), hpb⟩ (fun r hr _ => ⟨hr, rfl⟩)
      exact ⟨this.seen _ _ _, this⟩
  | extend k j =>
    unfold Lib.step libStep
    dsimp only
    rcases h.at k with ⟨t, u, h1, h2, hI⟩ | ⟨h1, h2⟩
    case inr => rw [h1, h2]; exact ⟨h.seen _ _ _, h⟩
    rw [h1, h2]
    match t, u, hI with
    | .disk d, .disk O, hI => exact ⟨h.seen _ _ _, h⟩
    | .mine t, .mine b, hI =>
      rcases h.at j with ⟨t', u', h1', h2', hi'⟩ | ⟨h1', h2'⟩
      case inr => rw [h1', h2']; exact ⟨h.seen _ _ _, h⟩
      rw [h1', h2']
      dsimp only
      obtain ⟨r, m', e, hv, hb, ha, hf⟩ := append_own (grow := grow) hI.1 hi'.bytes.1
      rw [e]
      rw [hI.2, hi'.bytes.2] at hb
      have := h.change h1 h2 (t' := .mine r) (u' := .mine (b ++ u'.bytes)) (fun a ha' => by
        rw [List.mem_singleton.1 ha']
        exact ha.imp (fun e => List.mem_singleton.2 e) id) ⟨hv, hb⟩ (fun q hq hne => hf q hq fun e => hne (List.mem_singleton.2 e))
      exact ⟨this.seen _ _ _, this⟩
  | save k order =>
    unfold Lib.step libStep
    dsimp only
    rcases h.at k with ⟨t, u, h1, h2, hi⟩ | ⟨h1, h2⟩
    case inr => rw [h1, h2]; exact ⟨h.seen _ _ _, h⟩
    rw [h1, h2]
    match t, u, hi with
    | .mine t, .mine b, hi => exact ⟨h.seen _ _ _, h⟩
    | .disk d, .disk O, hi =>
      dsimp only
      have hr := writeBack_runs hi order
      refine Runs.elim hr (P := fun r y => (s.saves env r).1 = (saves env v y).1 ∧ Match (s.saves env r).2 (saves env v y).2) ?_ ?_ ?_ ?_
      · rintro z r _ rfl; exact ⟨(h.grow z).seen _ _ _, h.grow z⟩
      · intro z k; exact ⟨(h.grow z).seen _ _ _, h.grow z⟩
      · intro z; exact ⟨(h.grow z).seen _ _ _, h.grow z⟩
      · intro z; exact ⟨(h.grow z).seen _ _ _, h.grow z⟩

theorem run_match {s : Lib} {v : Vals} (h : Match s v) {calls : List LibCall} (hc : ∀ c ∈ calls, CopiesImage c) : s.run env grow calls = libValues env v calls := by
  induction calls generalizing s v with
  | nil => rfl
  | cons c rest ih =>
    have := libStep_match (env := env) (grow := grow) h (hc c List.mem_cons_self)
    unfold Lib.run libValues
    rw [this.1, ih this.2 fun c hc' => hc c (List.mem_cons_of_mem _ hc')]

/-- A program that starts with nothing, makes slices, opens any number of disks of any kind from them, from other disks or from files, and does
anything with all of them and with the files it gets, sees what it would see if every slice and every disk were a value of its own; `OpenImage` not being used on a slice with a
`.hdv` name. -/
theorem C114_values_partial (calls : List LibCall) (hc : ∀ c ∈ calls, CopiesImage c) : Lib.run env grow ⟨[], []⟩ calls = libValues env [] calls :=
  run_match ⟨rfl, (fun k t u h _ => by simp at h), (fun i j t t' _ h _ => by simp at h)⟩ hc

/-- What the condition is about: the disk that `OpenImage` gives is in new arrays, so that the caller keeps its slice to itself, or it is a `.hdv`
image, and then `GetBytes` of the disk is the slice of the caller. -/
theorem C114_image {m m' : Mem} {raw : Slice} (hr : Valid m raw) {filename : Str} {order : DiskOrder} {system : Str} {h : HOp} {o : DiskOrder}
    (ho : HeapOpen.openImage raw filename order system (HeapOpen.factories grow env) m = (.ok (h, o), m')) :
    (raw.len = 143360 ∧ m.length ≤ h.getBytes.arr) ∨ (raw.len ≠ 143360 ∧ toLower (pathExt filename) = str ".hdv" ∧ h.getBytes = raw) := by
  have hlike := factories_like grow env
  have hlen := bytesOf_length hr
  by_cases h1 : raw.len = floppyDiskBytes
  · have e : HeapOpen.openImage raw filename order system (HeapOpen.factories grow env) =
        HeapOpen.openDoOrPo raw order system (toLower (pathExt filename)) (HeapOpen.factories grow env) := if_pos h1
    rw [e] at ho
    refine Or.inl ⟨h1, ?_⟩
    rcases openDoOrPo_runs hr rfl order system (toLower (pathExt filename)) hlike with ⟨q, _, z, p, g2, g3⟩ | ⟨k, hk, _, z, g2, _⟩
    · rw [ho] at g2
      cases g2
      exact g3.2.2 _ (by cases h <;> exact List.mem_cons_self)
    · rw [ho] at g2
      exact absurd g2.symm (hk ())
  by_cases h2 : raw.len = floppyDiskBytes13Sector
  · have e : HeapOpen.openImage raw filename order system (HeapOpen.factories grow env) = Heap.lift (.err .other) := (if_neg h1).trans (if_pos h2)
    rw [e] at ho; cases ho
  by_cases h3 : toLower (pathExt filename) = str ".hdv"
  case neg =>
    have e : HeapOpen.openImage raw filename order system (HeapOpen.factories grow env) = Heap.lift (.err .other) :=
      (if_neg h1).trans ((if_neg h2).trans (if_neg h3))
    rw [e] at ho; cases ho
  have e : HeapOpen.openImage raw filename order system (HeapOpen.factories grow env) = HeapOpen.openHDV raw order system (HeapOpen.factories grow env) :=
    (if_neg h1).trans ((if_neg h2).trans (if_pos h3))
  rw [e] at ho
  refine Or.inr ⟨h1, h3, ?_⟩
  have hloop : HeapOpen.openHDV raw order system (HeapOpen.factories grow env) = HeapOpen.openHDVLoop raw (HeapOpen.factories grow env) ∨
      HeapOpen.openHDV raw order system (HeapOpen.factories grow env) = Heap.lift (.err .other) := by
    unfold HeapOpen.openHDV
    repeat (split; exact Or.inr rfl)
    exact Or.inl rfl
  rcases hloop with hloop | hloop <;> rw [hloop] at ho
  case inr => cases ho
  rcases openHDVLoop_runs hr rfl hlike with ⟨q, _, z, p, g2, g3⟩ | ⟨k, hk, _, z, g2, _⟩
  · rw [ho] at g2
    cases g2
    exact g3.2.2.1
  · rw [ho] at g2
    exact absurd g2.symm (hk ())

theorem hdv_opens {m : Mem} {t : Slice} (h : t.len = 512) :
    HeapOpen.openImage t (str "a.hdv") orderAuto (str "auto") (HeapOpen.factories grow env) m = (.ok (.prodos t, orderPO), m) := by
  have e : HeapOpen.openImage t (str "a.hdv") orderAuto (str "auto") (HeapOpen.factories grow env) =
      HeapOpen.openHDV t orderAuto (str "auto") (HeapOpen.factories grow env) :=
    (if_neg (by rw [h]; decide)).trans ((if_neg (by rw [h]; decide)).trans (if_pos (by decide +kernel)))
  have e2 : HeapOpen.openHDV t orderAuto (str "auto") (HeapOpen.factories grow env) = HeapOpen.openHDVLoop t (HeapOpen.factories grow env) :=
    (if_neg (by rw [h]; decide)).trans ((if_neg (by rw [h]; decide)).trans ((if_neg (by simp)).trans (if_neg (by simp))))
  have e3 : HeapOpen.openHDVLoop t (HeapOpen.factories grow env) = (do let op ← (pure (HOp.prodos t) : M HOp); pure (op, orderPO)) :=
    (if_neg (show ¬str "dos3" = str "prodos" by decide +kernel)).trans
      ((if_neg (show ¬str "nakedos" = str "prodos" by decide +kernel)).trans (if_pos rfl))
  rw [e, e2, e3]
  rfl

theorem hdv_opens_value {b : Bytes} (h : b.length = 512) :
    Disk.openImage b (str "a.hdv") orderAuto (str "auto") (Cmd.factories env) = .ok (.prodos ⟨b⟩, orderPO) := by
  unfold Disk.openImage
  dsimp only
  rw [if_neg (by rw [h]; decide), if_neg (by rw [h]; decide), if_pos (by decide +kernel)]
  unfold Disk.openHDV
  dsimp only
  rw [if_neg (by rw [h]; decide), if_neg (by rw [h]; decide), if_neg (by simp), if_neg (by simp)]
  unfold Cmd.factories
  simp only [Disk.openHDVLoop, Factory.map, Dos3.factory, Supermon.factory, Prodos.factory]
  rw [if_neg (by decide +kernel), if_neg (by decide +kernel)]
  rfl

/-- A program that opens a `.hdv` image from a slice and then writes to the slice has written to the disk. -/
theorem C114_violated_hdv : ∃ calls, Lib.run env grow ⟨[], []⟩ calls ≠ libValues env [] calls := by
  refine ⟨[.make (0 :: zeros 511), .openImage 0 (str "a.hdv") orderAuto (str "auto"), .write 0 0 7], fun e => ?_⟩
  have hl : (0 :: zeros 511).length = 512 := by rw [List.length_cons, zeros_length]
  have e3 := congrArg (fun l => l[2]?.map fun s => s.things.map fun w => w.bytes.head?) e
  generalize zeros 511 = z at e3 hl
  have s1 : Lib.step env grow ⟨[], []⟩ (.make (0 :: z)) = (Lib.seen env ⟨[.mine ⟨0, 0, (0 :: z).length, (0 :: z).length⟩], [0 :: z]⟩ (.ok false), ⟨[.mine ⟨0, 0, (0 :: z).length, (0 :: z).length⟩], [0 :: z]⟩) := rfl
  have v1 : libStep env [] (.make (0 :: z)) = (seen env [.mine (0 :: z)] (.ok false), [.mine (0 :: z)]) := rfl
  generalize ht : (⟨0, 0, (0 :: z).length, (0 :: z).length⟩ : Slice) = t at s1
  have htl : t.len = 512 := by rw [← ht]; exact hl
  have s2 : Lib.step env grow ⟨[.mine t], [0 :: z]⟩ (.openImage 0 (str "a.hdv") orderAuto (str "auto")) =
      (Lib.seen env ⟨[.mine t, .disk (.prodos t)], [0 :: z]⟩ (.ok false) (some orderPO), ⟨[.mine t, .disk (.prodos t)], [0 :: z]⟩) := by
    show Lib.opens env ⟨[.mine t], [0 :: z]⟩ (HeapOpen.openImage t (str "a.hdv") orderAuto (str "auto") (HeapOpen.factories grow env) [0 :: z]) = _
    rw [hdv_opens htl]
    rfl
  have v2 : libStep env [.mine (0 :: z)] (.openImage 0 (str "a.hdv") orderAuto (str "auto")) =
      (seen env [.mine (0 :: z), .disk (.prodos ⟨0 :: z⟩)] (.ok false) (some orderPO), [.mine (0 :: z), .disk (.prodos ⟨0 :: z⟩)]) := by
    show opens env [.mine (0 :: z)] (Disk.openImage (0 :: z) (str "a.hdv") orderAuto (str "auto") (Cmd.factories env)) = _
    rw [hdv_opens_value hl]
    rfl
  have hv : Valid [0 :: z] t := by rw [← ht]; exact fresh_valid [] (0 :: z) [] (Nat.le_refl _) (Nat.le_refl _)
  have hb : bytesOf [0 :: z] t = 0 :: z := by rw [← ht]; exact bytesOf_fresh [] (0 :: z) [] _ rfl
  have s3 : ((Lib.step env grow ⟨[.mine t, .disk (.prodos t)], [0 :: z]⟩ (.write 0 0 7)).1.things.map fun w => w.bytes.head?) = [some 7, some 7] := by
    show [(bytesOf (setIndex t 0 7 [0 :: z]).2 t).head?, (bytesOf (setIndex t 0 7 [0 :: z]).2 t).head?] = _
    rw [setIndex_run hv (by omega), hb, List.set_cons_zero, bytesOf_store_same hv (by rw [htl]; exact hl)]
    rfl
  have v3 : ((libStep env [.mine (0 :: z), .disk (.prodos ⟨0 :: z⟩)] (.write 0 0 7)).1.things.map fun w => w.bytes.head?) = [some 7, some 0] := rfl
  simp only [Lib.run, libValues] at e3
  rw [s1, v1] at e3
  dsimp only at e3
  rw [s2, v2] at e3
  simp only [List.getElem?_cons_succ, List.getElem?_cons_zero, Option.map_some] at e3
  rw [s3, v3] at e3
  simp at e3

end Verif.Spec
