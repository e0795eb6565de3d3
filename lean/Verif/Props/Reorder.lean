import Verif.Spec.Reorder
import Verif.Props.CmdFilesWit

/-!
# C81: reordering an image does not change what is on the disk
-/

set_option autoImplicit false

namespace Verif.Disk
open Spec
variable {Ω : Type}

theorem openInner_order (e : Bool) (a b : DiskOrder) (s : Bytes) (fs : List (Factory Ω)) :
    openInner e b s fs = (openInner e a s fs >>= fun r => .ok (r.map fun p => (p.1, b))) ∧
    ∀ p, openInner e a s fs = .ok (some p) → p.2 = a := by
  induction fs with
  | nil => exact ⟨rfl, fun p h => by simp [openInner] at h⟩
  | cons f fs ih =>
    rw [openInner, openInner]
    cases swizzle s (physicalToLogicalByName f.diskOrder) with
    | err k => exact ⟨rfl, fun p h => by simp at h⟩
    | panic => exact ⟨rfl, fun p h => by simp at h⟩
    | timeout => exact ⟨rfl, fun p h => by simp at h⟩
    | ok d =>
      simp only [Out.bind_ok]
      cases e with
      | true =>
        simp only [if_true]
        cases f.operator d with
        | ok op => exact ⟨rfl, fun p h => by simp at h; rw [← h]⟩
        | err k => exact ⟨rfl, fun p h => by simp at h⟩
        | panic => exact ⟨rfl, fun p h => by simp at h⟩
        | timeout => exact ⟨rfl, fun p h => by simp at h⟩
      | false =>
        simp only [Bool.false_eq_true, if_false]
        cases f.seemsToMatch d with
        | err k => exact ⟨rfl, fun p h => by simp at h⟩
        | panic => exact ⟨rfl, fun p h => by simp at h⟩
        | timeout => exact ⟨rfl, fun p h => by simp at h⟩
        | ok m =>
          simp only [Out.bind_ok]
          cases m with
          | false => simpa only [Bool.false_eq_true, if_false] using ih
          | true =>
            simp only [if_true]
            cases f.operator d with
            | ok op => exact ⟨rfl, fun p h => by simp at h; rw [← h]⟩
            | err k => exact ih
            | panic => exact ⟨rfl, fun p h => by simp at h⟩
            | timeout => exact ⟨rfl, fun p h => by simp at h⟩

theorem sameDisk_iff {a b : DiskOrder} (ha : a ∈ [orderDO, orderPO, orderRaw]) (hb : b ∈ [orderDO, orderPO, orderRaw]) {x y : Bytes} :
    SameDisk a b x y ↔ x.length = 143360 ∧ y = viewOf a b x := by
  have key : ∀ o ∈ [orderDO, orderPO, orderRaw], ∀ s, s < 16 → dest (logicalToPhysicalByName o) s = interleave o s ∧ interleave o s < 16 := by
    intro o ho
    simp only [List.mem_cons, List.not_mem_nil, or_false] at ho
    rcases ho with rfl | rfl | rfl <;> decide +kernel
  have place : ∀ (img : Bytes), img.length = 143360 → ∀ t, t < 35 → ∀ s, s < 16 → ∀ s', s' < 16 → interleave a s = interleave b s' →
      sectorAt (viewOf a b img) t s' = sectorAt img t s := by
    intro img hl t ht s hs s' hs' e
    obtain ⟨a1, a2, a3, a4⟩ := named_orders ha
    obtain ⟨b1, b2, b3, b4⟩ := named_orders hb
    unfold viewOf
    have h1 := sectorAt_swizzled hl a1 ht hs
    have h2 := sectorAt_swizzled (swizzled_length hl a1) b2 ht (key b hb s' hs').2
    rw [← (key b hb s' hs').1, b3 s' hs'] at h2
    rw [h2, (key b hb s' hs').1, ← e, ← (key a ha s hs).1, h1]
  have surj : ∀ s', s' < 16 → ∃ s, s < 16 ∧ interleave a s = interleave b s' := by
    have hh : ∀ p ∈ [orderDO, orderPO, orderRaw], ∀ q ∈ [orderDO, orderPO, orderRaw], ∀ s', s' < 16 → ∃ s, s < 16 ∧ interleave p s = interleave q s' := by
      intro p hp q hq s' hs'
      obtain ⟨s, hs, e⟩ := dest_surj (named_orders hp).1 (key q hq s' hs').2
      exact ⟨s, hs, by rw [← (key p hp s hs).1, e]⟩
    exact hh a ha b hb
  constructor
  · rintro ⟨hx, hy, h⟩
    refine ⟨hx, ext_of_sectors hy (viewOf_length ha hb hx) ?_⟩
    intro t ht s' hs'
    obtain ⟨s, hs, e⟩ := surj s' hs'
    rw [place x hx t ht s hs s' hs' e, h t ht s hs s' hs' e]
  · rintro ⟨hx, rfl⟩
    exact ⟨hx, viewOf_length ha hb hx, fun t ht s hs s' hs' e => (place x hx t ht s hs s' hs' e).symm⟩

/-- The same disk in another order, opened with the same system, is the same. -/
theorem open_sameDisk {fs : List (Factory Ω)} {a b oa ob : DiskOrder} {i j system : Str} {x y : Bytes}
    (ha : CandidateOrders oa (toLower (pathExt i)) [a]) (hb : CandidateOrders ob (toLower (pathExt j)) [b]) (h : SameDisk a b x y) :
    openImage y j ob system fs = (openImage x i oa system fs >>= fun p => .ok (p.1, b)) ∧
    ∀ p, openImage x i oa system fs = .ok p → p.2 = a := by
  have na : a ∈ [orderDO, orderPO, orderRaw] := (candidateOrders_named ha).2 a (by simp)
  have nb : b ∈ [orderDO, orderPO, orderRaw] := (candidateOrders_named hb).2 b (by simp)
  obtain ⟨hx, rfl⟩ := (sameDisk_iff na nb).1 h
  have hy := viewOf_length na nb hx
  obtain ⟨a1, a2, a3, a4⟩ := named_orders na
  obtain ⟨b1, b2, b3, b4⟩ := named_orders nb
  have hp : swizzle (viewOf a b x) (logicalToPhysicalByName b) = swizzle x (logicalToPhysicalByName a) := by
    rw [(swizzle_named_l2p nb hy).1, (swizzle_named_l2p na hx).1]
    unfold viewOf
    rw [swizzled_swizzled (swizzled_length hx a1) b2 b1 b4]
  unfold openImage
  dsimp only
  rw [show floppyDiskBytes = 143360 from rfl, if_pos hx, if_pos hy]
  unfold openDoOrPo
  dsimp only
  split
  · exact ⟨rfl, fun p h => by simp at h⟩
  rw [(ordersToTry_iff _ _ _).2 ha, (ordersToTry_iff _ _ _).2 hb]
  dsimp only
  simp only [openOuter]
  rw [hp]
  generalize List.filter _ fs = gs
  simp only [List.length_singleton]
  cases swizzle x (logicalToPhysicalByName a) with
  | err k => exact ⟨rfl, fun p h => by simp at h⟩
  | panic => exact ⟨rfl, fun p h => by simp at h⟩
  | timeout => exact ⟨rfl, fun p h => by simp at h⟩
  | ok s =>
    rw [Out.bind_ok, Out.bind_ok, (openInner_order _ a b s gs).1]
    cases hr : openInner _ a s gs with
    | err k => exact ⟨rfl, fun p h => by simp at h⟩
    | panic => exact ⟨rfl, fun p h => by simp at h⟩
    | timeout => exact ⟨rfl, fun p h => by simp at h⟩
    | ok r =>
      cases r with
      | none => exact ⟨rfl, fun p h => by simp at h⟩
      | some q => exact ⟨rfl, fun p h => by simp at h; rw [← h]; exact (openInner_order _ a b s gs).2 q hr⟩

end Verif.Disk

namespace Verif.Cmd
open Disk Spec

section alike
variable {a b : DiskOrder} {i j : Str} {w w' : World} {x y : Bytes}

theorem Alike.quiet (hx : w.files i = some x) (hy : w'.files j = some y) (hs : SameDisk a b x y) {o : Out Unit} {u u' : World}
    (h : SameOutside u w) (h' : SameOutside u' w') : Alike a b i j w w' (o, u) (o, u') :=
  ⟨rfl, ⟨[], by simp [h.2], by simp [h'.2]⟩, x, y, by rw [h.1]; exact hx, by rw [h'.1]; exact hy, hs⟩

theorem Alike.bind {α : Type} (hx : w.files i = some x) (hy : w'.files j = some y) (hs : SameDisk a b x y) {m m' : Act α}
    {f f' : α → Act Unit} {u u' : World} (ho : (m' u').1 = (m u).1) (h : SameOutside (m u).2 w) (h' : SameOutside (m' u').2 w')
    (hf : ∀ v, (m u).1 = .ok v → Alike a b i j w w' (f v (m u).2) (f' v (m' u').2)) :
    Alike a b i j w w' ((m >>= f) u) ((m' >>= f') u') := by
  rw [bind_apply, bind_apply]
  unfold Act.bind
  rcases hm : m u with ⟨r, v⟩
  rcases hm' : m' u' with ⟨r', v'⟩
  rw [hm] at ho h hf
  rw [hm'] at ho h' hf
  change r' = r at ho
  subst ho
  cases r' with
  | ok c => exact hf c rfl
  | err k => exact Alike.quiet hx hy hs h h'
  | panic => exact Alike.quiet hx hy hs h h'
  | timeout => exact Alike.quiet hx hy hs h h'

theorem Alike.lift {α : Type} (hx : w.files i = some x) (hy : w'.files j = some y) (hs : SameDisk a b x y) {o : Out α}
    {f f' : α → Act Unit} {u u' : World} (h : SameOutside u w) (h' : SameOutside u' w')
    (hf : ∀ v, o = .ok v → Alike a b i j w w' (f v u) (f' v u')) :
    Alike a b i j w w' ((Cmd.lift o >>= f) u) ((Cmd.lift o >>= f') u') :=
  Alike.bind hx hy hs rfl h h' hf

theorem Alike.open (hi : i ≠ str "-") (hj : j ≠ str "-") (hx : w.files i = some x) (hy : w'.files j = some y) (hs : SameDisk a b x y)
    {env : Env} {oa ob : DiskOrder} {system : Str} (ha : CandidateOrders oa (toLower (pathExt i)) [a])
    (hb : CandidateOrders ob (toLower (pathExt j)) [b])
    {f f' : AnyOp × DiskOrder → Act Unit}
    (hf : ∀ op, openImage x i oa system (factories env) = .ok (op, a) → Alike a b i j w w' (f (op, a) w) (f' (op, b) w')) :
    Alike a b i j w w' ((openDisk env i oa system >>= f) w) ((openDisk env j ob system >>= f') w') := by
  rw [bind_apply, bind_apply]
  unfold Act.bind openDisk openFilename
  rw [if_neg hi, if_neg hj, hx, hy]
  dsimp only
  obtain ⟨e1, e2⟩ := open_sameDisk (fs := factories env) (system := system) ha hb hs
  rw [e1]
  cases hr : openImage x i oa system (factories env) with
  | err k => exact Alike.quiet hx hy hs ⟨rfl, rfl⟩ ⟨rfl, rfl⟩
  | panic => exact Alike.quiet hx hy hs ⟨rfl, rfl⟩ ⟨rfl, rfl⟩
  | timeout => exact Alike.quiet hx hy hs ⟨rfl, rfl⟩ ⟨rfl, rfl⟩
  | ok p =>
    obtain ⟨op, o⟩ := p
    have : o = a := e2 _ hr
    subst this
    exact hf op hr

theorem Alike.print {u u' : World} (hx : w.files i = some x) (hy : w'.files j = some y) (hs : SameDisk a b x y)
    (h : SameOutside u w) (h' : SameOutside u' w') (t : Bytes) : Alike a b i j w w' (print t u) (print t u') :=
  ⟨rfl, ⟨t, by simp [Cmd.print, h.2], by simp [Cmd.print, h'.2]⟩, x, y, by simp only [Cmd.print, h.1]; exact hx,
    by simp only [Cmd.print, h'.1]; exact hy, hs⟩

theorem Alike.write (hi : i ≠ str "-") (hj : j ≠ str "-") {u u' : World} (na : a ∈ [orderDO, orderPO, orderRaw])
    (nb : b ∈ [orderDO, orderPO, orderRaw])
    (h : SameOutside u w) (h' : SameOutside u' w') {o : Supermon.Operator} (hl : o.data.length = 143360) :
    Alike a b i j w w' (writeDisk World.writeOutput i (.nakedos o) a u) (writeDisk World.writeOutput j (.nakedos o) b u') := by
  have key : ∀ c ∈ [orderDO, orderPO, orderRaw], writeBackBytes (AnyOp.nakedos o) c = .ok (viewOf orderRaw c o.data) := by
    intro c hc
    unfold writeBackBytes
    dsimp only
    rw [if_neg (by rw [show OperatorLike.getBytes (AnyOp.nakedos o) = o.data from rfl, hl]; decide)]
    rw [show OperatorLike.getBytes (AnyOp.nakedos o) = o.data from rfl, show OperatorLike.diskOrder (AnyOp.nakedos o) = orderRaw from rfl,
      (swizzle_named_l2p raw_named hl).1, Out.bind_ok, (swizzle_named_p2l hc (swizzle_named_l2p raw_named hl).2).1]
    rfl
  unfold writeDisk writeBackVia
  rw [key a na, key b nb]
  dsimp only
  unfold World.writeOutput
  rw [if_neg hi, if_neg hj, if_neg (by simp), if_neg (by simp)]
  refine ⟨rfl, ⟨[], by simp [World.writeFile, h.2], by simp [World.writeFile, h'.2]⟩, viewOf orderRaw a o.data, viewOf orderRaw b o.data,
    by simp [World.writeFile], by simp [World.writeFile], ?_⟩
  rw [sameDisk_iff na nb]
  refine ⟨viewOf_length raw_named na hl, ?_⟩
  obtain ⟨a1, a2, a3, a4⟩ := named_orders na
  obtain ⟨r1, r2, r3, r4⟩ := named_orders raw_named
  unfold viewOf
  rw [swizzled_swizzled (swizzled_length hl r1) a2 a1 a4]

end alike

/-- C81: a disk in another sector order is the same disk.  A command (`ls`, `dump`, `put`, `rm`, `mkhello`) on image `i` in
order `a`, and the same command on image `j`, which has the same disk in order `b`, end with the same outcome, print
the same, and leave images that again have the same disk. -/
theorem C81_same_disk_same_results (env : Env) (c : Command) (hc : UsesDisk c) {w w' : World} {i j : Str} (hi : i ≠ str "-") (hj : j ≠ str "-")
    {a b oa ob : DiskOrder} (ha : CandidateOrders oa (toLower (pathExt i)) [a]) (hb : CandidateOrders ob (toLower (pathExt j)) [b])
    {x y : Bytes} (hx : w.files i = some x) (hy : w'.files j = some y) (hs : SameDisk a b x y)
    (hsrc : ∀ s, sourceOf c = some s → given w' s = given w s) :
    Alike a b i j w w' (run env (onImage oa i c) w) (run env (onImage ob j c) w') := by
  have na : a ∈ [orderDO, orderPO, orderRaw] := (candidateOrders_named ha).2 a (by simp)
  have nb : b ∈ [orderDO, orderPO, orderRaw] := (candidateOrders_named hb).2 b (by simp)
  have refl : ∀ u : World, SameOutside u u := fun u => ⟨rfl, rfl⟩
  have hput : ∀ {o : Supermon.Operator} {s : Str} {fi : FileInfo} {ow : Bool} {v : Bool} {u u' : World},
      openImage x i oa s (factories env) = .ok (.nakedos o, a) → ((AnyOp.nakedos o).putFile fi ow).1 = .ok v →
      SameOutside u w → SameOutside u' w' →
      Alike a b i j w w' (writeDisk World.writeOutput i ((AnyOp.nakedos o).putFile fi ow).2 a u)
        (writeDisk World.writeOutput j ((AnyOp.nakedos o).putFile fi ow).2 b u') := by
    intro o s fi ow v u u' ho hv h h'
    obtain ⟨no, e, hok, e2⟩ := putFile_ok hv
    cases e
    have hn := open_naked ho
    obtain ⟨f, hk⟩ := Supermon.keep_op_put hn.good (fi := fi) (ow := ow) (by rw [hok]; simp)
    exact Alike.write hi hj na nb h h' hk.good.len
  cases c with
  | reorder => exact hc.elim
  | filetypes => exact hc.elim
  | mksd => exact hc.elim
  | decode => exact hc.elim
  | ls _ s sh _ d =>
    change Alike a b i j w w' (ls env oa s sh i d w) (ls env ob s sh j d w')
    unfold ls
    refine Alike.open hi hj hx hy hs ha hb fun op ho => ?_
    dsimp only
    split
    · exact Alike.quiet hx hy hs (refl _) (refl _)
    · exact Alike.lift hx hy hs (refl _) (refl _) fun fds _ => Alike.print hx hy hs (refl _) (refl _) _
  | dump _ s _ n =>
    change Alike a b i j w w' (dump env oa s i n w) (dump env ob s j n w')
    unfold dump
    refine Alike.open hi hj hx hy hs ha hb fun op ho => ?_
    exact Alike.lift hx hy hs (refl _) (refl _) fun fds _ => Alike.print hx hy hs (refl _) (refl _) _
  | rm _ s m _ n =>
    change Alike a b i j w w' (rm env World.writeOutput oa s m i n w) (rm env World.writeOutput ob s m j n w')
    unfold rm
    refine Alike.open hi hj hx hy hs ha hb fun op ho => ?_
    refine Alike.lift hx hy hs (refl _) (refl _) fun v hv => ?_
    split
    · exact Alike.quiet hx hy hs (refl _) (refl _)
    · obtain ⟨no, rfl, hok, _, e2⟩ := delete_ok hv
      have hn := open_naked ho
      exact Alike.write hi hj na nb (refl _) (refl _) (Supermon.good_op_delete hn.good n).1.len
  | put _ s t ow ad _ n src =>
    change Alike a b i j w w' (putCmd env World.writeOutput oa s t ow ad i n src w) (putCmd env World.writeOutput ob s t ow ad j n src w')
    unfold putCmd
    rw [if_neg (fun h => hi h.1), if_neg (fun h => hj h.1)]
    refine Alike.open hi hj hx hy hs ha hb fun op ho => ?_
    have hg := hsrc src rfl
    have q1 := Quiet.contentsOf src w
    have q2 := Quiet.contentsOf src w'
    refine Alike.bind hx hy hs ?_ q1 q2 fun data _ => ?_
    · unfold contentsOf World.fileContentsOrStdIn
      unfold given at hg
      split
      · rename_i e
        rw [if_pos e, if_pos e] at hg
        rw [Option.some.inj hg]
      · rename_i e
        rw [if_neg e, if_neg e] at hg
        rw [hg]
        cases w.files src <;> rfl
    · refine Alike.lift hx hy hs q1 q2 fun ft _ => ?_
      refine Alike.lift hx hy hs q1 q2 fun v hv => ?_
      obtain ⟨no, e, _⟩ := putFile_ok hv
      subst e
      exact hput ho hv q1 q2
  | mkhello _ _ n ad st =>
    change Alike a b i j w w' (mkhello env World.writeOutput oa i n ad st w) (mkhello env World.writeOutput ob j n ad st w')
    unfold mkhello
    dsimp only
    split
    · exact Alike.quiet hx hy hs (refl _) (refl _)
    · split
      · exact Alike.quiet hx hy hs (refl _) (refl _)
      · refine Alike.open hi hj hx hy hs ha hb fun op ho => ?_
        cases op with
        | dos3 o => exact Alike.quiet hx hy hs (refl _) (refl _)
        | prodos o => exact Alike.quiet hx hy hs (refl _) (refl _)
        | nakedos o =>
          dsimp only
          refine Alike.lift hx hy hs (refl _) (refl _) fun q _ => ?_
          obtain ⟨ad, sa, _⟩ := q
          dsimp only
          split
          · exact Alike.quiet hx hy hs (refl _) (refl _)
          · exact Alike.lift hx hy hs (refl _) (refl _) fun v hv => hput ho hv (refl _) (refl _)

/-- C81: `reorder` makes the same disk in the other order, and changes no other file. -/
theorem C81_reorder {env : Env} {w w' : World} {i j : Str} {o n a b : DiskOrder} {ow : Bool} (hi : i ≠ str "-")
    (hj : (if j = [] then i else j) ≠ str "-") (ho : ReorderOrders i o j n a b)
    (hr : run env (.reorder o n ow i j) w = (.ok (), w')) :
    ∃ x y, w.files i = some x ∧ SameDisk a b x y ∧ w' = w.writeFile (if j = [] then i else j) y := by
  have hab : a ∈ [str "do", str "po", str "raw"] ∧ b ∈ [str "do", str "po", str "raw"] ∧ getOrders i o j n = .ok (a, b) := by
    rcases ho with ⟨rfl, rfl, hne, ha, hb⟩ | ⟨rfl, rfl, h⟩
    · refine ⟨?_, ?_, (C10_explicit_flags_honoured i j ha hb).1 hne⟩
      · simp only [List.mem_cons, List.not_mem_nil, or_false] at ha ⊢
        rcases ha with h | h <;> simp [h]
      · simp only [List.mem_cons, List.not_mem_nil, or_false] at hb ⊢
        rcases hb with h | h <;> simp [h]
    · have hx : ∀ n : Str, NameSaysDO n → NameSaysPO n → False := by
        intro n h1 h2
        unfold NameSaysDO at h1
        unfold NameSaysPO at h2
        rw [h2] at h1
        revert h1; decide
      rcases h with ⟨h1, h2, rfl, rfl⟩ | ⟨h1, h2, rfl, rfl⟩
      · exact ⟨by simp, by simp, (C10_guess_from_extensions i j).1.2 (Or.inl ⟨h1, fun h => hx _ h h2⟩)⟩
      · exact ⟨by simp, by simp, (C10_guess_from_extensions i j).2.2 (Or.inl ⟨h1, fun h => hx _ h2 h⟩)⟩
  obtain ⟨ha, hb, hg⟩ := hab
  have hr : reorderVia World.writeOutput w o n ow i j = (.ok (), w') := hr
  unfold reorderVia at hr
  rw [hg] at hr
  dsimp only at hr
  unfold World.fileContentsOrStdIn at hr
  rw [if_neg hi] at hr
  cases hx : w.files i with
  | none => rw [hx] at hr; simp at hr
  | some x =>
    rw [hx] at hr
    dsimp only at hr
    cases hy : reorderBytes a b x with
    | err k => rw [hy] at hr; simp at hr
    | panic => rw [hy] at hr; simp at hr
    | timeout => rw [hy] at hr; simp at hr
    | ok y =>
      rw [hy] at hr
      dsimp only at hr
      have hl := (reorderBytes_lengths hy).1
      refine ⟨x, y, rfl, ?_, ?_⟩
      · obtain ⟨r, h1, h2, _⟩ := C09_reorder_involutive ha hb hl
        rw [hy] at h1
        cases h1
        exact (sameDisk_iff ha hb).2 ⟨hl, (view_iff ha hb hl).1 h2⟩
      · unfold World.writeOutput at hr
        split at hr
        · rename_i e
          rw [if_pos e] at hj ⊢
          rw [if_neg (by simp)] at hr
          exact (Prod.mk.inj hr).2.symm
        · rename_i e
          rw [if_neg e] at hj ⊢
          rw [if_neg hj] at hr
          split at hr
          · simp at hr
          · exact (Prod.mk.inj hr).2.symm

theorem given_writeFile (w : World) {p q : Str} (y : Bytes) (h : q ≠ p) : given (w.writeFile p y) q = given w q := by
  unfold given World.writeFile
  split
  · rfl
  · simp [h]

/-- C81: after `reorder` from image `i` to image `j` every command does on `j` what it would have done on `i`. -/
theorem C81_reorder_then (env : Env) (c : Command) (hc : UsesDisk c) {w w' : World} {i j : Str} {o n a b oa ob : DiskOrder} {ow : Bool}
    (hi : i ≠ str "-") (hj : (if j = [] then i else j) ≠ str "-") (ho : ReorderOrders i o j n a b)
    (hr : run env (.reorder o n ow i j) w = (.ok (), w'))
    (ha : CandidateOrders oa (toLower (pathExt i)) [a])
    (hb : CandidateOrders ob (toLower (pathExt (if j = [] then i else j))) [b])
    (hsrc : ∀ s, sourceOf c = some s → s ≠ if j = [] then i else j) :
    Alike a b i (if j = [] then i else j) w w' (run env (onImage oa i c) w) (run env (onImage ob (if j = [] then i else j) c) w') := by
  obtain ⟨x, y, hx, hs, rfl⟩ := C81_reorder hi hj ho hr
  refine C81_same_disk_same_results env c hc hi hj ha hb hx (by simp [World.writeFile]) hs fun s hs' => ?_
  exact given_writeFile _ _ (hsrc s hs')

theorem target_onImage {c : Command} (hc : UsesDisk c) (o : DiskOrder) (i q : Str) (hq : q ≠ i) : target (onImage o i c) ≠ some q := by
  cases c <;> simp only [onImage, target] <;> first | exact hc.elim | simp [hq.symm]

/-- C81: and so does every sequence of commands.  The files the commands copy to the disk are others than the two images, and
not standard input. -/
theorem C81_sessions (env : Env) (cs : List Command) {i j : Str} (hi : i ≠ str "-") (hj : j ≠ str "-")
    {a b oa ob : DiskOrder} (ha : CandidateOrders oa (toLower (pathExt i)) [a]) (hb : CandidateOrders ob (toLower (pathExt j)) [b])
    (hc : ∀ c ∈ cs, UsesDisk c ∧ ∀ s, sourceOf c = some s → s ≠ i ∧ s ≠ j ∧ s ≠ str "-") :
    ∀ {w w' : World} {x y : Bytes}, w.files i = some x → w'.files j = some y → SameDisk a b x y →
    (∀ q, q ≠ i → q ≠ j → w'.files q = w.files q) →
    (transcript env (cs.map (onImage ob j)) w').1 = (transcript env (cs.map (onImage oa i)) w).1 ∧
    (∃ t, (transcript env (cs.map (onImage oa i)) w).2.stdout = w.stdout ++ t ∧
      (transcript env (cs.map (onImage ob j)) w').2.stdout = w'.stdout ++ t) ∧
    ∃ x' y', (transcript env (cs.map (onImage oa i)) w).2.files i = some x' ∧
      (transcript env (cs.map (onImage ob j)) w').2.files j = some y' ∧ SameDisk a b x' y' := by
  induction cs with
  | nil =>
    intro w w' x y hx hy hs _
    exact ⟨rfl, ⟨[], by simp [transcript], by simp [transcript]⟩, x, y, hx, hy, hs⟩
  | cons c cs ih =>
    intro w w' x y hx hy hs hq
    obtain ⟨hu, hsrc⟩ := hc c (by simp)
    have h := C81_same_disk_same_results env c hu hi hj ha hb hx hy hs (fun s hs' => by
      obtain ⟨h1, h2, h3⟩ := hsrc s hs'
      unfold given
      rw [if_neg h3, if_neg h3, hq s h1 h2])
    obtain ⟨x1, y1, hx1, hy1, hs1⟩ := h.images
    have hq1 : ∀ q, q ≠ i → q ≠ j →
        (run env (onImage ob j c) w').2.files q = (run env (onImage oa i c) w).2.files q := by
      intro q h1 h2
      rw [C59_other_files_untouched env _ _ q (target_onImage hu ob j q h2), C59_other_files_untouched env _ _ q (target_onImage hu oa i q h1),
        hq q h1 h2]
    obtain ⟨e1, ⟨t2, p1, p2⟩, e3⟩ := ih (fun c hc' => hc c (by simp [hc'])) hx1 hy1 hs1 hq1
    obtain ⟨t1, q1, q2⟩ := h.printed
    simp only [List.map_cons, transcript]
    refine ⟨by rw [h.out, e1], ⟨t1 ++ t2, ?_, ?_⟩, e3⟩
    · rw [p1, q1, List.append_assoc]
    · rw [p2, q2, List.append_assoc]

/-- Non-vacuity of C81: `reorder a.do a.po` of any floppy image, with the orders taken from the names. -/
example (env : Env) (x : Bytes) (hx : x.length = 143360) :
    ∃ w', run env (.reorder (str "auto") (str "auto") false (str "a.do") (str "a.po")) (oneFile (str "a.do") x) = (.ok (), w') ∧
      ReorderOrders (str "a.do") (str "auto") (str "a.po") (str "auto") (str "do") (str "po") ∧
      CandidateOrders (str "auto") (toLower (pathExt (str "a.do"))) [str "do"] ∧
      CandidateOrders (str "auto") (toLower (pathExt (str "a.po"))) [str "po"] := by
  obtain ⟨y, hy, _⟩ := C09_reorder_involutive (a := str "do") (b := str "po") (by simp) (by simp) hx
  have hdo : NameSaysDO (str "a.do") := Or.inr (by decide +kernel)
  have hpo : NameSaysPO (str "a.po") := by unfold NameSaysPO; decide +kernel
  have hno : ¬ NameSaysDO (str "a.po") := by unfold NameSaysDO; decide +kernel
  have e1 : toLower (pathExt (str "a.do")) = str ".do" := by decide +kernel
  have e2 : toLower (pathExt (str "a.po")) = str ".po" := by decide +kernel
  refine ⟨(oneFile (str "a.do") x).writeFile (str "a.po") y, ?_, Or.inr ⟨rfl, rfl, Or.inl ⟨hdo, hpo, rfl, rfl⟩⟩, ?_, ?_⟩
  · change reorderVia World.writeOutput (oneFile (str "a.do") x) (str "auto") (str "auto") false (str "a.do") (str "a.po") = _
    unfold reorderVia
    rw [(C10_guess_from_extensions (str "a.do") (str "a.po")).1.2 (Or.inl ⟨hdo, hno⟩)]
    dsimp only
    unfold World.fileContentsOrStdIn oneFile
    rw [if_neg (by decide +kernel)]
    simp only [if_true]
    rw [hy]
    dsimp only
    rw [if_neg (by decide +kernel)]
    unfold World.writeOutput
    rw [if_neg (by decide +kernel), if_neg]
    dsimp only
    rw [if_neg (by decide +kernel)]
    simp
  · rw [e1]; exact .byExtDO
  · rw [e2]; exact .byExtPO

end Verif.Cmd
