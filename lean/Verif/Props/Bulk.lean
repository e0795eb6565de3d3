import Verif.Props.Space
import Verif.Spec.Bulk

/-!
# C96: putting many files, in any order
-/

set_option autoImplicit false

namespace Verif.Cmd
open Disk Spec

theorem sum_split (L : List UInt8) (hnd : L.Nodup) (P : UInt8 → Prop) [DecidablePred P] (v : UInt8 → Nat) {f : UInt8} (hf : f ∈ L) (hp : P f) :
    ((L.filter fun g => P g).map v).sum = ((L.filter fun g => P g ∧ g ≠ f).map v).sum + v f := by
  induction L with
  | nil => simp at hf
  | cons a L ih =>
    rw [List.nodup_cons] at hnd
    by_cases e : a = f
    · subst e
      have h2 : (L.filter fun g => decide (P g ∧ g ≠ a)) = L.filter fun g => decide (P g) := by
        apply List.filter_congr
        intro x hx
        have : x ≠ a := fun h => hnd.1 (h ▸ hx)
        simp [this]
      rw [List.filter_cons_of_pos (by simpa using hp), List.filter_cons_of_neg (by simp), h2]
      simp only [List.map_cons, List.sum_cons]
      omega
    · have hf' : f ∈ L := by
        rcases List.mem_cons.1 hf with h | h
        · exact absurd h.symm e
        · exact h
      have := ih hnd.2 hf'
      by_cases hpa : P a
      · rw [List.filter_cons_of_pos (by simpa using hpa), List.filter_cons_of_pos (by simp [hpa, e])]
        simp only [List.map_cons, List.sum_cons]
        omega
      · rw [List.filter_cons_of_neg (by simpa using hpa), List.filter_cons_of_neg (by simp [hpa])]
        exact this

theorem numbers_nodup : ((List.range 256).map UInt8.ofNat).Nodup := by
  rw [List.nodup_map_iff_inj_on List.nodup_range]
  intro a ha b hb h
  rw [List.mem_range] at ha hb
  have := congrArg UInt8.toNat h
  simp only [UInt8.toNat_ofNat'] at this
  omega

theorem mem_numbers (f : UInt8) : f ∈ (List.range 256).map UInt8.ofNat :=
  List.mem_map.2 ⟨f.toNat, List.mem_range.2 f.toNat_lt, by simp⟩

theorem used_split (m : Files) {f : UInt8} (hf : Ordinary f) : used m = usedByOthers m f + sectors (m f) := by
  unfold used usedByOthers
  generalize hL : (List.range 256).map UInt8.ofNat = L
  exact sum_split L (hL ▸ numbers_nodup) Ordinary (fun g => sectors (m g)) (hL ▸ mem_numbers f) hf

theorem usedByOthers_congr {m m' : Files} {f : UInt8} (h : ∀ g, g ≠ f → m' g = m g) : usedByOthers m' f = usedByOthers m f := by
  unfold usedByOthers
  generalize (List.range 256).map UInt8.ofNat = L
  congr 1
  apply List.map_congr_left
  intro g hg
  rw [h g (by simpa using (of_decide_eq_true (List.mem_filter.1 hg).2).2)]

theorem sectors_padded (d : Bytes) : sectors (padded d) = sectorsNeeded d.length := by
  unfold sectors sectorsNeeded
  rw [Supermon.padded_length]
  split <;> omega

theorem together_cons (m : Files) {x : UInt8 × Bytes} {xs : List (UInt8 × Bytes)} (h : x.1 ∉ xs.map Prod.fst) :
    together (Event.apply m (.put x.1 x.2)) xs = together m (x :: xs) := by
  funext g
  unfold together
  by_cases e : x.1 = g
  · rw [List.find?_cons_of_pos (by simpa using e)]
    have : xs.find? (fun y => decide (y.1 = g)) = none := by
      rw [List.find?_eq_none]
      intro y hy hyg
      exact h (List.mem_map.2 ⟨y, hy, by rw [e]; simpa using hyg⟩)
    rw [this]
    show (if g = x.1 then _ else _) = _
    rw [if_pos e.symm]
  · rw [List.find?_cons_of_neg (by simpa using e)]
    cases xs.find? (fun y => decide (y.1 = g)) with
    | some y => rfl
    | none =>
      show (if g = x.1 then _ else _) = _
      rw [if_neg (fun h => e h.symm)]

theorem finds_hasFiles {env : Env} {image : Str} {ord : DiskOrder} {w : World} {m : Files} (hi : image ≠ str "-")
    (ho : ord = orderDO ∨ ord = orderPO) (h : HasFiles w image ord m) :
    ∃ o, Finds env w image ord (str "nakedos") (.nakedos o) ord := by
  obtain ⟨raw, img, h1, h2, h3, _⟩ := h
  have hl : raw.length = 143360 := by rw [← h2.1]; exact h3.1
  have hv := (view_iff (order_named ho) raw_named hl).1 h2
  obtain ⟨sm, hg⟩ := nakedOS_good h3
  have hop := Supermon.open_of_good hg
  rw [hv] at hop
  exact ⟨_, raw, by unfold given; rw [if_neg hi, h1], by rw [if_neg hi]; exact open_explicit (env := env) hl ho hop image⟩

theorem named_candidate {ord : DiskOrder} (ho : ord = orderDO ∨ ord = orderPO) (ext : Str) : CandidateOrders ord ext [ord] := by
  rcases ho with rfl | rfl
  · exact CandidateOrders.explicitDO _
  · exact CandidateOrders.explicitPO _

theorem takes_candidate {env : Env} {w : World} {image : Str} {ord order : DiskOrder} {system : Str} (ho : ord = orderDO ∨ ord = orderPO)
    (h : Takes env w image ord order system) : CandidateOrders order (toLower (pathExt image)) [ord] := by
  rcases h with ⟨rfl, _⟩ | ⟨h, _⟩
  · exact named_candidate ho _
  · exact h

/-- What a command finds that takes the image for NakedOS. -/
theorem takes_finds {env : Env} {w : World} {image : Str} {ord order : DiskOrder} {system : Str} (hi : image ≠ str "-")
    (ho : ord = orderDO ∨ ord = orderPO) {m : Files} (hm : HasFiles w image ord m) (h : Takes env w image ord order system) :
    ∃ o, Finds env w image order system (.nakedos o) ord := by
  rcases h with ⟨rfl, rfl⟩ | ⟨_, raw, o, h1, h2⟩
  · exact finds_hasFiles hi ho hm
  · exact ⟨o, raw, by unfold given; rw [if_neg hi, h1], by rw [if_neg hi]; exact h2⟩

theorem agrees_puts {env : Env} {image : Str} {ord : DiskOrder} (ho : ord = orderDO ∨ ord = orderPO) {x : UInt8 × Bytes} {p : World × Command}
    (h : Puts env image ord x p) : Agrees image ord p.2 := by
  obtain ⟨_, _, order, system, t, a, name, source, e, ht, _⟩ := h
  rw [e]
  exact fun _ => takes_candidate ho ht

theorem byNumber_puts {env : Env} {image : Str} {ord : DiskOrder} {x : UInt8 × Bytes} {p : World × Command} (h : Puts env image ord x p) :
    ByNumber image p.2 := by
  obtain ⟨h1, _, order, system, t, a, name, source, e, _, _, hn, _⟩ := h
  rw [e]
  exact fun _ => ⟨x.1, hn, h1.2⟩

/-- One `put` of a new numbered file. -/
theorem bulk_one {env : Env} {image : Str} {ord : DiskOrder} (hi : image ≠ str "-") (ho : ord = orderDO ∨ ord = orderPO)
    {w : World} {c : Command} {x : UInt8 × Bytes} (hp : Puts env image ord x (w, c)) {m : Files} (hm : HasFiles w image ord m) {n k : Nat}
    (hsp : HasSpace w image ord n k) :
    ((run env c w).1 = .ok () ↔ m x.1 = [] ∧ sectorsNeeded x.2.length + used m + k ≤ n) ∧
    ((run env c w).1 = .ok () → HasFiles (run env c w).2 image ord (Event.apply m (.put x.1 x.2)) ∧ HasSpace (run env c w).2 image ord n k ∧
      used (Event.apply m (.put x.1 x.2)) = used m + sectorsNeeded x.2.length) := by
  have hag := agrees_puts ho hp
  have hbn := byNumber_puts hp
  obtain ⟨hf, hd, order, system, t, a, name, source, rfl, htk, ht, hn, hs, hdata⟩ := hp
  obtain ⟨o, hfi⟩ := takes_finds hi ho hm htk
  have hu := used_split m hf
  have iff1 := C85_fits hi hfi hm hsp hs hdata hd ht hn hf.2.1 hf.2.2 false a
  have iff2 : (run env (.put order system t false a image name source) w).1 = .ok () ↔
      m x.1 = [] ∧ sectorsNeeded x.2.length + used m + k ≤ n := by
    rw [iff1]
    constructor
    · rintro ⟨h1, h2 | h2⟩
      · cases h2
      · refine ⟨h2, ?_⟩
        rw [h2] at hu
        have : sectors ([] : Bytes) = 0 := rfl
        omega
    · rintro ⟨h1, h2⟩
      exact ⟨by omega, Or.inr h1⟩
  refine ⟨iff2, fun hok => ?_⟩
  have hnew := (iff2.1 hok).1
  obtain ⟨ev, hev, hfiles⟩ := did_one (env := env) hi hag hm
  have hev' : ev = .put x.1 x.2 := by
    cases hev with
    | failed h => exact absurd hok h
    | elsewhere h => exact absurd rfl h
    | @put _ _ _ _ _ _ _ g data _ h2 _ h4 _ =>
      have hg : g = x.1 := h4 name x.1 (.plain (numericName_no_colon hn)) hn
      unfold given at h2
      rw [if_neg hs, hdata] at h2
      cases h2
      rw [hg]
  subst hev'
  obtain ⟨k', hk1, hk2⟩ := space_one (env := env) hi hag hsp
  rw [hk2 hbn] at hk1
  refine ⟨hfiles, hk1, ?_⟩
  have hoth : usedByOthers (Event.apply m (.put x.1 x.2)) x.1 = usedByOthers m x.1 := usedByOthers_congr fun g hg => if_neg hg
  rw [used_split _ hf, hu, hnew, hoth]
  have e : Event.apply m (.put x.1 x.2) x.1 = padded x.2 := if_pos rfl
  rw [e, sectors_padded]
  show _ = _ + 0 + _
  omega

/-- The files there are fit. -/
theorem used_fits {env : Env} {image : Str} {ord : DiskOrder} (hi : image ≠ str "-") (ho : ord = orderDO ∨ ord = orderPO)
    {w : World} {m : Files} (hm : HasFiles w image ord m) {n k : Nat} (hsp : HasSpace w image ord n k) : used m + k ≤ n := by
  obtain ⟨o, raw, hg, hopen⟩ := finds_hasFiles (env := env) hi ho hm
  unfold given at hg
  rw [if_neg hi] at hg hopen
  have hnk := open_naked hopen
  have hf : Ordinary 1 := by decide
  have hv := hasFiles_view hm hg hnk
  obtain ⟨a1, a2⟩ := hasSpace_view hsp hg hnk
  have := Supermon.accounted hnk.good hv hf
  have h1 := hnk.good.sectors 1
  rw [hv 1 hf, ← hnk.good.owned] at h1
  rw [hnk.good.sectors, hnk.good.sectors, a1, a2] at this
  rw [used_split m hf]
  omega

/-- C96: a session of puts of new files, with distinct numbers, succeeds as a whole exactly if none of the files is there and all of them
together fit in the space that is left; whatever the order.  Then the image holds the old files and the new ones. -/
theorem C96_fits {env : Env} {image : Str} {ord : DiskOrder} (hi : image ≠ str "-") (ho : ord = orderDO ∨ ord = orderPO)
    {w w' : World} {l : List (World × Command)} (hs : Session env image w l w') {xs : List (UInt8 × Bytes)}
    (hp : List.Forall₂ (Puts env image ord) xs l) (hnd : (xs.map Prod.fst).Nodup) {m : Files} (hm : HasFiles w image ord m) {n k : Nat}
    (hsp : HasSpace w image ord n k) :
    ((∀ p ∈ l, (run env p.2 p.1).1 = .ok ()) ↔ (∀ x ∈ xs, m x.1 = []) ∧ needed xs + used m + k ≤ n) ∧
    ((∀ p ∈ l, (run env p.2 p.1).1 = .ok ()) → HasFiles w' image ord (together m xs) ∧ HasSpace w' image ord n k) := by
  have move : ∀ {w1 w2 : World} {m}, w2.files image = w1.files image → HasFiles w1 image ord m → HasFiles w2 image ord m := by
    rintro w1 w2 m e ⟨raw, img, h1, h2⟩
    exact ⟨raw, img, e.trans h1, h2⟩
  have move2 : ∀ {w1 w2 : World}, w2.files image = w1.files image → HasSpace w1 image ord n k → HasSpace w2 image ord n k := by
    rintro w1 w2 e ⟨raw, img, h1, h2⟩
    exact ⟨raw, img, e.trans h1, h2⟩
  induction hs generalizing m xs with
  | done e =>
    cases hp
    refine ⟨⟨fun _ => ⟨by simp, ?_⟩, fun _ => by simp⟩, fun _ => ⟨move e hm, move2 e hsp⟩⟩
    have := used_fits (env := env) hi ho hm hsp
    simpa [needed] using this
  | @step w w1 w' c l e _ ih =>
    cases hp with
    | @cons x _ xs _ hx hxs =>
    obtain ⟨a1, a2⟩ := bulk_one (env := env) hi ho hx (move e hm) (move2 e hsp)
    rw [List.map_cons, List.nodup_cons] at hnd
    have hneed : needed (x :: xs) = sectorsNeeded x.2.length + needed xs := by simp [needed]
    have other : ∀ y ∈ xs, Event.apply m (.put x.1 x.2) y.1 = m y.1 :=
      fun y hy => if_neg fun e => hnd.1 (List.mem_map.2 ⟨y, hy, e⟩)
    constructor
    · constructor
      · intro hall
        obtain ⟨b1, b2, b3⟩ := a2 (hall (w1, c) (by simp))
        obtain ⟨c1, _⟩ := ih hxs hnd.2 b1 b2
        obtain ⟨d1, d2⟩ := c1.1 (fun p hp => hall p (by simp [hp]))
        refine ⟨fun y hy => ?_, by omega⟩
        rcases List.mem_cons.1 hy with rfl | hy
        · exact (a1.1 (hall (w1, c) (by simp))).1
        · rw [← other y hy]; exact d1 y hy
      · rintro ⟨h1, h2⟩
        have hok := a1.2 ⟨h1 x (by simp), by omega⟩
        obtain ⟨b1, b2, b3⟩ := a2 hok
        obtain ⟨c1, _⟩ := ih hxs hnd.2 b1 b2
        intro p hp
        rcases List.mem_cons.1 hp with rfl | hp
        · exact hok
        · exact c1.2 ⟨fun y hy => by rw [other y hy]; exact h1 y (by simp [hy]), by omega⟩ p hp
    · intro hall
      obtain ⟨b1, b2, b3⟩ := a2 (hall (w1, c) (by simp))
      obtain ⟨_, c2⟩ := ih hxs hnd.2 b1 b2
      have := c2 (fun p hp => hall p (by simp [hp]))
      rw [together_cons m hnd.1] at this
      exact this

theorem together_perm (m : Files) {xs ys : List (UInt8 × Bytes)} (h : xs.Perm ys) (hnd : (xs.map Prod.fst).Nodup) :
    together m xs = together m ys := by
  have key : ∀ {zs : List (UInt8 × Bytes)}, (zs.map Prod.fst).Nodup → ∀ g x, zs.find? (fun x => decide (x.1 = g)) = some x ↔ x ∈ zs ∧ x.1 = g := by
    intro zs hz g x
    constructor
    · intro h
      exact ⟨List.mem_of_find?_eq_some h, by simpa using List.find?_some h⟩
    · rintro ⟨h1, h2⟩
      induction zs with
      | nil => simp at h1
      | cons z zs ih =>
        rw [List.map_cons, List.nodup_cons] at hz
        rcases List.mem_cons.1 h1 with rfl | h1
        · exact List.find?_cons_of_pos (by simpa using h2)
        · rw [List.find?_cons_of_neg]
          · exact ih hz.2 h1
          · intro e
            exact hz.1 (List.mem_map.2 ⟨x, h1, by rw [h2]; exact (of_decide_eq_true e).symm⟩)
  have hnd' : (ys.map Prod.fst).Nodup := (h.map Prod.fst).nodup_iff.1 hnd
  funext g
  have : xs.find? (fun x => decide (x.1 = g)) = ys.find? (fun x => decide (x.1 = g)) := by
    apply Option.ext
    intro x
    rw [key hnd, key hnd', h.mem_iff]
  unfold together
  rw [this]

/-- C96: so the order does not matter: of two sessions that put the same new files in different orders on the same image, both succeed or
neither does; and then both leave the same files and the same space. -/
theorem C96_any_order {env : Env} {image : Str} {ord : DiskOrder} (hi : image ≠ str "-") (ho : ord = orderDO ∨ ord = orderPO)
    {w w1 w2 : World} {l1 l2 : List (World × Command)} (h1 : Session env image w l1 w1) (h2 : Session env image w l2 w2)
    {xs ys : List (UInt8 × Bytes)} (p1 : List.Forall₂ (Puts env image ord) xs l1) (p2 : List.Forall₂ (Puts env image ord) ys l2) (hperm : xs.Perm ys)
    (hnd : (xs.map Prod.fst).Nodup) {m : Files} (hm : HasFiles w image ord m) {n k : Nat} (hsp : HasSpace w image ord n k) :
    ((∀ p ∈ l1, (run env p.2 p.1).1 = .ok ()) ↔ ∀ p ∈ l2, (run env p.2 p.1).1 = .ok ()) ∧
    ((∀ p ∈ l1, (run env p.2 p.1).1 = .ok ()) → ∃ m', HasFiles w1 image ord m' ∧ HasFiles w2 image ord m' ∧
      HasSpace w1 image ord n k ∧ HasSpace w2 image ord n k) := by
  have hnd' : (ys.map Prod.fst).Nodup := (hperm.map Prod.fst).nodup_iff.1 hnd
  obtain ⟨a1, a2⟩ := C96_fits hi ho h1 p1 hnd hm hsp
  obtain ⟨b1, b2⟩ := C96_fits hi ho h2 p2 hnd' hm hsp
  have hneed : needed xs = needed ys := (hperm.map fun x : UInt8 × Bytes => sectorsNeeded x.2.length).sum_eq
  have hiff : (∀ p ∈ l1, (run env p.2 p.1).1 = .ok ()) ↔ ∀ p ∈ l2, (run env p.2 p.1).1 = .ok () := by
    rw [a1, b1, hneed]
    simp only [hperm.mem_iff]
  refine ⟨hiff, fun hall => ?_⟩
  obtain ⟨c1, c2⟩ := a2 hall
  obtain ⟨d1, d2⟩ := b2 (hiff.1 hall)
  rw [← together_perm m hperm hnd] at d1
  exact ⟨_, c1, d1, c2, d2⟩

theorem did_asks {env : Env} {image : Str} {ord : DiskOrder} {p : World × Command} {m : Files} {ev ev' : Event}
    (h : Did env image p.1 m p.2 ev) (ha : Asks image ord ev' p) (hok : (run env p.2 p.1).1 = .ok ()) : ev = ev' := by
  obtain ⟨w, c⟩ := p
  cases ha with
  | put hn _ hd =>
    cases h with
    | failed h => exact absurd hok h
    | elsewhere h => exact absurd rfl h
    | put _ h2 _ h4 _ =>
      unfold given at h2
      rw [hd] at h2
      cases h2
      rw [h4 _ _ (.plain (numericName_no_colon hn)) hn]
  | rm hn _ =>
    cases h with
    | failed h => exact absurd hok h
    | elsewhere h => exact absurd rfl h
    | rm _ _ h3 _ => rw [h3 _ hn]

theorem events_asks {env : Env} {image : Str} {ord : DiskOrder} {m : Files} {l : List (World × Command)} {evs evs' : List Event}
    (h : Events env image m l evs) (ha : List.Forall₂ (Asks image ord) evs' l) (hok : ∀ p ∈ l, (run env p.2 p.1).1 = .ok ()) : evs = evs' := by
  induction h generalizing evs' with
  | done => cases ha; rfl
  | @step m w c ev l evs hd _ ih =>
    cases ha with
    | cons h1 h2 =>
      rw [did_asks (p := (w, c)) hd h1 (hok _ (by simp)), ih h2 (fun p hp => hok p (by simp [hp]))]

theorem asks_agrees {image : Str} {ord : DiskOrder} {ev : Event} {p : World × Command} (h : Asks image ord ev p) : Agrees image ord p.2 := by
  cases h with
  | put _ hc _ => exact fun _ => hc
  | rm _ hc => exact fun _ => hc

theorem apply_comm (m : Files) {a b : Event} (h : a.file ≠ b.file) : Event.apply (Event.apply m a) b = Event.apply (Event.apply m b) a := by
  funext g
  cases a <;> cases b <;> simp only [Event.apply, Event.file, Ne, Option.some.injEq, not_true_eq_false] at h ⊢ <;> split <;> split <;> simp_all

theorem foldl_perm {xs ys : List Event} (h : xs.Perm ys) (hnd : (xs.map Event.file).Nodup) (m : Files) :
    xs.foldl Event.apply m = ys.foldl Event.apply m := by
  induction h generalizing m with
  | nil => rfl
  | cons x _ ih =>
    rw [List.map_cons, List.nodup_cons] at hnd
    exact ih hnd.2 _
  | swap x y l =>
    rw [List.map_cons, List.map_cons, List.nodup_cons] at hnd
    simp only [List.foldl_cons]
    rw [apply_comm m (a := y) (b := x) (fun e => hnd.1 (by rw [e]; simp))]
  | trans h1 _ ih1 ih2 => rw [ih1 hnd, ih2 ((h1.map Event.file).nodup_iff.1 hnd)]

/-- C96: and of two sessions that do the same to different numbered files, replacing, adding and removing, in different orders: if all commands succeed
in both, both leave the same files. -/
theorem C96_mixed {env : Env} {image : Str} {ord : DiskOrder} (hi : image ≠ str "-")
    {w w1 w2 : World} {l1 l2 : List (World × Command)} (h1 : Session env image w l1 w1) (h2 : Session env image w l2 w2)
    {xs ys : List Event} (p1 : List.Forall₂ (Asks image ord) xs l1) (p2 : List.Forall₂ (Asks image ord) ys l2) (hperm : xs.Perm ys)
    (hnd : (xs.map Event.file).Nodup) (k1 : ∀ p ∈ l1, (run env p.2 p.1).1 = .ok ()) (k2 : ∀ p ∈ l2, (run env p.2 p.1).1 = .ok ())
    {m : Files} (hm : HasFiles w image ord m) : ∃ m', HasFiles w1 image ord m' ∧ HasFiles w2 image ord m' := by
  have ag : ∀ {xs l}, List.Forall₂ (Asks image ord) xs l → ∀ p ∈ l, Agrees image ord p.2 := by
    intro xs l h
    induction h with
    | nil => simp
    | cons h _ ih =>
      intro p hp
      rcases List.mem_cons.1 hp with rfl | hp
      · exact asks_agrees h
      · exact ih p hp
  obtain ⟨e1, a1, a2⟩ := C77_session hi h1 (ag p1) hm
  obtain ⟨e2, b1, b2⟩ := C77_session hi h2 (ag p2) hm
  rw [events_asks a1 p1 k1] at a2
  rw [events_asks b1 p2 k2, ← foldl_perm hperm hnd] at b2
  exact ⟨_, a2, b2⟩

/-! ## A concrete case -/

theorem fresh_no_files {f : UInt8} (hf : IsFileNumber f) : fileOnDisk Supermon.freshImg f = [] := by
  rw [← fresh_good.onDisk, ← List.length_eq_zero_iff, Supermon.fileBytes_length fresh_good.len, Supermon.freshMap_file hf]
  rfl

theorem used_fresh : used (fileOnDisk Supermon.freshImg) = 0 := by
  unfold used
  generalize (List.range 256).map UInt8.ofNat = L
  rw [List.sum_eq_zero_iff_forall_eq_nat]
  intro n hn
  obtain ⟨g, hg, rfl⟩ := List.mem_map.1 hn
  rw [fresh_no_files (of_decide_eq_true (List.mem_filter.1 hg).2).1]
  rfl

theorem puts_x {env : Env} {w : World} (hx : w.files (str "x") = some [1]) : Puts env (str "a.do") orderDO (5, [1]) (w, putX) :=
  ⟨by decide, by simp, str "do", str "nakedos", str "B", 0, str "DF05", str "x", rfl, Or.inl ⟨rfl, rfl⟩, by decide +kernel, numeric5, by decide +kernel, hx⟩

theorem puts_y {env : Env} {w : World} (hy : w.files (str "y") = some [2]) : Puts env (str "a.do") orderDO (6, [2]) (w, putY) :=
  ⟨by decide, by simp, str "do", str "nakedos", str "B", 0, str "DF06", str "y", rfl, Or.inl ⟨rfl, rfl⟩, by decide +kernel, numeric6, by decide +kernel, hy⟩

/-- Non-vacuity of C96: putting two files on a freshly formatted disk, in both orders. -/
theorem both_orders (env : Env) : ∃ w w1 w1' w2 w2',
    Session env (str "a.do") w [(w, putX), (w1, putY)] w1' ∧ Session env (str "a.do") w [(w, putY), (w2, putX)] w2' ∧
    (∀ p ∈ [(w, putX), (w1, putY)], (run env p.2 p.1).1 = .ok ()) ∧ (∀ p ∈ [(w, putY), (w2, putX)], (run env p.2 p.1).1 = .ok ()) ∧
    ∃ m, HasFiles w1' (str "a.do") orderDO m ∧ HasFiles w2' (str "a.do") orderDO m := by
  have hm := hasFiles_good fresh_good (twoFiles_a Supermon.freshImg)
  have hs := hasSpace_good fresh_good (twoFiles_a Supermon.freshImg)
  rw [fresh_fixed, Supermon.freshMap_file Supermon.isFile3, Supermon.freshMap_file Supermon.isFile4] at hs
  have hx := twoFiles_x Supermon.freshImg
  have hy := twoFiles_y Supermon.freshImg
  generalize twoFiles Supermon.freshImg = w at *
  have s1 : Session env (str "a.do") w [(w, putX), ((run env putX w).2, putY)] (run env putY (run env putX w).2).2 :=
    .step rfl (.step rfl (.done rfl))
  have s2 : Session env (str "a.do") w [(w, putY), ((run env putY w).2, putX)] (run env putX (run env putY w).2).2 :=
    .step rfl (.step rfl (.done rfl))
  have q1 : List.Forall₂ (Puts env (str "a.do") orderDO) [(5, [1]), (6, [2])] [(w, putX), ((run env putX w).2, putY)] :=
    .cons (puts_x hx) (.cons (puts_y ((C59_other_files_untouched env putX w _ (by decide +kernel)).trans hy)) .nil)
  have q2 : List.Forall₂ (Puts env (str "a.do") orderDO) [(6, [2]), (5, [1])] [(w, putY), ((run env putY w).2, putX)] :=
    .cons (puts_y hy) (.cons (puts_x ((C59_other_files_untouched env putY w _ (by decide +kernel)).trans hx)) .nil)
  have hi : str "a.do" ≠ str "-" := by decide +kernel
  have ok1 := (C96_fits hi (Or.inl rfl) s1 q1 (by decide) hm hs).1.2 ⟨by
    intro x hx
    simp only [List.mem_cons, List.not_mem_nil, or_false] at hx
    rcases hx with rfl | rfl
    · exact fresh_no_files numeric5.1
    · exact fresh_no_files numeric6.1, by rw [used_fresh]; decide⟩
  obtain ⟨c1, c2⟩ := C96_any_order hi (Or.inl rfl) s1 s2 q1 q2 (List.Perm.swap _ _ _) (by decide) hm hs
  obtain ⟨m, d1, d2, _⟩ := c2 ok1
  exact ⟨w, _, _, _, _, s1, s2, ok1, c1.1 ok1, m, d1, d2⟩

end Verif.Cmd
