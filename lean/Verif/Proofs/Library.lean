import Verif.Proofs.HeapOpen
import Verif.Spec.Library

/-!
# Lemmas for C114: the things of a program
-/

set_option autoImplicit false

namespace Verif.Spec
open Disk Heap Cmd HeapOpen

/-- The arrays in which a thing of the program is. -/
def Obj.arrays : Obj → List Nat
  | .mine t => [t.arr]
  | .disk h => h.arrays

/-- A thing in memory is a value. -/
def IsObj (m : Mem) : Obj → VObj → Prop
  | .mine t, .mine b => Valid m t ∧ bytesOf m t = b
  | .disk h, .disk O => Is m h O
  | _, _ => False

theorem Is.bytes {m : Mem} {h : HOp} {O : AnyOp} (hi : Is m h O) : Valid m h.getBytes ∧ bytesOf m h.getBytes = OperatorLike.getBytes O := by
  cases h <;> cases O <;> first | (exact hi.elim) | skip
  · exact hi
  · exact ⟨hi.disks.vd, hi.disks.hd⟩
  · exact hi

theorem Is.order {m : Mem} {h : HOp} {O : AnyOp} (hi : Is m h O) : h.diskOrder = OperatorLike.diskOrder O := by
  cases h <;> cases O <;> first | (exact hi.elim) | rfl

theorem Is.catalog {env : Env} {m : Mem} {h : HOp} {O : AnyOp} (hi : Is m h O) (subdir : Str) : (h.catalog env subdir m).1 = O.catalog env subdir := by
  cases h <;> cases O <;> first | (exact hi.elim) | skip
  · show Dos3.Operator.catalog ⟨bytesOf m _⟩ subdir = _
    rw [hi.2]; rfl
  · show (Heap.Op.catalog _ m).1 = .ok _
    unfold Heap.Op.catalog
    rw [bind_ok (theMap_run hi.disks), hi.st]
    rfl
  · show Prodos.Operator.catalog env.budget env.order ⟨bytesOf m _⟩ subdir = _
    rw [hi.2]; rfl

theorem IsObj.bytes {m : Mem} {t : Obj} {u : VObj} (h : IsObj m t u) : Valid m t.slice ∧ bytesOf m t.slice = u.bytes := by
  cases t <;> cases u <;> first | (exact h.elim) | exact h | exact Is.bytes h

theorem slice_mem (t : Obj) : t.slice.arr ∈ t.arrays := by
  cases t with
  | mine t => exact List.mem_singleton.2 rfl
  | disk h => cases h <;> exact List.mem_cons_self

theorem IsObj.lt {m : Mem} {t : Obj} {u : VObj} (h : IsObj m t u) {a : Nat} (ha : a ∈ t.arrays) : a < m.length := by
  cases t with
  | mine t =>
    cases u with
    | mine b => rw [List.mem_singleton.1 ha]; exact h.1.arr
    | disk o => exact h.elim
  | disk d =>
    cases u with
    | mine b => exact h.elim
    | disk o =>
      cases d <;> cases o <;> first | (exact h.elim) | skip
      · rw [List.mem_singleton.1 ha]; exact h.1.arr
      · rcases List.mem_cons.1 ha with e | e
        · rw [e]; exact h.disks.vd.arr
        · rw [List.mem_singleton.1 e]; exact h.disks.vsm.arr
      · rw [List.mem_singleton.1 ha]; exact h.1.arr

/-- A thing is what it was if the memory is the same where it is. -/
theorem IsObj.frame {m m' : Mem} {t : Obj} {u : VObj} (h : IsObj m t u)
    (hf : ∀ r, Valid m r → r.arr ∈ t.arrays → Valid m' r ∧ bytesOf m' r = bytesOf m r) : IsObj m' t u := by
  have one : ∀ {r : Slice} {b : Bytes}, (Valid m r ∧ bytesOf m r = b) → r.arr ∈ t.arrays → Valid m' r ∧ bytesOf m' r = b := by
    intro r b hr ha
    exact ⟨(hf r hr.1 ha).1, (hf r hr.1 ha).2.trans hr.2⟩
  cases t with
  | mine t =>
    cases u with
    | mine b => exact one h (List.mem_singleton.2 rfl)
    | disk o => exact h.elim
  | disk d =>
    cases u with
    | mine b => exact h.elim
    | disk o =>
      cases d <;> cases o <;> first | (exact h.elim) | skip
      · exact one h (List.mem_singleton.2 rfl)
      · have h1 := one ⟨h.disks.vd, h.disks.hd⟩ List.mem_cons_self
        have h2 := one ⟨h.disks.vsm, h.disks.hsm⟩ (List.mem_cons_of_mem _ (List.mem_singleton.2 rfl))
        exact ⟨⟨h1.1, h2.1, h.disks.ne, h1.2, h2.2⟩, h.st⟩
      · exact one h (List.mem_singleton.2 rfl)

theorem IsObj.view {env : Env} {m : Mem} {t : Obj} {u : VObj} (h : IsObj m t u) : t.view env m = u.view env := by
  cases t with
  | mine t =>
    cases u with
    | mine b => show (⟨_, _⟩ : Look) = ⟨_, _⟩; rw [h.2]
    | disk o => exact h.elim
  | disk d =>
    cases u with
    | mine b => exact h.elim
    | disk o =>
      show (⟨_, _⟩ : Look) = ⟨_, _⟩
      rw [(Is.bytes h).2]
      have : (fun subdir => (d.catalog env subdir m).1) = o.catalog env := funext fun subdir => Is.catalog h subdir
      rw [this]

/-- The things in memory are the values, and no two of them share an array. -/
structure Match (s : Lib) (v : Vals) : Prop where
  len : s.objs.length = v.length
  each : ∀ (k : Nat) t u, s.objs[k]? = some t → v[k]? = some u → IsObj s.mem t u
  apart : ∀ (i j : Nat) t t', i ≠ j → s.objs[i]? = some t → s.objs[j]? = some t' → ∀ a ∈ t.arrays, a ∉ t'.arrays

theorem Match.at {s : Lib} {v : Vals} (h : Match s v) (k : Nat) :
    (∃ t u, s.objs[k]? = some t ∧ v[k]? = some u ∧ IsObj s.mem t u) ∨ s.objs[k]? = none ∧ v[k]? = none := by
  cases hs : s.objs[k]? with
  | none => exact Or.inr ⟨rfl, by rw [List.getElem?_eq_none_iff] at hs ⊢; rw [← h.len]; exact hs⟩
  | some t =>
    cases hv : v[k]? with
    | none =>
      rw [List.getElem?_eq_none_iff, ← h.len, ← List.getElem?_eq_none_iff, hs] at hv
      cases hv
    | some u => exact Or.inl ⟨t, u, rfl, rfl, h.each k t u hs hv⟩

theorem Match.seen {env : Env} {s : Lib} {v : Vals} (h : Match s v) (out : Out Bool) (order : Option DiskOrder) (file : Option Bytes) :
    s.seen env out order file = Spec.seen env v out order file := by
  unfold Lib.seen Spec.seen
  have : s.objs.map (Obj.view env s.mem) = v.map (VObj.view env) := by
    apply List.ext_getElem?
    intro k
    rw [List.getElem?_map, List.getElem?_map]
    rcases h.at k with ⟨t, u, h1, h2, hi⟩ | ⟨h1, h2⟩
    · rw [h1, h2, Option.map_some, Option.map_some, hi.view]
    · rw [h1, h2]; rfl
  rw [this]

theorem Match.grow {s : Lib} {v : Vals} (h : Match s v) (x : Mem) : Match ⟨s.objs, s.mem ++ x⟩ v :=
  ⟨h.len, fun k t u h1 h2 => (h.each k t u h1 h2).frame fun _ hr _ => ⟨hr.append x, bytesOf_append hr.arr x⟩, h.apart⟩

/-- One more thing, in new arrays. -/
theorem Match.add {s : Lib} {v : Vals} (h : Match s v) (x : Mem) {t : Obj} {u : VObj} (hi : IsObj (s.mem ++ x) t u) (ha : ∀ a ∈ t.arrays, s.mem.length ≤ a) :
    Match ⟨s.objs ++ [t], s.mem ++ x⟩ (v ++ [u]) := by
  have hg := h.grow x
  have get : ∀ {α : Type} (l : List α) (e : α) (k : Nat) (y : α), (l ++ [e])[k]? = some y → k < l.length ∧ l[k]? = some y ∨ k = l.length ∧ y = e := by
    intro α l e k y hk
    by_cases hlt : k < l.length
    · rw [List.getElem?_append_left hlt] at hk; exact Or.inl ⟨hlt, hk⟩
    · rw [List.getElem?_append_right (by omega)] at hk
      have : k - l.length = 0 := by
        by_cases h0 : k - l.length = 0
        · exact h0
        · rw [List.getElem?_eq_none (by simp; omega)] at hk; cases hk
      rw [this] at hk
      exact Or.inr ⟨by omega, by simpa using hk.symm⟩
  have lt : ∀ {k : Nat} {t' a}, s.objs[k]? = some t' → a ∈ t'.arrays → a < s.mem.length := by
    intro k t' a hk hin
    rcases h.at k with ⟨t'', u', h1, h2, hi'⟩ | ⟨h1, _⟩
    · rw [h1] at hk; cases hk; exact hi'.lt hin
    · rw [h1] at hk; cases hk
  refine ⟨by simp [h.len], ?_, ?_⟩
  · intro k t' u' h1 h2
    rcases get _ _ _ _ h1 with ⟨l1, g1⟩ | ⟨l1, rfl⟩ <;> rcases get _ _ _ _ h2 with ⟨l2, g2⟩ | ⟨l2, rfl⟩
    · exact hg.each k t' u' g1 g2
    · have := h.len; omega
    · have := h.len; omega
    · exact hi
  · intro i j t1 t2 hij h1 h2 a m1 m2
    rcases get _ _ _ _ h1 with ⟨l1, g1⟩ | ⟨l1, rfl⟩ <;> rcases get _ _ _ _ h2 with ⟨l2, g2⟩ | ⟨l2, rfl⟩
    · exact h.apart i j t1 t2 hij g1 g2 a m1 m2
    · have := lt g1 m1; have := ha a m2; omega
    · have := lt g2 m2; have := ha a m1; omega
    · omega

/-- One thing has changed, in its own arrays. -/
theorem Match.change {s : Lib} {v : Vals} (h : Match s v) {k : Nat} {t t' : Obj} {u u' : VObj} {m' : Mem} (hk : s.objs[k]? = some t) (hv : v[k]? = some u)
    (ha : ∀ a ∈ t'.arrays, a ∈ t.arrays ∨ s.mem.length ≤ a) (hi : IsObj m' t' u')
    (hf : ∀ r, Valid s.mem r → r.arr ∉ t.arrays → Valid m' r ∧ bytesOf m' r = bytesOf s.mem r) : Match ⟨s.objs.set k t', m'⟩ (v.set k u') := by
  have l1 := (List.getElem?_eq_some_iff.1 hk).1
  have l2 := (List.getElem?_eq_some_iff.1 hv).1
  have old : ∀ {i : Nat} {x}, (s.objs.set k t')[i]? = some x → ∃ y, s.objs[i]? = some y ∧ (∀ a ∈ x.arrays, a ∈ y.arrays ∨ s.mem.length ≤ a) ∧ (i = k ∧ x = t' ∨ i ≠ k ∧ x = y) := by
    intro i x hx
    rw [List.getElem?_set] at hx
    by_cases e : k = i
    · subst e
      rw [if_pos rfl, if_pos l1] at hx
      cases hx
      exact ⟨t, hk, ha, Or.inl ⟨rfl, rfl⟩⟩
    · rw [if_neg e] at hx
      exact ⟨x, hx, fun _ h => Or.inl h, Or.inr ⟨Ne.symm e, rfl⟩⟩
  have lt : ∀ {i : Nat} {y a}, s.objs[i]? = some y → a ∈ y.arrays → a < s.mem.length := by
    intro i y a hy hin
    rcases h.at i with ⟨t'', u', h1, h2, hi'⟩ | ⟨h1, _⟩
    · rw [h1] at hy; cases hy; exact hi'.lt hin
    · rw [h1] at hy; cases hy
  refine ⟨by simp [h.len], ?_, ?_⟩
  · intro i x y hx hy
    obtain ⟨z, hz, hza, ⟨e, rfl⟩ | ⟨e, rfl⟩⟩ := old hx
    · subst e
      rw [List.getElem?_set, if_pos rfl, if_pos l2] at hy
      cases hy
      exact hi
    · rw [List.getElem?_set, if_neg (Ne.symm e)] at hy
      refine (h.each i x y hz hy).frame fun r hr hin => hf r hr ?_
      exact fun hin' => h.apart i k x t e hz hk _ hin hin'
  · intro i j x y hij hx hy a hax hay
    obtain ⟨z, hz, hza, hzk⟩ := old hx
    obtain ⟨w, hw, hwa, hwk⟩ := old hy
    rcases hza a hax with h1 | h1 <;> rcases hwa a hay with h2 | h2
    · exact h.apart i j z w hij hz hw a h1 h2
    · have := lt hz h1; omega
    · have := lt hw h2; omega
    · rcases hzk with ⟨e, _⟩ | ⟨_, rfl⟩
      · rcases hwk with ⟨e', _⟩ | ⟨_, rfl⟩
        · omega
        · have := lt hw hay; omega
      · have := lt hz hax; omega

theorem set_same {α : Type} {l : List α} {k : Nat} {x : α} (h : l[k]? = some x) : l.set k x = l := by
  apply List.ext_getElem?
  intro i
  rw [List.getElem?_set]
  by_cases e : k = i
  · subst e; rw [if_pos rfl, if_pos (List.getElem?_eq_some_iff.1 h).1, h]
  · rw [if_neg e]

theorem Runs.elim {α β : Type} {R : Mem → α → β → Prop} {m : Mem} {x : M α} {y : Out β} (h : Runs R m x y) {P : Out α × Mem → Out β → Prop}
    (ok : ∀ z a b, R (m ++ z) a b → P (.ok a, m ++ z) (.ok b)) (err : ∀ z k, P (.err k, m ++ z) (.err k)) (panic : ∀ z, P (.panic, m ++ z) .panic)
    (timeout : ∀ z, P (.timeout, m ++ z) .timeout) : P (x m) y := by
  rcases h with ⟨b, h1, z, a, h2, h3⟩ | ⟨k, hk, h1, z, h2, h3⟩
  · rw [h1, h2]; exact ok z a b h3
  · generalize x m = r at h2 h3
    obtain ⟨o, m'⟩ := r
    dsimp only at h2 h3
    subst h3
    cases y <;> cases o <;> cases h1 <;> first | (exact absurd rfl (hk _)) | skip
    all_goals first | (cases h2; done) | skip
    · cases h2; exact err z _
    · exact panic z
    · exact timeout z

theorem getFile_runs {grow : Nat → Nat → Nat} {m : Mem} {h : HOp} {O : AnyOp} (hi : Is m h O) (name : Str) :
    Runs (fun m' r f => FreshSlice m m' r f.data) m (h.getFile grow name) (O.getFile name) := by
  cases h <;> cases O <;> first | (exact hi.elim) | skip
  case dos3.dos3 d O =>
    rcases HeapDos3.getFile_run (grow := grow) hi.1 hi.2 name with ⟨f, h1, x, r, h2, hb, hv, ha⟩ | h
    · exact Or.inl ⟨f, h1, x, r, h2, hv, ha, hb⟩
    · exact Or.inr h
  case nakedos.nakedos o O =>
    rcases Heap.getFile_run (grow := grow) hi name with ⟨f, h1, x, r, h2, hn, hne⟩ | h
    · have hp : Valid (m ++ x) r ∧ m.length ≤ r.arr := by
        rcases hn.place with h0 | h0
        · exact absurd (List.eq_nil_of_length_eq_zero (hn.len.symm.trans h0.2)) hne
        · exact h0
      exact Or.inl ⟨f, h1, x, r, h2, hp.1, hp.2, hn.bytes⟩
    · exact Or.inr h
  case prodos.prodos d O => exact Runs.fail m rfl (fun _ => by simp)

theorem writeBack_runs {m : Mem} {h : HOp} {O : AnyOp} (hi : Is m h O) (order : DiskOrder) :
    Runs (fun m' r b => bytesOf m' r = b) m (h.writeBack order) (writeBackBytes O order) := by
  obtain ⟨hv, hb⟩ := Is.bytes hi
  have hl := bytesOf_length hv
  unfold HOp.writeBack writeBackBytes
  dsimp only
  rw [← hb, hl, Is.order hi]
  split
  · exact Runs.ok rfl
  · refine (swizzle_runs _ hv).bind ?_
    rintro z d _ ⟨hv', _, rfl⟩
    exact (swizzle_runs _ hv').mono fun z a b h => h.2.2

/-- A call that can change a disk: it says what it says on values, and changes the arrays of the disk only. -/
structure Changes (m : Mem) (h : HOp) (r : HOp.Res) (R : Out Bool × AnyOp) : Prop where
  out : r.out = R.1
  is : Is r.mem r.op R.2
  arrays : r.op.arrays = h.arrays
  other : ∀ t, Valid m t → t.arr ∉ h.arrays → Valid r.mem t ∧ bytesOf r.mem t = bytesOf m t

theorem Same.changes {m : Mem} {o : Heap.Op} {O : Supermon.Operator} (h : Rep m o O) {r : Heap.Res} {R : Supermon.Operator.Res} (hs : Same m o O r R) :
    Changes m (.nakedos o) ⟨HOp.answer r.out r.existed, .nakedos r.op, r.mem⟩
      ((match R.out with
        | .ok _ => .ok R.existed
        | .err k => .err k
        | .panic => .panic
        | .timeout => .timeout), .nakedos R.op) := by
  refine ⟨?_, hs.rep h, ?_, ?_⟩
  · show HOp.answer r.out r.existed = _
    rw [hs.out, hs.existed]
    unfold HOp.answer
    cases R.out <;> rfl
  · show [_, _] = [_, _]
    rw [hs.data, hs.sm]
  · intro t ht ha
    have h1 : t.arr ≠ o.data.arr := fun e => ha (by rw [e]; exact List.mem_cons_self)
    have h2 : t.arr ≠ o.sm.arr := fun e => ha (by rw [e]; exact List.mem_cons_of_mem _ (List.mem_singleton.2 rfl))
    exact hs.mem.other h.disks hs.len ht h1 h2

theorem delete_changes {m : Mem} {h : HOp} {O : AnyOp} (hi : Is m h O) (name : Str) : Changes m h (h.delete name m) (O.delete name) := by
  cases h <;> cases O <;> first | (exact hi.elim) | skip
  · exact ⟨rfl, hi, rfl, fun _ ht _ => ⟨ht, rfl⟩⟩
  · exact Same.changes hi (delete_same hi name)
  · exact ⟨rfl, hi, rfl, fun _ ht _ => ⟨ht, rfl⟩⟩

theorem putFile_changes {m : Mem} {h : HOp} {O : AnyOp} (hi : Is m h O) (name : Str) {data : Slice} (hv : Valid m data) (ow : Bool) :
    Changes m h (h.putFile name data ow m)
      (O.putFile ⟨{ name := name, length := (bytesOf m data).length, type := filetypeBinary }, bytesOf m data, 0⟩ ow) := by
  cases h <;> cases O <;> first | (exact hi.elim) | skip
  · exact ⟨rfl, hi, rfl, fun _ ht _ => ⟨ht, rfl⟩⟩
  · exact Same.changes hi
      (putFile_same hi ⟨{ name := name, length := (bytesOf m data).length, type := filetypeBinary }, bytesOf m data, 0⟩ rfl hv rfl rfl ow)
  · exact ⟨rfl, hi, rfl, fun _ ht _ => ⟨ht, rfl⟩⟩

/-- `append`, in the array of the slice or in a new one. -/
theorem append_own {grow : Nat → Nat → Nat} {m : Mem} {r t : Slice} (hr : Valid m r) (ht : Valid m t) :
    ∃ r' m', append grow r t m = (.ok r', m') ∧ Valid m' r' ∧ bytesOf m' r' = bytesOf m r ++ bytesOf m t ∧ (r'.arr = r.arr ∨ m.length ≤ r'.arr) ∧
      ∀ q, Valid m q → q.arr ≠ r.arr → Valid m' q ∧ bytesOf m' q = bytesOf m q := by
  have hrl := bytesOf_length hr
  have htl := bytesOf_length ht
  unfold append
  by_cases hc : r.len + t.len ≤ r.cap
  · rw [if_pos hc]
    have hR : Valid m ⟨r.arr, r.off, r.cap, r.cap⟩ := ⟨hr.arr, hr.room, Nat.le_refl _⟩
    have hRl := bytesOf_length hR
    dsimp only at hRl
    have hl' : (bytesOf m ⟨r.arr, r.off, r.cap, r.cap⟩).take r.len = bytesOf m r := by
      unfold bytesOf slice
      dsimp only
      rw [List.take_take, Nat.min_eq_left (by omega)]
    refine ⟨_, _, rfl, ?_⟩
    generalize bytesOf m t = b at *
    rw [store_part hR (lo := r.len) ⟨r.arr, r.off + r.len, t.len, t.len⟩ rfl rfl (by show r.len + b.length ≤ r.cap; omega)]
    generalize bytesOf m ⟨r.arr, r.off, r.cap, r.cap⟩ = l at *
    have hpl : (put l r.len b).length = r.cap := by rw [put_length (by omega), hRl]
    refine ⟨?_, ?_, Or.inl rfl, ?_⟩
    · have hR' : Valid m ⟨r.arr, r.off, r.len + t.len, r.cap⟩ := ⟨hr.arr, hr.room, hc⟩
      exact hR'.store hR (by rw [hpl]; exact Nat.le_refl _)
    · have e := bytesOf_store_same hR hpl
      have e2 : ∀ M : Mem, bytesOf M ⟨r.arr, r.off, r.len + t.len, r.cap⟩ = (bytesOf M ⟨r.arr, r.off, r.cap, r.cap⟩).take (r.len + t.len) := by
        intro M
        unfold bytesOf slice
        dsimp only
        rw [List.take_take, Nat.min_eq_left (by omega)]
      rw [e2, e]
      unfold put
      rw [hl', List.take_left' (by rw [List.length_append, hrl, htl])]
    · intro q hq hne
      exact ⟨hq.store hR (by rw [hpl]; exact Nat.le_refl _), bytesOf_store_other hne _⟩
  · rw [if_neg hc]
    refine ⟨_, _, rfl, ?_, ?_, Or.inr (Nat.le_refl _), fun q hq _ => ⟨hq.append _, bytesOf_append hq.arr _⟩⟩
    · exact fresh_valid _ _ _ (by omega) (by rw [List.length_append, List.length_append, zeros_length, hrl, htl]; exact Nat.le_refl _)
    · rw [bytesOf_fresh_take, List.take_left' (by rw [List.length_append, hrl, htl])]

/-- Writing all of a thing's bytes. -/
theorem IsObj.store {m : Mem} {t : Obj} {u : VObj} (h : IsObj m t u) {b : Bytes} (hb : b.length = t.slice.len) : IsObj (store t.slice b m) t (u.withBytes b) := by
  have hv := h.bytes.1
  have hc : b.length ≤ t.slice.cap := by rw [hb]; exact hv.len
  have hs := bytesOf_store_same hv hb
  cases t with
  | mine t =>
    cases u with
    | mine b' => exact ⟨hv.store hv hc, hs⟩
    | disk o => exact h.elim
  | disk d =>
    cases u with
    | mine b' => exact h.elim
    | disk o =>
      cases d <;> cases o <;> first | (exact h.elim) | skip
      · exact ⟨hv.store hv hc, hs⟩
      · exact ⟨⟨hv.store hv hc, h.disks.vsm.store hv hc, h.disks.ne, hs, (bytesOf_store_other (Ne.symm h.disks.ne) b).trans h.disks.hsm⟩, h.st⟩
      · exact ⟨hv.store hv hc, hs⟩

end Verif.Spec
