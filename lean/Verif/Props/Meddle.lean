import Verif.Spec.Meddle
import Verif.Props.Mixed
import Verif.Props.Live
import Verif.Props.Crash

/-!
# C107: whatever happens to the files while a command runs, it behaves as on some files
-/

set_option autoImplicit false

namespace Verif.Cmd
open Disk Spec

/-- The program looks at no file. -/
def Prog.Blind : Prog Unit → Prop
  | .ret _ => True
  | .stdin k => ∀ b, (k b).Blind
  | .read _ _ => False
  | .stat _ _ => False
  | .trunc _ k => k.Blind
  | .write _ _ k => k.Blind
  | .print _ k => k.Blind

/-- The program looks at each file at most once, not at those of `S`, and not after it has changed one. -/
def Prog.EachOnce : (Str → Prop) → Prog Unit → Prop
  | _, .ret _ => True
  | S, .stdin k => ∀ b, (k b).EachOnce S
  | S, .read p k => ¬ S p ∧ ∀ b, (k b).EachOnce fun q => S q ∨ q = p
  | S, .stat p k => ¬ S p ∧ ∀ b, (k b).EachOnce fun q => S q ∨ q = p
  | _, .trunc _ k => k.Blind
  | _, .write _ _ k => k.Blind
  | S, .print _ k => k.EachOnce S

theorem among_cons (p : Worker) (t : FileSystem × Nat) (l : List (FileSystem × Nat)) : Worker.among p (t :: l) = Worker.among (p.step t.1 t.2).2 l := rfl

theorem Glimpsed.mono {l l' : List (FileSystem × Nat)} (h : ∀ t ∈ l, t ∈ l') {q : Str} {x : Option Bytes} (hg : Glimpsed l q x) : Glimpsed l' q x := by
  cases x with
  | none => obtain ⟨t, h1, h2⟩ := hg; exact ⟨t, h t h1, h2⟩
  | some b =>
    obtain ⟨⟨t, h1, h2⟩, h3, ⟨u, h4, h5⟩⟩ := hg
    exact ⟨⟨t, h t h1, h2⟩, fun k c hk => by obtain ⟨t, k1, k2⟩ := h3 k c hk; exact ⟨t, h t k1, k2⟩, ⟨u, h u h4, h5⟩⟩

/-- Nobody but the program changes file `q`, which is `x` at first. -/
def Worker.Sole (q : Str) : Option Bytes → Worker → List (FileSystem × Nat) → Prop
  | _, _, [] => True
  | x, p, t :: l => t.1 q = x ∧ Worker.Sole q ((p.step t.1 t.2).1 q) (p.step t.1 t.2).2 l

/-- What file `q` is then, if it is `x` at first. -/
def Worker.leaves (q : Str) : Option Bytes → Worker → List (FileSystem × Nat) → Option Bytes
  | x, _, [] => x
  | _, p, t :: l => Worker.leaves q ((p.step t.1 t.2).1 q) (p.step t.1 t.2).2 l

/-- A writing that has been gone through. -/
theorem among_write {q : Str} {b : Bytes} {k : Prog Unit} {o : Out Unit} : ∀ (l : List (FileSystem × Nat)) (m : Option Bytes) (i s : Bytes),
    (Worker.among ⟨.write q b k, m, i, s⟩ l).prog = .ret o →
    ∃ l', (∀ t ∈ l', t ∈ l) ∧ Worker.among ⟨.write q b k, m, i, s⟩ l = Worker.among ⟨k, none, i, s⟩ l' ∧
      (∀ r x, r ≠ q → Worker.Sole r x ⟨.write q b k, m, i, s⟩ l → Worker.Sole r x ⟨k, none, i, s⟩ l' ∧
        Worker.leaves r x ⟨.write q b k, m, i, s⟩ l = Worker.leaves r x ⟨k, none, i, s⟩ l') ∧
      (∀ x, m.getD [] <+: x.getD [] → m.getD [] <+: b → Worker.Sole q x ⟨.write q b k, m, i, s⟩ l →
        Worker.Sole q (some (b ++ (x.getD []).drop b.length)) ⟨k, none, i, s⟩ l' ∧
        Worker.leaves q x ⟨.write q b k, m, i, s⟩ l = Worker.leaves q (some (b ++ (x.getD []).drop b.length)) ⟨k, none, i, s⟩ l') := by
  intro l
  induction l with
  | nil => intro m i s h; cases h
  | cons t l ih =>
    intro m i s h
    rw [among_cons] at h ⊢
    by_cases hb : b.length ≤ (m.getD [] ++ (b.drop (m.getD []).length).take (t.2 + 1)).length
    · refine ⟨l, fun t ht => List.mem_cons_of_mem _ ht, by simp only [Worker.step, if_pos hb], ?_, ?_⟩
      · rintro r x hr ⟨h1, h2⟩
        simp only [Worker.leaves, Worker.step, if_pos hb, if_neg hr] at h2 ⊢
        rw [h1] at h2 ⊢
        exact ⟨h2, rfl⟩
      · rintro x hx hm ⟨h1, h2⟩
        have e : writeAt (x.getD []) (m.getD []).length ((b.drop (m.getD []).length).take (t.2 + 1)) = b ++ (x.getD []).drop b.length := by
          rw [writeAt_spec hx hm, (piece_prefix hm (t.2 + 1)).eq_of_length_le hb]
        simp only [Worker.leaves, Worker.step, if_pos hb, if_true] at h2 ⊢
        rw [h1, e] at h2 ⊢
        exact ⟨h2, rfl⟩
    · simp only [Worker.step, if_neg hb] at h ⊢
      obtain ⟨l', h1, h2, h3, h4⟩ := ih _ _ _ h
      refine ⟨l', fun t ht => List.mem_cons_of_mem _ (h1 t ht), h2, ?_, ?_⟩
      · rintro r x hr ⟨k1, k2⟩
        simp only [Worker.leaves, Worker.step, if_neg hb, if_neg hr] at k2 ⊢
        rw [k1] at k2 ⊢
        exact h3 r x hr k2
      · rintro x hx hm ⟨k1, k2⟩
        have hp := piece_prefix hm (t.2 + 1)
        have e := writeAt_spec hx hm t.2
        simp only [Worker.leaves, Worker.step, if_neg hb, if_true] at k2 ⊢
        rw [k1, e] at k2 ⊢
        have := h4 _ (by rw [Option.getD_some, Option.getD_some]; exact List.prefix_append _ _) hp k2
        rw [Option.getD_some] at this
        have hd : ((m.getD [] ++ (b.drop (m.getD []).length).take (t.2 + 1)) ++
            (x.getD []).drop (m.getD [] ++ (b.drop (m.getD []).length).take (t.2 + 1)).length).drop b.length = (x.getD []).drop b.length := by
          rw [List.drop_append, List.drop_eq_nil_of_le (by omega), List.nil_append, List.drop_drop]
          congr 1
          omega
        rw [hd] at this
        exact this

/-- A program that looks at no file does the same on all. -/
theorem blind_among (p : Prog Unit) (hp : p.Blind) : ∀ (l : List (FileSystem × Nat)) (i s : Bytes) (o : Out Unit),
    (Worker.among ⟨p, none, i, s⟩ l).prog = .ret o → ∀ fs : FileSystem, (p.exec ⟨fs, i, s⟩).1 = o ∧
      (p.exec ⟨fs, i, s⟩).2.stdout = (Worker.among ⟨p, none, i, s⟩ l).stdout ∧
      ∀ q, Worker.Sole q (fs q) ⟨p, none, i, s⟩ l → (p.exec ⟨fs, i, s⟩).2.files q = Worker.leaves q (fs q) ⟨p, none, i, s⟩ l := by
  induction p with
  | ret r =>
    intro l i s o h fs
    have : ∀ l : List (FileSystem × Nat), Worker.among ⟨.ret r, none, i, s⟩ l = ⟨.ret r, none, i, s⟩ ∧
        ∀ q x, Worker.Sole q x ⟨.ret r, none, i, s⟩ l → Worker.leaves q x ⟨.ret r, none, i, s⟩ l = x := by
      intro l
      induction l with
      | nil => exact ⟨rfl, fun _ _ _ => rfl⟩
      | cons t l ih =>
        refine ⟨ih.1, fun q x hs => ?_⟩
        obtain ⟨h1, h2⟩ := hs
        show Worker.leaves q (t.1 q) _ l = x
        rw [← h1]
        exact ih.2 q _ h2
    obtain ⟨h1, h2⟩ := this l
    rw [h1] at h ⊢
    cases h
    exact ⟨rfl, rfl, fun q hs => (h2 q _ hs).symm⟩
  | stdin k ih =>
    intro l i s o h fs
    cases l with
    | nil => cases h
    | cons t l =>
      obtain ⟨h1, h2, h3⟩ := ih _ (hp _) l _ _ o h fs
      refine ⟨h1, h2, fun q hs => ?_⟩
      obtain ⟨k1, k2⟩ := hs
      show _ = Worker.leaves q (t.1 q) _ l
      rw [k1]
      exact h3 q (k1 ▸ k2)
  | read p k ih => exact absurd hp id
  | stat p k ih => exact absurd hp id
  | trunc p k ih =>
    intro l i s o h fs
    cases l with
    | nil => cases h
    | cons t l =>
      obtain ⟨h1, h2, h3⟩ := ih hp l _ _ o h fun r => if r = p then some [] else fs r
      refine ⟨h1, h2, fun q hs => ?_⟩
      obtain ⟨k1, k2⟩ := hs
      have e : (Worker.step t.1 ⟨.trunc p k, none, i, s⟩ t.2).1 q = if q = p then some [] else fs q := by
        show (if q = p then some [] else t.1 q) = _
        rw [k1]
      show _ = Worker.leaves q ((Worker.step t.1 ⟨.trunc p k, none, i, s⟩ t.2).1 q) _ l
      rw [e] at k2 ⊢
      exact h3 q k2
  | write p b k ih =>
    intro l i s o h fs
    obtain ⟨l', _, e, h3, h4⟩ := among_write l none i s h
    rw [e] at h ⊢
    obtain ⟨k1, k2, k3⟩ := ih hp l' _ _ o h fun r => if r = p then some (b ++ ((fs p).getD []).drop b.length) else fs r
    refine ⟨k1, k2, fun q hs => ?_⟩
    have k3 := k3 q
    by_cases hq : q = p
    · subst hq
      obtain ⟨m1, m2⟩ := h4 (fs q) (List.nil_prefix) (List.nil_prefix) hs
      simp only [if_true] at k3
      rw [m2]
      exact k3 m1
    · obtain ⟨m1, m2⟩ := h3 q (fs q) hq hs
      simp only [if_neg hq] at k3
      rw [m2]
      exact k3 m1
  | print b k ih =>
    intro l i s o h fs
    cases l with
    | nil => cases h
    | cons t l =>
      obtain ⟨h1, h2, h3⟩ := ih hp l _ _ o h fs
      refine ⟨h1, h2, fun q hs => ?_⟩
      obtain ⟨k1, k2⟩ := hs
      show _ = Worker.leaves q (t.1 q) _ l
      rw [k1]
      exact h3 q (k1 ▸ k2)

/-- A reading that has been gone through. -/
theorem among_reading {q : Str} {k : Option Bytes → Prog Unit} {o : Out Unit} (l₀ : List (FileSystem × Nat)) :
    ∀ (l : List (FileSystem × Nat)), (∀ t ∈ l, t ∈ l₀) → ∀ (got i s : Bytes), (∃ t ∈ l₀, t.1 q ≠ none) →
    (∀ (k : Nat) (c : UInt8), got[k]? = some c → ∃ t ∈ l₀, ∃ d, t.1 q = some d ∧ d[k]? = some c) →
    (Worker.among ⟨.read q k, some got, i, s⟩ l).prog = .ret o →
    ∃ l' b, (∀ t ∈ l', t ∈ l₀) ∧ Worker.among ⟨.read q k, some got, i, s⟩ l = Worker.among ⟨k (some b), none, i, s⟩ l' ∧ Glimpsed l₀ q (some b) ∧
      (∀ r x, Worker.Sole r x ⟨.read q k, some got, i, s⟩ l → Worker.Sole r x ⟨k (some b), none, i, s⟩ l' ∧
        Worker.leaves r x ⟨.read q k, some got, i, s⟩ l = Worker.leaves r x ⟨k (some b), none, i, s⟩ l') ∧
      (∀ c, got <+: c → Worker.Sole q (some c) ⟨.read q k, some got, i, s⟩ l → b = c) := by
  intro l
  induction l with
  | nil => intro _ got i s _ _ h; cases h
  | cons t l ih =>
    intro hl got i s hex hgot h
    rw [among_cons] at h ⊢
    have ht := hl t List.mem_cons_self
    by_cases hp : (((t.1 q).getD []).drop got.length).take (t.2 + 1) = []
    · have hlen : ((t.1 q).getD []).length ≤ got.length := by
        have := congrArg List.length hp
        rw [List.length_take, List.length_drop, List.length_nil] at this
        omega
      refine ⟨l, got, fun t ht => hl t (List.mem_cons_of_mem _ ht), ?_, ⟨hex, hgot, t, ht, hlen⟩, ?_, ?_⟩
      · simp only [Worker.step, if_pos hp]
      · rintro r x ⟨h1, h2⟩
        simp only [Worker.leaves, Worker.step, if_pos hp] at h2 ⊢
        rw [h1] at h2 ⊢
        exact ⟨h2, rfl⟩
      · rintro c hc ⟨h1, -⟩
        rw [h1, Option.getD_some] at hlen
        exact hc.eq_of_length_le hlen
    · simp only [Worker.step, if_neg hp] at h ⊢
      obtain ⟨l', b, g1, g2, g3, g4, g5⟩ := ih (fun t ht => hl t (List.mem_cons_of_mem _ ht)) (got ++ (((t.1 q).getD []).drop got.length).take (t.2 + 1)) i s hex (by
        intro k c hk
        rw [List.getElem?_append] at hk
        split at hk
        · exact hgot k c hk
        · rename_i hlt
          rw [List.getElem?_take] at hk
          split at hk
          · rw [List.getElem?_drop, show got.length + (k - got.length) = k by omega] at hk
            cases hd : t.1 q with
            | none => rw [hd] at hk; simp at hk
            | some d =>
              rw [hd, Option.getD_some] at hk
              exact ⟨t, ht, d, hd, hk⟩
          · cases hk) h
      refine ⟨l', b, g1, g2, g3, ?_, ?_⟩
      · rintro r x ⟨h1, h2⟩
        simp only [Worker.leaves, Worker.step, if_neg hp] at h2 ⊢
        rw [h1] at h2 ⊢
        exact g4 r x h2
      · rintro c hc ⟨h1, h2⟩
        simp only [Worker.step, if_neg hp] at h2
        rw [h1] at h2
        refine g5 c ?_ (by rw [h1]; exact h2)
        rw [h1, Option.getD_some]
        exact piece_prefix hc _

/-- A program that looks at each file at most once does what it does on some files. -/
theorem once_among (p : Prog Unit) : ∀ (S : Str → Prop), p.EachOnce S → ∀ (l : List (FileSystem × Nat)) (i s : Bytes) (o : Out Unit),
    (Worker.among ⟨p, none, i, s⟩ l).prog = .ret o → ∀ fs₀ : FileSystem, ∃ fs : FileSystem,
      (∀ q, fs q = fs₀ q ∨ ¬ S q ∧ Glimpsed l q (fs q)) ∧ (p.exec ⟨fs, i, s⟩).1 = o ∧
      (p.exec ⟨fs, i, s⟩).2.stdout = (Worker.among ⟨p, none, i, s⟩ l).stdout ∧
      ∀ q, Worker.Sole q (fs₀ q) ⟨p, none, i, s⟩ l → fs q = fs₀ q ∧ (p.exec ⟨fs, i, s⟩).2.files q = Worker.leaves q (fs₀ q) ⟨p, none, i, s⟩ l := by
  -- after looking at a file
  have look : ∀ {S : Str → Prop} {l l' : List (FileSystem × Nat)} {q : Str} {x : Option Bytes} {fs₀ fs : FileSystem}, ¬ S q → (∀ t ∈ l', t ∈ l) →
      Glimpsed l q x →
      (∀ r, fs r = (fun r => if r = q then x else fs₀ r) r ∨ ¬ (S r ∨ r = q) ∧ Glimpsed l' r (fs r)) →
      fs q = x ∧ ∀ r, fs r = fs₀ r ∨ ¬ S r ∧ Glimpsed l r (fs r) := by
    intro S l l' q x fs₀ fs hS hl hg h
    have hq : fs q = x := by
      rcases h q with h | ⟨h, _⟩
      · rw [h]; exact if_pos rfl
      · exact absurd (Or.inr rfl) h
    refine ⟨hq, fun r => ?_⟩
    by_cases hr : r = q
    · subst hr
      rw [hq]
      exact Or.inr ⟨hS, hg⟩
    · rcases h r with h | ⟨h1, h2⟩
      · left
        rw [h]
        exact if_neg hr
      · exact Or.inr ⟨fun hc => h1 (Or.inl hc), Glimpsed.mono hl h2⟩
  induction p with
  | ret r =>
    intro S hp l i s o h fs₀
    obtain ⟨h1, h2, h3⟩ := blind_among (.ret r) trivial l i s o h fs₀
    exact ⟨fs₀, fun _ => Or.inl rfl, h1, h2, fun q hq => ⟨rfl, h3 q hq⟩⟩
  | stdin k ih =>
    intro S hp l i s o h fs₀
    cases l with
    | nil => cases h
    | cons t l =>
      obtain ⟨fs, h1, h2, h3, h4⟩ := ih _ S (hp _) l _ _ o h fs₀
      refine ⟨fs, fun q => (h1 q).imp id fun h => ⟨h.1, Glimpsed.mono (fun t ht => List.mem_cons_of_mem _ ht) h.2⟩, h2, h3, fun q hs => ?_⟩
      obtain ⟨k1, k2⟩ := hs
      show _ ∧ _ = Worker.leaves q (t.1 q) _ l
      rw [k1]
      exact h4 q (k1 ▸ k2)
  | read q k ih =>
    intro S hp l i s o h fs₀
    cases l with
    | nil => cases h
    | cons t l =>
      rw [among_cons] at h ⊢
      cases hq : t.1 q with
      | none =>
        have hst : Worker.step t.1 ⟨.read q k, none, i, s⟩ t.2 = (t.1, ⟨k none, none, i, s⟩) := by simp only [Worker.step, hq]
        rw [hst] at h ⊢
        obtain ⟨fs, h1, h2, h3, h4⟩ := ih none _ (hp.2 none) l _ _ o h fun r => if r = q then none else fs₀ r
        obtain ⟨k1, k2⟩ := look (l := t :: l) (x := none) hp.1 (fun u hu => List.mem_cons_of_mem _ hu) ⟨t, List.mem_cons_self, hq⟩ h1
        refine ⟨fs, k2, ?_⟩
        show ((k (fs q)).exec _).1 = o ∧ ((k (fs q)).exec _).2.stdout = _ ∧
          ∀ r, _ → _ ∧ ((k (fs q)).exec _).2.files r = Worker.leaves r ((Worker.step t.1 ⟨.read q k, none, i, s⟩ t.2).1 r)
            (Worker.step t.1 ⟨.read q k, none, i, s⟩ t.2).2 l
        rw [k1, hst]
        refine ⟨h2, h3, fun r hs => ?_⟩
        obtain ⟨m1, m2⟩ := hs
        rw [hst] at m2
        have e : (if r = q then none else fs₀ r) = fs₀ r := by
          split
          · rename_i hr; rw [← m1, hr, hq]
          · rfl
        have h4 := h4 r
        simp only [e] at h4
        dsimp only at m2 ⊢
        rw [m1] at m2 ⊢
        exact h4 m2
      | some d =>
        have hst : Worker.step t.1 ⟨.read q k, none, i, s⟩ t.2 = (t.1, ⟨.read q k, some [], i, s⟩) := by simp only [Worker.step, hq]
        rw [hst] at h ⊢
        obtain ⟨l', b, g1, g2, g3, g4, g5⟩ := among_reading (t :: l) l (fun u hu => List.mem_cons_of_mem _ hu) [] i s
          ⟨t, List.mem_cons_self, by rw [hq]; simp⟩ (fun k c hk => by simp at hk) h
        dsimp only at h ⊢
        rw [g2] at h ⊢
        obtain ⟨fs, h1, h2, h3, h4⟩ := ih (some b) _ (hp.2 (some b)) l' _ _ o h fun r => if r = q then some b else fs₀ r
        obtain ⟨k1, k2⟩ := look (l := t :: l) (x := some b) hp.1 g1 g3 h1
        refine ⟨fs, k2, ?_⟩
        show ((k (fs q)).exec _).1 = o ∧ ((k (fs q)).exec _).2.stdout = _ ∧
          ∀ r, _ → _ ∧ ((k (fs q)).exec _).2.files r = Worker.leaves r ((Worker.step t.1 ⟨.read q k, none, i, s⟩ t.2).1 r)
            (Worker.step t.1 ⟨.read q k, none, i, s⟩ t.2).2 l
        rw [k1, hst]
        refine ⟨h2, h3, fun r hs => ?_⟩
        obtain ⟨m1, m2⟩ := hs
        rw [hst] at m2
        dsimp only at m2 ⊢
        rw [m1] at m2 ⊢
        have e : (if r = q then some b else fs₀ r) = fs₀ r := by
          split
          · rename_i hr
            subst hr
            have : fs₀ r = some d := by rw [← m1, hq]
            rw [this] at m2
            rw [g5 d List.nil_prefix m2, this]
          · rfl
        have h4 := h4 r
        simp only [e] at h4
        obtain ⟨n1, n2⟩ := g4 r _ m2
        rw [n2]
        exact h4 n1
  | stat q k ih =>
    intro S hp l i s o h fs₀
    cases l with
    | nil => cases h
    | cons t l =>
      obtain ⟨fs, h1, h2, h3, h4⟩ := ih _ _ (hp.2 _) l _ _ o h fun r => if r = q then t.1 q else fs₀ r
      have hg : Glimpsed (t :: l) q (t.1 q) := by
        cases hq : t.1 q with
        | none => exact ⟨t, List.mem_cons_self, hq⟩
        | some d =>
          exact ⟨⟨t, List.mem_cons_self, by rw [hq]; simp⟩, fun k c hk => ⟨t, List.mem_cons_self, d, hq, hk⟩,
            t, List.mem_cons_self, by rw [hq]; exact Nat.le_refl _⟩
      obtain ⟨k1, k2⟩ := look (l := t :: l) hp.1 (fun u hu => List.mem_cons_of_mem _ hu) hg h1
      refine ⟨fs, k2, ?_⟩
      show ((k (fs q).isSome).exec _).1 = o ∧ ((k (fs q).isSome).exec _).2.stdout = _ ∧
        ∀ r, _ → _ ∧ ((k (fs q).isSome).exec _).2.files r = Worker.leaves r (t.1 r) ⟨k (t.1 q).isSome, none, i, s⟩ l
      rw [k1]
      refine ⟨h2, h3, fun r hs => ?_⟩
      obtain ⟨m1, m2⟩ := hs
      have e : (if r = q then t.1 q else fs₀ r) = fs₀ r := by
        split
        · rename_i hr; rw [← m1, hr]
        · rfl
      have h4 := h4 r
      simp only [e] at h4
      change Worker.Sole r (t.1 r) ⟨k (t.1 q).isSome, none, i, s⟩ l at m2
      rw [m1] at m2 ⊢
      exact h4 m2
  | trunc q k ih =>
    intro S hp l i s o h fs₀
    obtain ⟨h1, h2, h3⟩ := blind_among (.trunc q k) hp l i s o h fs₀
    exact ⟨fs₀, fun _ => Or.inl rfl, h1, h2, fun q hq => ⟨rfl, h3 q hq⟩⟩
  | write q b k ih =>
    intro S hp l i s o h fs₀
    obtain ⟨h1, h2, h3⟩ := blind_among (.write q b k) hp l i s o h fs₀
    exact ⟨fs₀, fun _ => Or.inl rfl, h1, h2, fun q hq => ⟨rfl, h3 q hq⟩⟩
  | print b k ih =>
    intro S hp l i s o h fs₀
    cases l with
    | nil => cases h
    | cons t l =>
      obtain ⟨fs, h1, h2, h3, h4⟩ := ih S hp l _ _ o h fs₀
      refine ⟨fs, fun q => (h1 q).imp id fun h => ⟨h.1, Glimpsed.mono (fun t ht => List.mem_cons_of_mem _ ht) h.2⟩, h2, h3, fun q hs => ?_⟩
      obtain ⟨k1, k2⟩ := hs
      show _ ∧ _ = Worker.leaves q (t.1 q) _ l
      rw [k1]
      exact h4 q (k1 ▸ k2)

/-! ## The commands look at each file once -/

theorem EachOnce.mono : ∀ (p : Prog Unit) {S T : Str → Prop}, (∀ q, T q → S q) → p.EachOnce S → p.EachOnce T := by
  intro p
  induction p with
  | ret r => intro S T _ _; trivial
  | stdin k ih => intro S T h hp b; exact ih b h (hp b)
  | read p k ih => intro S T h hp; exact ⟨fun hc => hp.1 (h _ hc), fun b => ih b (fun q hq => hq.imp (h q) id) (hp.2 b)⟩
  | stat p k ih => intro S T h hp; exact ⟨fun hc => hp.1 (h _ hc), fun b => ih b (fun q hq => hq.imp (h q) id) (hp.2 b)⟩
  | trunc p k ih => intro S T h hp; exact hp
  | write p b k ih => intro S T h hp; exact hp
  | print b k ih => intro S T h hp; exact ih h hp

/-- Doing one thing after another, the first of which only looks at `p`. -/
def Prog.JustReads {α : Type} (p : Str) (m : Prog α) : Prop :=
  (p = str "-" ∧ ∃ f : Bytes → Out α, m = .stdin fun b => .ret (f b)) ∨ (p ≠ str "-" ∧ ∃ f : Option Bytes → Out α, m = .read p fun b => .ret (f b))

theorem once_reads {α : Type} {p : Str} {m : Prog α} (hm : m.JustReads p) {S : Str → Prop} {f : α → Prog Unit} (hp : p = str "-" ∨ ¬ S p)
    (hf : ∀ a, (f a).EachOnce fun q => S q ∨ (q = p ∧ p ≠ str "-")) : (m.bind f).EachOnce S := by
  rcases hm with ⟨e, g, rfl⟩ | ⟨e, g, rfl⟩
  · intro b
    show ((Prog.ret (g b)).bind f).EachOnce S
    cases h : g b with
    | ok a => exact EachOnce.mono (f a) (fun q hq => Or.inl hq) (hf a)
    | err k => trivial
    | panic => trivial
    | timeout => trivial
  · refine ⟨hp.resolve_left e, fun b => ?_⟩
    show ((Prog.ret (g b)).bind f).EachOnce _
    cases h : g b with
    | ok a => exact EachOnce.mono (f a) (fun q hq => hq.imp id fun h => ⟨h, e⟩) (hf a)
    | err k => trivial
    | panic => trivial
    | timeout => trivial

theorem once_ret {α : Type} {r : Out α} {S : Str → Prop} {f : α → Prog Unit} (hf : ∀ a, r = .ok a → (f a).EachOnce S) :
    ((Prog.ret r).bind f).EachOnce S := by
  cases r with
  | ok a => exact hf a rfl
  | err k => trivial
  | panic => trivial
  | timeout => trivial

theorem contentsOf_reads (p : Str) : (Prog.contentsOf p).JustReads p := by
  unfold Prog.contentsOf
  split
  · rename_i h; exact Or.inl ⟨h, _, rfl⟩
  · rename_i h
    refine Or.inr ⟨h, fun b => match b with | some b => .ok b | none => .err .other, ?_⟩
    congr 1; funext b; cases b <;> rfl

theorem openDisk_reads (env : Env) (p : Str) (o : DiskOrder) (s : Str) : (Prog.openDisk env p o s).JustReads p := by
  unfold Prog.openDisk
  split
  · rename_i h; exact Or.inl ⟨h, _, rfl⟩
  · rename_i h
    refine Or.inr ⟨h, fun b => match b with | some bb => openImage bb p o s (factories env) | none => .err .other, ?_⟩
    congr 1; funext b; cases b <;> rfl

theorem writeOutput_once (p : Str) (b : Bytes) (force : Bool) {S : Str → Prop} (h : p = str "-" ∨ force = true ∨ ¬ S p) :
    (Prog.writeOutput p b force).EachOnce S := by
  unfold Prog.writeOutput
  split
  · exact trivial
  · rename_i hp
    split
    · rename_i hf
      refine ⟨(h.resolve_left hp).resolve_left (by rw [hf]; simp), fun t => ?_⟩
      show Prog.EachOnce _ (if t = true then _ else _)
      split
      · exact trivial
      · exact trivial
    · exact trivial

theorem writeDisk_once (p : Str) (op : AnyOp) (o : DiskOrder) {S : Str → Prop} : (Prog.writeDisk p op o).EachOnce S :=
  once_ret fun _ _ => writeOutput_once _ _ _ (Or.inr (Or.inl rfl))

theorem program_once (env : Env) (c : Command) (hc : ¬ LooksTwice c) : (program env c).EachOnce fun _ => False := by
  cases c with
  | ls o s sh i d =>
    refine once_reads (openDisk_reads env i o s) (Or.inr id) fun a => ?_
    obtain ⟨op, ord⟩ := a
    simp only
    split
    · trivial
    · exact once_ret fun _ _ => trivial
  | reorder o n ow i j =>
    refine once_ret fun a _ => ?_
    obtain ⟨a, b⟩ := a
    refine once_reads (contentsOf_reads i) (Or.inr id) fun fb => once_ret fun tb _ => ?_
    split
    · exact writeOutput_once _ _ _ (Or.inr (Or.inl rfl))
    · refine writeOutput_once _ _ _ ?_
      cases ow with
      | true => exact Or.inr (Or.inl rfl)
      | false =>
        right; right
        rintro (h | ⟨h1, h2⟩)
        · exact h
        · exact hc ⟨h1.symm, h2, rfl⟩
  | filetypes a => trivial
  | put o s t ow a i x y =>
    show (Prog.putCmd env o s t ow a i x y).EachOnce _
    unfold Prog.putCmd
    split
    · trivial
    · refine once_reads (openDisk_reads env i o s) (Or.inr id) fun a => ?_
      obtain ⟨op, ord⟩ := a
      refine once_reads (contentsOf_reads y) (Or.inr ?_) fun b => once_ret fun ft _ => once_ret fun _ _ => writeDisk_once _ _ _
      rintro (h | ⟨h1, h2⟩)
      · exact h
      · exact hc ⟨h1.symm, h2⟩
  | rm o s m i n =>
    refine once_reads (openDisk_reads env i o s) (Or.inr id) fun a => ?_
    obtain ⟨op, ord⟩ := a
    refine once_ret fun d _ => ?_
    split
    · trivial
    · exact writeDisk_once _ _ _
  | dump o s i n =>
    refine once_reads (openDisk_reads env i o s) (Or.inr id) fun a => ?_
    obtain ⟨op, ord⟩ := a
    exact once_ret fun _ _ => trivial
  | mkhello o i n a s =>
    show (Prog.mkhello env o i n a s).EachOnce _
    unfold Prog.mkhello
    simp only
    split
    · trivial
    · split
      · trivial
      · refine once_reads (openDisk_reads env i o _) (Or.inr id) fun a => ?_
        obtain ⟨op, ord⟩ := a
        cases op with
        | nakedos nak =>
          refine once_ret fun x _ => ?_
          obtain ⟨x, y, z⟩ := x
          simp only
          split
          · trivial
          · exact once_ret fun _ _ => writeDisk_once _ _ _
        | dos3 _ => trivial
        | prodos _ => trivial
  | mksd o i b a s =>
    exact once_reads (contentsOf_reads b) (Or.inr id) fun fb => once_ret fun _ _ => once_ret fun _ _ =>
      writeOutput_once _ _ _ (Or.inr (Or.inl rfl))
  | decode f l r =>
    refine once_reads (contentsOf_reads f) (Or.inr id) fun fb => once_ret fun _ _ => ?_
    split <;> trivial

/-! ## The property -/

/-- C107: while a command runs, other programs may do whatever they like to its files between any two of its system calls.  If it comes to its end,
it has ended and printed as it would have alone on some files.  In these every file it looked at is as it could have appeared: each byte was at its
place at some moment while the command ran. -/
theorem C107_as_on_some_files (env : Env) (c : Command) (hc : ¬ LooksTwice c) (stdin : Bytes) (turns : List (FileSystem × Nat)) (o : Out Unit)
    (h : (Worker.among ⟨program env c, none, stdin, []⟩ turns).prog = .ret o) (fs₀ : FileSystem) :
    ∃ fs : FileSystem, (∀ q, fs q = fs₀ q ∨ Glimpsed turns q (fs q)) ∧ (run env c ⟨fs, stdin, []⟩).1 = o ∧
      (run env c ⟨fs, stdin, []⟩).2.stdout = (Worker.among ⟨program env c, none, stdin, []⟩ turns).stdout := by
  obtain ⟨fs, h1, h2, h3, _⟩ := once_among _ _ (program_once env c hc) turns stdin [] o h fs₀
  rw [exec_program] at h2 h3
  exact ⟨fs, fun q => (h1 q).imp id fun h => h.2, h2, h3⟩

/-- The program cannot end with a crash. -/
def Prog.Safe : Prog Unit → Prop
  | .ret o => o ≠ .panic
  | .stdin k => ∀ b, (k b).Safe
  | .read _ k => ∀ b, (k b).Safe
  | .stat _ k => ∀ b, (k b).Safe
  | .trunc _ k => k.Safe
  | .write _ _ k => k.Safe
  | .print _ k => k.Safe

theorem step_safe {p : Worker} (h : p.prog.Safe) (fs : FileSystem) (n : Nat) : (p.step fs n).2.prog.Safe := by
  obtain ⟨prog, m, i, s⟩ := p
  cases prog with
  | ret o => exact h
  | stdin k => exact h _
  | read q k =>
    cases m with
    | none => 
      simp only [Worker.step]
      cases hq : fs q with
      | none => exact h none
      | some _ => exact h
    | some got =>
      by_cases hb : (((fs q).getD []).drop got.length).take (n + 1) = []
      · simp only [Worker.step, if_pos hb]; exact h (some got)
      · simp only [Worker.step, if_neg hb]; exact h
  | stat q k => exact h _
  | trunc q k => exact h
  | write q b k =>
    by_cases hb : b.length ≤ (m.getD [] ++ (b.drop (m.getD []).length).take (n + 1)).length
    · simp only [Worker.step, if_pos hb]; exact h
    · simp only [Worker.step, if_neg hb]; exact h
  | print b k => exact h

theorem among_safe (l : List (FileSystem × Nat)) : ∀ {p : Worker}, p.prog.Safe → (Worker.among p l).prog.Safe := by
  induction l with
  | nil => intro p h; exact h
  | cons t l ih => intro p h; exact ih (step_safe h _ _)

theorem safe_ret {α : Type} {r : Out α} {f : α → Prog Unit} (hr : r ≠ .panic) (hf : ∀ a, (f a).Safe) : ((Prog.ret r).bind f).Safe := by
  cases r with
  | ok a => exact hf a
  | err k => exact fun h => by cases h
  | panic => exact absurd rfl hr
  | timeout => exact fun h => by cases h

theorem writeOutput_safe (p : Str) (b : Bytes) (force : Bool) : (Prog.writeOutput p b force).Safe := by
  unfold Prog.writeOutput
  split
  · exact fun h => by cases h
  · split
    · intro t
      show Prog.Safe (if t = true then _ else _)
      split
      · exact fun h => by cases h
      · exact fun h => by cases h
    · exact fun h => by cases h

theorem reorder_safe (o n : DiskOrder) (ow : Bool) (i j : Str) : (Prog.reorder o n ow i j).Safe := by
  have hg : getOrders i o j n ≠ .panic := by
    unfold getOrders
    split
    · simp
    · split
      · simp
      · split
        · simp
        · split
          · simp
          · dsimp only
            split
            · simp
            · split
              · simp
              · split <;> simp
  have hr : ∀ a b f, reorderBytes a b f ≠ .panic := by
    intro a b f e
    unfold reorderBytes at e
    split at e
    · simp at e
    · split at e
      · simp at e
      · exact Out.bind_ne_panic (swizzle_ne_panic _ _) (fun _ _ => swizzle_ne_panic _ _) e
  refine safe_ret hg fun x => ?_
  obtain ⟨a, b⟩ := x
  have hw : ∀ fb, (((Prog.ret (reorderBytes a b fb)).bind fun tb =>
      if j = [] then Prog.writeOutput i tb true else Prog.writeOutput j tb ow) : Prog Unit).Safe := by
    intro fb
    refine safe_ret (hr _ _ _) fun tb => ?_
    split
    · exact writeOutput_safe _ _ _
    · exact writeOutput_safe _ _ _
  show ((Prog.contentsOf i).bind _).Safe
  unfold Prog.contentsOf
  split
  · intro fb; exact hw fb
  · intro fb
    cases fb with
    | some fb => exact hw fb
    | none => exact fun h => by cases h

/-- C107: the commands that never crash alone (C80) do not crash whatever is done to their files while they run. -/
theorem C107_sturdy (env : Env) (c : Command) (hs : Sturdy c) (stdin : Bytes) (turns : List (FileSystem × Nat)) :
    (Worker.among ⟨program env c, none, stdin, []⟩ turns).prog ≠ .ret .panic := by
  intro h
  by_cases hc : LooksTwice c
  · cases c with
    | reorder o n ow i j =>
      have := among_safe turns (p := ⟨program env (.reorder o n ow i j), none, stdin, []⟩) (reorder_safe o n ow i j)
      rw [h] at this
      exact this rfl
    | put => exact hs
    | _ => exact hc
  · obtain ⟨fs, -, h2, -⟩ := C107_as_on_some_files env c hc stdin turns .panic h fun _ => none
    exact C80_sturdy_partial env c hs _ h2

/-! ## Among other commands -/

variable {ι : Type} [DecidableEq ι]

theorem worker_run (i : ι) (schedule : List (ι × Nat)) : ∀ s : Crew ι,
    (Crew.run s schedule).workers i = Worker.among (s.workers i) (momentsOf s i schedule) := by
  induction schedule with
  | nil => intro s; rfl
  | cons t schedule ih =>
    intro s
    show (Crew.run (Crew.step s t) schedule).workers i = _
    rw [ih]
    by_cases h : t.1 = i
    · simp only [momentsOf, if_pos h, among_cons]
      congr 1
      simp only [Crew.step]
      rw [if_pos h.symm, h]
    · simp only [momentsOf, if_neg h]
      congr 1
      simp only [Crew.step]
      rw [if_neg fun e => h e.symm]

/-- C107: any number of commands that run at the same time, on whatever files, shared in whatever way.  Each that has ended has ended and printed as
it would have alone on some files, in which every file it looked at is as it could have appeared to it. -/
theorem C107_together (env : Env) (fs : FileSystem) (cmds : ι → Command) (stdin : ι → Bytes) (schedule : List (ι × Nat)) (i : ι)
    (hc : ¬ LooksTwice (cmds i)) (o : Out Unit) (h : Finished (Crew.run (Crew.start env fs cmds stdin) schedule) i o) (fs₀ : FileSystem) :
    ∃ fs' : FileSystem, (∀ q, fs' q = fs₀ q ∨ Glimpsed (momentsOf (Crew.start env fs cmds stdin) i schedule) q (fs' q)) ∧
      (run env (cmds i) ⟨fs', stdin i, []⟩).1 = o ∧
      (run env (cmds i) ⟨fs', stdin i, []⟩).2.stdout = hasPrinted (Crew.run (Crew.start env fs cmds stdin) schedule) i := by
  unfold Finished at h
  unfold hasPrinted
  rw [worker_run] at h ⊢
  exact C107_as_on_some_files env (cmds i) hc (stdin i) _ o h fs₀

/-- Nobody but command `i` changes a file that no other writes. -/
theorem sole_run (cmds : ι → Command) (i : ι) {p : Str} (ho : ∀ j, j ≠ i → target (cmds j) ≠ some p) (schedule : List (ι × Nat)) : ∀ s : Crew ι,
    (∀ j, (s.workers j).prog.Within (Touches (cmds j)) (WritesTo (cmds j))) →
    Worker.Sole p (s.files p) (s.workers i) (momentsOf s i schedule) ∧
      Worker.leaves p (s.files p) (s.workers i) (momentsOf s i schedule) = (Crew.run s schedule).files p := by
  induction schedule with
  | nil => intro s _; exact ⟨trivial, rfl⟩
  | cons t schedule ih =>
    intro s hw
    have ha := worker_agrees (changes_touches (cmds t.1)) (s.workers t.1) (hw t.1) t.2 s.files s.files fun _ _ => rfl
    have hw' : ∀ j, ((Crew.step s t).workers j).prog.Within (Touches (cmds j)) (WritesTo (cmds j)) := by
      intro j
      simp only [Crew.step]
      by_cases hj : j = t.1
      · rw [if_pos hj, hj]; exact ha.2.2.2
      · rw [if_neg hj]; exact hw j
    have h := ih (Crew.step s t) hw'
    show _ ∧ _ = (Crew.run (Crew.step s t) schedule).files p
    by_cases hi : t.1 = i
    · have e : (Crew.step s t).workers i = ((s.workers i).step s.files t.2).2 := by
        simp only [Crew.step]
        rw [if_pos hi.symm, hi]
      have e2 : (Crew.step s t).files = ((s.workers i).step s.files t.2).1 := by
        simp only [Crew.step]
        rw [hi]
      simp only [momentsOf, if_pos hi]
      refine ⟨⟨rfl, ?_⟩, ?_⟩
      · rw [← e, ← e2]; exact h.1
      · rw [← h.2, e, e2]; rfl
    · have e : (Crew.step s t).workers i = s.workers i := by
        simp only [Crew.step]
        rw [if_neg fun e => hi e.symm]
      have e2 : (Crew.step s t).files p = s.files p := ha.2.2.1 p fun hc => ho t.1 hi hc.1
      simp only [momentsOf, if_neg hi]
      rw [e, e2] at h
      exact h

/-- C107: if a file is written by no other of them, a command that has ended has left it as it would have alone on these files.  So if no two of them
write the same file, each leaves in its file what it would have left. -/
theorem C107_together_written (env : Env) (fs : FileSystem) (cmds : ι → Command) (stdin : ι → Bytes) (schedule : List (ι × Nat)) (i : ι)
    (hc : ¬ LooksTwice (cmds i)) {p : Str} (ho : ∀ j, j ≠ i → target (cmds j) ≠ some p) (o : Out Unit)
    (h : Finished (Crew.run (Crew.start env fs cmds stdin) schedule) i o) :
    ∃ fs' : FileSystem, (∀ q, fs' q = fs q ∨ Glimpsed (momentsOf (Crew.start env fs cmds stdin) i schedule) q (fs' q)) ∧ fs' p = fs p ∧
      (run env (cmds i) ⟨fs', stdin i, []⟩).1 = o ∧
      (run env (cmds i) ⟨fs', stdin i, []⟩).2.stdout = hasPrinted (Crew.run (Crew.start env fs cmds stdin) schedule) i ∧
      (run env (cmds i) ⟨fs', stdin i, []⟩).2.files p = (Crew.run (Crew.start env fs cmds stdin) schedule).files p := by
  obtain ⟨hs, hl⟩ := sole_run cmds i ho schedule (Crew.start env fs cmds stdin) fun j => within_program env (cmds j)
  unfold Finished at h
  unfold hasPrinted
  rw [worker_run] at h ⊢
  obtain ⟨fs', h1, h2, h3, h4⟩ := once_among _ _ (program_once env (cmds i) hc) _ (stdin i) [] o h fs
  rw [exec_program] at h2 h3 h4
  obtain ⟨k1, k2⟩ := h4 p hs
  exact ⟨fs', fun q => (h1 q).imp id fun h => h.2, k1, h2, h3, k2.trans hl⟩

/-- C107: no crash of one of the sturdy commands is brought about by running others at the same time. -/
theorem C107_together_sturdy (env : Env) (fs : FileSystem) (cmds : ι → Command) (stdin : ι → Bytes) (schedule : List (ι × Nat)) (i : ι)
    (hs : Sturdy (cmds i)) : ¬ Finished (Crew.run (Crew.start env fs cmds stdin) schedule) i .panic := by
  unfold Finished
  rw [worker_run]
  exact C107_sturdy env (cmds i) hs (stdin i) _

/-! ## A case -/

/-- A file that is `02 00 00` when its first bytes are read, and `07 07 07 00` when its last is read.  It is decoded as the empty program `02 00 00 00`,
which it never was. -/
example (env : Env) : (Worker.among ⟨program ⟨10, env.order⟩ (.decode (str "p") 2049 true), none, [], []⟩
    [(fun _ => some [2, 0, 0], 0), (fun _ => some [2, 0, 0], 9), (fun _ => some [7, 7, 7, 0], 9), (fun _ => some [7, 7, 7, 0], 9),
      (fun _ => none, 0)]).prog = .ret (.ok ()) ∧ ¬ LooksTwice (.decode (str "p") 2049 true) := ⟨rfl, id⟩

end Verif.Cmd
