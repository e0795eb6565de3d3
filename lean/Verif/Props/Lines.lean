import Verif.Spec.Lines
import Verif.Props.Basic
import Verif.Props.Crash

/-!
# C51, C80, C87: exactly when decoding an Applesoft program succeeds, fails, crashes or never ends
-/

set_option autoImplicit false

namespace Verif.Applesoft
open Verif Verif.Spec.Basic Verif.Basic

/-- Reading the text of a line that is there. -/
theorem lineBytes_upTo {text rest : Bytes} (h : ∀ c ∈ text, 0 < c.toNat ∧ c.toNat ≤ 0xEA) : lineBytes (text ++ 0 :: rest) = .ok text := by
  induction text with
  | nil => rfl
  | cons c text ih =>
    have hc := h c List.mem_cons_self
    have ih := ih fun d hd => h d (List.mem_cons_of_mem _ hd)
    rw [List.cons_append, lineBytes, if_neg (by rintro rfl; exact absurd hc.1 (by decide)), ih]
    split
    · rfl
    · rename_i h8
      have h8 : 0x80 ≤ c.toNat := Nat.le_of_not_lt fun hlt => h8 (UInt8.lt_iff_toNat_lt.2 hlt)
      rw [if_neg fun ht => by have := (token_known c h8).1 ht; omega]
      rfl

theorem loop_line {d : Bytes} {loc a : Nat} (h : LineAt d loc a) (n : Nat) :
    ∃ l, decodeLoop d (loc : Int) (n + 1) (a : Int) = (decodeLoop d (loc : Int) n (storedAt d loc a : Int) >>= fun rest => .ok (l :: rest)) := by
  obtain ⟨h0, ⟨h1, h2⟩, h3, text, rest, h4, h5⟩ := h
  rw [decodeLoop.eq_def, if_neg (by omega)]
  simp only
  rw [if_neg (by omega), if_neg (by omega)]
  have ho : ((a : Int) - (loc : Int)).toNat = a - loc := by omega
  rw [ho]
  have hlen : a - loc + 4 < d.length := by
    have := congrArg List.length h4
    rw [List.length_drop, List.length_append, List.length_cons] at this
    omega
  unfold storedAt at h3 ⊢
  rw [if_neg (by omega), if_neg (by omega), h4, lineBytes_upTo h5, Out.bind_ok]
  rw [Int.natCast_add, Int.natCast_mul]
  exact ⟨_, rfl⟩

theorem loop_stop {d : Bytes} {loc a : Nat} (h : ¬ LineAt d loc a) (n : Nat) :
    (EndAt d loc a ∧ decodeLoop d (loc : Int) (n + 1) (a : Int) = .ok []) ∨
    (JustBelow d loc a ∧ decodeLoop d (loc : Int) (n + 1) (a : Int) = .panic) ∨
    (¬ EndAt d loc a ∧ ¬ JustBelow d loc a ∧ decodeLoop d (loc : Int) (n + 1) (a : Int) = .err .other) := by
  by_cases h0 : a = 0
  · exact Or.inl ⟨Or.inl h0, by rw [decodeLoop.eq_def, if_pos (by omega)]⟩
  by_cases hb : JustBelow d loc a
  · refine Or.inr (Or.inl ⟨hb, ?_⟩)
    obtain ⟨_, h1, h2⟩ := hb
    have : 0 < d.length := List.length_pos_iff.2 h2
    rw [decodeLoop.eq_def, if_neg (by omega)]
    simp only
    rw [if_neg (by omega), if_pos (by omega)]
  by_cases hin : InData d loc a
  · by_cases hs : storedAt d loc a = 0
    · refine Or.inl ⟨Or.inr ⟨hin, hs⟩, ?_⟩
      obtain ⟨h1, h2⟩ := hin
      rw [decodeLoop.eq_def, if_neg (by omega)]
      simp only
      rw [if_neg (by omega), if_neg (by omega), show ((a : Int) - (loc : Int)).toNat = a - loc by omega]
      unfold storedAt at hs
      rw [if_pos (by omega)]
    · refine Or.inr (Or.inr ⟨fun he => he.elim h0 fun he => hs he.2, hb, ?_⟩)
      have hin' := hin
      obtain ⟨h1, h2⟩ := hin
      rw [decodeLoop.eq_def, if_neg (by omega)]
      simp only
      rw [if_neg (by omega), if_neg (by omega), show ((a : Int) - (loc : Int)).toNat = a - loc by omega]
      have hs' := hs
      unfold storedAt at hs
      rw [if_neg (by omega)]
      split
      · rfl
      · rcases lineBytes_cases (d.drop (a - loc + 4)) with ⟨bs, rest, e, _, hc⟩ | e
        · exact absurd ⟨h0, hin', hs', bs, rest, e, hc⟩ h
        · rw [e]; rfl
  · refine Or.inr (Or.inr ⟨fun he => he.elim h0 fun he => hin he.1, hb, ?_⟩)
    unfold InData at hin
    unfold JustBelow at hb
    rw [decodeLoop.eq_def, if_neg (by omega)]
    simp only
    rw [if_pos ?_]
    by_cases hd : d = []
    · have : d.length = 0 := by rw [hd]; rfl
      omega
    · have : 0 < d.length := List.length_pos_iff.2 hd
      have : a + 1 ≠ loc := fun hc => hb ⟨h0, hc, hd⟩
      omega

/-- What decoding from the `k`-th line on comes to if `j` more lines follow. -/
theorem loop_lines {d : Bytes} {loc : Nat} (j : Nat) : ∀ k, (∀ i, i < j → LineAt d loc (lineAddr d loc (k + i))) → ∀ n,
    ∃ ls : List Line, ls.length = j ∧ decodeLoop d (loc : Int) (j + n) (lineAddr d loc k : Int) =
      (decodeLoop d (loc : Int) n (lineAddr d loc (k + j) : Int) >>= fun rest => .ok (ls ++ rest)) := by
  induction j with
  | zero =>
    intro k _ n
    refine ⟨[], rfl, ?_⟩
    rw [Nat.zero_add, Nat.add_zero]
    cases decodeLoop d (loc : Int) n (lineAddr d loc k : Int) <;> rfl
  | succ j ih =>
    intro k h n
    obtain ⟨l, hl⟩ := loop_line (h 0 (Nat.succ_pos j)) (j + n)
    obtain ⟨ls, h1, h2⟩ := ih (k + 1) (fun i hi => by rw [Nat.add_assoc, Nat.add_comm 1 i]; exact h (i + 1) (by omega)) n
    refine ⟨l :: ls, by rw [List.length_cons, h1], ?_⟩
    rw [show k + 0 = k from rfl] at hl
    rw [show j + 1 + n = j + n + 1 by omega, hl]
    have e : storedAt d loc (lineAddr d loc k) = lineAddr d loc (k + 1) := rfl
    rw [e, h2, show k + 1 + j = k + (j + 1) by omega]
    cases decodeLoop d (loc : Int) n (lineAddr d loc (k + (j + 1)) : Int) <;> rfl

theorem decode_lines {raw d : Bytes} (hb : Body raw d) {loc : UInt16} {k : Nat} (h : ∀ j, j < k → LineAt d loc.toNat (lineAddr d loc.toNat j)) (n : Nat) :
    ∃ ls : List Line, ls.length = k ∧ decode (k + n) raw loc =
      (decodeLoop d (loc.toNat : Int) n (lineAddr d loc.toNat k : Int) >>= fun rest => .ok (ls ++ rest)) := by
  obtain ⟨ls, h1, h2⟩ := loop_lines k 0 (fun i hi => by rw [Nat.zero_add]; exact h i hi) n
  refine ⟨ls, h1, ?_⟩
  unfold decode
  rw [body_eq hb]
  rw [Nat.zero_add] at h2
  exact h2

/-- Following the addresses, either there is a line at every one or there are so many and then none. -/
theorem lines_or_endless (d : Bytes) (loc : Nat) : (∀ k, LineAt d loc (lineAddr d loc k)) ∨ ∃ k, LinesBefore d loc k := by
  classical
  by_cases h : ∃ k, ¬ LineAt d loc (lineAddr d loc k)
  · exact Or.inr ⟨Nat.find h, fun j hj => not_not.1 (Nat.find_min h hj), Nat.find_spec h⟩
  · exact Or.inl fun k => not_not.1 fun hc => h ⟨k, hc⟩

/-- C51: what decoding comes to if there are `k` lines and then none, given time enough. -/
theorem C51_exact {raw d : Bytes} (hb : Body raw d) {loc : UInt16} {k : Nat} (h : LinesBefore d loc.toNat k) {n : Nat} (hn : k < n) :
    (EndAt d loc.toNat (lineAddr d loc.toNat k) ↔ ∃ ls, decode n raw loc = .ok ls) ∧
    (∀ ls, decode n raw loc = .ok ls → ls.length = k) ∧
    (JustBelow d loc.toNat (lineAddr d loc.toNat k) ↔ decode n raw loc = .panic) ∧ decode n raw loc ≠ .timeout := by
  obtain ⟨m, rfl⟩ : ∃ m, n = k + (m + 1) := ⟨n - k - 1, by omega⟩
  obtain ⟨ls, h1, h2⟩ := decode_lines hb h.1 (m + 1)
  rw [h2]
  have hx : ¬ (EndAt d loc.toNat (lineAddr d loc.toNat k) ∧ JustBelow d loc.toNat (lineAddr d loc.toNat k)) := by
    rintro ⟨he, h3, h4, h5⟩
    rcases he with he | ⟨⟨he, _⟩, _⟩
    · exact h3 he
    · omega
  rcases loop_stop h.2 m with ⟨he, e⟩ | ⟨he, e⟩ | ⟨he, he', e⟩
  · rw [e, Out.bind_ok, List.append_nil]
    refine ⟨⟨fun _ => ⟨ls, rfl⟩, fun _ => he⟩, fun l hl => by rw [← Out.ok.inj hl]; exact h1, ⟨fun hj => absurd ⟨he, hj⟩ hx, fun hc => by cases hc⟩, fun hc => by cases hc⟩
  · rw [e]
    refine ⟨⟨fun hj => absurd ⟨hj, he⟩ hx, ?_⟩, ?_, ⟨fun _ => rfl, fun _ => he⟩, fun hc => by cases hc⟩
    · rintro ⟨l, hc⟩; cases hc
    · intro l hc; cases hc
  · rw [e]
    refine ⟨⟨fun hj => absurd hj he, ?_⟩, ?_, ⟨fun hj => absurd hj he', fun hc => by cases hc⟩, fun hc => by cases hc⟩
    · rintro ⟨l, hc⟩; cases hc
    · intro l hc; cases hc

/-- A program of one line that ends properly. -/
example : LinesBefore [0x06, 0x08, 10, 0, 0, 0, 0] 0x801 1 ∧ EndAt [0x06, 0x08, 10, 0, 0, 0, 0] 0x801 (lineAddr [0x06, 0x08, 10, 0, 0, 0, 0] 0x801 1) := by
  refine ⟨⟨fun j hj => ?_, ?_⟩, Or.inr ⟨⟨by decide, by decide⟩, by decide⟩⟩
  · obtain rfl : j = 0 := by omega
    exact ⟨by decide, ⟨by decide, by decide⟩, by decide, [], [0, 0], rfl, by simp⟩
  · rintro ⟨_, _, h, _⟩
    exact h (by decide)

/-- A program of one line whose next address is the one just below it. -/
example : LinesBefore [0x00, 0x08, 10, 0, 0] 0x801 1 ∧ JustBelow [0x00, 0x08, 10, 0, 0] 0x801 (lineAddr [0x00, 0x08, 10, 0, 0] 0x801 1) := by
  refine ⟨⟨fun j hj => ?_, ?_⟩, by decide, by decide, by decide⟩
  · obtain rfl : j = 0 := by omega
    exact ⟨by decide, ⟨by decide, by decide⟩, by decide, [], [], rfl, by simp⟩
  · rintro ⟨_, ⟨h, _⟩, _⟩
    exact absurd h (by decide)

/-- A line that leads to itself. -/
example : ∀ k, LineAt [0x01, 0x08, 10, 0, 0] 0x801 (lineAddr [0x01, 0x08, 10, 0, 0] 0x801 k) := by
  intro k
  have e : lineAddr [0x01, 0x08, 10, 0, 0] 0x801 k = 0x801 := by
    induction k with
    | zero => rfl
    | succ k ih => rw [lineAddr, ih]; decide
  rw [e]
  exact ⟨by decide, ⟨by decide, by decide⟩, by decide, [], [], rfl, by simp⟩

/-- C51: decoding never ends exactly if there is a line at every address, which then never end. -/
theorem C51_endless {raw d : Bytes} (hb : Body raw d) (loc : UInt16) :
    (∀ n, decode n raw loc = .timeout) ↔ ∀ k, LineAt d loc.toNat (lineAddr d loc.toNat k) := by
  constructor
  · intro h
    rcases lines_or_endless d loc.toNat with hk | ⟨k, hk⟩
    · exact hk
    · exact absurd (h (k + 1)) (C51_exact hb hk (Nat.lt_succ_self k)).2.2.2
  · intro h n
    obtain ⟨ls, _, h2⟩ := decode_lines hb (k := n) (fun j _ => h j) 0
    rw [Nat.add_zero] at h2
    rw [h2, decodeLoop.eq_def, if_neg (by have := (h n).1; omega)]
    rfl

/-- C51: decoding crashes, if it is given time enough, exactly if the addresses lead over some lines to the one just below the program. -/
theorem C51_crashes {raw d : Bytes} (hb : Body raw d) (loc : UInt16) :
    (∃ n, decode n raw loc = .panic) ↔ ∃ k, LinesBefore d loc.toNat k ∧ JustBelow d loc.toNat (lineAddr d loc.toNat k) := by
  constructor
  · rintro ⟨n, h⟩
    rcases lines_or_endless d loc.toNat with hk | ⟨k, hk⟩
    · rw [(C51_endless hb loc).2 hk n] at h; cases h
    · refine ⟨k, hk, ?_⟩
      by_cases hn : k < n
      · exact (C51_exact hb hk hn).2.2.1.2 h
      · obtain ⟨m, rfl⟩ : ∃ m, k = n + m := ⟨k - n, by omega⟩
        obtain ⟨ls, _, h2⟩ := decode_lines hb (k := n) (fun j hj => hk.1 j (by omega)) 0
        rw [Nat.add_zero, h] at h2
        rw [decodeLoop.eq_def] at h2
        split at h2 <;> cases h2
  · rintro ⟨k, hk, hj⟩
    exact ⟨k + 1, (C51_exact hb hk (Nat.lt_succ_self k)).2.2.1.1 hj⟩

end Verif.Applesoft

namespace Verif.Cmd
open Verif.Spec Verif.Spec.Basic Verif.Basic

theorem decode_none {env : Env} {w : World} {filename : Str} (h : given w filename = none) (loc : UInt16) (raw : Bool) :
    ∃ e, (run env (.decode filename loc raw) w).1 = .err e := by
  change ∃ e, (decodeCmd env filename loc raw w).1 = .err e
  unfold decodeCmd
  rw [bind_apply]
  unfold given at h
  by_cases hs : filename = str "-"
  · rw [if_pos hs] at h; cases h
  · rw [if_neg hs] at h
    have hc : contentsOf filename w = (.err .other, w) := by
      unfold contentsOf World.fileContentsOrStdIn
      rw [if_neg hs, h]
    unfold Act.bind
    rw [hc]
    exact ⟨_, rfl⟩

theorem decode_some {env : Env} {w : World} {filename : Str} {b : Bytes} (h : given w filename = some b) (loc : UInt16) (raw : Bool) :
    ((run env (.decode filename loc raw) w).1 = .panic ↔ Applesoft.decode env.budget b loc = .panic) ∧
    ((run env (.decode filename loc raw) w).1 = .timeout ↔ Applesoft.decode env.budget b loc = .timeout) ∧
    ((run env (.decode filename loc raw) w).1 = .ok () ↔ ∃ ls, Applesoft.decode env.budget b loc = .ok ls) := by
  obtain ⟨w', h1, _, _⟩ := contentsOf_given h
  rw [decode_eq h1]
  cases Applesoft.decode env.budget b loc <;> simp

theorem body_of (b : Bytes) : ∃ d, Body b d := by
  by_cases hl : LooksHeadered b
  · exact ⟨_, Or.inl ⟨hl, rfl⟩⟩
  · exact ⟨_, Or.inr ⟨hl, rfl⟩⟩

/-- C87: `decode` never ends exactly if what it is given has a line at every address the lines before it lead to. -/
theorem C87_decode (f : Str) (loc : UInt16) (raw : Bool) (w : World) :
    (∀ env : Env, (run env (.decode f loc raw) w).1 = .timeout) ↔
      ∃ b d, given w f = some b ∧ Body b d ∧ ∀ k, LineAt d loc.toNat (lineAddr d loc.toNat k) := by
  constructor
  · intro h
    cases hg : given w f with
    | none => obtain ⟨e, he⟩ := decode_none (env := ⟨0, .stored⟩) hg loc raw; rw [h] at he; cases he
    | some b =>
      obtain ⟨d, hb⟩ := body_of b
      exact ⟨b, d, rfl, hb, (Applesoft.C51_endless hb loc).1 fun n => (decode_some (env := ⟨n, .stored⟩) hg loc raw).2.1.1 (h _)⟩
  · rintro ⟨b, d, hg, hb, h⟩ env
    exact (decode_some hg loc raw).2.1.2 ((Applesoft.C51_endless hb loc).2 h _)

/-- C80: `decode` crashes, if it is given time enough, exactly if the line addresses lead over some lines to the byte just below the program. -/
theorem C80_decode_exact (f : Str) (loc : UInt16) (raw : Bool) (w : World) :
    (∃ env : Env, (run env (.decode f loc raw) w).1 = .panic) ↔
      ∃ b d, given w f = some b ∧ Body b d ∧ ∃ k, LinesBefore d loc.toNat k ∧ JustBelow d loc.toNat (lineAddr d loc.toNat k) := by
  constructor
  · rintro ⟨env, h⟩
    cases hg : given w f with
    | none => obtain ⟨e, he⟩ := decode_none (env := env) hg loc raw; rw [h] at he; cases he
    | some b =>
      obtain ⟨d, hb⟩ := body_of b
      exact ⟨b, d, rfl, hb, (Applesoft.C51_crashes hb loc).1 ⟨_, (decode_some hg loc raw).1.1 h⟩⟩
  · rintro ⟨b, d, hg, hb, h⟩
    obtain ⟨n, hn⟩ := (Applesoft.C51_crashes hb loc).2 h
    exact ⟨⟨n, .stored⟩, (decode_some hg loc raw).1.2 hn⟩

/-- C80: given time enough, `decode` of a program of `k` lines ends; it works exactly if the program ends properly there, and crashes exactly if the last address
is the one just below the program. -/
theorem C80_decode_ends {f : Str} {loc : UInt16} {raw : Bool} {w : World} {b d : Bytes} {k : Nat} (hg : given w f = some b) (hb : Body b d)
    (hk : LinesBefore d loc.toNat k) {env : Env} (hn : k < env.budget) :
    (run env (.decode f loc raw) w).1 ≠ .timeout ∧
    ((run env (.decode f loc raw) w).1 = .ok () ↔ EndAt d loc.toNat (lineAddr d loc.toNat k)) ∧
    ((run env (.decode f loc raw) w).1 = .panic ↔ JustBelow d loc.toNat (lineAddr d loc.toNat k)) := by
  obtain ⟨h1, _, h3, h4⟩ := Applesoft.C51_exact hb hk hn
  obtain ⟨e1, e2, e3⟩ := decode_some (env := env) hg loc raw
  exact ⟨fun h => h4 (e2.1 h), e3.trans h1.symm, e1.trans h3.symm⟩

end Verif.Cmd
