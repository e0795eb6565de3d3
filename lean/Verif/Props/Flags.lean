import Verif.Model.Flags
import Verif.Spec.Flags
import Mathlib.Data.List.Induction

/-!
# C65: number flags
-/

set_option autoImplicit false

namespace Verif.Flags

open Verif Verif.Spec.Flags

theorem digit_lt : ∀ c : UInt8, ∀ d, digit c = some d → d < 16 := by
  have : ∀ c : UInt8, (digit c).all (fun d => decide (d < 16)) = true := by decide +kernel
  intro c d h
  have := this c
  rw [h] at this
  simpa using this

/-- In a base up to 16 the code and the grammar have the same digits. -/
theorem digitVal_eq (base : Nat) (hb : base ≤ 16) (c : UInt8) (d : Nat) :
    (digitVal c = some d ∧ d < base) ↔ (digit c = some d ∧ d < base) := by
  have key : ∀ c : UInt8, digitVal c = digit c ∨ (digit c = none ∧ (digitVal c).all (fun d => decide (16 ≤ d)) = true) := by
    decide +kernel
  rcases key c with h | ⟨h1, h2⟩
  · rw [h]
  · rw [h1]
    constructor
    · rintro ⟨h, hd⟩
      rw [h] at h2
      simp at h2
      omega
    · rintro ⟨h, _⟩; simp at h

theorem digit_underscore : digit 0x5F = none := by decide

/-- The digits that `underscoreOK` knows. -/
def scanDigit (hex : Bool) (c : UInt8) : Prop :=
  (0x30 ≤ c ∧ c ≤ 0x39) ∨ (hex = true ∧ 0x61 ≤ lower c ∧ lower c ≤ 0x66)

theorem scanDigit_of (base : Nat) (hex : Bool) (hb : base ≤ 10 ∨ (base = 16 ∧ hex = true)) (c : UInt8) (d : Nat)
    (h : digit c = some d) (hd : d < base) : scanDigit hex c := by
  have k1 : ∀ c : UInt8, (digit c).any (fun d => decide (d < 10)) = true → (0x30 ≤ c ∧ c ≤ 0x39) := by decide +kernel
  have k2 : ∀ c : UInt8, (digit c).isSome = true → ((0x30 ≤ c ∧ c ≤ 0x39) ∨ (0x61 ≤ lower c ∧ lower c ≤ 0x66)) := by decide +kernel
  rcases hb with hb | ⟨hb, hx⟩
  · left
    apply k1
    rw [h]
    simp; omega
  · rcases k2 c (by rw [h]; rfl) with h | h
    · exact Or.inl h
    · exact Or.inr ⟨hx, h⟩

theorem not_scan_underscore (hex : Bool) : ¬ scanDigit hex 0x5F := by
  cases hex <;> unfold scanDigit <;> decide

/-- The state of `underscoreOK` after a text made of digits and underscores; `none` if it gave up. -/
def scan (hex : Bool) : Last → Str → Option Last
  | i, [] => some i
  | i, c :: cs =>
    if c = 0x5F then (if i ≠ .digit then none else scan hex .underscore cs) else scan hex .digit cs

theorem underscoreLoop_scan (hex : Bool) (s : Str) : ∀ i, (∀ c ∈ s, c = 0x5F ∨ scanDigit hex c) →
    underscoreLoop hex i s = ((scan hex i s).any fun l => decide (l ≠ .underscore)) := by
  induction s with
  | nil => intro i _; simp [underscoreLoop, scan]
  | cons c cs ih =>
    intro i h
    have ih' := fun i => ih i fun d hd => h d (List.mem_cons_of_mem _ hd)
    unfold underscoreLoop scan
    rcases h c List.mem_cons_self with rfl | hd
    · have := not_scan_underscore hex
      unfold scanDigit at this
      rw [if_neg this, if_pos rfl, if_pos rfl]
      by_cases hi : i = .digit
      · subst hi; simp [ih']
      · rw [if_pos hi, if_pos hi]; rfl
    · have hne : c ≠ 0x5F := fun e => not_scan_underscore hex (e ▸ hd)
      unfold scanDigit at hd
      rw [if_pos hd, if_neg hne, ih']

theorem scan_cons (hex : Bool) (i : Last) (c : UInt8) (cs : Str) : scan hex i (c :: cs) =
    if c = 0x5F then (if i ≠ .digit then none else scan hex .underscore cs) else scan hex .digit cs := rfl

theorem scan_append (hex : Bool) (s t : Str) : ∀ i, scan hex i (s ++ t) = (scan hex i s).bind fun l => scan hex l t := by
  induction s with
  | nil => intro i; rfl
  | cons c cs ih =>
    intro i
    rw [List.cons_append, scan_cons, scan_cons]
    split
    · split
      · rfl
      · rw [ih]
    · rw [ih]

theorem scan_no_underscore (hex : Bool) (s : Str) : ∀ i, 0x5F ∉ s → scan hex i s = if s = [] then some i else some .digit := by
  induction s with
  | nil => intro i _; rfl
  | cons c cs ih =>
    intro i h
    unfold scan
    rw [if_neg (fun e => h (by rw [e]; exact List.mem_cons_self)), ih .digit fun h' => h (List.mem_cons_of_mem _ h')]
    split <;> simp

theorem parseLoop_cons (base : Nat) (st : Nat × Bool) (c : UInt8) (cs : Str) : parseLoop base st (c :: cs) =
    match parseStep base st c with
    | .ok st => parseLoop base st cs
    | e => e := rfl

theorem parseLoop_append (base : Nat) (s t : Str) : ∀ st, parseLoop base st (s ++ t) =
    match parseLoop base st s with
    | .ok st => parseLoop base st t
    | e => e := by
  induction s with
  | nil => intro st; rfl
  | cons c cs ih =>
    intro st
    rw [List.cons_append, parseLoop_cons, parseLoop_cons]
    cases h : parseStep base st c with
    | ok st' => simp only; exact ih st'
    | err k => rfl
    | panic => rfl
    | timeout => rfl

theorem parseStep_ok (base : Nat) (hb : base ≤ 16) (st st' : Nat × Bool) (c : UInt8) : parseStep base st c = .ok st' ↔
    (c = 0x5F ∧ st' = (st.1, true)) ∨ (∃ d, digit c = some d ∧ d < base ∧ base * st.1 + d ≤ 65535 ∧ st' = (base * st.1 + d, st.2)) := by
  unfold parseStep
  by_cases hc : c = 0x5F
  · subst hc
    rw [if_pos rfl, digit_underscore]
    constructor
    · intro h; simp at h; exact Or.inl ⟨rfl, h.symm⟩
    · rintro (⟨_, h⟩ | ⟨d, h, _⟩)
      · rw [h]
      · simp at h
  · rw [if_neg hc]
    constructor
    · intro h
      right
      cases hd : digitVal c with
      | none => rw [hd] at h; simp at h
      | some d =>
        rw [hd] at h
        simp only at h
        split at h
        · simp at h
        · rename_i h1
          split at h
          · simp at h
          · rename_i h2
            simp only [Out.ok.injEq] at h
            have := (digitVal_eq base hb c d).1 ⟨hd, by omega⟩
            rw [Nat.mul_comm] at h2 h
            exact ⟨d, this.1, this.2, by omega, h.symm⟩
    · rintro (⟨h, _⟩ | ⟨d, h1, h2, h3, h4⟩)
      · exact absurd h hc
      · have := (digitVal_eq base hb c d).2 ⟨h1, h2⟩
        rw [this.1]
        simp only
        rw [if_neg (by omega), if_neg (by rw [Nat.mul_comm]; omega), h4, Nat.mul_comm]

/-- A digit text parses to its value if that fits 16 bits. -/
theorem digits_parse {base : Nat} (hb : base ≤ 16) {hex : Bool} (hx : base ≤ 10 ∨ (base = 16 ∧ hex = true))
    {s : Str} {v : Nat} (h : Digits base s v) :
    (∀ c ∈ s, c = 0x5F ∨ scanDigit hex c) ∧ (∀ i, (scan hex i s) = some .digit) ∧ s ≠ [] ∧
    (∀ u, v ≤ 65535 → ∃ u', parseLoop base (0, u) s = .ok (v, u')) ∧ s.head? ≠ some 0x5F := by
  induction h with
  | one hd hlt =>
    rename_i c d
    have hne : c ≠ 0x5F := fun e => by rw [e, digit_underscore] at hd; simp at hd
    refine ⟨?_, ?_, by simp, ?_, by simpa using hne⟩
    · intro c' hc'
      simp only [List.mem_singleton] at hc'
      subst hc'
      exact Or.inr (scanDigit_of base hex hx _ _ hd hlt)
    · intro i; unfold scan; rw [if_neg hne]; rfl
    · intro u hv
      refine ⟨u, ?_⟩
      unfold parseLoop
      rw [(parseStep_ok base hb (0, u) (d, u) c).2 (Or.inr ⟨d, hd, hlt, by simpa using hv, by simp⟩)]
      rfl
  | more _ hd hlt ih =>
    rename_i s v c d _
    obtain ⟨i1, i2, i3, i4, i5⟩ := ih
    have hne : c ≠ 0x5F := fun e => by rw [e, digit_underscore] at hd; simp at hd
    refine ⟨?_, ?_, by simp, ?_, ?_⟩
    · intro c' hc'
      rcases List.mem_append.1 hc' with h | h
      · exact i1 c' h
      · simp only [List.mem_singleton] at h
        subst h
        exact Or.inr (scanDigit_of base hex hx _ _ hd hlt)
    · intro i
      rw [scan_append, i2 i]
      show scan hex .digit [c] = _
      unfold scan
      rw [if_neg hne]; rfl
    · intro u hv
      have hle : v ≤ base * v := Nat.le_mul_of_pos_left v (by omega)
      obtain ⟨u', hp⟩ := i4 u (by omega)
      refine ⟨u', ?_⟩
      rw [parseLoop_append, hp]
      simp only
      unfold parseLoop
      rw [(parseStep_ok base hb (v, u') (base * v + d, u') c).2 (Or.inr ⟨d, hd, hlt, hv, rfl⟩)]
      rfl
    · cases s with
      | nil => exact absurd rfl i3
      | cons a s => simpa using i5
  | underscore _ hd hlt ih =>
    rename_i s v c d _
    obtain ⟨i1, i2, i3, i4, i5⟩ := ih
    have hne : c ≠ 0x5F := fun e => by rw [e, digit_underscore] at hd; simp at hd
    refine ⟨?_, ?_, by simp, ?_, ?_⟩
    · intro c' hc'
      rcases List.mem_append.1 hc' with h | h
      · exact i1 c' h
      · simp only [List.mem_cons, List.not_mem_nil, or_false] at h
        rcases h with rfl | rfl
        · exact Or.inl rfl
        · exact Or.inr (scanDigit_of base hex hx _ _ hd hlt)
    · intro i
      rw [scan_append, i2 i]
      show scan hex .digit [0x5F, c] = _
      unfold scan
      rw [if_pos rfl, if_neg (by simp)]
      unfold scan
      rw [if_neg hne]; rfl
    · intro u hv
      have hle : v ≤ base * v := Nat.le_mul_of_pos_left v (by omega)
      obtain ⟨u', hp⟩ := i4 u (by omega)
      refine ⟨true, ?_⟩
      rw [parseLoop_append, hp]
      simp only
      unfold parseLoop
      rw [(parseStep_ok base hb (v, u') (v, true) 0x5F).2 (Or.inl ⟨rfl, rfl⟩)]
      unfold parseLoop
      simp only
      rw [(parseStep_ok base hb (v, true) (base * v + d, true) c).2 (Or.inr ⟨d, hd, hlt, hv, rfl⟩)]
      rfl
    · cases s with
      | nil => exact absurd rfl i3
      | cons a s => simpa using i5

/-- What a text that parses and passes the underscore scan looks like. -/
theorem parse_digits {base : Nat} (hb : base ≤ 16) {hex : Bool} (hx : base ≤ 10 ∨ (base = 16 ∧ hex = true)) (i : Last) (s : Str) :
    ∀ n u, parseLoop base (0, false) s = .ok (n, u) →
      (∀ c ∈ s, c = 0x5F ∨ scanDigit hex c) ∧ (u = true ↔ 0x5F ∈ s) ∧ n ≤ 65535 ∧
      (s = [] → n = 0) ∧
      (∀ l, scan hex i s = some l →
        (l = .digit → s ≠ [] → Digits base s n ∨ (i = .digit ∧ ∃ t, s = 0x5F :: t ∧ Digits base t n)) ∧
        (l = .underscore → s ≠ [] → (s = [0x5F] ∧ n = 0 ∧ i = .digit) ∨ ∃ t, s = t ++ [0x5F] ∧
          (Digits base t n ∨ (i = .digit ∧ ∃ t', t = 0x5F :: t' ∧ Digits base t' n))) ∧
        (l ≠ .digit → l ≠ .underscore → s = [])) := by
  induction s using List.reverseRecOn with
  | nil =>
    intro n u h
    unfold parseLoop at h
    simp only [Out.ok.injEq, Prod.mk.injEq] at h
    obtain ⟨rfl, rfl⟩ := h
    refine ⟨by simp, by simp, by omega, fun _ => rfl, ?_⟩
    intro l _
    simp
  | append_singleton s c ih =>
    intro n u h
    rw [parseLoop_append] at h
    cases hp : parseLoop base (0, false) s with
    | ok st =>
      obtain ⟨n', u'⟩ := st
      rw [hp] at h
      simp only at h
      obtain ⟨i1, i2, i3, i4, i5⟩ := ih n' u' hp
      unfold parseLoop at h
      cases hs : parseStep base (n', u') c with
      | ok st' =>
        rw [hs] at h
        simp only at h
        unfold parseLoop at h
        simp only [Out.ok.injEq] at h
        subst h
        rcases (parseStep_ok base hb _ _ c).1 hs with ⟨rfl, he⟩ | ⟨d, hd, hlt, hle, he⟩
        · simp only [Prod.mk.injEq] at he
          obtain ⟨rfl, rfl⟩ := he
          refine ⟨?_, by simp, i3, by simp, ?_⟩
          · intro c' hc'
            rcases List.mem_append.1 hc' with h | h
            · exact i1 c' h
            · simp at h; exact Or.inl h
          · intro l hl
            rw [scan_append] at hl
            cases hsc : scan hex i s with
            | none => rw [hsc] at hl; simp at hl
            | some l' =>
              rw [hsc] at hl
              simp only [Option.bind_some] at hl
              unfold scan at hl
              rw [if_pos rfl] at hl
              split at hl
              · simp at hl
              · rename_i hl'
                simp only [ne_eq, not_not] at hl'
                subst hl'
                unfold scan at hl
                simp only [Option.some.injEq] at hl
                subst hl
                obtain ⟨j1, j2, j3⟩ := i5 .digit hsc
                refine ⟨by simp, fun _ _ => ?_, by simp⟩
                by_cases hs0 : s = []
                · subst hs0
                  left
                  unfold scan at hsc
                  simp only [Option.some.injEq] at hsc
                  exact ⟨rfl, i4 rfl, hsc⟩
                · right
                  exact ⟨s, rfl, j1 rfl hs0⟩
        · simp only [Prod.mk.injEq] at he
          obtain ⟨rfl, rfl⟩ := he
          have hne : c ≠ 0x5F := fun e => by rw [e, digit_underscore] at hd; simp at hd
          refine ⟨?_, ?_, hle, by simp, ?_⟩
          · intro c' hc'
            rcases List.mem_append.1 hc' with h | h
            · exact i1 c' h
            · simp only [List.mem_singleton] at h
              subst h
              exact Or.inr (scanDigit_of base hex hx _ _ hd hlt)
          · rw [i2]
            simp [Ne.symm hne]
          · intro l hl
            rw [scan_append] at hl
            cases hsc : scan hex i s with
            | none => rw [hsc] at hl; simp at hl
            | some l' =>
              rw [hsc] at hl
              simp only [Option.bind_some] at hl
              unfold scan at hl
              rw [if_neg hne] at hl
              unfold scan at hl
              simp only [Option.some.injEq] at hl
              subst hl
              obtain ⟨j1, j2, j3⟩ := i5 l' hsc
              refine ⟨fun _ _ => ?_, by simp, by simp⟩
              by_cases hs0 : s = []
              · subst hs0
                rw [i4 rfl]
                left
                simpa using Digits.one hd hlt
              · by_cases hl1 : l' = .digit
                · rcases j1 hl1 hs0 with hD | ⟨hi, t, rfl, hD⟩
                  · exact Or.inl (.more hD hd hlt)
                  · exact Or.inr ⟨hi, t ++ [c], rfl, .more hD hd hlt⟩
                · by_cases hl2 : l' = .underscore
                  · rcases j2 hl2 hs0 with ⟨rfl, hn, hi⟩ | ⟨t, rfl, hD | ⟨hi, t', rfl, hD⟩⟩
                    · right
                      refine ⟨hi, [c], rfl, ?_⟩
                      rw [hn]
                      simpa using Digits.one hd hlt
                    · left
                      rw [List.append_assoc]
                      exact .underscore hD hd hlt
                    · right
                      refine ⟨hi, t' ++ [0x5F, c], by simp, .underscore hD hd hlt⟩
                  · exact absurd (j3 hl1 hl2) hs0
      | err k => rw [hs] at h; simp at h
      | panic => rw [hs] at h; simp at h
      | timeout => rw [hs] at h; simp at h
    | err k => rw [hp] at h; simp at h
    | panic => rw [hp] at h; simp at h
    | timeout => rw [hp] at h; simp at h

theorem parseLoop_flag (base : Nat) (hb : base ≤ 16) (s : Str) : ∀ st n u, parseLoop base st s = .ok (n, u) →
    ∀ u0, ∃ u', parseLoop base (st.1, u0) s = .ok (n, u') := by
  induction s with
  | nil =>
    intro st n u h u0
    unfold parseLoop at h ⊢
    simp only [Out.ok.injEq] at h
    subst h
    exact ⟨u0, rfl⟩
  | cons c cs ih =>
    intro st n u h u0
    unfold parseLoop at h ⊢
    cases hs : parseStep base st c with
    | ok st' =>
      rw [hs] at h
      rcases (parseStep_ok base hb _ _ c).1 hs with ⟨hc, he⟩ | ⟨d, hd, hlt, hle, he⟩
      · rw [(parseStep_ok base hb (st.1, u0) (st.1, true) c).2 (Or.inl ⟨hc, rfl⟩)]
        have := ih st' n u h true
        rw [he] at this
        exact this
      · rw [(parseStep_ok base hb (st.1, u0) (base * st.1 + d, u0) c).2 (Or.inr ⟨d, hd, hlt, hle, rfl⟩)]
        have := ih st' n u h u0
        rw [he] at this
        exact this
    | err k => rw [hs] at h; simp at h
    | panic => rw [hs] at h; simp at h
    | timeout => rw [hs] at h; simp at h

/-- The common part: a text of digits after a start that counts as a digit (a prefix) or not. -/
theorem core {base : Nat} (hb : base ≤ 16) {hex : Bool} (hx : base ≤ 10 ∨ (base = 16 ∧ hex = true)) (i : Last)
    (hi : i ≠ .underscore) (s : Str) (hs : s ≠ []) (n : Nat) :
    (∃ u, parseLoop base (0, false) s = .ok (n, u) ∧ ¬ (u = true ∧ underscoreLoop hex i s = false)) ↔
      n ≤ 65535 ∧ (Digits base s n ∨ (i = .digit ∧ ∃ t, s = 0x5F :: t ∧ Digits base t n)) := by
  constructor
  · rintro ⟨u, hp, hu⟩
    obtain ⟨h1, h2, h3, _, h5⟩ := parse_digits hb hx i s n u hp
    refine ⟨h3, ?_⟩
    have hl := underscoreLoop_scan hex s i h1
    by_cases hus : 0x5F ∈ s
    · have hok : underscoreLoop hex i s = true := by
        cases h : underscoreLoop hex i s with
        | true => rfl
        | false => exact absurd ⟨h2.2 hus, h⟩ hu
      rw [hl] at hok
      cases hsc : scan hex i s with
      | none => rw [hsc] at hok; simp at hok
      | some l =>
        rw [hsc] at hok
        simp at hok
        obtain ⟨j1, _, j3⟩ := h5 l hsc
        by_cases hd : l = .digit
        · exact j1 hd hs
        · exact absurd (j3 hd hok) hs
    · have hsc := scan_no_underscore hex s i hus
      rw [if_neg hs] at hsc
      exact (h5 _ hsc).1 rfl hs
  · rintro ⟨hn, hD | ⟨rfl, t, rfl, hD⟩⟩
    · obtain ⟨g1, g2, g3, g4, _⟩ := digits_parse hb hx hD
      obtain ⟨u, hp⟩ := g4 false hn
      refine ⟨u, hp, ?_⟩
      rintro ⟨_, hf⟩
      rw [underscoreLoop_scan hex s i g1, g2 i] at hf
      simp at hf
    · obtain ⟨g1, g2, g3, g4, _⟩ := digits_parse hb hx hD
      obtain ⟨u, hp⟩ := g4 true hn
      refine ⟨u, ?_, ?_⟩
      · show (match parseStep base (0, false) 0x5F with
          | .ok st => parseLoop base st t
          | e => e) = _
        rw [(parseStep_ok base hb (0, false) (0, true) 0x5F).2 (Or.inl ⟨rfl, rfl⟩)]
        exact hp
      · rintro ⟨_, hf⟩
        rw [underscoreLoop_scan hex _ .digit (by
          intro c hc
          rcases List.mem_cons.1 hc with rfl | hc
          · exact Or.inl rfl
          · exact g1 c hc)] at hf
        have : scan hex .digit (0x5F :: t) = some .digit := by
          show (if (0x5F : UInt8) = 0x5F then (if Last.digit ≠ .digit then none else scan hex .underscore t) else _) = _
          rw [if_pos rfl, if_neg (by simp), g2]
        rw [this] at hf
        simp at hf

/-- How `parseUint` depends on the parts. -/
theorem parseUint_iff (s : Str) (hs : s ≠ []) (n : Nat) : parseUint s = .ok n ↔
    ∃ u, parseLoop (splitBase s).1 (0, false) (splitBase s).2 = .ok (n, u) ∧ ¬ (u = true ∧ underscoreOK s = false) := by
  unfold parseUint
  rw [if_neg hs]
  constructor
  · intro h
    split at h
    · rename_i m u hp
      split at h
      · simp at h
      · rename_i hu
        simp only [Out.ok.injEq] at h
        subst h
        exact ⟨u, hp, hu⟩
    · simp at h
  · rintro ⟨u, hp, hu⟩
    rw [hp]
    simp only
    rw [if_neg hu]

theorem lower_b : ∀ c : UInt8, lower c = 0x62 ↔ (c = 0x62 ∨ c = 0x42) := by decide +kernel
theorem lower_o : ∀ c : UInt8, lower c = 0x6F ↔ (c = 0x6F ∨ c = 0x4F) := by decide +kernel
theorem lower_x : ∀ c : UInt8, lower c = 0x78 ↔ (c = 0x78 ∨ c = 0x58) := by decide +kernel

/-- The three prefix letters. -/
abbrev IsPrefix (c : UInt8) : Prop := lower c = 0x62 ∨ lower c = 0x6F ∨ lower c = 0x78

theorem underscoreOK_prefix {c : UInt8} (hc : IsPrefix c) (rest : Str) :
    underscoreOK (0x30 :: c :: rest) = underscoreLoop (lower c = 0x78) .digit rest := by
  show (if (0x30 : UInt8) = 0x30 ∧ IsPrefix c then underscoreLoop (lower c = 0x78) .digit rest else _) = _
  rw [if_pos ⟨rfl, hc⟩]

theorem underscoreOK_zero (rest : Str) (h : ∀ c, rest.head? = some c → ¬ IsPrefix c) :
    underscoreOK (0x30 :: rest) = underscoreLoop false .digit rest := by
  have hstart : underscoreLoop false .start (0x30 :: rest) = underscoreLoop false .digit rest := by
    show (if _ then underscoreLoop false .digit rest else _) = _
    rw [if_pos (by left; decide)]
  cases rest with
  | nil => exact hstart
  | cons c rest =>
    show (if (0x30 : UInt8) = 0x30 ∧ IsPrefix c then _ else underscoreLoop false .start (0x30 :: c :: rest)) = _
    rw [if_neg (fun e => h c rfl e.2)]
    exact hstart

theorem underscoreOK_other {c : UInt8} {rest : Str} (h0 : c ≠ 0x30) (h1 : ¬ (c = 0x2D ∨ c = 0x2B)) :
    underscoreOK (c :: rest) = underscoreLoop false .start (c :: rest) := by
  have e : dropSign (c :: rest) = c :: rest := by
    show (if c = 0x2D ∨ c = 0x2B then rest else c :: rest) = _
    rw [if_neg h1]
  unfold underscoreOK
  rw [e]
  cases rest with
  | nil => rfl
  | cons d rest =>
    simp only
    rw [if_neg (fun e => h0 e.1)]

theorem splitBase_other {c : UInt8} {rest : Str} (h0 : c ≠ 0x30) : splitBase (c :: rest) = (10, c :: rest) := by
  unfold splitBase
  split
  · rename_i h; simp at h; exact absurd h.1 h0
  · rfl

theorem optDigits_iff {base : Nat} {s : Str} {v : Nat} : OptDigits base s v ↔
    (Digits base s v ∨ ∃ t, s = 0x5F :: t ∧ Digits base t v) := by
  constructor
  · rintro (h | h)
    · exact Or.inl h
    · exact Or.inr ⟨_, rfl, h⟩
  · rintro (h | ⟨t, rfl, h⟩)
    · exact .plain h
    · exact .underscore h

theorem digits_head {base : Nat} {s : Str} {v : Nat} (h : Digits base s v) :
    ∃ c, s.head? = some c ∧ ∃ d, digit c = some d ∧ d < base := by
  induction h with
  | one hd hlt => exact ⟨_, rfl, _, hd, hlt⟩
  | more h _ _ ih =>
    obtain ⟨c, hc, hd⟩ := ih
    refine ⟨c, ?_, hd⟩
    rw [List.head?_append, hc]; rfl
  | underscore h _ _ ih =>
    obtain ⟨c, hc, hd⟩ := ih
    refine ⟨c, ?_, hd⟩
    rw [List.head?_append, hc]; rfl

theorem not_prefix_octal : ∀ c : UInt8, (c = 0x5F ∨ (digit c).any (fun d => decide (d < 8)) = true) →
    ¬ (lower c = 0x62 ∨ lower c = 0x6F ∨ lower c = 0x78) := by decide +kernel

theorem octal_head {s : Str} {v : Nat} (h : OptDigits 8 s v) : s ≠ [] ∧ ∀ c, s.head? = some c → ¬ IsPrefix c := by
  cases h with
  | plain h =>
    obtain ⟨c, hc, d, hd, hlt⟩ := digits_head h
    refine ⟨fun e => by rw [e] at hc; simp at hc, fun c' hc' => ?_⟩
    rw [hc] at hc'
    simp only [Option.some.injEq] at hc'
    subst hc'
    exact not_prefix_octal c (Or.inr (by rw [hd]; simpa using hlt))
  | underscore h =>
    refine ⟨by simp, fun c' hc' => ?_⟩
    simp only [List.head?_cons, Option.some.injEq] at hc'
    exact not_prefix_octal c' (Or.inl hc'.symm)

theorem splitBase_zero {rest : Str} (h : ∀ c, rest.head? = some c → ¬ IsPrefix c) : splitBase (0x30 :: rest) = (8, rest) := by
  unfold splitBase
  simp only
  split
  · rename_i c d more
    have := h c rfl
    unfold IsPrefix at this
    rw [if_neg (fun e => this (Or.inl e)), if_neg (fun e => this (Or.inr (Or.inl e))),
      if_neg (fun e => this (Or.inr (Or.inr e)))]
  · rfl

theorem lone_prefix : ∀ c : UInt8, (lower c = 0x62 ∨ lower c = 0x6F ∨ lower c = 0x78) → parseStep 8 (0, false) c = .err .other := by
  decide +kernel

theorem digit_first : ∀ c : UInt8, (digit c).any (fun d => decide (d < 10)) = true → c ≠ 0x2D ∧ c ≠ 0x2B := by decide +kernel

theorem sign_fails (rest : Str) (c : UInt8) (h : c = 0x2D ∨ c = 0x2B) : parseLoop 10 (0, false) (c :: rest) = .err .other := by
  rcases h with rfl | rfl <;> rw [parseLoop_cons] <;> rfl

/-- The text after `0x` and the like. -/
theorem prefixed {x : UInt8} {base : Nat} {hexb : Bool} (hx : IsPrefix x) (hb : base ≤ 16)
    (hh : base ≤ 10 ∨ (base = 16 ∧ hexb = true)) (he : decide (lower x = 0x78) = hexb)
    (rest : Str) (hr : rest ≠ []) (hsp : splitBase (0x30 :: x :: rest) = (base, rest)) (n : Nat) :
    parseUint (0x30 :: x :: rest) = .ok n ↔ n ≤ 65535 ∧ OptDigits base rest n := by
  rw [parseUint_iff _ (by simp), hsp, underscoreOK_prefix hx, he, core hb hh .digit (by simp) rest hr n, optDigits_iff]
  simp

/-- The flag is accepted exactly if its text is a Go integer literal with a value of at most 65535,
and then it has that value. -/
theorem C65_number_flags (s : Str) (v : UInt16) : decode s = .ok v ↔ ∃ n, IntLit s n ∧ n ≤ 65535 ∧ v.toNat = n := by
  have key : ∀ n, parseUint s = .ok n ↔ (n ≤ 65535 ∧ IntLit s n) := by
    intro n
    cases s with
    | nil =>
      constructor
      · intro h; unfold parseUint at h; simp at h
      · rintro ⟨_, h⟩
        generalize hs : ([] : Str) = s at h
        cases h with
        | zero => simp at hs
        | decimal h _ =>
          obtain ⟨c, hc, _⟩ := digits_head h
          rw [← hs] at hc; simp at hc
        | binary => simp at hs
        | octal => simp at hs
        | oldOctal => simp at hs
        | hex => simp at hs
    | cons c rest =>
      by_cases h0 : c = 0x30
      · subst h0
        by_cases hp : ∃ x, rest.head? = some x ∧ IsPrefix x
        · obtain ⟨x, hx, hpx⟩ := hp
          cases rest with
          | nil => simp at hx
          | cons y rest =>
            simp only [List.head?_cons, Option.some.injEq] at hx
            subst hx
            cases rest with
            | nil =>
              constructor
              · intro h
                obtain ⟨u, h, _⟩ := (parseUint_iff _ (by simp) n).1 h
                have : splitBase [0x30, y] = (8, [y]) := rfl
                rw [this] at h
                simp only at h
                rw [parseLoop_cons, lone_prefix y hpx] at h
                simp at h
              · rintro ⟨_, h⟩
                exfalso
                generalize hs : ([0x30, y] : Str) = s at h
                have hopt : ∀ base v, ¬ OptDigits base [] v := by
                  intro base v h
                  generalize he : ([] : Str) = e at h
                  cases h with
                  | plain h => obtain ⟨c, hc, _⟩ := digits_head h; rw [← he] at hc; simp at hc
                  | underscore h => simp at he
                cases h with
                | zero => simp at hs
                | decimal h hh => rw [← hs] at hh; simp at hh
                | binary hx h => simp at hs; obtain ⟨_, rfl⟩ := hs; exact hopt _ _ h
                | octal hx h => simp at hs; obtain ⟨_, rfl⟩ := hs; exact hopt _ _ h
                | oldOctal h =>
                  simp at hs; subst hs
                  exact (octal_head h).2 y rfl hpx
                | hex hx h => simp at hs; obtain ⟨_, rfl⟩ := hs; exact hopt _ _ h
            | cons z rest =>
              unfold IsPrefix at hpx
              by_cases hb : lower y = 0x62
              · rw [prefixed (base := 2) (hexb := false) (Or.inl hb) (by omega) (by omega) (by rw [hb]; decide) _ (by simp)
                  (by unfold splitBase; simp only; rw [if_pos hb])]
                refine and_congr_right fun hn => ⟨fun h => .binary ((lower_b y).1 hb) h, fun h => ?_⟩
                generalize hs : (0x30 :: y :: z :: rest : Str) = s at h
                cases h with
                | zero => simp at hs
                | decimal h hh => rw [← hs] at hh; simp at hh
                | binary hx h => simp at hs; obtain ⟨_, rfl⟩ := hs; exact h
                | octal hx h =>
                  simp at hs; obtain ⟨rfl, _⟩ := hs
                  rw [(lower_o y).2 hx] at hb; exact absurd hb (by decide)
                | oldOctal h =>
                  simp at hs; subst hs
                  exact absurd (Or.inl hb) ((octal_head h).2 y rfl)
                | hex hx h =>
                  simp at hs; obtain ⟨rfl, _⟩ := hs
                  rw [(lower_x y).2 hx] at hb; exact absurd hb (by decide)
              · by_cases ho : lower y = 0x6F
                · rw [prefixed (base := 8) (hexb := false) (Or.inr (Or.inl ho)) (by omega) (by omega) (by rw [ho]; decide) _ (by simp)
                    (by unfold splitBase; simp only; rw [if_neg hb, if_pos ho])]
                  refine and_congr_right fun hn => ⟨fun h => .octal ((lower_o y).1 ho) h, fun h => ?_⟩
                  generalize hs : (0x30 :: y :: z :: rest : Str) = s at h
                  cases h with
                  | zero => simp at hs
                  | decimal h hh => rw [← hs] at hh; simp at hh
                  | binary hx h =>
                    simp at hs; obtain ⟨rfl, _⟩ := hs
                    exact absurd ((lower_b y).2 hx) hb
                  | octal hx h => simp at hs; obtain ⟨_, rfl⟩ := hs; exact h
                  | oldOctal h =>
                    simp at hs; subst hs
                    exact absurd (Or.inr (Or.inl ho)) ((octal_head h).2 y rfl)
                  | hex hx h =>
                    simp at hs; obtain ⟨rfl, _⟩ := hs
                    rw [(lower_x y).2 hx] at ho; exact absurd ho (by decide)
                · have hxx : lower y = 0x78 := by
                    rcases hpx with h | h | h
                    · exact absurd h hb
                    · exact absurd h ho
                    · exact h
                  rw [prefixed (base := 16) (hexb := true) (Or.inr (Or.inr hxx)) (by omega) (Or.inr ⟨rfl, rfl⟩) (by rw [hxx]; decide) _ (by simp)
                    (by unfold splitBase; simp only; rw [if_neg hb, if_neg ho, if_pos hxx])]
                  refine and_congr_right fun hn => ⟨fun h => .hex ((lower_x y).1 hxx) h, fun h => ?_⟩
                  generalize hs : (0x30 :: y :: z :: rest : Str) = s at h
                  cases h with
                  | zero => simp at hs
                  | decimal h hh => rw [← hs] at hh; simp at hh
                  | binary hx h =>
                    simp at hs; obtain ⟨rfl, _⟩ := hs
                    exact absurd ((lower_b y).2 hx) hb
                  | octal hx h =>
                    simp at hs; obtain ⟨rfl, _⟩ := hs
                    exact absurd ((lower_o y).2 hx) ho
                  | oldOctal h =>
                    simp at hs; subst hs
                    exact absurd (Or.inr (Or.inr hxx)) ((octal_head h).2 y rfl)
                  | hex hx h => simp at hs; obtain ⟨_, rfl⟩ := hs; exact h
        · have hnp : ∀ c, rest.head? = some c → ¬ IsPrefix c := fun c hc h => hp ⟨c, hc, h⟩
          rw [parseUint_iff _ (by simp), splitBase_zero hnp, underscoreOK_zero rest hnp]
          have inv : IntLit (0x30 :: rest) n → (rest = [] ∧ n = 0) ∨ OptDigits 8 rest n := by
            intro h
            generalize hs : (0x30 :: rest : Str) = s at h
            cases h with
            | zero => simp at hs; exact Or.inl ⟨hs, rfl⟩
            | decimal h hh => rw [← hs] at hh; simp at hh
            | binary hx h => simp at hs; exact absurd (Or.inl ((lower_b _).2 hx)) (hnp _ (by rw [hs]; rfl))
            | octal hx h => simp at hs; exact absurd (Or.inr (Or.inl ((lower_o _).2 hx))) (hnp _ (by rw [hs]; rfl))
            | oldOctal h => simp at hs; rw [hs]; exact Or.inr h
            | hex hx h => simp at hs; exact absurd (Or.inr (Or.inr ((lower_x _).2 hx))) (hnp _ (by rw [hs]; rfl))
          by_cases hr : rest = []
          · subst hr
            constructor
            · rintro ⟨u, h, _⟩
              unfold parseLoop at h
              simp only [Out.ok.injEq, Prod.mk.injEq] at h
              obtain ⟨rfl, _⟩ := h
              exact ⟨by omega, .zero⟩
            · rintro ⟨_, h⟩
              rcases inv h with ⟨_, rfl⟩ | h
              · exact ⟨false, rfl, by simp⟩
              · exact absurd rfl (octal_head h).1
          · rw [core (base := 8) (hex := false) (by omega) (by omega) .digit (by simp) rest hr n]
            refine and_congr_right fun hn => ?_
            simp only [true_and]
            rw [← optDigits_iff]
            constructor
            · exact fun h => .oldOctal h
            · intro h
              rcases inv h with ⟨h, _⟩ | h
              · exact absurd h hr
              · exact h
      · rw [parseUint_iff _ (by simp), splitBase_other h0]
        have inv : IntLit (c :: rest) n → Digits 10 (c :: rest) n := by
          intro h
          generalize hs : (c :: rest : Str) = s at h
          cases h with
          | zero => simp at hs; exact absurd hs.1 h0
          | decimal h hh => exact h
          | binary hx h => simp at hs; exact absurd hs.1 h0
          | octal hx h => simp at hs; exact absurd hs.1 h0
          | oldOctal h => simp at hs; exact absurd hs.1 h0
          | hex hx h => simp at hs; exact absurd hs.1 h0
        by_cases hsign : c = 0x2D ∨ c = 0x2B
        · constructor
          · rintro ⟨u, h, _⟩
            simp only at h
            rw [sign_fails rest c hsign] at h
            simp at h
          · rintro ⟨_, h⟩
            obtain ⟨c', hc, d, hd, hlt⟩ := digits_head (inv h)
            simp only [List.head?_cons, Option.some.injEq] at hc
            subst hc
            have := digit_first c (by rw [hd]; simpa using hlt)
            rcases hsign with h | h
            · exact absurd h this.1
            · exact absurd h this.2
        · rw [underscoreOK_other h0 hsign,
            core (base := 10) (hex := false) (by omega) (by omega) .start (by simp) (c :: rest) (by simp) n]
          refine and_congr_right fun hn => ?_
          simp only [reduceCtorEq, false_and, or_false]
          exact ⟨fun h => .decimal h (by simpa using h0), inv⟩
  unfold decode
  constructor
  · intro h
    cases hp : parseUint s with
    | ok n =>
      rw [hp] at h
      simp only [Out.ok.injEq] at h
      obtain ⟨h1, h2⟩ := (key n).1 hp
      refine ⟨n, h2, h1, ?_⟩
      rw [← h, UInt16.toNat_ofNat']
      omega
    | err k => rw [hp] at h; simp at h
    | panic => rw [hp] at h; simp at h
    | timeout => rw [hp] at h; simp at h
  · rintro ⟨n, h1, h2, h3⟩
    rw [(key n).2 ⟨h2, h1⟩]
    simp only [Out.ok.injEq]
    apply UInt16.toNat_inj.1
    rw [UInt16.toNat_ofNat', h3]
    omega

/-- Any other text is an error, never a crash. -/
theorem C65_otherwise_an_error (s : Str) (h : ¬ ∃ n, IntLit s n ∧ n ≤ 65535) : (decode s).isErr := by
  cases hd : decode s with
  | ok v =>
    obtain ⟨n, h1, h2, _⟩ := (C65_number_flags s v).1 hd
    exact absurd ⟨n, h1, h2⟩ h
  | err k => rfl
  | panic => unfold decode at hd; split at hd <;> simp at hd
  | timeout => unfold decode at hd; split at hd <;> simp at hd

/-- Non-vacuity: the default flags and some others. -/
example : decode (str "0x6000") = .ok 0x6000 ∧ decode (str "0xFFFF") = .ok 0xFFFF ∧ decode (str "0x1_0000") = .err .other ∧
    decode (str "24_576") = .ok 24576 ∧ decode (str "017") = .ok 15 ∧ decode (str "08") = .err .other ∧
    decode (str "$6000") = .err .other := by decide +kernel

end Verif.Flags
