import Verif.Props.BasicInt

/-!
# C66: exactly which Integer BASIC programs are listed as they were typed
-/

set_option autoImplicit false

namespace Verif.Integer

open Verif Verif.Basic Verif.Spec.Basic

theorem fold_lt (s : Str) : ∀ v : Nat, (∀ c ∈ s, 48 ≤ c.toNat ∧ c.toNat ≤ 57) →
    s.foldl (fun v c => 10 * v + (c.toNat - 48)) v < (v + 1) * 10 ^ s.length := by
  induction s with
  | nil => intro v _; simp
  | cons c s ih =>
    intro v h
    have hc := h c List.mem_cons_self
    have := ih (10 * v + (c.toNat - 48)) (fun d hd => h d (List.mem_cons_of_mem _ hd))
    rw [List.foldl_cons, List.length_cons, Nat.pow_succ]
    refine Nat.lt_of_lt_of_le this ?_
    have : 10 * v + (c.toNat - 48) + 1 ≤ (v + 1) * 10 := by omega
    calc (10 * v + (c.toNat - 48) + 1) * 10 ^ s.length ≤ (v + 1) * 10 * 10 ^ s.length := Nat.mul_le_mul_right _ this
      _ = (v + 1) * (10 ^ s.length * 10) := by rw [Nat.mul_assoc, Nat.mul_comm 10]

theorem decimal_digits (v : Nat) : ∀ c ∈ decimal v, IsDigit c := (Applesoft.decimal_spec v).2.1

theorem decimal_lt (v : Nat) : v < 10 ^ (decimal v).length := by
  have h := Applesoft.decimal_spec v
  have := fold_lt (decimal v) 0 h.2.1
  rw [h.2.2.2] at this
  omega

theorem quote_not_digit : ¬ IsDigit (0x22 : UInt8) := by
  intro h
  have : (48 : Nat) ≤ (0x22 : UInt8).toNat := h.1
  exact absurd this (by decide)

/-- Digits too many are never made up for within a string. -/
theorem shifted_text (t : Str) : ∀ (e : Str) (rest : Bytes) (x y : Str), (∀ c ∈ t, c.toNat < 0x80) → e ≠ [] → (∀ c ∈ e, IsDigit c) →
    e ++ renderLoop (highBit t ++ 0x29 :: rest) true ++ x ≠ t ++ 0x22 :: y := by
  induction t with
  | nil =>
    intro e rest x y _ he hd heq
    obtain ⟨a, e', rfl⟩ := List.exists_cons_of_ne_nil he
    have : a = 0x22 := by simpa using congrArg List.head? heq
    exact quote_not_digit (this ▸ hd a List.mem_cons_self)
  | cons c t ih =>
    intro e rest x y ht he hd heq
    obtain ⟨a, e', rfl⟩ := List.exists_cons_of_ne_nil he
    rw [show highBit (c :: t) ++ 0x29 :: rest = (c + 0x80) :: (highBit t ++ 0x29 :: rest) from rfl,
      render_char c _ true (ht c List.mem_cons_self) (fun _ => rfl)] at heq
    simp only [List.cons_append, List.append_assoc, List.cons.injEq] at heq
    obtain ⟨rfl, heq⟩ := heq
    have ha : isalnum a = true := (isalnum_iff a).2 (Or.inl (hd a List.mem_cons_self))
    rw [ha] at heq
    refine ih (e' ++ [a]) rest x y (fun d h => ht d (List.mem_cons_of_mem _ h)) (by simp) ?_ ?_
    · intro d h
      rcases List.mem_append.1 h with h | h
      · exact hd d (List.mem_cons_of_mem _ h)
      · rw [List.mem_singleton.1 h]; exact hd a List.mem_cons_self
    · simpa using heq

/-- A digit that is taken for the start of a number. -/
theorem render_digit (d : UInt8) (rest : Bytes) (h : IsDigit d) :
    renderLoop ((d + 0x80) :: rest) false =
      if rest.length < 2 then str "?" ++ renderLoop rest true
      else decimal ((rest.getD 0 0).toNat + 256 * (rest.getD 1 0).toNat) ++ renderLoop (rest.drop 2) true := by
  have hd : d.toNat < 0x80 := by have := h.2; omega
  have ha : isalnum d = true := (isalnum_iff d).2 (Or.inl h)
  rw [renderLoop.eq_def]
  simp only
  rw [if_neg (high d hd), high_sub, if_pos, ha]
  obtain ⟨a, b⟩ := (digit_iff d).2 h
  simp [a, b]

theorem high_toNat (c : UInt8) (h : c.toNat < 0x80) : (c + 0x80).toNat = c.toNat + 128 := by
  rw [UInt8.toNat_add]
  show (c.toNat + 128) % 256 = _
  omega

theorem long_decimal (v k : Nat) (h : 10 ^ k ≤ v) : k < (decimal v).length := by
  have := decimal_lt v
  refine Decidable.byContradiction fun hk => ?_
  have : 10 ^ (decimal v).length ≤ 10 ^ k := Nat.pow_le_pow_right (by decide) (by omega)
  omega

/-- A string with a digit that follows no letter or digit is not shown as it is, whatever comes after it. -/
theorem bad_text (s : Str) : ∀ (an : Bool) (rest : Bytes) (x y : Str), (∀ c ∈ s, c.toNat < 0x80) → ¬ DigitsFollow an s →
    renderLoop (highBit s ++ 0x29 :: rest) an ++ x ≠ s ++ 0x22 :: y := by
  induction s with
  | nil => intro an rest x y _ h; exact absurd trivial h
  | cons c s ih =>
    intro an rest x y hs hb heq
    have hc := hs c List.mem_cons_self
    have hs' : ∀ d ∈ s, d.toNat < 0x80 := fun d hd => hs d (List.mem_cons_of_mem _ hd)
    rw [show highBit (c :: s) ++ 0x29 :: rest = (c + 0x80) :: (highBit s ++ 0x29 :: rest) from rfl] at heq
    by_cases hd : IsDigit c → an = true
    · rw [render_char c _ an hc hd, List.cons_append, List.cons_append, List.cons.injEq] at heq
      refine ih (isalnum c) rest x y hs' ?_ heq.2
      intro hf
      exact hb ⟨hd, isalnum c, isalnum_iff c, hf⟩
    · have hdig : IsDigit c := Classical.byContradiction fun h => hd fun h' => absurd h' h
      have han : an = false := by
        cases an with
        | false => rfl
        | true => exact absurd (fun _ => rfl) hd
      subst han
      rw [render_digit c _ hdig] at heq
      -- the number is longer than what is left of the string
      have key : ∀ (v : Nat) (more : Str), s.length + 2 ≤ (decimal v).length → s.length < 2 → decimal v ++ more ≠ c :: s ++ 0x22 :: y := by
        intro v more hl _ he
        have h1 : (decimal v ++ more)[s.length + 1]? = some 0x22 := by
          rw [he, List.getElem?_append_right (by simp)]
          simp
        rw [List.getElem?_append_left (by omega)] at h1
        exact quote_not_digit (decimal_digits v _ (List.mem_of_getElem? h1))
      match s, hs', hb, heq, key with
      | [], _, _, heq, key =>
        cases rest with
        | nil =>
          rw [if_pos (by decide)] at heq
          have : (0x3F : UInt8) = c := by simpa [str] using congrArg List.head? heq
          subst this
          exact absurd hdig.2 (by decide)
        | cons r rest =>
          rw [if_neg (by show ¬ rest.length + 1 + 1 < 2; omega), List.append_assoc] at heq
          refine key _ _ ?_ (by decide) heq
          have : 1 < (decimal (((0x29 : UInt8)).toNat + 256 * r.toNat)).length :=
            long_decimal _ 1 (by show 10 ^ 1 ≤ 41 + 256 * r.toNat; omega)
          exact this
      | [c1], hs', _, heq, key =>
        have h1 := high_toNat c1 (hs' c1 (by simp))
        rw [if_neg (by show ¬ rest.length + 1 + 1 < 2; omega), List.append_assoc] at heq
        refine key _ _ ?_ (by simp) heq
        have : 2 < (decimal ((c1 + 0x80).toNat + 256 * (0x29 : UInt8).toNat)).length :=
          long_decimal _ 2 (by show 10 ^ 2 ≤ (c1 + 0x80).toNat + 256 * 41; omega)
        exact this
      | c1 :: c2 :: s, hs', _, heq, _ =>
        have h2 := high_toNat c2 (hs' c2 (by simp))
        rw [if_neg (by show ¬ (highBit s ++ 0x29 :: rest).length + 1 + 1 < 2; omega)] at heq
        have hl : 3 < (decimal ((c1 + 0x80).toNat + 256 * (c2 + 0x80).toNat)).length := long_decimal _ 3 (by omega)
        have hv : decimal ((c1 + 0x80).toNat + 256 * (c2 + 0x80).toNat) ++ renderLoop (highBit s ++ 0x29 :: rest) true ++ x =
          c :: c1 :: c2 :: (s ++ 0x22 :: y) := heq
        have hall := decimal_digits ((c1 + 0x80).toNat + 256 * (c2 + 0x80).toNat)
        generalize decimal ((c1 + 0x80).toNat + 256 * (c2 + 0x80).toNat) = e at hl hv hall
        match e, hl, hv, hall with
        | e0 :: e1 :: e2 :: e3 :: e, _, hv, hall =>
          simp only [List.cons_append, List.cons.injEq] at hv
          refine shifted_text s (e3 :: e) rest x y (fun d hd => hs' d (by simp [hd])) (by simp) (fun d hd => hall d ?_) ?_
          · exact List.mem_cons_of_mem _ (List.mem_cons_of_mem _ (List.mem_cons_of_mem _ hd))
          · simpa using hv.2.2.2

/-- A piece that is not shown correctly spoils the listing, whatever comes after it. -/
theorem bad_item (i : Item) (rest : Bytes) (an : Bool) (x y : Str) (hv : i.Valid) (hg : ¬ Good i) :
    renderLoop (i.stored ++ rest) an ++ x ≠ i.shown decimal ++ y := by
  cases i with
  | keyword c =>
    have : c = 0x79 := Classical.byContradiction fun h => hg fun h' => h (UInt8.toNat_inj.1 h')
    subst this
    intro heq
    rw [show (Item.keyword 0x79).stored ++ rest = 0x79 :: rest from rfl, renderLoop.eq_def] at heq
    simp only at heq
    have ht : tokenByCode 0x79 = str "DSP" := by decide +kernel
    rw [if_pos (by decide), ht, if_neg (by decide +kernel)] at heq
    have h1 : (Item.keyword 0x79).shown decimal = str "NODSP " := by decide +kernel
    rw [h1] at heq
    have h2 : (str "DSP").head? = some 0x44 := by decide +kernel
    have h3 : str "NODSP " = 0x4E :: str "ODSP " := by decide +kernel
    have h4 : str "DSP" = 0x44 :: str "SP" := by decide +kernel
    rw [h3, h4] at heq
    simp only [List.cons_append, List.cons.injEq] at heq
    exact absurd heq.1 (by decide)
  | number d v => exact absurd trivial hg
  | name s => exact absurd trivial hg
  | quoted s =>
    intro heq
    rw [show (Item.quoted s).stored ++ rest = 0x28 :: (highBit s ++ [0x29]) ++ rest from rfl, List.cons_append,
      render_token 0x28 _ an (by decide) (by decide) (by decide) (by decide), List.append_assoc] at heq
    have h1 : keywordText 0x28 = [0x22] := by decide +kernel
    rw [h1] at heq
    have heq' : 0x22 :: (renderLoop (highBit s ++ 0x29 :: rest) false ++ x) = 0x22 :: (s ++ [0x22]) ++ y := by
      have e : (Item.quoted s).shown decimal = 0x22 :: (s ++ [0x22]) := rfl
      rw [e] at heq
      simpa using heq
    simp only [List.cons_append, List.cons.injEq, true_and] at heq'
    exact bad_text s false rest x y hv hg (by simpa using heq')

theorem bad_items (is : List Item) : ∀ (rest : Bytes) (an : Bool) (x y : Str), (∀ i ∈ is, i.Valid) → Separated is →
    (an = true → ∀ i, is.head? = some i → ¬ ∃ d v, i = .number d v) → (∃ i ∈ is, ¬ Good i) →
    renderLoop ((is.map Item.stored).flatten ++ rest) an ++ x ≠ (is.map (Item.shown decimal)).flatten ++ y := by
  induction is with
  | nil => intro rest an x y _ _ _ h; simp at h
  | cons i is ih =>
    intro rest an x y hv hs han hb heq
    rw [List.map_cons, List.flatten_cons, List.append_assoc, List.map_cons, List.flatten_cons, List.append_assoc] at heq
    by_cases hg : Good i
    · obtain ⟨b, e, hb'⟩ := render_item i ((is.map Item.stored).flatten ++ rest) an (hv i List.mem_cons_self) hg fun h => han h i rfl
      rw [e, List.append_assoc] at heq
      refine ih rest b x y (fun j hj => hv j (List.mem_cons_of_mem _ hj))
        (by cases is with
            | nil => trivial
            | cons j js => exact hs.2) ?_ ?_ (List.append_cancel_left heq)
      · intro h j hj
        cases is with
        | nil => simp at hj
        | cons k js =>
          simp only [List.head?_cons, Option.some.injEq] at hj
          subst hj
          exact hs.1 (hb' h)
      · obtain ⟨j, hj, hbad⟩ := hb
        rcases List.mem_cons.1 hj with rfl | hj
        · exact absurd hg hbad
        · exact ⟨j, hj, hbad⟩
    · exact bad_item i _ an x _ (hv i List.mem_cons_self) hg heq

theorem good_iff (i : Item) : Good i ↔ i ≠ .keyword 0x79 ∧ ∀ s, i = .quoted s → DigitsFollow false s := by
  cases i with
  | keyword c =>
    refine ⟨fun h => ⟨fun e => ?_, by simp⟩, fun h e => h.1 (congrArg Item.keyword (UInt8.toNat_inj.1 e))⟩
    cases e
    exact h rfl
  | number d v => simp [Good]
  | name s => simp [Good]
  | quoted s => simp [Good]

/-- C66, exactly: an Integer BASIC program is listed as it was typed if and only if no line has token
$79 and in its strings every digit directly follows a letter or another digit. -/
theorem C66_exact (ts : List Typed)
    (hv : ∀ t ∈ ts, t.num < 65536 ∧ (∀ i ∈ t.items, i.Valid) ∧ Separated t.items ∧ ∀ s, t.remark = some s → ∀ c ∈ s, c.toNat < 0x80) :
    ∃ dec : Nat → Str, (∀ n, IsDecimal (dec n) n) ∧
      (Listing.string (ts.map fun t => ⟨t.num, t.stored⟩) = (ts.map (Typed.shown dec)).flatten ↔
        ∀ t ∈ ts, ∀ i ∈ t.items, i ≠ .keyword 0x79 ∧ ∀ s, i = .quoted s → DigitsFollow false s) := by
  refine ⟨decimal, fun n => Applesoft.decimal_spec n, ?_, ?_⟩
  · induction ts with
    | nil => simp
    | cons t ts ih =>
      intro heq
      obtain ⟨_, hvi, hsep, _⟩ := hv t List.mem_cons_self
      have e1 : Listing.string ((t :: ts).map fun t => ⟨t.num, t.stored⟩) =
          padded t.num ++ (str " " ++ (renderLoop t.stored false ++ ([0x0A] ++ Listing.string (ts.map fun t => ⟨t.num, t.stored⟩)))) := by
        unfold Listing.string
        rw [List.map_cons, List.flatMap_cons]
        unfold Line.string
        simp only [List.append_assoc]
      have hsp : str " " = [0x20] := by decide
      have e2 : ((t :: ts).map (Typed.shown decimal)).flatten =
          padded t.num ++ (str " " ++ ((t.items.map (Item.shown decimal)).flatten ++
            ((t.remark.elim [] fun s => str "REM " ++ s) ++ ([0x0A] ++ (ts.map (Typed.shown decimal)).flatten)))) := by
        rw [List.map_cons, List.flatten_cons]
        unfold Typed.shown padded
        rw [hsp]
        simp only [List.append_assoc]
      have hgood : ∀ i ∈ t.items, Good i := by
        refine Classical.byContradiction fun h => ?_
        have h : ∃ i ∈ t.items, ¬ Good i := by simpa using h
        rw [e1, e2] at heq
        exact bad_items t.items _ false _ _ hvi hsep (by simp) h (List.append_cancel_left (List.append_cancel_left heq))
      have h0 : ∀ i ∈ t.items, i ≠ .keyword 0x79 ∧ ∀ s, i = .quoted s → DigitsFollow false s := fun i hi => (good_iff i).1 (hgood i hi)
      have h1 := line_shown t.num t.items t.remark hvi hsep h0
      have h2 : Listing.string (ts.map fun t => ⟨t.num, t.stored⟩) = (ts.map (Typed.shown decimal)).flatten := by
        have e3 : Listing.string ((t :: ts).map fun t => ⟨t.num, t.stored⟩) =
            Listing.string [⟨t.num, t.stored⟩] ++ Listing.string (ts.map fun t => ⟨t.num, t.stored⟩) := by
          unfold Listing.string
          simp
        have e4 : Listing.string [⟨t.num, t.stored⟩] = Typed.shown decimal t := h1
        rw [e3, e4, List.map_cons, List.flatten_cons] at heq
        exact List.append_cancel_left heq
      have h3 := ih (fun u hu => hv u (List.mem_cons_of_mem _ hu)) h2
      intro u hu
      rcases List.mem_cons.1 hu with rfl | hu
      · exact h0
      · exact h3 u hu
  · intro hg
    have hl : ∀ ts' : List Typed, (∀ t ∈ ts', t ∈ ts) →
        Listing.string (ts'.map fun t => ⟨t.num, t.stored⟩) = (ts'.map (Typed.shown decimal)).flatten := by
      intro ts'
      induction ts' with
      | nil => intro _; rfl
      | cons t ts' ih =>
        intro hsub
        have ht := hsub t List.mem_cons_self
        have h1 : Listing.string [⟨t.num, t.stored⟩] = Typed.shown decimal t :=
          line_shown t.num t.items t.remark (hv t ht).2.1 (hv t ht).2.2.1 (hg t ht)
        have e3 : Listing.string ((t :: ts').map fun t => ⟨t.num, t.stored⟩) =
            Listing.string [⟨t.num, t.stored⟩] ++ Listing.string (ts'.map fun t => ⟨t.num, t.stored⟩) := by
          unfold Listing.string
          simp
        rw [e3, h1, ih fun u hu => hsub u (List.mem_cons_of_mem _ hu), List.map_cons, List.flatten_cons]
    exact hl ts fun _ h => h

/-- Non-vacuity, of both sides: `10 PRINT "A1"` is listed as it was typed, `10 PRINT "465"` is not. -/
example : (∀ i ∈ [Item.keyword 0x61, .quoted (str "A1")], i ≠ .keyword 0x79 ∧ ∀ s, i = .quoted s → DigitsFollow false s) ∧
    ¬ DigitsFollow false (str "465") ∧
    Listing.string [⟨10, [0x61] ++ (Item.quoted (str "465")).stored⟩] = str "   10 PRINT \"46518\"\n" := by
  refine ⟨?_, ?_, by decide +kernel⟩
  · have hs : str "A1" = [0x41, 0x31] := by decide +kernel
    rw [hs]
    intro i hi
    simp only [List.mem_cons, List.not_mem_nil, or_false] at hi
    rcases hi with rfl | rfl <;> simp [DigitsFollow, IsAlnum, IsDigit]
  · have hs : str "465" = [0x34, 0x36, 0x35] := by decide +kernel
    rw [hs]
    simp [DigitsFollow, IsDigit]

end Verif.Integer
