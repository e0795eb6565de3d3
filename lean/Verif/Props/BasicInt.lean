import Verif.Props.Basic

/-!
# C66: Integer BASIC listings
-/

set_option autoImplicit false

namespace Verif.Integer

open Verif Verif.Basic Verif.Spec.Basic

/-- A keyword as the code shows it. -/
theorem keyword_text : ∀ c : UInt8, c.toNat < 0x80 → c.toNat ≠ 1 → c.toNat ≠ 0x79 →
    tokenByCode c ++ (if (tokenByCode c).length > 1 then str " " else []) = keywordText c := by decide +kernel

theorem rem_only : ∀ c : UInt8, c.toNat < 0x80 → c.toNat ≠ 0x5D → tokenByCode c ≠ str "REM" := by decide +kernel

theorem isalnum_iff : ∀ c : UInt8, isalnum c = true ↔ IsAlnum c := by
  have h : ∀ c : UInt8, isalnum c = decide ((48 ≤ c.toNat ∧ c.toNat ≤ 57) ∨ (65 ≤ c.toNat ∧ c.toNat ≤ 90) ∨ (97 ≤ c.toNat ∧ c.toNat ≤ 122)) := by
    decide +kernel
  intro c
  rw [h c, decide_eq_true_eq]
  rfl

/-- The condition under which a byte is taken as the start of a number. -/
theorem digit_iff (c : UInt8) : ((0x30 : UInt8) ≤ c ∧ c ≤ 0x39) ↔ IsDigit c := by
  rw [UInt8.le_iff_toNat_le, UInt8.le_iff_toNat_le]; rfl

theorem high (c : UInt8) (h : c.toNat < 0x80) : ¬ c + 0x80 < 0x80 := by
  rw [UInt8.lt_iff_toNat_lt, UInt8.toNat_add]
  show ¬ (c.toNat + 128) % 256 < 128
  omega

theorem high_sub (c : UInt8) : c + 0x80 - 0x80 = c := by
  have : ∀ c : UInt8, c + 0x80 - 0x80 = c := by decide +kernel
  exact this c

/-- One token. -/
theorem render_token (c : UInt8) (rest : Bytes) (an : Bool) (h1 : c.toNat < 0x80) (h2 : c.toNat ≠ 1)
    (h3 : c.toNat ≠ 0x5D) (h4 : c.toNat ≠ 0x79) : renderLoop (c :: rest) an = keywordText c ++ renderLoop rest false := by
  rw [renderLoop.eq_def]
  simp only
  rw [if_pos (UInt8.lt_iff_toNat_lt.2 h1), if_neg (rem_only c h1 h3), ← keyword_text c h1 h2 h4]

/-- One character. -/
theorem render_char (c : UInt8) (rest : Bytes) (an : Bool) (h1 : c.toNat < 0x80) (h2 : IsDigit c → an = true) :
    renderLoop ((c + 0x80) :: rest) an = c :: renderLoop rest (isalnum c) := by
  rw [renderLoop.eq_def]
  simp only
  rw [if_neg (high c h1), high_sub]
  rw [if_neg]
  intro h
  simp only [Bool.and_eq_true, decide_eq_true_eq, Bool.not_eq_true'] at h
  exact absurd (h2 ((digit_iff c).1 ⟨h.1.2, h.2⟩)) (by rw [h.1.1]; decide)

/-- Characters. -/
theorem render_text (s : Str) : ∀ (rest : Bytes) (an : Bool), (∀ c ∈ s, c.toNat < 0x80) → DigitsFollow an s →
    ∃ b, renderLoop (highBit s ++ rest) an = s ++ renderLoop rest b ∧ (s = [] → b = an) := by
  induction s with
  | nil => intro rest an _ _; exact ⟨an, rfl, fun _ => rfl⟩
  | cons c s ih =>
    intro rest an h1 h2
    obtain ⟨hd, b, hb, hf⟩ := h2
    have hba : b = isalnum c := by
      rw [Bool.eq_iff_iff, hb, isalnum_iff]
    subst hba
    obtain ⟨b', e, _⟩ := ih rest (isalnum c) (fun d hd => h1 d (List.mem_cons_of_mem _ hd)) hf
    refine ⟨b', ?_, by simp⟩
    show renderLoop ((c + 0x80) :: (highBit s ++ rest)) an = _
    rw [render_char c _ an (h1 c List.mem_cons_self) hd, e]
    rfl

/-- One number. -/
theorem render_number (d : UInt8) (v : Nat) (rest : Bytes) (h1 : IsDigit d) (h2 : v < 65536) :
    renderLoop ((d + 0x80) :: (word16 v ++ rest)) false = decimal v ++ renderLoop rest true := by
  have hd : d.toNat < 0x80 := by have := h1.2; omega
  rw [renderLoop.eq_def]
  simp only
  rw [if_neg (high d hd), high_sub, if_pos, if_neg]
  · have ha : isalnum d = true := (isalnum_iff d).2 (Or.inl h1)
    have hv : ((word16 v ++ rest).getD 0 0).toNat + 256 * ((word16 v ++ rest).getD 1 0).toNat = v := by
      show (loByte v).toNat + 256 * (hiByte v).toNat = v
      unfold loByte hiByte
      rw [UInt8.toNat_ofNat', UInt8.toNat_ofNat']
      omega
    rw [hv, ha]
    rfl
  · show ¬ (rest.length + 1 + 1 < 2)
    omega
  · obtain ⟨a, b⟩ := (digit_iff d).2 h1
    simp [a, b]

theorem name_digitsFollow (s : Str) (an : Bool) (h : ∀ c ∈ s, IsAlnum c) (h0 : an = true ∨ ∀ c, s.head? = some c → ¬ IsDigit c) :
    DigitsFollow an s := by
  induction s generalizing an with
  | nil => trivial
  | cons c s ih =>
    refine ⟨fun hd => ?_, true, by simp [h c List.mem_cons_self], ih true (fun d hd => h d (List.mem_cons_of_mem _ hd)) (Or.inl rfl)⟩
    rcases h0 with h0 | h0
    · exact h0
    · exact absurd hd (h0 c rfl)

theorem alnum_lt {c : UInt8} (h : IsAlnum c) : c.toNat < 0x80 := by
  rcases h with ⟨_, h⟩ | ⟨_, h⟩ | ⟨_, h⟩ <;> omega

/-- Whether a piece is a name or a number. -/
def Joins (i : Item) : Prop := (∃ s, i = .name s) ∨ ∃ d v, i = .number d v

/-- The pieces that the code shows correctly: not token $79, and in strings each digit directly
follows a letter or another digit. -/
def Good : Item → Prop
  | .keyword c => c.toNat ≠ 0x79
  | .quoted s => DigitsFollow false s
  | _ => True

/-- One piece. -/
theorem render_item (i : Item) (rest : Bytes) (an : Bool) (hv : i.Valid) (hg : Good i)
    (han : an = true → ¬ ∃ d v, i = .number d v) :
    ∃ b, renderLoop (i.stored ++ rest) an = i.shown decimal ++ renderLoop rest b ∧ (b = true → Joins i) := by
  cases i with
  | keyword c =>
    obtain ⟨h1, h2, h3, _⟩ := hv
    exact ⟨false, render_token c rest an h1 h2 h3 hg, by simp⟩
  | number d v =>
    have : an = false := by
      cases an with
      | false => rfl
      | true => exact absurd ⟨d, v, rfl⟩ (han rfl)
    subst this
    exact ⟨true, render_number d v rest hv.1 hv.2, fun _ => Or.inr ⟨d, v, rfl⟩⟩
  | name s =>
    obtain ⟨h0, h1, h2⟩ := hv
    obtain ⟨b, e, _⟩ := render_text s rest an (fun c hc => alnum_lt (h1 c hc)) (name_digitsFollow s an h1 (Or.inr h2))
    exact ⟨b, e, fun _ => Or.inl ⟨s, rfl⟩⟩
  | quoted s =>
    refine ⟨false, ?_, by simp⟩
    show renderLoop (0x28 :: (highBit s ++ [0x29]) ++ rest) an = 0x22 :: (s ++ [0x22]) ++ renderLoop rest false
    rw [List.cons_append, render_token 0x28 _ an (by decide) (by decide) (by decide) (by decide), List.append_assoc]
    obtain ⟨b, e, _⟩ := render_text s ([0x29] ++ rest) false hv hg
    rw [e, List.singleton_append, render_token 0x29 _ b (by decide) (by decide) (by decide) (by decide)]
    have h1 : keywordText 0x28 = [0x22] := by decide +kernel
    have h2 : keywordText 0x29 = [0x22] := by decide +kernel
    rw [h1, h2]
    simp

theorem render_items (is : List Item) : ∀ (rest : Bytes) (an : Bool), (∀ i ∈ is, i.Valid ∧ Good i) → Separated is →
    (an = true → ∀ i, is.head? = some i → ¬ ∃ d v, i = .number d v) →
    ∃ b, renderLoop ((is.map Item.stored).flatten ++ rest) an =
      (is.map (Item.shown decimal)).flatten ++ renderLoop rest b := by
  induction is with
  | nil => intro rest an _ _ _; exact ⟨an, rfl⟩
  | cons i is ih =>
    intro rest an hv hs han
    obtain ⟨hi, hg⟩ := hv i List.mem_cons_self
    obtain ⟨b, e, hb⟩ := render_item i ((is.map Item.stored).flatten ++ rest) an hi hg fun h => han h i rfl
    obtain ⟨b', e'⟩ := ih rest b (fun j hj => hv j (List.mem_cons_of_mem _ hj))
      (by cases is with
          | nil => trivial
          | cons j js => exact hs.2)
      (by
        intro h j hj
        cases is with
        | nil => simp at hj
        | cons k js =>
          simp only [List.head?_cons, Option.some.injEq] at hj
          subst hj
          exact hs.1 (hb h))
    refine ⟨b', ?_⟩
    rw [List.map_cons, List.flatten_cons, List.append_assoc, e, e', List.map_cons, List.flatten_cons, List.append_assoc]

theorem line_shown (num : Nat) (is : List Item) (remark : Option Str)
    (hv : ∀ i ∈ is, i.Valid) (hs : Separated is)
    (hg : ∀ i ∈ is, i ≠ .keyword 0x79 ∧ ∀ s, i = .quoted s → DigitsFollow false s) :
    Listing.string [⟨num, (is.map Item.stored).flatten ++ (remark.elim [] fun s => 0x5D :: highBit s)⟩] =
      List.replicate (5 - (decimal num).length) 0x20 ++ decimal num ++ [0x20] ++ (is.map (Item.shown decimal)).flatten ++
        (remark.elim [] fun s => str "REM " ++ s) ++ [0x0A] := by
  have hgood : ∀ i ∈ is, i.Valid ∧ Good i := by
    intro i hi
    refine ⟨hv i hi, ?_⟩
    cases i with
    | keyword c =>
      intro h
      exact (hg _ hi).1 (congrArg Item.keyword (UInt8.toNat_inj.1 h))
    | number d v => trivial
    | name s => trivial
    | quoted s => exact (hg _ hi).2 s rfl
  obtain ⟨b, e⟩ := render_items is (remark.elim [] fun s => 0x5D :: highBit s) false hgood hs (by simp)
  unfold Listing.string
  rw [List.flatMap_cons, List.flatMap_nil, List.append_nil]
  unfold Line.string padded
  rw [e]
  have hsp : str " " = [0x20] := by decide
  rw [hsp]
  have hrem : renderLoop (remark.elim [] fun s => 0x5D :: highBit s) b = remark.elim [] fun s => str "REM " ++ s := by
    cases remark with
    | none => rw [renderLoop.eq_def]; rfl
    | some s =>
      show renderLoop (0x5D :: highBit s) b = str "REM " ++ s
      rw [renderLoop.eq_def]
      simp only
      have ht : tokenByCode 0x5D = str "REM" := by decide +kernel
      rw [if_pos (by decide), ht, if_pos rfl]
      have h1 : str "REM" ++ (if (str "REM").length > 1 then str " " else []) = str "REM " := by decide +kernel
      rw [h1]
      unfold highBit
      rw [List.map_map]
      refine congrArg (str "REM " ++ ·) ?_
      rw [show ((fun c : UInt8 => c - 0x80) ∘ fun c => c + 0x80) = id from funext high_sub, List.map_id]
  rw [hrem]
  simp only [List.append_assoc]

/-- A line of an Integer BASIC listing is its number, padded to five characters, a space and its
pieces: keywords, decimal numbers, names and strings; a remark at its end is shown as it is.
Not shown correctly, and so missing here: token $79, and digits in a string that do not directly
follow a letter or a digit. -/
theorem C66_listing_partial (num : Nat) (is : List Item) (remark : Option Str) (hn : num < 65536)
    (hv : ∀ i ∈ is, i.Valid) (hs : Separated is) (hr : ∀ s, remark = some s → ∀ c ∈ s, c.toNat < 0x80)
    (hg : ∀ i ∈ is, i ≠ .keyword 0x79 ∧ ∀ s, i = .quoted s → DigitsFollow false s) :
    ∃ dec : Nat → Str, (∀ n, IsDecimal (dec n) n) ∧
      Listing.string [⟨num, (is.map Item.stored).flatten ++ (remark.elim [] fun s => 0x5D :: highBit s)⟩] =
        List.replicate (5 - (dec num).length) 0x20 ++ dec num ++ [0x20] ++ (is.map (Item.shown dec)).flatten ++
          (remark.elim [] fun s => str "REM " ++ s) ++ [0x0A] := by
  exact ⟨decimal, fun n => Applesoft.decimal_spec n, line_shown num is remark hv hs hg⟩

/-- A line as it was typed: its number, its pieces and perhaps a remark at its end. -/
structure Typed where
  num : Nat
  items : List Item
  remark : Option Str

/-- The bytes of the line in memory. -/
def Typed.stored (t : Typed) : Bytes := (t.items.map Item.stored).flatten ++ (t.remark.elim [] fun s => 0x5D :: highBit s)

/-- The line as it is listed, if numbers are shown by `dec`. -/
def Typed.shown (dec : Nat → Str) (t : Typed) : Str :=
  List.replicate (5 - (dec t.num).length) 0x20 ++ dec t.num ++ [0x20] ++ (t.items.map (Item.shown dec)).flatten ++
    (t.remark.elim [] fun s => str "REM " ++ s) ++ [0x0A]

/-- C66 for whole programs: the listing is the lines in order, each shown as above.  The same parts are missing. -/
theorem C66_program_partial (ts : List Typed)
    (hv : ∀ t ∈ ts, t.num < 65536 ∧ (∀ i ∈ t.items, i.Valid) ∧ Separated t.items ∧ ∀ s, t.remark = some s → ∀ c ∈ s, c.toNat < 0x80)
    (hg : ∀ t ∈ ts, ∀ i ∈ t.items, i ≠ .keyword 0x79 ∧ ∀ s, i = .quoted s → DigitsFollow false s) :
    ∃ dec : Nat → Str, (∀ n, IsDecimal (dec n) n) ∧
      Listing.string (ts.map fun t => ⟨t.num, t.stored⟩) = (ts.map (Typed.shown dec)).flatten := by
  refine ⟨decimal, fun n => Applesoft.decimal_spec n, ?_⟩
  induction ts with
  | nil => rfl
  | cons t ts ih =>
    have h1 := line_shown t.num t.items t.remark (hv t (by simp)).2.1 (hv t (by simp)).2.2.1 (hg t (by simp))
    have h2 := ih (fun u hu => hv u (by simp [hu])) (fun u hu => hg u (by simp [hu]))
    unfold Listing.string at h1 h2 ⊢
    rw [List.flatMap_cons, List.flatMap_nil, List.append_nil] at h1
    rw [List.map_cons, List.flatMap_cons, h2, List.map_cons, List.flatten_cons]
    exact congrArg (· ++ _) h1

/-- Non-vacuity: `10 A=12:PRINT "HI2"`, followed by a remark. -/
example : ∃ is : List Item, 5 < is.length ∧ (∀ i ∈ is, i.Valid) ∧ Separated is ∧
    (∀ i ∈ is, i ≠ .keyword 0x79 ∧ ∀ s, i = .quoted s → DigitsFollow false s) := by
  refine ⟨[.name [0x41], .keyword 0x71, .number 0x31 12, .keyword 3, .keyword 0x61, .quoted [0x48, 0x49, 0x32]],
    by decide, ?_, ?_, ?_⟩
  · intro i hi
    simp only [List.mem_cons, List.not_mem_nil, or_false] at hi
    rcases hi with rfl | rfl | rfl | rfl | rfl | rfl <;>
      simp [Item.Valid, IsAlnum, IsDigit]
  · simp [Separated]
  · intro i hi
    simp only [List.mem_cons, List.not_mem_nil, or_false] at hi
    rcases hi with rfl | rfl | rfl | rfl | rfl | rfl <;> simp [DigitsFollow, IsAlnum, IsDigit]

/-- C66 fails for strings: `PRINT "1*2"` is listed as `PRINT "45738"`. -/
theorem C66_violated_string :
    Listing.string [⟨10, [0x61] ++ (Item.quoted (str "1*2")).stored⟩] = str "   10 PRINT \"45738\"\n" ∧
      (∀ i ∈ [Item.keyword 0x61, Item.quoted (str "1*2")], i.Valid) := by
  constructor
  · decide +kernel
  · intro i hi
    simp only [List.mem_cons, List.not_mem_nil, or_false] at hi
    rcases hi with rfl | rfl
    · simp [Item.Valid]
    · intro c hc
      revert c
      decide +kernel

/-- C66 fails for token $79: NODSP is listed as DSP. -/
theorem C66_violated_keyword : Listing.string [⟨10, [0x79]⟩] = str "   10 DSP \n" ∧ keywordText 0x79 = str "NODSP " := by
  constructor <;> decide +kernel

end Verif.Integer
