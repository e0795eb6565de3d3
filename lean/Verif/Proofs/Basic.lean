import Verif.Spec.Basic
import Verif.Go.Serial

/-!
# Lemmas about BASIC decoding
-/

set_option autoImplicit false
set_option maxRecDepth 20000

namespace Verif.Basic

open Verif Verif.Spec.Basic

theorem word_back {n : Nat} (h : n < 65536) : (loByte n).toNat + 256 * (hiByte n).toNat = n := by
  unfold loByte hiByte
  rw [UInt8.toNat_ofNat_of_lt' (by show n % 256 < 256; omega),
    UInt8.toNat_ofNat_of_lt' (by show n / 256 % 256 < 256; omega)]
  omega

theorem getD_append_right (pre D : Bytes) (i : Nat) : (pre ++ D).getD (pre.length + i) 0 = D.getD i 0 := by
  rw [List.getD_eq_getElem?_getD, List.getD_eq_getElem?_getD, List.getElem?_append_right (by omega)]
  rw [Nat.add_sub_cancel_left]

theorem drop_append_add (pre D : Bytes) (i : Nat) : (pre ++ D).drop (pre.length + i) = D.drop i := by
  rw [List.drop_append, List.drop_of_length_le (by omega), List.nil_append, Nat.add_sub_cancel_left]

/-- What the header check does, in the specification's terms. -/
theorem stripHeader_spec (raw : Bytes) :
    (LooksHeadered raw → stripHeader raw = raw.drop 2) ∧ (¬ LooksHeadered raw → stripHeader raw = raw) := by
  match raw with
  | [] => exact ⟨fun h => absurd h.1 (by simp), fun _ => rfl⟩
  | [a] => exact ⟨fun h => absurd h.1 (by simp), fun _ => rfl⟩
  | b0 :: b1 :: rest =>
    have key : LooksHeadered (b0 :: b1 :: rest) ↔
        (((b0.toNat : Int) + 256 * (b1.toNat : Int) = ((b0 :: b1 :: rest).length : Int) - 2) ∨
        ((b0.toNat : Int) + 256 * (b1.toNat : Int) = ((b0 :: b1 :: rest).length : Int) - 3)) := by
      unfold LooksHeadered
      simp only [List.length_cons, List.getD_cons_zero, List.getD_cons_succ]
      omega
    constructor
    · intro h
      rw [key] at h
      unfold stripHeader
      simp only
      rw [if_pos h]; rfl
    · intro h
      rw [key] at h
      unfold stripHeader
      simp only
      rw [if_neg h]

theorem strip_withLength (data extra : Bytes) (h : data.length < 65536) (he : extra.length ≤ 1) :
    stripHeader (withLength data ++ extra) = data ++ extra := by
  have hl : LooksHeadered (withLength data ++ extra) := by
    unfold LooksHeadered withLength word16
    simp only [List.cons_append, List.nil_append, List.length_cons, List.length_append, List.getD_cons_zero,
      List.getD_cons_succ, word_back h]
    omega
  rw [(stripHeader_spec _).1 hl]
  rfl

end Verif.Basic

namespace Verif.Applesoft

open Verif Verif.Spec.Basic Verif.Basic

theorem token_known : ∀ c : UInt8, 0x80 ≤ c.toNat → (tokenByCode c = [] ↔ 0xEA < c.toNat) := by decide +kernel

theorem lineBytes_text (bs D : Bytes) (h : ∀ c ∈ bs, 0 < c.toNat ∧ c.toNat ≤ 0xEA) :
    lineBytes (bs ++ 0 :: D) = .ok bs := by
  induction bs with
  | nil => rw [List.nil_append, lineBytes, if_pos rfl]
  | cons c bs ih =>
    have hc := h c List.mem_cons_self
    have ih' := ih fun d hd => h d (List.mem_cons_of_mem _ hd)
    have h0 : c ≠ 0 := fun e => by rw [e] at hc; exact absurd hc.1 (by decide)
    rw [List.cons_append, lineBytes, if_neg h0, ih']
    by_cases h8 : c < 0x80
    · rw [if_pos h8]; rfl
    · have h8' : 0x80 ≤ c.toNat := by
        rw [UInt8.lt_iff_toNat_lt] at h8
        have : (0x80 : UInt8).toNat = 128 := rfl
        omega
      rw [if_neg h8, if_neg (fun e => by have := (token_known c h8').1 e; omega)]; rfl

/-- Reading a line either gives text of the allowed kind that ends at a zero, or an error. -/
theorem lineBytes_cases (D : Bytes) : (∃ bs rest, D = bs ++ 0 :: rest ∧ lineBytes D = .ok bs ∧
    ∀ c ∈ bs, 0 < c.toNat ∧ c.toNat ≤ 0xEA) ∨ lineBytes D = .err .other := by
  induction D with
  | nil => exact Or.inr rfl
  | cons c D ih =>
    rw [lineBytes]
    by_cases h0 : c = 0
    · rw [if_pos h0]
      exact Or.inl ⟨[], D, by rw [h0]; rfl, rfl, by simp⟩
    · rw [if_neg h0]
      have hpos : 0 < c.toNat := by
        rcases Nat.eq_zero_or_pos c.toNat with h | h
        · exact absurd (UInt8.toNat_inj.1 (h.trans rfl)) h0
        · exact h
      have step : ∀ hle : c.toNat ≤ 0xEA, (∃ bs rest, c :: D = bs ++ 0 :: rest ∧
          (lineBytes D >>= fun bs => Out.ok (c :: bs)) = .ok bs ∧ ∀ c ∈ bs, 0 < c.toNat ∧ c.toNat ≤ 0xEA) ∨
          (lineBytes D >>= fun bs => Out.ok (c :: bs)) = .err .other := by
        intro hle
        rcases ih with ⟨bs, rest, h1, h2, h3⟩ | h
        · refine Or.inl ⟨c :: bs, rest, by rw [h1]; rfl, by rw [h2]; rfl, fun d hd => ?_⟩
          rcases List.mem_cons.1 hd with rfl | hd
          · exact ⟨hpos, hle⟩
          · exact h3 d hd
        · exact Or.inr (by rw [h]; rfl)
      by_cases h8 : c < 0x80
      · rw [if_pos h8]
        rw [UInt8.lt_iff_toNat_lt] at h8
        have : (0x80 : UInt8).toNat = 128 := rfl
        exact step (by omega)
      · have h8' : 0x80 ≤ c.toNat := by
          rw [UInt8.lt_iff_toNat_lt] at h8
          have : (0x80 : UInt8).toNat = 128 := rfl
          omega
        rw [if_neg h8]
        by_cases ht : tokenByCode c = []
        · rw [if_pos ht]; exact Or.inr rfl
        · rw [if_neg ht]
          exact step (Nat.le_of_not_lt fun hlt => ht ((token_known c h8').2 hlt))

theorem layout_length_pos (a : Nat) (ls : List Line) : 2 ≤ (applesoftLayout a ls).length := by
  cases ls with
  | nil => simp [applesoftLayout]
  | cons l ls => simp [applesoftLayout, word16]

theorem decodeLoop_layout (loc : Nat) (tail : Bytes) (lines : List Line) (hl : ∀ l ∈ lines, ApplesoftLine l) (pre : Bytes)
    (a : Nat) (ha : a = loc + pre.length) (h1 : 1 ≤ a) (hfit : a + (applesoftLayout a lines).length ≤ 65536) (n : Nat)
    (hn : lines.length < n) :
    decodeLoop (pre ++ (applesoftLayout a lines ++ tail)) (loc : Int) n (a : Int) = .ok lines := by
  induction lines generalizing pre a n with
  | nil =>
    obtain ⟨n, rfl⟩ : ∃ m, n = m + 1 := ⟨n - 1, by simp at hn; omega⟩
    rw [decodeLoop.eq_def, if_neg (by omega)]
    simp only
    have hofs : (a : Int) - (loc : Int) = (pre.length : Int) := by omega
    rw [hofs, if_neg (by simp only [List.length_append, applesoftLayout, List.length_cons, List.length_nil]; omega),
      if_neg (by omega), Int.toNat_natCast]
    have g0 := getD_append_right pre (applesoftLayout a [] ++ tail) 0
    have g1 := getD_append_right pre (applesoftLayout a [] ++ tail) 1
    rw [Nat.add_zero] at g0
    rw [g0, g1]
    simp [applesoftLayout]
  | cons l rest ih =>
    obtain ⟨n, rfl⟩ : ∃ m, n = m + 1 := ⟨n - 1, by simp at hn; omega⟩
    obtain ⟨hnum, htext⟩ := hl l List.mem_cons_self
    have hrest := fun x hx => hl x (List.mem_cons_of_mem _ hx)
    have hpos := layout_length_pos (a + (l.bytes.length + 5)) rest
    have hlen : (applesoftLayout a (l :: rest)).length =
        l.bytes.length + 5 + (applesoftLayout (a + (l.bytes.length + 5)) rest).length := by
      simp only [applesoftLayout, word16, List.length_append, List.length_cons, List.length_nil]; omega
    rw [hlen] at hfit
    have hnext : a + (l.bytes.length + 5) < 65536 := by omega
    rw [decodeLoop.eq_def, if_neg (by omega)]
    simp only
    have hofs : (a : Int) - (loc : Int) = (pre.length : Int) := by omega
    rw [hofs, if_neg (by rw [List.length_append, List.length_append, hlen]; omega), if_neg (by omega), Int.toNat_natCast]
    have g := getD_append_right pre (applesoftLayout a (l :: rest) ++ tail)
    have g0 := g 0
    rw [Nat.add_zero] at g0
    rw [g0, g 1, g 2, g 3, drop_append_add]
    have e0 : (applesoftLayout a (l :: rest) ++ tail).getD 0 0 = loByte (a + (l.bytes.length + 5)) := rfl
    have e1 : (applesoftLayout a (l :: rest) ++ tail).getD 1 0 = hiByte (a + (l.bytes.length + 5)) := rfl
    have e2 : (applesoftLayout a (l :: rest) ++ tail).getD 2 0 = loByte l.num := rfl
    have e3 : (applesoftLayout a (l :: rest) ++ tail).getD 3 0 = hiByte l.num := rfl
    have e4 : (applesoftLayout a (l :: rest) ++ tail).drop 4 =
        l.bytes ++ 0 :: (applesoftLayout (a + (l.bytes.length + 5)) rest ++ tail) := by
      show (l.bytes ++ (0 :: applesoftLayout (a + (l.bytes.length + 5)) rest)) ++ tail = _
      rw [List.append_assoc]; rfl
    rw [e0, e1, e2, e3, e4, lineBytes_text _ _ htext, word_back hnum]
    have hw := word_back hnext
    have hw' : ((loByte (a + (l.bytes.length + 5))).toNat : Int) + 256 * ((hiByte (a + (l.bytes.length + 5))).toNat : Int) =
        ((a + (l.bytes.length + 5) : Nat) : Int) := by rw [← hw]; push_cast; rw [hw]
    rw [hw', if_neg (by omega), if_neg (by rw [List.length_append, List.length_append, hlen]; omega), Out.bind_ok]
    have heq : pre ++ (applesoftLayout a (l :: rest) ++ tail) =
        (pre ++ (word16 (a + (l.bytes.length + 5)) ++ (word16 l.num ++ (l.bytes ++ [0])))) ++
          (applesoftLayout (a + (l.bytes.length + 5)) rest ++ tail) := by
      rw [List.append_assoc]
      refine congrArg _ ?_
      simp only [applesoftLayout, List.append_assoc, List.cons_append, List.nil_append]
    rw [heq, ih hrest _ (a + (l.bytes.length + 5)) (by simp [word16]; omega) (by omega) (by omega) n (by simp at hn; omega)]
    rfl

end Verif.Applesoft

namespace Verif.Integer

open Verif Verif.Spec.Basic Verif.Basic

theorem decodeLoop_layout (lines : List Line) (hl : ∀ l ∈ lines, IntegerLine l) (tail : Bytes) (ht : tail.length ≤ 3) :
    decodeLoop (integerLayout lines ++ tail) = .ok lines := by
  induction lines with
  | nil => rw [decodeLoop, if_pos (by simpa [integerLayout] using ht)]
  | cons l rest ih =>
    obtain ⟨hnum, hlen⟩ := hl l List.mem_cons_self
    have ih' := ih fun x hx => hl x (List.mem_cons_of_mem _ hx)
    have hL : (integerLayout (l :: rest) ++ tail).length = l.bytes.length + 4 + (integerLayout rest ++ tail).length := by
      simp only [integerLayout, word16, List.length_append, List.length_cons, List.length_nil]; omega
    have e0 : ((integerLayout (l :: rest) ++ tail).getD 0 0).toNat = l.bytes.length + 4 := by
      show (UInt8.ofNat (l.bytes.length + 4)).toNat = _
      exact UInt8.toNat_ofNat_of_lt' (by show l.bytes.length + 4 < 256; omega)
    have e1 : (integerLayout (l :: rest) ++ tail).getD 1 0 = loByte l.num := rfl
    have e2 : (integerLayout (l :: rest) ++ tail).getD 2 0 = hiByte l.num := rfl
    have hform : integerLayout (l :: rest) ++ tail =
        (UInt8.ofNat (l.bytes.length + 4) :: (word16 l.num ++ l.bytes)) ++ 1 :: (integerLayout rest ++ tail) := by
      simp only [integerLayout, List.append_assoc, List.cons_append]
    have hplen : (UInt8.ofNat (l.bytes.length + 4) :: (word16 l.num ++ l.bytes)).length = l.bytes.length + 3 := by
      simp [word16]
    have e4 : (integerLayout (l :: rest) ++ tail).getD (l.bytes.length + 4 - 1) 0 = 1 := by
      rw [hform]
      have := getD_append_right (UInt8.ofNat (l.bytes.length + 4) :: (word16 l.num ++ l.bytes))
        (1 :: (integerLayout rest ++ tail)) 0
      rw [hplen] at this
      exact this
    have e5 : (integerLayout (l :: rest) ++ tail).drop (l.bytes.length + 4) = integerLayout rest ++ tail := by
      rw [hform]
      have := drop_append_add (UInt8.ofNat (l.bytes.length + 4) :: (word16 l.num ++ l.bytes))
        (1 :: (integerLayout rest ++ tail)) 1
      rw [hplen] at this
      exact this
    have e6 : ((integerLayout (l :: rest) ++ tail).drop 3).take (l.bytes.length + 4 - 1 - 3) = l.bytes := by
      show ((l.bytes ++ (1 :: integerLayout rest)) ++ tail).take _ = _
      rw [List.append_assoc, show l.bytes.length + 4 - 1 - 3 = l.bytes.length from by omega, List.take_left]
    rw [decodeLoop, if_neg (by rw [hL]; omega)]
    simp only
    rw [e0, if_neg (by rw [hL]; omega), dif_neg (by omega), if_neg (by rw [e4]; decide), if_neg (by omega), e5, ih', e6, e1, e2,
      word_back hnum]
    rfl

end Verif.Integer
