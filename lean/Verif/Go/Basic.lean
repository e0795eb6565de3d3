/-!
# Go basics

Bytes, byte strings, slices, the outcome of a Go call, and generic lemmas about
them.  Nothing in this file is specific to diskii.
-/

set_option autoImplicit false

namespace Verif

/-- A Go `byte`. -/
abbrev Byte := UInt8

/-- A Go `[]byte` (contents only; capacity is modelled where code depends on it). -/
abbrev Bytes := List UInt8

/-- A Go `string`: a byte string. -/
abbrev Str := List UInt8

/-- ASCII literal as a Go string. -/
def str (x : String) : Str := x.toList.map (fun c => UInt8.ofNat c.toNat)

/-- The classes of error the code distinguishes (`errors/errors.go`).  Error
messages are not modelled. -/
inductive ErrKind where
  | outOfSpace
  | fileExists
  | fileNotFound
  | other
deriving DecidableEq, Repr

/-- Outcome of a Go call: a value, an error return, a run-time panic, or (for
fuel-indexed loops) "not finished yet". -/
inductive Out (α : Type) where
  | ok (a : α)
  | err (k : ErrKind)
  | panic
  | timeout
deriving DecidableEq, Repr

namespace Out

/-- Sequencing: anything but `ok` ends the computation. -/
@[inline] protected def bind {α : Type} {β : Type} (x : Out α) (f : α → Out β) : Out β :=
  match x with
  | ok a => f a
  | err k => err k
  | panic => panic
  | timeout => timeout

instance : Monad Out where
  pure := ok
  bind := Out.bind

@[simp] theorem pure_eq {α : Type} (a : α) : (pure a : Out α) = ok a := rfl
@[simp] theorem bind_ok {α β : Type} (a : α) (f : α → Out β) : (ok a >>= f) = f a := rfl
@[simp] theorem bind_err {α β : Type} (k : ErrKind) (f : α → Out β) : (err k >>= f) = err k := rfl
@[simp] theorem bind_panic {α β : Type} (f : α → Out β) : ((panic : Out α) >>= f) = panic := rfl
@[simp] theorem bind_timeout {α β : Type} (f : α → Out β) : ((timeout : Out α) >>= f) = timeout := rfl

theorem bind_eq_ok {α β : Type} {x : Out α} {f : α → Out β} {b : β} :
    (x >>= f) = ok b ↔ ∃ a, x = ok a ∧ f a = ok b := by
  cases x <;> simp

/-- The call returned a value. -/
def isOk {α : Type} : Out α → Bool
  | ok _ => true
  | _ => false

/-- The call returned an error. -/
def isErr {α : Type} : Out α → Bool
  | err _ => true
  | _ => false

/-- The call returned normally: with a value or with an error. -/
def returns {α : Type} : Out α → Bool
  | ok _ => true
  | err _ => true
  | _ => false

@[simp] theorem isOk_ok {α : Type} (a : α) : (ok a).isOk = true := rfl
@[simp] theorem isOk_err {α : Type} (k) : (err k : Out α).isOk = false := rfl
@[simp] theorem isOk_panic {α : Type} : (panic : Out α).isOk = false := rfl
@[simp] theorem isOk_timeout {α : Type} : (timeout : Out α).isOk = false := rfl
@[simp] theorem isErr_ok {α : Type} (a : α) : (ok a).isErr = false := rfl
@[simp] theorem isErr_err {α : Type} (k) : (err k : Out α).isErr = true := rfl
@[simp] theorem isErr_panic {α : Type} : (panic : Out α).isErr = false := rfl
@[simp] theorem isErr_timeout {α : Type} : (timeout : Out α).isErr = false := rfl
@[simp] theorem returns_ok {α : Type} (a : α) : (ok a).returns = true := rfl
@[simp] theorem returns_err {α : Type} (k) : (err k : Out α).returns = true := rfl
@[simp] theorem returns_panic {α : Type} : (panic : Out α).returns = false := rfl
@[simp] theorem returns_timeout {α : Type} : (timeout : Out α).returns = false := rfl

theorem isOk_iff {α : Type} {x : Out α} : x.isOk = true ↔ ∃ a, x = ok a := by
  cases x <;> simp

end Out

/-! ## Slices -/

/-- `l[off : off+n]` for in-range arguments. -/
def slice {α : Type} (l : List α) (off n : Nat) : List α := (l.drop off).take n

/-- `copy(l[off : off+len(d)], d)` for in-range arguments. -/
def put {α : Type} (l : List α) (off : Nat) (d : List α) : List α :=
  l.take off ++ d ++ l.drop (off + d.length)

/-- `make([]byte, n)` -/
def zeros (n : Nat) : Bytes := List.replicate n 0

@[simp] theorem zeros_length (n : Nat) : (zeros n).length = n := List.length_replicate

theorem getElem?_zeros (n i : Nat) : (zeros n)[i]? = if i < n then some 0 else none :=
  List.getElem?_replicate

section slices
variable {α : Type}

theorem slice_length (l : List α) (off n : Nat) :
    (slice l off n).length = min n (l.length - off) := by
  simp [slice]

theorem slice_length_of_le {l : List α} {off n : Nat} (h : off + n ≤ l.length) :
    (slice l off n).length = n := by
  rw [slice_length]; omega

theorem getElem?_slice (l : List α) (off n i : Nat) :
    (slice l off n)[i]? = if i < n then l[off + i]? else none := by
  simp only [slice, List.getElem?_take]
  split <;> simp

theorem put_length {l : List α} {off : Nat} {d : List α} (h : off + d.length ≤ l.length) :
    (put l off d).length = l.length := by
  simp [put]; omega

theorem getElem?_put {l : List α} {off : Nat} {d : List α} (h : off ≤ l.length) (i : Nat) :
    (put l off d)[i]? =
      if i < off then l[i]? else if i < off + d.length then d[i - off]? else l[i]? := by
  unfold put
  by_cases h1 : i < off
  · rw [List.getElem?_append_left (by simp; omega), List.getElem?_append_left (by simp; omega)]
    simp [h1]
  · rw [if_neg h1]
    by_cases h2 : i < off + d.length
    · rw [if_pos h2, List.getElem?_append_left (by simp; omega),
        List.getElem?_append_right (by simp; omega)]
      simp; congr; omega
    · rw [if_neg h2, List.getElem?_append_right (by simp; omega)]
      simp only [List.length_append, List.length_take, List.getElem?_drop]
      congr 1; omega

theorem slice_put_same {l : List α} {off : Nat} {d : List α} (h : off + d.length ≤ l.length) :
    slice (put l off d) off d.length = d := by
  apply List.ext_getElem?
  intro i
  rw [getElem?_slice, getElem?_put (by omega)]
  by_cases hi : i < d.length
  · simp [hi]; omega
  · simp [hi]

theorem slice_put_of_disjoint {l : List α} {off : Nat} {d : List α} {o n : Nat}
    (h : off + d.length ≤ l.length) (hd : o + n ≤ off ∨ off + d.length ≤ o) :
    slice (put l off d) o n = slice l o n := by
  apply List.ext_getElem?
  intro i
  rw [getElem?_slice, getElem?_slice, getElem?_put (by omega)]
  by_cases hi : i < n
  · simp only [hi, if_true]
    by_cases h1 : o + i < off
    · simp [h1]
    · have h2 : ¬ (o + i < off + d.length) := by omega
      simp [h1, h2]
  · simp [hi]

theorem put_slice_self {l : List α} {off n : Nat} (h : off + n ≤ l.length) :
    put l off (slice l off n) = l := by
  apply List.ext_getElem?
  intro i
  rw [getElem?_put (by omega), slice_length_of_le h, getElem?_slice]
  split
  · rfl
  · split
    · rw [if_pos (by omega)]; congr 1; omega
    · rfl

theorem put_put_same {l : List α} {off : Nat} {d e : List α} (h : off + d.length ≤ l.length)
    (hl : d.length = e.length) : put (put l off d) off e = put l off e := by
  apply List.ext_getElem?
  intro i
  rw [getElem?_put (by rw [put_length h]; omega), getElem?_put (by omega), getElem?_put (by omega), hl]
  split <;> (try split) <;> rfl

theorem slice_full (l : List α) : slice l 0 l.length = l := by simp [slice]

theorem slice_append_slice (l : List α) (o a b : Nat) :
    slice l o a ++ slice l (o + a) b = slice l o (a + b) := by
  unfold slice
  rw [List.take_add, List.drop_drop]

end slices

/-- Two equal-length lists agreeing on every chunk of a partition of their
indices are equal. -/
theorem ext_of_slices {α : Type} {l m : List α} {n k : Nat} (hk : 0 < k)
    (hl : l.length = n * k) (hm : m.length = n * k)
    (h : ∀ i, i < n → slice l (i * k) k = slice m (i * k) k) : l = m := by
  apply List.ext_getElem?
  intro j
  by_cases hj : j < n * k
  · have hdiv : j / k < n := (Nat.div_lt_iff_lt_mul hk).2 hj
    have := congrArg (fun x => x[j % k]?) (h (j / k) hdiv)
    simp only [getElem?_slice, if_pos (Nat.mod_lt j hk)] at this
    have hjk : j / k * k + j % k = j := by rw [Nat.mul_comm]; exact Nat.div_add_mod j k
    rwa [hjk] at this
  · rw [List.getElem?_eq_none (by omega), List.getElem?_eq_none (by omega)]

/-! ## Bytes and 16-bit words -/

/-- To decide a statement about every byte, decide it for the 256 numbers. -/
theorem forall_byte {p : UInt8 → Prop} : (∀ b, p b) ↔ ∀ n : Fin 256, p (UInt8.ofNat n.val) := by
  constructor
  · intro h n; exact h _
  · intro h b
    have := h ⟨b.toNat, b.toNat_lt⟩
    simpa using this

instance {p : UInt8 → Prop} [DecidablePred p] : Decidable (∀ b, p b) :=
  decidable_of_iff _ (forall_byte (p := p)).symm

/-- `binary.LittleEndian.Uint16` -/
def le16 (lo hi : UInt8) : UInt16 := lo.toUInt16 ||| (hi.toUInt16 <<< 8)

/-- Low byte, `byte(v)`. -/
def lo8 (v : UInt16) : UInt8 := v.toUInt8

/-- High byte, `byte(v >> 8)`. -/
def hi8 (v : UInt16) : UInt8 := (v >>> 8).toUInt8

theorem le16_toNat (a b : UInt8) : (le16 a b).toNat = a.toNat + 256 * b.toNat := by
  unfold le16
  have := a.toNat_lt
  have := b.toNat_lt
  simp only [UInt16.toNat_or, UInt8.toNat_toUInt16, UInt16.toNat_shiftLeft]
  rw [Nat.or_comm]
  have h := Nat.shiftLeft_add_eq_or_of_lt (i := 8) (b := a.toNat) (by omega) b.toNat
  simp at h ⊢
  rw [Nat.mod_eq_of_lt (by simp [Nat.shiftLeft_eq]; omega), ← h, Nat.shiftLeft_eq]; omega

theorem lo8_toNat (v : UInt16) : (lo8 v).toNat = v.toNat % 256 := by simp [lo8]

theorem hi8_toNat (v : UInt16) : (hi8 v).toNat = v.toNat / 256 := by
  have := v.toNat_lt
  simp [hi8, UInt16.toNat_shiftRight, Nat.shiftRight_eq_div_pow]; omega

@[simp] theorem le16_lo8_hi8 (v : UInt16) : le16 (lo8 v) (hi8 v) = v := by
  apply UInt16.toNat_inj.1
  rw [le16_toNat, lo8_toNat, hi8_toNat]; omega

@[simp] theorem lo8_le16 (a b : UInt8) : lo8 (le16 a b) = a := by
  apply UInt8.toNat_inj.1
  have := a.toNat_lt
  rw [lo8_toNat, le16_toNat]; omega

@[simp] theorem hi8_le16 (a b : UInt8) : hi8 (le16 a b) = b := by
  apply UInt8.toNat_inj.1
  have := a.toNat_lt
  rw [hi8_toNat, le16_toNat]; omega

/-! ## Strings -/

/-- ASCII `strings.ToLower` on one byte. -/
def lowerByte (b : UInt8) : UInt8 := if 0x41 ≤ b ∧ b ≤ 0x5A then b + 0x20 else b

/-- ASCII `strings.ToUpper` on one byte. -/
def upperByte (b : UInt8) : UInt8 := if 0x61 ≤ b ∧ b ≤ 0x7A then b - 0x20 else b

/-- `strings.ToLower`, ASCII only. -/
def toLower (s : Str) : Str := s.map lowerByte

/-- `strings.ToUpper`, ASCII only. -/
def toUpper (s : Str) : Str := s.map upperByte

/-- Scan of `path.Ext` from the end of the string. -/
def pathExtGo : Str → Str → Str
  | [], _ => []
  | c :: cs, acc =>
    if c = 0x2F then [] else if c = 0x2E then c :: acc else pathExtGo cs (c :: acc)

/-- Go's `path.Ext`: the suffix from the last dot of the last path element. -/
def pathExt (s : Str) : Str := pathExtGo s.reverse []

end Verif
