import Verif.Go.Basic

/-!
# Model of the number flags: `main.go` `hexUint16Mapper.Decode`

Simplification: kong hands the mapper the flag's text as a string; its other token types are not
modelled.  `strconv.ParseUint` is the Go standard library's (strconv/atoi.go), with base 0 and 16 bits.
-/

set_option autoImplicit false

namespace Verif.Flags

/-- strconv/atoi.go `lower`: `c | ('x' - 'X')` -/
def lower (c : UInt8) : UInt8 := c ||| 0x20

/-- strconv/atoi.go `ParseUint`: the value of a digit or letter; `none` for any other byte. -/
def digitVal (c : UInt8) : Option Nat :=
  if 0x30 ≤ c ∧ c ≤ 0x39 then some (c.toNat - 0x30)
  else if 0x61 ≤ lower c ∧ lower c ≤ 0x7A then some ((lower c).toNat - 0x61 + 10)
  else none

/-- strconv/atoi.go `ParseUint`: one turn of the loop over the bytes.  The state is the value so far
and whether an underscore was seen; the error is a syntax or a range error.  Values stay below 2^16,
so Go's test for 64-bit overflow never applies. -/
def parseStep (base : Nat) (st : Nat × Bool) (c : UInt8) : Out (Nat × Bool) :=
  if c = 0x5F then .ok (st.1, true)
  else match digitVal c with
    | none => .err .other
    | some d =>
      if d ≥ base then .err .other
      else if st.1 * base + d > 65535 then .err .other
      else .ok (st.1 * base + d, st.2)

/-- strconv/atoi.go `ParseUint`: the loop. -/
def parseLoop (base : Nat) : Nat × Bool → Str → Out (Nat × Bool)
  | st, [] => .ok st
  | st, c :: cs =>
    match parseStep base st c with
    | .ok st => parseLoop base st cs
    | e => e

/-- strconv/atoi.go `underscoreOK`: what was seen last. -/
inductive Last where
  | start
  | digit
  | underscore
  | other
deriving DecidableEq

/-- strconv/atoi.go `underscoreOK`: the loop. -/
def underscoreLoop (hex : Bool) : Last → Str → Bool
  | i, [] => i ≠ .underscore
  | i, c :: cs =>
    if (0x30 ≤ c ∧ c ≤ 0x39) ∨ (hex = true ∧ 0x61 ≤ lower c ∧ lower c ≤ 0x66) then underscoreLoop hex .digit cs
    else if c = 0x5F then
      if i ≠ .digit then false else underscoreLoop hex .underscore cs
    else if i = .underscore then false
    else underscoreLoop hex .other cs

/-- strconv/atoi.go `underscoreOK`: the optional sign is skipped. -/
def dropSign : Str → Str
  | [] => []
  | c :: rest => if c = 0x2D ∨ c = 0x2B then rest else c :: rest

/-- strconv/atoi.go `underscoreOK` -/
def underscoreOK (s : Str) : Bool :=
  match dropSign s with
  | z :: c :: rest =>
    if z = 0x30 ∧ (lower c = 0x62 ∨ lower c = 0x6F ∨ lower c = 0x78) then underscoreLoop (lower c = 0x78) .digit rest
    else underscoreLoop false .start (z :: c :: rest)
  | s => underscoreLoop false .start s

/-- strconv/atoi.go `ParseUint`: the base that the start of the text gives, and the rest. -/
def splitBase (s : Str) : Nat × Str :=
  match s with
  | 0x30 :: rest =>
    match rest with
    | c :: d :: more =>
      if lower c = 0x62 then (2, d :: more)
      else if lower c = 0x6F then (8, d :: more)
      else if lower c = 0x78 then (16, d :: more)
      else (8, rest)
    | _ => (8, rest)
  | s => (10, s)

/-- strconv/atoi.go `ParseUint(s, 0, 16)` -/
def parseUint (s : Str) : Out Nat :=
  if s = [] then .err .other
  else
    match parseLoop (splitBase s).1 (0, false) (splitBase s).2 with
    | .ok (n, underscores) => if underscores = true ∧ underscoreOK s = false then .err .other else .ok n
    | _ => .err .other

/-- main.go:69-91 `hexUint16Mapper.Decode`: the value stored in the flag. -/
def decode (s : Str) : Out UInt16 :=
  match parseUint s with
  | .ok n => .ok (UInt16.ofNat n)
  | _ => .err .other

end Verif.Flags
