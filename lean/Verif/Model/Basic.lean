import Verif.Go.Basic

/-!
# Model of the `basic`, `basic/applesoft` and `basic/integer` packages
-/

set_option autoImplicit false

namespace Verif.Basic

/-! ## Control characters -/

/-- "«" in UTF-8. -/
def chevL : Str := [0xC2, 0xAB]
/-- "»" in UTF-8. -/
def chevR : Str := [0xC2, 0xBB]

/-- basic/basic.go:19-30: the names of the control characters without a letter. -/
def codeName (c : UInt8) : Str :=
  if c = 0x00 then str "NUL"
  else if c = 0x1C then str "FS"
  else if c = 0x1D then str "GS"
  else if c = 0x1E then str "RS"
  else if c = 0x1F then str "US"
  else str "?"

/-- basic/basic.go:12-33: the replacement function passed to `ReplaceAllStringFunc`. -/
def chevron (c : UInt8) : Str :=
  if c = 0x0A ∨ c = 0x09 then [c]
  else if 0x01 ≤ c ∧ c ≤ 0x1A then chevL ++ str "ctrl-" ++ [0x41 - 1 + c] ++ chevR
  else chevL ++ codeName c ++ chevR

/-- basic/basic.go:11-35 `ChevronControlCodes`.  The regular expression `[\x00-\x1F]` matches exactly
the single bytes below 0x20: in Go such a byte is always a character of its own, also amid invalid
UTF-8, and the text between matches is copied byte for byte. -/
def chevronControlCodes (s : Str) : Str := s.flatMap fun c => if c < 0x20 then chevron c else [c]

/-- `%d` and `strconv.Itoa` of a number that is not negative. -/
def decimal (n : Nat) : Str :=
  if n < 10 then [UInt8.ofNat (48 + n)] else decimal (n / 10) ++ [UInt8.ofNat (48 + n % 10)]

/-- basic/applesoft/applesoft.go:127-130 and basic/integer/integer.go:153-156 -/
structure Line where
  num : Nat
  bytes : Bytes
deriving DecidableEq, Repr

/-- basic/applesoft/applesoft.go:137-142 and basic/integer/integer.go:162-167: drop the two-byte
length if it is there. -/
def stripHeader (raw : Bytes) : Bytes :=
  match raw with
  | b0 :: b1 :: rest =>
    let size : Int := (b0.toNat : Int) + 256 * (b1.toNat : Int)
    if size = (raw.length : Int) - 2 ∨ size = (raw.length : Int) - 3 then rest else raw
  | _ => raw

end Verif.Basic

namespace Verif.Applesoft

open Verif.Basic

/-- basic/applesoft/applesoft.go:13-121: the token texts, from 0x80. -/
def tokens : List String := [
  "END", "FOR", "NEXT", "DATA", "INPUT", "DEL", "DIM", "READ",
  "GR", "TEXT", "PR #", "IN #", "CALL", "PLOT", "HLIN", "VLIN",
  "HGR2", "HGR", "HCOLOR=", "HPLOT", "DRAW", "XDRAW", "HTAB", "HOME",
  "ROT=", "SCALE=", "SHLOAD", "TRACE", "NOTRACE", "NORMAL", "INVERSE", "FLASH",
  "COLOR=", "POP", "VTAB", "HIMEM:", "LOMEM:", "ONERR", "RESUME", "RECALL",
  "STORE", "SPEED=", "LET", "GOTO", "RUN", "IF", "RESTORE", "&",
  "GOSUB", "RETURN", "REM", "STOP", "ON", "WAIT", "LOAD", "SAVE",
  "DEF FN", "POKE", "PRINT", "CONT", "LIST", "CLEAR", "GET", "NEW",
  "TAB", "TO", "FN", "SPC(", "THEN", "AT", "NOT", "STEP",
  "+", "-", "*", "/", ";", "AND", "OR", ">",
  "=", "<", "SGN", "INT", "ABS", "USR", "FRE", "SCRN (",
  "PDL", "POS", "SQR", "RND", "LOG", "EXP", "COS", "SIN",
  "TAN", "ATN", "PEEK", "LEN", "STR$", "VAL", "ASC", "CHR$",
  "LEFT$", "RIGHT$", "MID$"]

/-- basic/applesoft/applesoft.go:13-121 `TokensByCode[c]`, "" if there is none. -/
def tokenByCode (c : UInt8) : Str := if c < 0x80 then [] else str (tokens.getD (c.toNat - 0x80) "")

/-- basic/applesoft/applesoft.go:170-188: the loop over the bytes of one line, given the input from
the current offset on. -/
def lineBytes : Bytes → Out Bytes
  | [] => .err .other
  | c :: rest =>
    if c = 0 then .ok []
    else if c < 0x80 then do
      let bs ← lineBytes rest
      .ok (c :: bs)
    else if tokenByCode c = [] then .err .other
    else do
      let bs ← lineBytes rest
      .ok (c :: bs)

/-- basic/applesoft/applesoft.go:151-190: the loop over the lines, from address `next` on.  The
listing is built from the back; Go appends to it, and drops it on an error. -/
def decodeLoop (raw : Bytes) (location : Int) (n : Nat) (next : Int) : Out (List Line) :=
  if next = 0 then .ok []
  else match n with
    | 0 => .timeout
    | n + 1 =>
      let ofs := next - location
      if ofs < -1 ∨ ofs + 1 ≥ raw.length then .err .other
      else if ofs < 0 then .panic
      else
        let o := ofs.toNat
        let next : Int := ((raw.getD o 0).toNat : Int) + 256 * ((raw.getD (o + 1) 0).toNat : Int)
        if next = 0 then .ok []
        else if o + 3 ≥ raw.length then .err .other
        else do
          let num := (raw.getD (o + 2) 0).toNat + 256 * (raw.getD (o + 3) 0).toNat
          let bs ← lineBytes (raw.drop (o + 4))
          let rest ← decodeLoop raw location n next
          .ok (⟨num, bs⟩ :: rest)

/-- basic/applesoft/applesoft.go:134-193 `Decode`, with a budget for the number of lines. -/
def decode (n : Nat) (raw : Bytes) (location : UInt16) : Out (List Line) :=
  decodeLoop (stripHeader raw) (location.toNat : Int) n (location.toNat : Int)

/-- basic/applesoft/applesoft.go:195-207 `Line.String` -/
def Line.string (l : Line) : Str :=
  decimal l.num ++ str " " ++
    l.bytes.flatMap fun c => if c < 0x80 then [c] else str " " ++ tokenByCode c ++ str " "

/-- basic/applesoft/applesoft.go:209-216 `Listing.String` -/
def Listing.string (ls : List Line) : Str := ls.flatMap fun l => Line.string l ++ [0x0A]

end Verif.Applesoft

namespace Verif.Integer

open Verif.Basic

/-- basic/integer/integer.go:18-147: the token texts, from 0. -/
def tokens : List String := [
  "HIMEM:", "<token-01>", "_", ":", "LOAD", "SAVE", "CON", "RUN",
  "RUN", "DEL", ",", "NEW", "CLR", "AUTO", ",", "MAN",
  "HIMEM:", "LOMEM:", "+", "-", "*", "/", "=", "#",
  ">=", ">", "<=", "<>", "<", "AND", "OR", "MOD",
  "^", "+", "(", ",", "THEN", "THEN", ",", ",",
  "\"", "\"", "(", "!", "!", "(", "PEEK", "RND",
  "SGN", "ABS", "PDL", "RNDX", "(", "+", "-", "NOT",
  "(", "=", "#", "LEN(", "ASC(", "SCRN(", ",", "(",
  "$", "$", "(", ",", ",", ";", ";", ";",
  ",", ",", ",", "TEXT", "GR", "CALL", "DIM", "DIM",
  "TAB", "END", "INPUT", "INPUT", "INPUT", "FOR", "=", "TO",
  "STEP", "NEXT", ",", "RETURN", "GOSUB", "REM", "LET", "GOTO",
  "IF", "PRINT", "PRINT", "PRINT", "POKE", ",", "COLOR=", "PLOT",
  ",", "HLIN", ",", "AT", "VLIN", ",", "AT", "VTAB",
  "=", "=", ")", ")", "LIST", ",", "LIST", "POP",
  "NODSP", "DSP", "NOTRACE", "DSP", "DSP", "TRACE", "PR#", "IN#"]

/-- basic/integer/integer.go:18-147 `TokensByCode[c]`, "" if there is none. -/
def tokenByCode (c : UInt8) : Str := str (tokens.getD c.toNat "")

/-- basic/integer/integer.go:169-184: the loop over the lines. -/
def decodeLoop (raw : Bytes) : Out (List Line) :=
  if raw.length ≤ 3 then .ok []
  else
    let size := (raw.getD 0 0).toNat
    let num := (raw.getD 1 0).toNat + 256 * (raw.getD 2 0).toNat
    if raw.length < size then .err .other
    else if hz : size = 0 then .panic
    else if raw.getD (size - 1) 0 ≠ 1 then .err .other
    else if size - 1 < 3 then .panic
    else do
      let rest ← decodeLoop (raw.drop size)
      .ok (⟨num, (raw.drop 3).take (size - 1 - 3)⟩ :: rest)
termination_by raw.length
decreasing_by simp only [List.length_drop]; omega

/-- basic/integer/integer.go:159-187 `Decode` -/
def decode (raw : Bytes) : Out (List Line) := decodeLoop (stripHeader raw)

/-- basic/integer/integer.go:199-209 `isalnum` -/
def isalnum (b : UInt8) : Bool :=
  (0x30 ≤ b && b ≤ 0x39) || (0x61 ≤ b && b ≤ 0x7A) || (0x41 ≤ b && b ≤ 0x5A)

/-- basic/integer/integer.go:214-245: the loop over the bytes of a line from index `i` on, given the
bytes from there and `lastAN`. -/
def renderLoop (bs : Bytes) (lastAN : Bool) : Str :=
  match bs with
  | [] => []
  | ch :: rest =>
    if ch < 0x80 then
      let token := tokenByCode ch
      let out := token ++ (if token.length > 1 then str " " else [])
      if token = str "REM" then out ++ rest.map fun c => c - 0x80
      else out ++ renderLoop rest false
    else
      let ch := ch - 0x80
      if !lastAN && 0x30 ≤ ch && ch ≤ 0x39 then
        if rest.length < 2 then str "?" ++ renderLoop rest (isalnum ch)
        else decimal ((rest.getD 0 0).toNat + 256 * (rest.getD 1 0).toNat) ++
          renderLoop (rest.drop 2) (isalnum ch)
      else ch :: renderLoop rest (isalnum ch)
termination_by bs.length
decreasing_by all_goals (simp only [List.length_drop, List.length_cons]; omega)

/-- `%5d` of a number that is not negative. -/
def padded (n : Nat) : Str := List.replicate (5 - (decimal n).length) 0x20 ++ decimal n

/-- basic/integer/integer.go:211-247 `Line.String` -/
def Line.string (l : Line) : Str := padded l.num ++ str " " ++ renderLoop l.bytes false

/-- basic/integer/integer.go:249-256 `Listing.String` -/
def Listing.string (ls : List Line) : Str := ls.flatMap fun l => Line.string l ++ [0x0A]

/-- basic/integer/integer.go:262-286 `ChevronControlCodes`, a copy of the function in `basic`. -/
def chevronControlCodes (s : Str) : Str := s.flatMap fun c =>
  if c < 0x20 then
    if c = 0x0A ∨ c = 0x09 then [c]
    else if 0x01 ≤ c ∧ c ≤ 0x1A then chevL ++ str "ctrl-" ++ [0x41 - 1 + c] ++ chevR
    else chevL ++ codeName c ++ chevR
  else [c]

end Verif.Integer
