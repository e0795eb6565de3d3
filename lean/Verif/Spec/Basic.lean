import Verif.Model.Basic

/-!
# Specification vocabulary for BASIC programs

The formats as Applesoft and Integer BASIC define them; only the result type `Line` is the model's.
-/

set_option autoImplicit false

namespace Verif.Spec.Basic

open Verif.Basic (Line)

/-- The keywords of Applesoft, for the tokens $80-$EA (Applesoft BASIC Programming Reference Manual,
appendix on tokens). -/
def applesoftKeywords : List String := [
  "END", "FOR", "NEXT", "DATA", "INPUT", "DEL", "DIM", "READ", "GR", "TEXT", "PR#", "IN#", "CALL", "PLOT", "HLIN", "VLIN",
  "HGR2", "HGR", "HCOLOR=", "HPLOT", "DRAW", "XDRAW", "HTAB", "HOME", "ROT=", "SCALE=", "SHLOAD", "TRACE", "NOTRACE",
  "NORMAL", "INVERSE", "FLASH",
  "COLOR=", "POP", "VTAB", "HIMEM:", "LOMEM:", "ONERR", "RESUME", "RECALL", "STORE", "SPEED=", "LET", "GOTO", "RUN", "IF",
  "RESTORE", "&",
  "GOSUB", "RETURN", "REM", "STOP", "ON", "WAIT", "LOAD", "SAVE", "DEF", "POKE", "PRINT", "CONT", "LIST", "CLEAR", "GET",
  "NEW",
  "TAB(", "TO", "FN", "SPC(", "THEN", "AT", "NOT", "STEP", "+", "-", "*", "/", "^", "AND", "OR", ">",
  "=", "<", "SGN", "INT", "ABS", "USR", "FRE", "SCRN(", "PDL", "POS", "SQR", "RND", "LOG", "EXP", "COS", "SIN",
  "TAN", "ATN", "PEEK", "LEN", "STR$", "VAL", "ASC", "CHR$", "LEFT$", "RIGHT$", "MID$"]

/-- The keyword of a token, "" if it has none. -/
def applesoftKeyword (c : UInt8) : Str :=
  if 128 ≤ c.toNat then str (applesoftKeywords.getD (c.toNat - 128) "") else []

/-- Low and high byte of an address or number. -/
def loByte (n : Nat) : UInt8 := UInt8.ofNat (n % 256)
def hiByte (n : Nat) : UInt8 := UInt8.ofNat (n / 256 % 256)

/-- A 16-bit number. -/
def word16 (n : Nat) : Bytes := [loByte n, hiByte n]

/-- A two-byte length followed by the data. -/
def withLength (data : Bytes) : Bytes := word16 data.length ++ data

/-- The two bytes that start `raw` happen to be its length less 2 or less 3, as if they were a
length header. -/
def LooksHeadered (raw : Bytes) : Prop :=
  2 ≤ raw.length ∧ ((raw.getD 0 0).toNat + 256 * (raw.getD 1 0).toNat + 2 = raw.length ∨
    (raw.getD 0 0).toNat + 256 * (raw.getD 1 0).toNat + 3 = raw.length)

/-- `d` is what is left of `raw` without its length header, if it has one. -/
def Body (raw d : Bytes) : Prop :=
  (LooksHeadered raw ∧ d = raw.drop 2) ∨ (¬ LooksHeadered raw ∧ d = raw)

/-- An Applesoft program in memory at address `loc`: each line is the address of the next line, its
number, its text and a zero; the address 0 ends the program. -/
def applesoftLayout : Nat → List Line → Bytes
  | _, [] => [0, 0]
  | loc, l :: rest =>
    word16 (loc + (l.bytes.length + 5)) ++ (word16 l.num ++ (l.bytes ++ (0 :: applesoftLayout (loc + (l.bytes.length + 5)) rest)))

/-- An Applesoft line: a 16-bit number, and text made of plain characters and tokens $80-$EA. -/
def ApplesoftLine (l : Line) : Prop := l.num < 65536 ∧ ∀ c ∈ l.bytes, 0 < c.toNat ∧ c.toNat ≤ 0xEA

/-- The address stored at address `a`, for data at `loc`. -/
def storedAt (data : Bytes) (loc a : Nat) : Nat :=
  (data.getD (a - loc) 0).toNat + 256 * (data.getD (a - loc + 1) 0).toNat

/-- Both bytes at address `a` are in the data at `loc`. -/
def InData (data : Bytes) (loc a : Nat) : Prop := loc ≤ a ∧ a - loc + 1 < data.length

/-- The address of the `k`-th line, following the stored addresses. -/
def lineAddr (data : Bytes) (loc : Nat) : Nat → Nat
  | 0 => loc
  | k + 1 => storedAt data loc (lineAddr data loc k)

/-- An Integer BASIC program: each line is its length, its number, its text and a 1. -/
def integerLayout : List Line → Bytes
  | [] => []
  | l :: rest => UInt8.ofNat (l.bytes.length + 4) :: (word16 l.num ++ (l.bytes ++ (1 :: integerLayout rest)))

/-- An Integer BASIC line: a 16-bit number and a length that fits in a byte. -/
def IntegerLine (l : Line) : Prop := l.num < 65536 ∧ l.bytes.length ≤ 251

/-- Length byte of the line that starts `d`. -/
def lineSize (d : Bytes) : Nat := (d.getD 0 0).toNat

/-- `e` is what is left of `d` after some complete lines. -/
inductive AfterLines : Bytes → Bytes → Prop
  | none {d : Bytes} : AfterLines d d
  | line {d e : Bytes} : 3 < d.length → 4 ≤ lineSize d → lineSize d ≤ d.length → d.getD (lineSize d - 1) 0 = 1 →
      AfterLines (d.drop (lineSize d)) e → AfterLines d e

/-- A line whose length byte is too small for a line, but that ends in 1 all the same or is empty. -/
def BadLength (e : Bytes) : Prop :=
  3 < e.length ∧ (lineSize e = 0 ∨ lineSize e < 4 ∧ e.getD (lineSize e - 1) 0 = 1)

/-- Letters and digits. -/
def IsDigit (c : UInt8) : Prop := 48 ≤ c.toNat ∧ c.toNat ≤ 57
def IsAlnum (c : UInt8) : Prop :=
  IsDigit c ∨ (65 ≤ c.toNat ∧ c.toNat ≤ 90) ∨ (97 ≤ c.toNat ∧ c.toNat ≤ 122)

/-- The pieces of an Integer BASIC line. -/
inductive Item where
  /-- a token other than REM and the opening quote -/
  | keyword (c : UInt8)
  /-- a number: its first digit and its value -/
  | number (digit : UInt8) (value : Nat)
  /-- a variable name -/
  | name (s : Str)
  /-- a string constant -/
  | quoted (s : Str)

/-- Text is stored with the high bit set. -/
def highBit (s : Str) : Bytes := s.map fun c => c + 0x80

/-- How a piece is stored. -/
def Item.stored : Item → Bytes
  | .keyword c => [c]
  | .number d v => (d + 0x80) :: word16 v
  | .name s => highBit s
  | .quoted s => 0x28 :: (highBit s ++ [0x29])

/-- Every digit follows a letter or digit, where `an` says whether the text before ends in one. -/
def DigitsFollow : Bool → Str → Prop
  | _, [] => True
  | an, c :: rest => (IsDigit c → an = true) ∧ (∃ b : Bool, (b = true ↔ IsAlnum c) ∧ DigitsFollow b rest)

/-- The keywords of Integer BASIC, by token; token 1 ends a line. -/
def integerKeywords : List String := [
  "HIMEM:", "", "_", ":", "LOAD", "SAVE", "CON", "RUN", "RUN", "DEL", ",", "NEW", "CLR", "AUTO", ",", "MAN",
  "HIMEM:", "LOMEM:", "+", "-", "*", "/", "=", "#", ">=", ">", "<=", "<>", "<", "AND", "OR", "MOD",
  "^", "+", "(", ",", "THEN", "THEN", ",", ",", "\"", "\"", "(", "!", "!", "(", "PEEK", "RND",
  "SGN", "ABS", "PDL", "RNDX", "(", "+", "-", "NOT", "(", "=", "#", "LEN(", "ASC(", "SCRN(", ",", "(",
  "$", "$", "(", ",", ",", ";", ";", ";", ",", ",", ",", "TEXT", "GR", "CALL", "DIM", "DIM",
  "TAB", "END", "INPUT", "INPUT", "INPUT", "FOR", "=", "TO", "STEP", "NEXT", ",", "RETURN", "GOSUB", "REM", "LET", "GOTO",
  "IF", "PRINT", "PRINT", "PRINT", "POKE", ",", "COLOR=", "PLOT", ",", "HLIN", ",", "AT", "VLIN", ",", "AT", "VTAB",
  "=", "=", ")", ")", "LIST", ",", "LIST", "POP", "NODSP", "NODSP", "NOTRACE", "DSP", "DSP", "TRACE", "PR#", "IN#"]

/-- How a token is shown: its keyword, and a space if the keyword is longer than one character. -/
def keywordText (c : UInt8) : Str :=
  if (integerKeywords.getD c.toNat "").length > 1 then str (integerKeywords.getD c.toNat "") ++ [0x20]
  else str (integerKeywords.getD c.toNat "")

/-- How a piece is shown, with numbers written by `dec`. -/
def Item.shown (dec : Nat → Str) : Item → Str
  | .keyword c => keywordText c
  | .number _ v => dec v
  | .name s => s
  | .quoted s => 0x22 :: (s ++ [0x22])

/-- A piece as Integer BASIC would produce it. -/
def Item.Valid : Item → Prop
  | .keyword c => c.toNat < 0x80 ∧ c.toNat ≠ 1 ∧ c.toNat ≠ 0x5D ∧ c.toNat ≠ 0x28
  | .number d v => IsDigit d ∧ v < 65536
  | .name s => s ≠ [] ∧ (∀ c ∈ s, IsAlnum c) ∧ ∀ c, s.head? = some c → ¬ IsDigit c
  | .quoted s => ∀ c ∈ s, c.toNat < 0x80

/-- A number does not directly follow a name or another number. -/
def Separated : List Item → Prop
  | [] => True
  | [_] => True
  | a :: b :: rest => ((∃ s, a = .name s) ∨ (∃ d v, a = .number d v) → ¬ ∃ d v, b = .number d v) ∧ Separated (b :: rest)

/-- `s` is the decimal form of `n`: digits only, no superfluous zero, and the value is `n`. -/
def IsDecimal (s : Str) (n : Nat) : Prop :=
  s ≠ [] ∧ (∀ c ∈ s, 48 ≤ c.toNat ∧ c.toNat ≤ 57) ∧ (s.head? = some 48 → s = [48]) ∧
    s.foldl (fun v c => 10 * v + (c.toNat - 48)) 0 = n

/-- The control characters that a listing shows by name. -/
def IsControl (c : UInt8) : Prop := c.toNat < 32 ∧ c.toNat ≠ 9 ∧ c.toNat ≠ 10

instance (c : UInt8) : Decidable (IsControl c) := by unfold IsControl; infer_instance

/-- Text with the named control characters in chevrons: `name` between "«" and "»" (UTF-8). -/
def chevroned (name : Str) : Str := [0xC2, 0xAB] ++ (name ++ [0xC2, 0xBB])

end Verif.Spec.Basic
