import Verif.Model.Unicode

/-!
# C111: case outside ASCII, in words
-/

set_option autoImplicit false

namespace Verif.Spec

/-- What is known of Unicode's case tables: ASCII letters go to ASCII letters; the only other characters that go to ASCII are the
dotless i (U+0131) and the long s (U+017F) as capitals, and the I with a dot (U+0130) and the Kelvin sign (U+212A) as small letters;
the Kelvin sign is a k but for case, and the long s an s. -/
structure IsUnicode (T : Unicode.Tables) : Prop where
  upper_ascii : ∀ r, r < 0x80 → T.upper r = if 0x61 ≤ r ∧ r ≤ 0x7A then r - 0x20 else r
  upper_other : ∀ r, 0x80 ≤ r → (T.upper r < 0x80 ↔ r = 0x131 ∨ r = 0x17F)
  upper_i : T.upper 0x131 = 0x49
  upper_s : T.upper 0x17F = 0x53
  lower_ascii : ∀ r, r < 0x80 → T.lower r = if 0x41 ≤ r ∧ r ≤ 0x5A then r + 0x20 else r
  lower_other : ∀ r, 0x80 ≤ r → (T.lower r < 0x80 ↔ r = 0x130 ∨ r = 0x212A)
  lower_i : T.lower 0x130 = 0x69
  lower_k : T.lower 0x212A = 0x6B
  fold_ascii : ∀ r, r < 0x80 → T.fold r = if r = 0x6B then 0x212A else if r = 0x73 then 0x17F
    else if 0x41 ≤ r ∧ r ≤ 0x5A then r + 0x20 else if 0x61 ≤ r ∧ r ≤ 0x7A then r - 0x20 else r
  fold_k : T.fold 0x212A = 0x4B
  fold_s : T.fold 0x17F = 0x53

/-- ı, ſ and the Kelvin sign in UTF-8. -/
def dotlessI : Str := [0xC4, 0xB1]
def longS : Str := [0xC5, 0xBF]
def kelvin : Str := [0xE2, 0x84, 0xAA]

/-- The name has none of these three characters.  Any other bytes are allowed. -/
def PlainName (s : Str) : Prop := ¬ dotlessI <:+: s ∧ ¬ longS <:+: s ∧ ¬ kelvin <:+: s

/-- A name with each long s written as s and each Kelvin sign as k; all other bytes stay. -/
def spell : Str → Str
  | 0xC5 :: 0xBF :: s => 0x73 :: spell s
  | 0xE2 :: 0x84 :: 0xAA :: s => 0x6B :: spell s
  | c :: s => c :: spell s
  | [] => []

/-- A name with each Kelvin sign written as k; all other bytes stay. -/
def kelvinAsK : Str → Str
  | 0xE2 :: 0x84 :: 0xAA :: s => 0x6B :: kelvinAsK s
  | c :: s => c :: kelvinAsK s
  | [] => []

/-- Capital letters and digits. -/
def Capitals (s : Str) : Prop := ∀ c ∈ s, (0x41 ≤ c.toNat ∧ c.toNat ≤ 0x5A) ∨ (0x30 ≤ c.toNat ∧ c.toNat ≤ 0x39)

/-- A name as it is stored: with each long s written as s and each dotless i as i; all other bytes stay. -/
def storedAs : Str → Str
  | 0xC5 :: 0xBF :: s => 0x73 :: storedAs s
  | 0xC4 :: 0xB1 :: s => 0x69 :: storedAs s
  | c :: s => c :: storedAs s
  | [] => []

/-- Names without Unicode's tables: two of them are the same if they are but for the case of A–Z, the long s counting as s and the Kelvin sign as k;
what is stored is the name with the long s as s and the dotless i as i.  Of the two, only the long s counts alike. -/
def threeLetters : Supermon.Naming where
  same a b := Supermon.equalFold (spell a) (spell b)
  encode name :=
    if name = [] then .ok (Vector.replicate 6 0)
    else if name.length > 9 then .err .other
    else if name.length < 3 then .err .other
    else do
      let value ← Supermon.encodeLoop (toUpper (storedAs name)).reverse 0 0
      .ok (Supermon.sixBytes value)

end Verif.Spec
