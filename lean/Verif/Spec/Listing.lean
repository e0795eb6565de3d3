import Verif.Spec.Basic

/-!
# Specification vocabulary for what `applesoft decode` prints
-/

set_option autoImplicit false

namespace Verif.Spec.Basic

open Verif.Basic (Line)

/-- `text` is the listing of Applesoft lines, if tokens are shown as `keyword` says: every line is its number in
decimal, a space, its plain characters as they are and its tokens between spaces, and a newline. -/
def IsListing (keyword : UInt8 → Str) (lines : List Line) (text : Str) : Prop :=
  ∃ number : Line → Str, (∀ l, IsDecimal (number l) l.num) ∧
    text = (lines.map fun l => number l ++ str " " ++
      (l.bytes.map fun c => if c.toNat < 128 then [c] else str " " ++ keyword c ++ str " ").flatten ++ str "\n").flatten

/-- The name of a control character: `ctrl-` and a letter, or its ASCII name.  (Escape has none
here.) -/
def controlCode (c : UInt8) : Str :=
  if c.toNat = 0 then str "NUL"
  else if c.toNat ≤ 26 then str "ctrl-" ++ [UInt8.ofNat (64 + c.toNat)]
  else if c.toNat = 0x1C then str "FS"
  else if c.toNat = 0x1D then str "GS"
  else if c.toNat = 0x1E then str "RS"
  else if c.toNat = 0x1F then str "US"
  else str "?"

/-- Text in which control characters other than tab and newline are replaced by their names in
chevrons. -/
def escaped (s : Str) : Str := s.flatMap fun c => if IsControl c then chevroned (controlCode c) else [c]

end Verif.Spec.Basic
