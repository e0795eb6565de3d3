import Verif.Spec.Cmd

/-!
# C112: the lines of a listing
-/

set_option autoImplicit false

namespace Verif.Spec
open Cmd

/-- The lines of a text: each ends with a newline and has none within.  (A text has at most one such list, `lines_unique`.) -/
def Lines (text : Bytes) (l : List Str) : Prop := text = l.flatMap (· ++ [0x0A]) ∧ ∀ x ∈ l, (0x0A : UInt8) ∉ x

/-- The text has as many lines. -/
def LineCount (text : Bytes) (n : Nat) : Prop := ∃ l, Lines text l ∧ l.length = n

/-- Only printable ASCII characters. -/
def Printable (s : Str) : Prop := ∀ c ∈ s, 0x20 ≤ c.toNat ∧ c.toNat < 0x7F

/-- The command succeeds, prints `text` and changes no file. -/
def Prints (env : Env) (c : Command) (w : World) (text : Bytes) : Prop :=
  ∃ w', run env c w = (.ok (), w') ∧ w'.files = w.files ∧ w'.stdout = w.stdout ++ text

end Verif.Spec
