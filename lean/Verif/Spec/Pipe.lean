import Verif.Spec.Overlap

/-!
# C101: standard input and output in place of a file
-/

set_option autoImplicit false

namespace Verif.Spec
open Verif Verif.Cmd Verif.Disk

/-- `-` for the file `p`, and every other name as it is. -/
def dashFor (p q : Str) : Str := if q = p then str "-" else q

/-- The command with `-` wherever it names the file `p`. -/
def piped (p : Str) : Command → Command
  | .ls o s sh i d => .ls o s sh (dashFor p i) d
  | .reorder o n ow i j => .reorder o n ow (dashFor p i) (dashFor p j)
  | .filetypes a => .filetypes a
  | .put o s t ow a i n src => .put o s t ow a (dashFor p i) n (dashFor p src)
  | .rm o s m i n => .rm o s m (dashFor p i) n
  | .dump o s i n => .dump o s (dashFor p i) n
  | .mkhello o i n a s => .mkhello o (dashFor p i) n a s
  | .mksd o i b a s => .mksd o (dashFor p i) (dashFor p b) a s
  | .decode f l r => .decode (dashFor p f) l r

/-- The files a command reads. -/
def inputsOf : Command → List Str
  | .ls _ _ _ i _ => [i]
  | .reorder _ _ _ i _ => [i]
  | .filetypes _ => []
  | .put _ _ _ _ _ i _ s => [i, s]
  | .rm _ _ _ i _ => [i]
  | .dump _ _ i _ => [i]
  | .mkhello _ i _ _ _ => [i]
  | .mksd _ _ b _ _ => [b]
  | .decode f _ _ => [f]

/-- Nothing stands in the way of using `-` for `p`: standard input is read only once, and a file that is to be
written may be. -/
def Pipeable (p : Str) (w : World) : Command → Prop
  | .put _ _ _ _ _ i _ s => ¬ (i = p ∧ s = p)
  | .reorder _ _ ow _ j => j = p → ow = true ∨ w.files p = none
  | _ => True

/-- The order of the image is given, so that it is not guessed from a file name. -/
def OrderGiven : Command → Prop
  | .ls o _ _ _ _ => o ≠ orderAuto
  | .reorder o n _ _ _ => o ≠ orderAuto ∨ n ≠ orderAuto
  | .put o _ _ _ _ _ _ _ => o ≠ orderAuto
  | .rm o _ _ _ _ => o ≠ orderAuto
  | .dump o _ _ _ => o ≠ orderAuto
  | .mkhello o _ _ _ _ => o ≠ orderAuto
  | .mksd o _ _ _ _ => o ≠ orderAuto
  | .filetypes _ => True
  | .decode _ _ _ => True

/-- The run `b` with `-` for the file `p` does what the run `a` with the file does: it ends the same way and
changes the other files in the same way; it does not touch `p`; and it prints what `a` prints and, if `a` has
written `p`, the contents written. -/
structure LikeTheFile (p : Str) (writes : Prop) (w w' : World) (a b : Out Unit × World) : Prop where
  outcome : b.1 = a.1
  others : ∀ q, q ≠ p → b.2.files q = a.2.files q
  untouched : b.2.files p = w'.files p
  printed : ∃ text, a.2.stdout = w.stdout ++ text ∧
    (¬ writes ∨ a.1 ≠ .ok () → b.2.stdout = w'.stdout ++ text) ∧
    (writes ∧ a.1 = .ok () → ∃ new, a.2.files p = some new ∧ b.2.stdout = w'.stdout ++ text ++ new)

end Verif.Spec
