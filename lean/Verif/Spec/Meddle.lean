import Verif.Spec.Fine

/-!
# Specification vocabulary: a command among programs of any kind

While a command runs, other programs may do anything to its files: at each of its system calls they are what they are.
-/

set_option autoImplicit false

namespace Verif.Spec
open Cmd Disk

variable {ι : Type}

/-- A program after some system calls, at each of which the files are those given and at most so many bytes (plus one) are moved. -/
def Worker.among (p : Worker) (turns : List (FileSystem × Nat)) : Worker := turns.foldl (fun p t => (p.step t.1 t.2).2) p

/-- That `x` is what the file `q` contains (`none`: that there is no such file) is something a program could come to believe by looking at it: there
was a time when there was none; or there was one, each byte was at its place at some time, and at some time there was nothing beyond the last. -/
def Glimpsed (turns : List (FileSystem × Nat)) (q : Str) : Option Bytes → Prop
  | none => ∃ t ∈ turns, t.1 q = none
  | some b => (∃ t ∈ turns, t.1 q ≠ none) ∧ (∀ (k : Nat) (c : UInt8), b[k]? = some c → ∃ t ∈ turns, ∃ d, t.1 q = some d ∧ d[k]? = some c) ∧
      ∃ t ∈ turns, ((t.1 q).getD []).length ≤ b.length

/-- The commands that look at a file twice: a put of an image on itself, and a reorder from a file to the same file by name, which looks whether
it exists after having read it. -/
def LooksTwice : Command → Prop
  | .put _ _ _ _ _ image _ source => image = source ∧ image ≠ str "-"
  | .reorder _ _ overwrite image newImage => image = newImage ∧ image ≠ str "-" ∧ overwrite = false
  | _ => False

/-- The turns of command `i` among others: the files it finds and how much it may move. -/
def momentsOf [DecidableEq ι] (s : Crew ι) (i : ι) : List (ι × Nat) → List (FileSystem × Nat)
  | [] => []
  | t :: schedule => if t.1 = i then (s.files, t.2) :: momentsOf (Crew.step s t) i schedule else momentsOf (Crew.step s t) i schedule

end Verif.Spec
