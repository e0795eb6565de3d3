import Verif.Spec.Cmd
import Verif.Model.Faults

/-!
# Specification vocabulary for writes that fail
-/

set_option autoImplicit false

namespace Verif.Spec
open Cmd

/-- No write fails. -/
def NoFault (fa : Faults) : Prop := (∀ i, fa.stdout i = none) ∧ fa.file = .done

/-- The commands that look at the outcome of all their writes. -/
def Attentive : Command → Prop
  | .ls .. => False
  | .decode .. => False
  | .filetypes .. => False
  | _ => True

end Verif.Spec
