import Verif.Model.Cmd

/-!
# Specification vocabulary: which files a command may replace
-/

set_option autoImplicit false

namespace Verif.Spec
open Cmd

/-- The user has told the command to replace this file: it is the image to be changed, or the disk to be made by `mksd`; the image that
`reorder` makes may replace another file only with `--overwrite`. -/
def ToldToReplace : Command → Str → Prop
  | .put _ _ _ _ _ image _ _, q => q = image
  | .rm _ _ _ image _, q => q = image
  | .mkhello _ image _ _ _, q => q = image
  | .mksd _ image _ _ _, q => q = image
  | .reorder _ _ overwrite image newImage, q => (newImage = [] ∧ q = image) ∨ (newImage ≠ [] ∧ q = newImage ∧ overwrite = true)
  | _, _ => False

end Verif.Spec
