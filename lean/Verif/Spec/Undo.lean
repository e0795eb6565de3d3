import Verif.Spec.Supermon

/-!
# Specification vocabulary for changes that are undone
-/

set_option autoImplicit false

namespace Verif.Spec

/-- Two NakedOS images that differ at most in the bytes of sectors that are free on the first. (The owners are recorded in sectors that
are never free, so that they are the same on both.) -/
def SameUpToFree (img img' : Bytes) : Prop :=
  img'.length = img.length ∧ ∀ i, i < img.length → owner img (i / 256) ≠ 0xFF → img'[i]? = img[i]?

end Verif.Spec
