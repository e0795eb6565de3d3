import Verif.Spec.Disk
import Verif.Model.Open

/-!
# Specification vocabulary for opening images

Uses only the interface types of the model (`Factory`, the order names and tables).
-/

set_option autoImplicit false

namespace Verif.Spec
open Disk

/-- `v` is what a system with sector order `fo` sees of an image file in order `o`:
file order to physical order, then physical order to the system's order. -/
def View (o fo : DiskOrder) (raw v : Bytes) : Prop :=
  v.length = raw.length ∧ ∃ p : Bytes, p.length = raw.length ∧
    SectorsMoved (logicalToPhysicalByName o) raw p ∧
    SectorsMoved (physicalToLogicalByName fo) p v

/-- The file orders that come into question, in the order they are tried, for an order
flag and a lower-case file extension. -/
inductive CandidateOrders : DiskOrder → Str → List DiskOrder → Prop
  | explicitDO (ext) : CandidateOrders (str "do") ext [str "do"]
  | explicitPO (ext) : CandidateOrders (str "po") ext [str "po"]
  | byExtPO : CandidateOrders (str "auto") (str ".po") [str "po"]
  | byExtDO : CandidateOrders (str "auto") (str ".do") [str "do"]
  | byExtDsk : CandidateOrders (str "auto") (str ".dsk") [str "do", str "po"]
  | noExt : CandidateOrders (str "auto") (str "") [str "do", str "po"]

/-- The (order, system) pairs that come into question, in the order they are tried. -/
def candidates {Ω : Type} (os : List DiskOrder) (system : Str) (fs : List (Factory Ω)) :
    List (DiskOrder × Factory Ω) :=
  os.flatMap fun o =>
    (fs.filter fun f => system = str "auto" ∨ system = f.name).map fun f => (o, f)

/-- The system recognises the bytes and opens them. -/
def Accepts {Ω : Type} (f : Factory Ω) (v : Bytes) (op : Ω) : Prop :=
  f.seemsToMatch v = .ok true ∧ f.operator v = .ok op

/-- The system does not recognise the bytes, or fails to open them. -/
def Rejects {Ω : Type} (f : Factory Ω) (v : Bytes) : Prop :=
  f.seemsToMatch v = .ok false ∨ (f.seemsToMatch v = .ok true ∧ (f.operator v).isErr)

/-- What a well-behaved system must satisfy: its sector order is one of the three known ones,
and an opened operator carries the bytes it was given and the system's sector order. -/
def Lawful {Ω : Type} [OperatorLike Ω] (f : Factory Ω) : Prop :=
  (f.diskOrder = str "do" ∨ f.diskOrder = str "po" ∨ f.diskOrder = str "raw") ∧
  ∀ b op, f.operator b = .ok op →
    OperatorLike.getBytes op = b ∧ OperatorLike.diskOrder op = f.diskOrder

/-- Extension class of a file name used by C10: DOS order. -/
def NameSaysDO (n : Str) : Prop :=
  toLower (pathExt n) = str ".dsk" ∨ toLower (pathExt n) = str ".do"

/-- Extension class of a file name used by C10: ProDOS order. -/
def NameSaysPO (n : Str) : Prop := toLower (pathExt n) = str ".po"

end Verif.Spec
