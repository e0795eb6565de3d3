import Verif.Spec.Space

/-!
# Specification vocabulary for putting many files
-/

set_option autoImplicit false

namespace Verif.Spec
open Cmd Disk

/-- The number of sectors of all the files except those of the symbol table. -/
def used (m : Files) : Nat :=
  ((((List.range 256).map UInt8.ofNat).filter fun g => Ordinary g).map fun g => sectors (m g)).sum

/-- The number of sectors needed for new files: numbers and contents. -/
def needed (xs : List (UInt8 × Bytes)) : Nat := (xs.map fun x => sectorsNeeded x.2.length).sum

/-- The files `m`, and besides them those of the list. -/
def together (m : Files) (xs : List (UInt8 × Bytes)) : Files := fun g =>
  match xs.find? fun x => x.1 = g with
  | some x => padded x.2
  | none => m g

/-- With these options a command takes the image for a NakedOS disk in sector order `ord`: it is told so, or that is what it finds. -/
def Takes (env : Env) (w : World) (image : Str) (ord order : DiskOrder) (system : Str) : Prop :=
  (order = ord ∧ system = str "nakedos") ∨
  CandidateOrders order (toLower (pathExt image)) [ord] ∧
    ∃ raw o, w.files image = some raw ∧ openImage raw image order system (factories env) = .ok (.nakedos o, ord)

/-- The command, in its world, is to put the non-empty contents `x.2` from a file as the new file number `x.1` of the NakedOS image. -/
def Puts (env : Env) (image : Str) (ord : DiskOrder) (x : UInt8 × Bytes) (p : World × Command) : Prop :=
  Ordinary x.1 ∧ x.2 ≠ [] ∧ ∃ order system t a name source, p.2 = .put order system t false a image name source ∧
    Takes env p.1 image ord order system ∧
    Types.filetypeForName t = .ok filetypeBinary ∧ NumericName name x.1 ∧ source ≠ str "-" ∧ p.1.files source = some x.2

/-- The number of the file that an event is about. -/
def Event.file : Event → Option UInt8
  | .nothing => none
  | .put f _ => some f
  | .rm f => some f

/-- The command, in its world, asks for a change of one numbered file of the image, whose sectors it takes to be in order `ord`: the file's
replacement by what is in a file or on standard input, or its removal. -/
inductive Asks (image : Str) (ord : DiskOrder) : Event → World × Command → Prop
  | put {w : World} {order : DiskOrder} {system t name source : Str} {ow : Bool} {a : UInt16} {f : UInt8} {data : Bytes} : NumericName name f →
      CandidateOrders order (toLower (pathExt image)) [ord] →
      (if source = str "-" then some w.stdin else w.files source) = some data →
      Asks image ord (.put f data) (w, .put order system t ow a image name source)
  | rm {w : World} {order : DiskOrder} {system name : Str} {missingOk : Bool} {f : UInt8} : NumericName name f →
      CandidateOrders order (toLower (pathExt image)) [ord] →
      Asks image ord (.rm f) (w, .rm order system missingOk image name)

end Verif.Spec
