import Verif.Model.Heap

/-!
# C113: what a caller of the library sees

A program has an open NakedOS disk and slices of its own, and does any of the things below, in any order.  What it sees is said twice: as if every
slice were a value of its own (`Values`), and as it is, with slices in memory that share arrays (`State`).
-/

set_option autoImplicit false

namespace Verif.Spec
open Disk Supermon Heap

/-- Bytes to put into a file. -/
inductive Piece where
  /-- `mine[k][lo:hi]` -/
  | mine (k lo hi : Nat)
  /-- `op.GetBytes()[lo:hi]` -/
  | disk (lo hi : Nat)

inductive Call where
  /-- The program makes a slice of its own. -/
  | make (b : Bytes)
  /-- `op.GetFile(name)`: its data is one more slice of the program. -/
  | get (name : Str)
  /-- `op.PutFile` with a binary file of these bytes. -/
  | put (name : Str) (p : Piece) (overwrite : Bool)
  /-- `op.Delete(name)` -/
  | delete (name : Str)
  /-- `mine[k][i] = b` -/
  | write (k i : Nat) (b : UInt8)
  /-- `op.GetBytes()[i] = b` -/
  | poke (i : Nat) (b : UInt8)
  /-- `WriteBack` to a file of this order. -/
  | save (order : DiskOrder)

/-- What the program sees after a call. -/
structure Sight where
  out : Out Unit
  existed : Bool := false
  /-- Its slices. -/
  mine : List Bytes
  /-- `op.GetBytes()` -/
  disk : Bytes
  /-- `op.Catalog` -/
  catalog : Out (List Descriptor)
  /-- What was written to a file. -/
  file : Option Bytes := none

/-! ## As if all were values -/

structure Values where
  op : Operator
  mine : List Bytes

/-- What opening a floppy image gives when slices are values. -/
def openBytes (raw : Bytes) (order : DiskOrder) : Out Operator := do
  let swizzled ← Disk.swizzle raw (logicalToPhysicalByName order)
  let diskbytes ← Disk.swizzle swizzled (physicalToLogicalByName orderRaw)
  Supermon.openOperator diskbytes

def cut (b : Bytes) (lo hi : Nat) : Option Bytes := if lo ≤ hi ∧ hi ≤ b.length then some (slice b lo (hi - lo)) else none

def Values.piece (v : Values) : Piece → Option Bytes
  | .mine k lo hi => v.mine[k]?.bind fun b => cut b lo hi
  | .disk lo hi => cut v.op.data lo hi

def Values.sight (v : Values) (out : Out Unit) (existed : Bool := false) (file : Option Bytes := none) : Sight :=
  ⟨out, existed, v.mine, v.op.data, .ok v.op.catalog, file⟩

def Values.step (v : Values) : Call → Sight × Values
  | .make b => let v := { v with mine := v.mine ++ [b] }; (v.sight (.ok ()), v)
  | .get name =>
    match v.op.getFile name with
    | .ok f => let v := { v with mine := v.mine ++ [f.data] }; (v.sight (.ok ()), v)
    | e => (v.sight (outcome e), v)
  | .put name p overwrite =>
    match v.piece p with
    | some b =>
      let r := v.op.putFile ⟨{ name := name, length := b.length, type := filetypeBinary }, b, 0⟩ overwrite
      let v := { v with op := r.op }
      (v.sight r.out r.existed, v)
    | none => (v.sight .panic, v)
  | .delete name =>
    let r := v.op.delete name
    let v := { v with op := r.op }
    (v.sight r.out r.existed, v)
  | .write k i b =>
    match v.mine[k]? with
    | some s =>
      if i < s.length then let v := { v with mine := v.mine.set k (s.set i b) }; (v.sight (.ok ()), v)
      else (v.sight .panic, v)
    | none => (v.sight .panic, v)
  | .poke i b =>
    if i < v.op.data.length then let v := { v with op := { v.op with data := v.op.data.set i b } }; (v.sight (.ok ()), v)
    else (v.sight .panic, v)
  | .save order =>
    match writeBackBytes v.op order with
    | .ok b => (v.sight (.ok ()) (file := some b), v)
    | e => (v.sight (outcome e), v)

def Values.run (v : Values) : List Call → List Sight
  | [] => []
  | c :: rest => (v.step c).1 :: (v.step c).2.run rest

/-! ## As it is -/

structure State where
  op : Op
  mine : List Slice
  mem : Mem

def State.piece (s : State) : Piece → Option Slice
  | .mine k lo hi => s.mine[k]?.bind fun t => if lo ≤ hi ∧ hi ≤ t.len then some ⟨t.arr, t.off + lo, hi - lo, t.cap - lo⟩ else none
  | .disk lo hi => if lo ≤ hi ∧ hi ≤ s.op.data.len then some ⟨s.op.data.arr, s.op.data.off + lo, hi - lo, s.op.data.cap - lo⟩ else none

def State.sight (s : State) (out : Out Unit) (existed : Bool := false) (file : Option Bytes := none) : Sight :=
  ⟨out, existed, s.mine.map (bytesOf s.mem), bytesOf s.mem s.op.data, (s.op.catalog s.mem).1, file⟩

variable (grow : Nat → Nat → Nat)

def State.step (s : State) : Call → Sight × State
  | .make b =>
    match alloc b s.mem with
    | (.ok t, m) => let s := { s with mine := s.mine ++ [t], mem := m }; (s.sight (.ok ()), s)
    | (e, m) => let s := { s with mem := m }; (s.sight (outcome e), s)
  | .get name =>
    match s.op.getFile grow name s.mem with
    | (.ok t, m) => let s := { s with mine := s.mine ++ [t], mem := m }; (s.sight (.ok ()), s)
    | (e, m) => let s := { s with mem := m }; (s.sight (outcome e), s)
  | .put name p overwrite =>
    match s.piece p with
    | some t =>
      let r := s.op.putFile name t overwrite s.mem
      let s := { s with op := r.op, mem := r.mem }
      (s.sight r.out r.existed, s)
    | none => (s.sight .panic, s)
  | .delete name =>
    let r := s.op.delete name s.mem
    let s := { s with op := r.op, mem := r.mem }
    (s.sight r.out r.existed, s)
  | .write k i b =>
    match s.mine[k]? with
    | some t =>
      match setIndex t i b s.mem with
      | (out, m) => let s := { s with mem := m }; (s.sight out, s)
    | none => (s.sight .panic, s)
  | .poke i b =>
    match setIndex s.op.data i b s.mem with
    | (out, m) => let s := { s with mem := m }; (s.sight out, s)
  | .save order =>
    match s.op.writeBack order s.mem with
    | (.ok t, m) => let s := { s with mem := m }; (s.sight (.ok ()) (file := some (bytesOf m t)), s)
    | (e, m) => let s := { s with mem := m }; (s.sight (outcome e), s)

def State.run (s : State) : List Call → List Sight
  | [] => []
  | c :: rest => (s.step grow c).1 :: (s.step grow c).2.run rest

end Verif.Spec
