import Verif.Spec.Values
import Verif.Model.HeapDos3

/-!
# C113 for DOS 3.3 disks

The calls and what the program sees are those of `Spec/Values.lean`; said again as if every slice were a value (`Dos3Values`), and as it is
(`Dos3State`).  `PutFile` and `Delete` refuse everything.
-/

set_option autoImplicit false

namespace Verif.Spec
open Disk Heap

structure Dos3Values where
  op : Dos3.Operator
  mine : List Bytes

/-- What opening a floppy image as DOS 3.3 gives when slices are values. -/
def openDos3Bytes (raw : Bytes) (order : DiskOrder) : Out Dos3.Operator := do
  let swizzled ← Disk.swizzle raw (logicalToPhysicalByName order)
  let diskbytes ← Disk.swizzle swizzled (physicalToLogicalByName orderDO)
  .ok ⟨diskbytes⟩

def Dos3Values.piece (v : Dos3Values) : Piece → Option Bytes
  | .mine k lo hi => v.mine[k]?.bind fun b => cut b lo hi
  | .disk lo hi => cut v.op.data lo hi

def Dos3Values.sight (v : Dos3Values) (out : Out Unit) (file : Option Bytes := none) : Sight :=
  ⟨out, false, v.mine, v.op.data, v.op.catalog [], file⟩

def Dos3Values.step (v : Dos3Values) : Call → Sight × Dos3Values
  | .make b => let v := { v with mine := v.mine ++ [b] }; (v.sight (.ok ()), v)
  | .get name =>
    match v.op.getFile name with
    | .ok f => let v := { v with mine := v.mine ++ [f.data] }; (v.sight (.ok ()), v)
    | e => (v.sight (outcome e), v)
  | .put name p overwrite =>
    match v.piece p with
    | some b => (v.sight (outcome (v.op.putFile ⟨{ name := name, length := b.length, type := filetypeBinary }, b, 0⟩ overwrite)), v)
    | none => (v.sight .panic, v)
  | .delete name => (v.sight (outcome (v.op.delete name)), v)
  | .write k i b =>
    match v.mine[k]? with
    | some s =>
      if i < s.length then let v := { v with mine := v.mine.set k (s.set i b) }; (v.sight (.ok ()), v)
      else (v.sight .panic, v)
    | none => (v.sight .panic, v)
  | .poke i b =>
    if i < v.op.data.length then let v := { v with op := ⟨v.op.data.set i b⟩ }; (v.sight (.ok ()), v)
    else (v.sight .panic, v)
  | .save order =>
    match writeBackBytes v.op order with
    | .ok b => (v.sight (.ok ()) (file := some b), v)
    | e => (v.sight (outcome e), v)

def Dos3Values.run (v : Dos3Values) : List Call → List Sight
  | [] => []
  | c :: rest => (v.step c).1 :: (v.step c).2.run rest

/-! ## As it is -/

structure Dos3State where
  /-- The slice that the operator is. -/
  disk : Slice
  mine : List Slice
  mem : Mem

def Dos3State.piece (s : Dos3State) : Piece → Option Slice
  | .mine k lo hi => s.mine[k]?.bind fun t => if lo ≤ hi ∧ hi ≤ t.len then some ⟨t.arr, t.off + lo, hi - lo, t.cap - lo⟩ else none
  | .disk lo hi => if lo ≤ hi ∧ hi ≤ s.disk.len then some ⟨s.disk.arr, s.disk.off + lo, hi - lo, s.disk.cap - lo⟩ else none

def Dos3State.sight (s : Dos3State) (out : Out Unit) (file : Option Bytes := none) : Sight :=
  ⟨out, false, s.mine.map (bytesOf s.mem), bytesOf s.mem s.disk, (HeapDos3.catalog s.disk s.mem).1, file⟩

variable (grow : Nat → Nat → Nat)

def Dos3State.step (s : Dos3State) : Call → Sight × Dos3State
  | .make b =>
    match alloc b s.mem with
    | (.ok t, m) => let s := { s with mine := s.mine ++ [t], mem := m }; (s.sight (.ok ()), s)
    | (e, m) => let s := { s with mem := m }; (s.sight (outcome e), s)
  | .get name =>
    match HeapDos3.getFile grow s.disk name s.mem with
    | (.ok t, m) => let s := { s with mine := s.mine ++ [t], mem := m }; (s.sight (.ok ()), s)
    | (e, m) => let s := { s with mem := m }; (s.sight (outcome e), s)
  | .put name p overwrite =>
    match s.piece p with
    | some t =>
      match HeapDos3.putFile s.disk name t overwrite s.mem with
      | (out, m) => let s := { s with mem := m }; (s.sight (outcome out), s)
    | none => (s.sight .panic, s)
  | .delete name =>
    match HeapDos3.delete s.disk name s.mem with
    | (out, m) => let s := { s with mem := m }; (s.sight (outcome out), s)
  | .write k i b =>
    match s.mine[k]? with
    | some t =>
      match setIndex t i b s.mem with
      | (out, m) => let s := { s with mem := m }; (s.sight out, s)
    | none => (s.sight .panic, s)
  | .poke i b =>
    match setIndex s.disk i b s.mem with
    | (out, m) => let s := { s with mem := m }; (s.sight out, s)
  | .save order =>
    match HeapDos3.writeBack s.disk order s.mem with
    | (.ok t, m) => let s := { s with mem := m }; (s.sight (.ok ()) (file := some (bytesOf m t)), s)
    | (e, m) => let s := { s with mem := m }; (s.sight (outcome e), s)

def Dos3State.run (s : Dos3State) : List Call → List Sight
  | [] => []
  | c :: rest => (s.step grow c).1 :: (s.step grow c).2.run rest

end Verif.Spec
