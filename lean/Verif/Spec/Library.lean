import Verif.Model.HeapOpen

/-!
# C114: what a program that uses the library sees

A program has slices of its own and open disks of any kind, any number of them, and does any of the things below, in any order.  What it sees is said
twice: as if every slice and every disk were a value of its own (`libValues`), and as it is, with slices in memory that share arrays (`Lib.run`).
-/

set_option autoImplicit false

namespace Verif.Spec
open Disk Heap Cmd HeapOpen

/-- The things a program does.  `k` and `j` are numbers of things it has; the bytes of a disk are those that `GetBytes` gives. -/
inductive LibCall where
  /-- It makes a slice of its own. -/
  | make (b : Bytes)
  /-- `OpenImage` on the bytes of thing `k`. -/
  | openImage (k : Nat) (filename : Str) (order : DiskOrder) (system : Str)
  /-- `OpenFile` on a file with these contents. -/
  | openFile (contents : Bytes) (filename : Str) (order : DiskOrder) (system : Str)
  /-- `GetFile(name)` of disk `k`: the data is one more slice of the program. -/
  | get (k : Nat) (name : Str)
  /-- `PutFile` on disk `k` of a binary file, with the bytes `lo` to `hi` of thing `j`. -/
  | put (k : Nat) (name : Str) (j lo hi : Nat) (overwrite : Bool)
  /-- `Delete(name)` on disk `k`. -/
  | delete (k : Nat) (name : Str)
  /-- `[i] = b` on the bytes of thing `k`. -/
  | write (k i : Nat) (b : UInt8)
  /-- Its slice `k` becomes `[lo:hi]` of it. -/
  | cut (k lo hi : Nat)
  /-- Its slice `k` becomes `append` of it and the bytes of thing `j`. -/
  | extend (k j : Nat)
  /-- `WriteBack` of disk `k` to a file of this order. -/
  | save (k : Nat) (order : DiskOrder)

/-- What it sees of one thing. -/
structure Look where
  bytes : Bytes
  /-- `Catalog`, of a disk. -/
  catalog : Option (Str → Out (List Descriptor)) := none

/-- What it sees after a call: what the call said, the order that was found, what was written to a file, and all its things. -/
structure LibSight where
  out : Out Bool
  order : Option DiskOrder := none
  file : Option Bytes := none
  things : List Look

/-- Whether a call worked, without what it gave. -/
def said {α : Type} : Out α → Out Bool
  | .ok _ => .ok false
  | .err k => .err k
  | .panic => .panic
  | .timeout => .timeout

variable (env : Env)

/-! ## As if all were values -/

inductive VObj where
  | mine (b : Bytes)
  | disk (o : AnyOp)

def VObj.bytes : VObj → Bytes
  | .mine b => b
  | .disk o => OperatorLike.getBytes o

def VObj.view : VObj → Look
  | .mine b => ⟨b, none⟩
  | .disk o => ⟨OperatorLike.getBytes o, some (o.catalog env)⟩

/-- The disk with other bytes. -/
def withBytes (b : Bytes) : AnyOp → AnyOp
  | .dos3 _ => .dos3 ⟨b⟩
  | .nakedos o => .nakedos { o with data := b }
  | .prodos _ => .prodos ⟨b⟩

def VObj.withBytes (b : Bytes) : VObj → VObj
  | .mine _ => .mine b
  | .disk o => .disk (Spec.withBytes b o)

abbrev Vals := List VObj

def seen (v : Vals) (out : Out Bool) (order : Option DiskOrder := none) (file : Option Bytes := none) : LibSight :=
  ⟨out, order, file, v.map (VObj.view env)⟩

/-- After an attempt to open a disk. -/
def opens (v : Vals) : Out (AnyOp × DiskOrder) → LibSight × Vals
  | .ok (o, order) => (seen env (v ++ [.disk o]) (.ok false) (some order), v ++ [.disk o])
  | e => (seen env v (said e), v)

/-- After `GetFile`. -/
def gets (v : Vals) : Out FileInfo → LibSight × Vals
  | .ok f => (seen env (v ++ [.mine f.data]) (.ok false), v ++ [.mine f.data])
  | e => (seen env v (said e), v)

/-- After `WriteBack`. -/
def saves (v : Vals) : Out Bytes → LibSight × Vals
  | .ok b => (seen env v (.ok false) none (some b), v)
  | e => (seen env v (said e), v)

def libStep (v : Vals) : LibCall → LibSight × Vals
  | .make b => (seen env (v ++ [.mine b]) (.ok false), v ++ [.mine b])
  | .openImage k filename order system =>
    match v[k]? with
    | some t => opens env v (Disk.openImage t.bytes filename order system (Cmd.factories env))
    | none => (seen env v .panic, v)
  | .openFile contents filename order system => opens env v (Disk.openImage contents filename order system (Cmd.factories env))
  | .get k name =>
    match v[k]? with
    | some (.disk o) => gets env v (o.getFile name)
    | _ => (seen env v .panic, v)
  | .put k name j lo hi overwrite =>
    match v[k]?, v[j]? with
    | some (.disk o), some t =>
      if lo ≤ hi ∧ hi ≤ t.bytes.length then
        let b := slice t.bytes lo (hi - lo)
        let r := o.putFile ⟨{ name := name, length := b.length, type := filetypeBinary }, b, 0⟩ overwrite
        (seen env (v.set k (.disk r.2)) r.1, v.set k (.disk r.2))
      else (seen env v .panic, v)
    | _, _ => (seen env v .panic, v)
  | .delete k name =>
    match v[k]? with
    | some (.disk o) =>
      let r := o.delete name
      (seen env (v.set k (.disk r.2)) r.1, v.set k (.disk r.2))
    | _ => (seen env v .panic, v)
  | .write k i b =>
    match v[k]? with
    | some t =>
      if i < t.bytes.length then
        let v := v.set k (t.withBytes (t.bytes.set i b))
        (seen env v (.ok false), v)
      else (seen env v .panic, v)
    | none => (seen env v .panic, v)
  | .cut k lo hi =>
    match v[k]? with
    | some (.mine b) =>
      if lo ≤ hi ∧ hi ≤ b.length then
        let v := v.set k (.mine (slice b lo (hi - lo)))
        (seen env v (.ok false), v)
      else (seen env v .panic, v)
    | _ => (seen env v .panic, v)
  | .extend k j =>
    match v[k]?, v[j]? with
    | some (.mine b), some t =>
      let v := v.set k (.mine (b ++ t.bytes))
      (seen env v (.ok false), v)
    | _, _ => (seen env v .panic, v)
  | .save k order =>
    match v[k]? with
    | some (.disk o) => saves env v (writeBackBytes o order)
    | _ => (seen env v .panic, v)

def libValues (v : Vals) : List LibCall → List LibSight
  | [] => []
  | c :: rest => (libStep env v c).1 :: libValues (libStep env v c).2 rest

/-! ## As it is -/

inductive Obj where
  | mine (t : Slice)
  | disk (h : HOp)

def Obj.slice : Obj → Slice
  | .mine t => t
  | .disk h => h.getBytes

def Obj.view (m : Mem) : Obj → Look
  | .mine t => ⟨bytesOf m t, none⟩
  | .disk h => ⟨bytesOf m h.getBytes, some fun subdir => (h.catalog env subdir m).1⟩

structure Lib where
  objs : List Obj
  mem : Mem

namespace Lib

variable (grow : Nat → Nat → Nat)

def seen (s : Lib) (out : Out Bool) (order : Option DiskOrder := none) (file : Option Bytes := none) : LibSight :=
  ⟨out, order, file, s.objs.map (Obj.view env s.mem)⟩

/-- After an attempt to open a disk. -/
def opens (s : Lib) : Out (HOp × DiskOrder) × Mem → LibSight × Lib
  | (.ok (h, order), m) => (seen env ⟨s.objs ++ [.disk h], m⟩ (.ok false) (some order), ⟨s.objs ++ [.disk h], m⟩)
  | (e, m) => (seen env ⟨s.objs, m⟩ (said e), ⟨s.objs, m⟩)

/-- After a call that gives a slice. -/
def gets (s : Lib) : Out Slice × Mem → LibSight × Lib
  | (.ok t, m) => (seen env ⟨s.objs ++ [.mine t], m⟩ (.ok false), ⟨s.objs ++ [.mine t], m⟩)
  | (e, m) => (seen env ⟨s.objs, m⟩ (said e), ⟨s.objs, m⟩)

/-- After `WriteBack`. -/
def saves (s : Lib) : Out Slice × Mem → LibSight × Lib
  | (.ok t, m) => (seen env ⟨s.objs, m⟩ (.ok false) none (some (bytesOf m t)), ⟨s.objs, m⟩)
  | (e, m) => (seen env ⟨s.objs, m⟩ (said e), ⟨s.objs, m⟩)

def step (s : Lib) : LibCall → LibSight × Lib
  | .make b => s.gets env (alloc b s.mem)
  | .openImage k filename order system =>
    match s.objs[k]? with
    | some t => s.opens env (HeapOpen.openImage t.slice filename order system (HeapOpen.factories grow env) s.mem)
    | none => (s.seen env .panic, s)
  | .openFile contents filename order system => s.opens env (HeapOpen.openFile contents filename order system (HeapOpen.factories grow env) s.mem)
  | .get k name =>
    match s.objs[k]? with
    | some (.disk h) => s.gets env (h.getFile grow name s.mem)
    | _ => (s.seen env .panic, s)
  | .put k name j lo hi overwrite =>
    match s.objs[k]?, s.objs[j]? with
    | some (.disk h), some t =>
      if lo ≤ hi ∧ hi ≤ t.slice.len then
        let r := h.putFile name ⟨t.slice.arr, t.slice.off + lo, hi - lo, t.slice.cap - lo⟩ overwrite s.mem
        (seen env ⟨s.objs.set k (.disk r.op), r.mem⟩ r.out, ⟨s.objs.set k (.disk r.op), r.mem⟩)
      else (s.seen env .panic, s)
    | _, _ => (s.seen env .panic, s)
  | .delete k name =>
    match s.objs[k]? with
    | some (.disk h) =>
      let r := h.delete name s.mem
      (seen env ⟨s.objs.set k (.disk r.op), r.mem⟩ r.out, ⟨s.objs.set k (.disk r.op), r.mem⟩)
    | _ => (s.seen env .panic, s)
  | .write k i b =>
    match s.objs[k]? with
    | some t =>
      match setIndex t.slice i b s.mem with
      | (out, m) => (seen env ⟨s.objs, m⟩ (said out), ⟨s.objs, m⟩)
    | none => (s.seen env .panic, s)
  | .cut k lo hi =>
    match s.objs[k]? with
    | some (.mine t) =>
      if lo ≤ hi ∧ hi ≤ t.len then
        let objs := s.objs.set k (.mine ⟨t.arr, t.off + lo, hi - lo, t.cap - lo⟩)
        (seen env ⟨objs, s.mem⟩ (.ok false), ⟨objs, s.mem⟩)
      else (s.seen env .panic, s)
    | _ => (s.seen env .panic, s)
  | .extend k j =>
    match s.objs[k]?, s.objs[j]? with
    | some (.mine t), some t' =>
      match append grow t t'.slice s.mem with
      | (.ok r, m) => (seen env ⟨s.objs.set k (.mine r), m⟩ (.ok false), ⟨s.objs.set k (.mine r), m⟩)
      | (e, m) => (seen env ⟨s.objs, m⟩ (said e), ⟨s.objs, m⟩)
    | _, _ => (s.seen env .panic, s)
  | .save k order =>
    match s.objs[k]? with
    | some (.disk h) => s.saves env (h.writeBack order s.mem)
    | _ => (s.seen env .panic, s)

def run (s : Lib) : List LibCall → List LibSight
  | [] => []
  | c :: rest => (s.step env grow c).1 :: (s.step env grow c).2.run rest

end Lib

end Verif.Spec
