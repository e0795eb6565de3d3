import Verif.Model.Sched

/-!
# Model of the commands when reading and writing a file takes several system calls

In `Model/Sched.lean` a file is read in one call and written in one call.  Here, as in `io.ReadAll`, `os.ReadFile` and `os.File.Write`, a file
is opened and then read piece by piece until a read finds nothing more, and the contents are written piece by piece.  How many bytes a call
moves, at least one, is up to the system.  A command that dies is one that gets no more turns.
-/

set_option autoImplicit false

namespace Verif.Cmd

/-- A running program: what it still has to do, what its current reading or writing has moved so far (`none` if that has not begun), and its
own standard input and output. -/
structure Worker where
  prog : Prog Unit
  moved : Option Bytes
  stdin : Bytes
  stdout : Bytes

/-- `write` at an offset of a file: what lies there is replaced, and a gap before it filled with zeros. -/
def writeAt (file : Bytes) (off : Nat) (b : Bytes) : Bytes := file.take off ++ zeros (off - file.length) ++ b ++ file.drop (off + b.length)

/-- One system call, which moves at most `n + 1` bytes.

* Reading (disk/open.go:20,30, helpers/helpers.go:19,21: `os.Open`, `io.ReadAll`, `os.ReadFile`): first the file is opened, which is where a
  missing one is noticed; then each call appends the next bytes; one that gets none ends the reading.
* Writing (helpers/helpers.go:35 `os.WriteFile`): `trunc` opens the file, creating or truncating it; then each call writes the next bytes. -/
def Worker.step (fs : Str → Option Bytes) (p : Worker) (n : Nat) : (Str → Option Bytes) × Worker :=
  match p.prog with
  | .ret _ => (fs, p)
  | .stdin k => (fs, ⟨k p.stdin, none, [], p.stdout⟩)
  | .read q k =>
    match p.moved with
    | none =>
      match fs q with
      | none => (fs, ⟨k none, none, p.stdin, p.stdout⟩)
      | some _ => (fs, ⟨.read q k, some [], p.stdin, p.stdout⟩)
    | some got =>
      let piece := (((fs q).getD []).drop got.length).take (n + 1)
      if piece = [] then (fs, ⟨k (some got), none, p.stdin, p.stdout⟩)
      else (fs, ⟨.read q k, some (got ++ piece), p.stdin, p.stdout⟩)
  | .stat q k => (fs, ⟨k (fs q).isSome, none, p.stdin, p.stdout⟩)
  | .trunc q k => (fun r => if r = q then some [] else fs r, ⟨k, none, p.stdin, p.stdout⟩)
  | .write q b k =>
    let done := p.moved.getD []
    let piece := (b.drop done.length).take (n + 1)
    (fun r => if r = q then some (writeAt ((fs q).getD []) done.length piece) else fs r,
      if b.length ≤ (done ++ piece).length then ⟨k, none, p.stdin, p.stdout⟩
      else ⟨.write q b k, some (done ++ piece), p.stdin, p.stdout⟩)
  | .print b k => (fs, ⟨k, none, p.stdin, p.stdout ++ b⟩)

/-- The files and the programs that run. -/
structure Crew (ι : Type) where
  files : Str → Option Bytes
  workers : ι → Worker

/-- Program `i` makes a system call that moves at most `n + 1` bytes. -/
def Crew.step {ι : Type} [DecidableEq ι] (s : Crew ι) (t : ι × Nat) : Crew ι :=
  ⟨((s.workers t.1).step s.files t.2).1, fun j => if j = t.1 then ((s.workers t.1).step s.files t.2).2 else s.workers j⟩

/-- The programs make system calls in the order of the schedule. -/
def Crew.run {ι : Type} [DecidableEq ι] (s : Crew ι) (schedule : List (ι × Nat)) : Crew ι := schedule.foldl Crew.step s

/-- All commands have just been started. -/
def Crew.start {ι : Type} (env : Env) (fs : Str → Option Bytes) (cmds : ι → Command) (stdin : ι → Bytes) : Crew ι :=
  ⟨fs, fun i => ⟨program env (cmds i), none, stdin i, []⟩⟩

end Verif.Cmd
