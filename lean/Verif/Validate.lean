import Verif.Model.Cmd

/-!
# The model run on the disk images of the repository

Not proofs: a program that repeats, with the definitions of the model, the tests of the repository that read disk images, and some commands on the
images in /repo/data/disks.  Nothing depends on it.  To run it:

    cd /verif/lean && lake env lean --run Verif/Validate.lean /repo
-/

set_option autoImplicit false

namespace Verif.Validate
open Verif.Cmd

/-- An environment for running commands: maps are visited in the order of their list. -/
def env : Env := ⟨100000, ⟨id, fun _ => List.Perm.refl _⟩⟩

/-- One check and its result. -/
structure Check where
  name : String
  passed : Bool

/-- The command ends with success and prints the given text. -/
def prints (c : Command) (w : World) (text : Bytes) : Bool := (run env c w).1 == .ok () && (run env c w).2.stdout == text

/-- Lines of text. -/
def lines (l : List String) : Bytes := l.flatMap fun s => str s ++ [0x0A]

/-- A world in which one file exists. -/
def only (name : String) (b : Bytes) : World := ⟨fun q => if q = str name then some b else none, [], []⟩

/-- supermon/supermon_test.go:21-28 `hamlet` -/
def hamlet : String := "To be, or not to be, that is the question:\nWhether 'tis Nobler in the mind to suffer\nThe Slings and Arrows of outrageous Fortune,\n" ++
  "Or to take Arms against a Sea of troubles,\nAnd by opposing end them: to die, to sleep\nNo more; and by a sleep, to say we end\n\n"

/-- The names on the DOS 3.3 master disk, in the order of the catalog (dos3/dos3_test.go:98-116). -/
def master : List String := ["HELLO", "APPLESOFT", "LOADER.OBJ0", "FPBASIC", "INTBASIC", "MASTER", "MASTER CREATE", "COPY", "COPY.OBJ0", "COPYA", "CHAIN",
  "RENUMBER", "FILEM", "FID", "CONVERT13", "MUFFIN", "START13", "BOOT13", "SLOT#"]

/-- dos3/dos3_test.go:86-166 `TestReadCatalog`, on testdata/dos33test.dsk -/
def readCatalog (img : Bytes) : Check :=
  ⟨"dos3 TestReadCatalog", match Dos3.readCatalog img with
    | .ok (fds, deleted) => fds.map (·.filenameString) == (master ++ ["EXAMPLE", "EXAMPLE2", "EXAMPLE3"]).map str &&
        deleted.map (·.filenameString) == ["EXAMPLE4", "EXAMPLE5"].map str &&
        fds.map (fun fd => (fd.descriptor.locked, fd.descriptor.sectors)) == [(true, 3), (true, 3), (true, 6), (true, 42), (true, 42), (true, 3), (true, 9),
          (true, 9), (true, 3), (true, 9), (true, 3), (true, 14), (true, 3), (true, 20), (true, 3), (true, 27), (true, 3), (true, 7), (true, 4),
          (false, 3), (false, 2), (false, 2)]
    | _ => false⟩

/-- The files of supermon/testdata/chacha20.dsk (supermon/supermon_test.go:60-75): names and numbers of sectors. -/
def chacha : List (String × Nat) := [("FHELLO", 0x02), ("FSUPERMON", 0x17), ("FSYMTBL1", 0x10), ("FSYMTBL2", 0x10), ("FMONHELP", 0x1E), ("FSHORTSUP", 0x08),
  ("FSHRTHELP", 0x1F), ("FSHORT", 0x04), ("FCHACHA", 0x60), ("FTOBE", 0x01)]

/-- supermon/supermon_test.go:48-131, 189-212: `TestReadSectorMap`, `TestReadSymbolTable`, `TestReadWriteSymbolTable` -/
def supermon (raw : Bytes) : List Check :=
  match Disk.swizzle raw Disk.dos33LogicalToPhysical with
  | .ok sd =>
    match Supermon.loadSectorMap sd with
    | .ok sm =>
      let st := Supermon.readSymbolTable sm sd
      [⟨"supermon TestReadSectorMap", Supermon.verify sm == .ok () &&
          (List.range 10).map (fun i => (Supermon.sectorsByFile sm (UInt8.ofNat (i + 1))).length) == chacha.map (·.2)⟩,
        ⟨"supermon TestReadSymbolTable", match st with
          | .ok t => (List.range 10).map (fun i => ((Supermon.symbolsByAddress t).get? (UInt16.ofNat (0xDF01 + i))).map fun l => l.map (·.name)) ==
              chacha.map fun x => some [str x.1]
          | _ => false⟩,
        ⟨"supermon TestReadWriteSymbolTable", match st with
          | .ok t =>
            let r := Supermon.writeSymbolTable sm sd t
            r.1 == .ok () && Supermon.readSymbolTable r.2.1 r.2.2 == .ok t
          | _ => false⟩]
    | _ => [⟨"supermon: sector map", false⟩]
  | _ => [⟨"supermon: swizzle", false⟩]

/-- Commands on the images. -/
def commands (cha super master' prodos users lodeDsk lodePo sam blank : Bytes) : List Check :=
  let ls (name : String) : Command := .ls (str "auto") (str "auto") false (str name) []
  let put : Command := .put (str "auto") (str "auto") (str "B") false 0 (str "c.dsk") (str "FNEWFILE") (str "in")
  let src : Bytes := str "It was the best of times, it was the worst of times" ++ List.replicate 560 0x20
  let w : World := ⟨fun q => if q = str "c.dsk" then some cha else if q = str "in" then some src else none, [], []⟩
  let w1 := (run env put w).2
  let w2 := (run env (.rm (str "auto") (str "auto") false (str "c.dsk") (str "FNEWFILE")) w1).2
  let listing : List String := (chacha.zip ["1", "2", "3", "4", "5", "6", "7", "8", "9", "A"]).map fun x => "DF0" ++ x.2 ++ ":" ++ x.1.1
  [⟨"ls chacha20.dsk", prints (ls "c.dsk") (only "c.dsk" cha) (lines listing)⟩,
    ⟨"supermon TestGetFile", prints (.dump (str "auto") (str "auto") (str "c.dsk") (str "FTOBE")) (only "c.dsk" cha) (str hamlet)⟩,
    ⟨"supermon TestPutFile", (run env put w).1 == .ok () &&
      prints (ls "c.dsk") w1 (lines (listing ++ ["DF0B:FNEWFILE"]))⟩,
    ⟨"dump what was put", prints (.dump (str "auto") (str "auto") (str "c.dsk") (str "FNEWFILE")) w1 (src ++ List.replicate (768 - src.length) 0)⟩,
    ⟨"rm what was put", prints (ls "c.dsk") w2 (lines listing)⟩,
    ⟨"ls Super-Mon-2.0.dsk", prints (ls "s.dsk") (only "s.dsk" super) (lines (listing.take 8))⟩,
    ⟨"ls dos33master.dsk", prints (ls "m.dsk") (only "m.dsk" master') (lines master)⟩,
    ⟨"ls ProDOS_2_4_2.po", prints (ls "p.po") (only "p.po" prodos) (lines ["VIEW.README", "BITSY.BOOT", "QUIT.SYSTEM", "BASIC.SYSTEM", "COPYIIPLUS.8.4",
      "CAT.DOCTOR", "ADTPRO2.0.2", "FASTDSK.SYSTEM", "UNSHRINK", "BLOCKWARDEN", "MR.FIXIT.Y2K", "MAKE.SMALL.P8", "MINIBAS", "ADTPRO2.0.2.BIN", "CD.EXT",
      "FASTDSK", "FASTDSK.CONF", "README", "PRODOS"])⟩,
    ⟨"ls prodos-users-disk.dsk", prints (ls "u.dsk") (only "u.dsk" users) (lines ["PRODOS", "BASIC.SYSTEM", "FILER", "CONVERT", "STARTUP", "MOIRE", "HYPNOSIS",
      "ANIMALS", "SUB1"])⟩,
    ⟨"ls sam-hardware-ver.po", prints (ls "h.po") (only "h.po" sam) (lines ["INIT", "SAM", "RECITER", "SPEECHES", "GUESSNUM", "SAYIT", "DEMO"])⟩,
    ⟨"blank.dsk is no known disk", (run env (ls "b.dsk") (only "b.dsk" blank)).1 == .err .other⟩,
    -- this one is in DOS order in spite of its name
    ⟨"ls lode-runner-disk-1.po", prints (ls "l.po") (only "l.po" lodePo) (lines ["LODE RUNNER", "HELLO"])⟩,
    ⟨"ls lode-runner-disk-1.dsk, reordered", prints (ls "l.po")
      (run env (.reorder (str "auto") (str "auto") false (str "l.dsk") (str "l.po")) (only "l.dsk" lodeDsk)).2 (lines ["LODE RUNNER", "HELLO"])⟩]

/-- Read the images and report. -/
def validate (repo : String) : IO UInt32 := do
  let file (p : String) : IO Bytes := do return (← IO.FS.readBinFile (repo ++ p)).toList
  let dos ← file "/dos3/testdata/dos33test.dsk"
  let cha ← file "/supermon/testdata/chacha20.dsk"
  let checks := readCatalog dos :: supermon cha ++
    commands cha (← file "/data/disks/Super-Mon-2.0.dsk") (← file "/data/disks/dos33master.dsk") (← file "/data/disks/ProDOS_2_4_2.po")
      (← file "/data/disks/prodos-users-disk.dsk") (← file "/data/disks/lode-runner-disk-1.dsk") (← file "/data/disks/lode-runner-disk-1.po")
      (← file "/data/disks/sam-hardware-ver.po") (← file "/data/disks/blank.dsk")
  for c in checks do
    IO.println ((if c.passed then "pass  " else "FAIL  ") ++ c.name)
  return if checks.all (·.passed) then 0 else 1

end Verif.Validate

def main (args : List String) : IO UInt32 := Verif.Validate.validate (args.headD "/repo")
