# Formal model of zellyn/diskii in Lean 4 - design

diskii is a command line tool for Apple II floppy images: it lists, extracts, adds and removes
files on DOS 3.3, NakedOS/Super-Mon and ProDOS disks, converts between sector orders, builds
bootable "Standard Delivery" disks and lists BASIC programs. The model covers all packages the
program is made of, function by function, up to the boundary named in "Not modelled".

## Trusted base

* Lean 4.33.0's kernel.
* Axioms: every theorem named in MANIFEST.json depends on a subset of `propext`,
  `Classical.choice` and `Quot.sound` (checked with `#print axioms` on all of them; about one
  in seven needs no choice). No axioms of our own, no `sorry`/`admit`, no `native_decide`, `bv_decide`,
  `implemented_by` or `unsafe`. `decide +kernel` is used where a finite table is checked as a whole
  (for example all 256 values of a byte, the token tables, the table of file types); the kernel
  evaluates these.
* The hand translation from Go to Lean (the code was read as text, never run). Every definition in
  `lean/Verif/Model` cites the file and lines it models; simplifications are stated there and
  summarised below.
* The specifications in `lean/Verif/Spec/*.lean`: small, independent of the model's helpers, meant
  to be read. They state facts of the disk formats in terms of bytes of the image. For C76 they include
  `Spec/Apple2.lean`: the 6502 instructions the loader uses, the stepper motor, and contracts for the
  boot ROM's read routine ($Cn5C) and the monitor's WAIT ($FCA8). For C97 they include
  `Spec/Hello.lean`: a contract for calling NakedOS ($0340) to read a file.

## How Go is modelled

| Go | Model |
|---|---|
| `byte`, `uint16`, `int` | `UInt8`, `UInt16` with wrap-around; `Int`, or `Nat` where the code computes in `int` and cannot go negative |
| `[]byte`, `string` | `List UInt8` (strings are byte strings) |
| `[n]byte` | `Vector UInt8 n` |
| error return | `Out.err e`, where `e` carries its class (out of space / exists / not found / other), not its text |
| run-time panic | `Out.panic` |
| a loop that may not end, recursion that may overflow the stack | fuel-indexed function that returns `Out.timeout`; "diverges" = times out for every fuel, "terminates" = from some fuel on the result is not a timeout |
| mutation through slices and pointers | functions return the new image, map or table in *every* outcome, also on error, so partial mutation is visible; that this is what happens over slices that share arrays is proved for NakedOS and DOS 3.3 disks (C113, `Model/Heap.lean`, `Model/HeapDos3.lean`) and for opening images (C114, `Model/HeapOpen.lean`), and read off the code for the ProDOS operator, which only reads |
| capacity of a slice | modelled only where behaviour depends on it (`WriteFile`'s `contents[i*256:(i+1)*256]`, `GetFile`'s `data[2:length+2]`) |
| map | association list without duplicate keys (`GoMap`) |
| map iteration | an arbitrary permutation of the entries (`RangeOrder`), universally quantified |
| `strings.ToUpper`, `ToLower`, `EqualFold` | ASCII only in most of the model; `Model/Unicode.lean` has them on all strings, and C111 says for which names this is the same |
| file system | a function from path to optional contents, plus standard input and output (`World`) |
| crash during `os.WriteFile` | the file may be left with any prefix of the new contents (`CrashState`), other files unchanged |

## Layout

* `Verif/Go` - bytes, slices, the outcome monad, maps, serialisation, generic lemmas.
* `Verif/Model` - the model: `Disk` (disk/disk.go, disk/marshal.go, Swizzle), `Open` (disk/open.go),
  `Helpers`, `Reorder`, `Types`, `Filetype`, `Errors`, `Flags`, `Dos3`, `Supermon`, `Prodos`, `Basic`
  (basic, applesoft, integer), `Cmd` (all commands and main.go's dispatch), `Heap`, `HeapDos3`,
  `HeapOpen` (the operators and the opening of images once more, over slices in memory).
* `Verif/Spec` - specifications that do not use model helpers.
* `Verif/Proofs` - lemmas.
* `Verif/Props` - the property theorems, named `Cnn_...`. `*Wit` files hold concrete disks that meet
  the hypotheses, and concrete counterexamples.

A theorem called `Cnn_..._partial` proves part of property Cnn; `Cnn_violated...` proves the negation of
(a clause of) the property for a concrete, reachable input, that is, it demonstrates a bug. MANIFEST.json says
for every partial property what is missing.

## Per property: what is modelled and how it is proved

Disk layer (`disk/*.go`, `cmd/reorder.go`, `helpers`)

* C01, C02 sector read/write laws: `ReadSector`/`WriteSector` with explicit offsets on lists; list algebra.
* C03, C05 Swizzle: both loops; the spec is "sector order[s] of the result is sector s of the input", and success iff 143360 bytes and a permutation.
* C04 named orders: inverse of each other, and equal to the interleave of the disk format given by a formula.
* C06 open/WriteBack identity for every factory that keeps the bytes it is given, and so for the three registered systems (`C06_systems`); C07, C08 the choice of order and system, against an independent spec of the candidate list.
* C09, C10 reorder, also end to end as a command, and the place every sector goes to.

DOS 3.3 (`dos3/dos3.go`)

* C11, C12 round trips of all sector structures in both directions; `Props/Layout.lean` writes each structure out as the sequence of its fields, so that two fields cannot change places. C13, C14 bitmap and VTOC validation.
* C15 the catalog is a filter over the chain, specified as an inductive relation. C16 false of the code: divergence witness, and termination for every chain that ends.
* C17 Contents always terminates: pigeonhole on the visited set. C18, C19 contents against a specification independent of the loops; false for all-hole lists, all-zero texts and over-long lengths: witness and exact behaviour. C20 names and look-up.

NakedOS / Super-Mon (`supermon/supermon.go`)

* C21-C29 the sector map as 560 owners; invariants by induction over the write loop and over operation histories; refinement to a map from file number to contents.
* C30 the symbol codec; C31-C33 the symbol table (hash chains): C33 is violated, so proved for safe deletions. C68 symbols by address.
* C34, C35, C36, C38, C39 names, put/get, catalog, compound names; C35, C37 (empty data panics), C38 (inverted condition) violated.

ProDOS (`prodos/prodos.go`)

* C40 round trips of all block structures and their layouts as sequences of fields (`Props/Layout.lean`); C41-C45 bitmap and index block (C42, C43, C45 violated); C49 block I/O.
* C46-C48 directory reading: the tree is specified by inductive relations on the image (`DirBlocks`, `Subdir`, `FullPath`); C47 violated by three kinds of loops, proved otherwise by a weight argument; the exact condition is stated by following the queue of directories (`ToRead`) and the parent pointers (`Up`) of the image (`Spec/Endless.lean`, `Props/Endless.lean`); C48 every iteration order of the map.
* C69 Validate in terms of the block's bytes (violated: minute and hour swapped). C70 recognition. Exactly when it says yes, says no and may never answer: `Props/Answers.lean`.

BASIC (`basic/**`)

* C50, C52 decoders against an independent encoder (exactly which programs without a length decode: `C50_exact`, `C52_exact`); C51, C53 termination and exact crash conditions (violated). C54 escaping; C55, C66 listings against an independent layout of the program's lines (exactly which programs are listed as typed: `C55_exact`, `C66_exact`).

Commands and the rest (`cmd`, `helpers`, `types`, `errors`, `main.go`)

* C56, C57 mksd; C58-C60 effects on files and crash points; C61 mkhello; C63 put and reopen; C67 refused writes; C71-C75 ls, dump, rm, put, decode end to end, from bytes of the image file to bytes of the image file or of standard output.
* C76 mksd's boot loader is run on a small model of the 6502, of the drive's stepper motor and of the two ROM routines it calls (`Spec/Apple2`); induction over the page table. False for pages 0 and 8.
* C77 Induction over the list of commands, with `Spec.HasFiles` (the files on the image as bytes) as invariant; one step from C59, C61, C63 and C73. Between commands everything but the image file may change.
* C78 From the closed forms of `WriteFile` (C25) and the round trip of write back and open.
* C79 Every command reads and then makes at most one call of `WriteOutput` (`Staged`, for two worlds at once, so that it also gives the dependence on named files); other programs' work is an arbitrary function on the file system applied right before that call. Two puts on one image: false.
* C80 Every function that can panic (slice bounds, index out of range) is modelled with that outcome; freedom from it is proved function by function and composed over the command; for `dump` and `put` the exact condition (`Props/PutEmpty.lean`). Recursion that exhausts Go's stack is counted with the endless loops.
* C81 Two runs of a command, on two images related by `SameDisk` (equal sectors wherever the interleaves of the two orders agree), are compared step by step: opening gives the same operator, so the same outcome and text, and writing back restores the relation. Sessions by induction.
* C82 The crash states of C60 composed with every later command: whatever was cut short has not 143360 bytes, and every command refuses such a file unless its extension is `.hdv`.
* C83 Induction over the list of commands as in C77, with `Spec.Knows` (the symbol table is in order and its symbols stand for these files) as a second invariant. The table in order is kept by adding and deleting because hash chains are lists without branches (`Proofs/Tidy.lean`); between commands it is written to and read from files 3 and 4 (C31, C32).
* C84 C07 for the program's own three systems: what each recognition test accepts is C15/C16 (DOS 3.3), the legal map (NakedOS) and C70 (ProDOS), so that the first pair accepted is the first disk in `Spec.attempts` that the image carries.
* C85. Spec/Space.lean counts sectors: `capacity` (not reserved), `usedByOthers` (files of C77's map), `HasSpace`. `Keep` (what an operation leaves alone) now includes the reserved sectors; induction over sessions gives C85_no_loss; C78 and a count of all 560 sectors by owner give C85_fits; C83 gives C85_session.
* C86. Proofs/Same.lean relates runs with different budgets (`Upto`) and different map orders (`Same`) for every loop that has a budget, up through recognising and opening a disk; Props/Same.lean does it for all commands. `C86_more_time`: a command that ends gives the same with any larger budget. `C86_same_result_partial`, `C86_other_commands`: two runs that end agree in outcome, output and files whatever the map orders. Violations in Props/SameWit.lean. For the catalog of one ProDOS volume the condition is exact (`Spec/Paths.lean`, `Props/Orders.lean`): every subdirectory whose parent pointers reach the volume directory has one path (`PathOf`, unlike `FullPath` it says which directory a shared block belongs to), `C46_exact` says which listings some order gives, `C48_exact` when there are two, and `C86_catalog_exact` when the outcome depends on the order at all. The orders that show this visit one entry first, or last.
* C87. Every command ends. `Spec/Ends.lean` says when the files of a command contain no circle. For each command, every step is shown not to run out of budget once the budget exceeds a bound that depends only on the files; the bound for volumes comes from C47/C70, for programs from the number of lines. Witnesses in `Props/EndsWit.lean` show that each of the three kinds of circle makes a command run for ever. For `decode` the condition is exact (`Spec/Lines.lean`, `Props/Lines.lean`): following the line addresses there is a line at each of them for ever, or there are `k` lines and then none; what happens there decides between a listing, an error and a crash. `Spec/Hang.lean` and `Props/Forever.lean` do the same for all commands: `C87_exact` is an equivalence, with the exact condition of C47 for ProDOS volumes, the one of C16 for DOS catalogs, and the order in which systems are tried (`C84_endless`, `C84_opens_exact`, `C84_refused_exact` in `Props/Hang.lean`).
* C88. `Model/Faults.lean` runs the commands with a fate for every write: each write to standard output may fail after any number of bytes, the output file may be refused or cut off. Shown command by command that the run is the faultless one or returns an error; `ls`, `decode` and `filetypes` drop these errors, which is proved as `C88_violated`. `exitStatus` models `main`.
* C89. From the same model: the files left by a run with faults are those of a crash state of C60, so its case distinction applies; with C88 the exit status is 1 when the file is incomplete. `C89_violated`: a full disk empties the image.
* C90. `Proofs/Settled.lean`: a write leaves the sectors of its file before every free sector (`Settled`); rewriting the symbol table keeps that, because its two files do not change size; and writing a settled file again with the same contents gives the same map and the same bytes. The commands are related to this by C63's inversion of `put`; the name resolves to the same file by C83.
* C91. `Props/PutAny.lean`, for every disk: a table can be written exactly if all its names can be stored (`Storable`; there is always room, since a table that was read occupies 16 sectors in either half and sums are conserved); adding a storable symbol keeps a table as storable as it was; the meaning of a name (`PutMeans`) is C39 with C34. `Props/PutIff.lean`, for tables in order: an equivalence. From success: inversion of `put` gives the write's outcome (C25) and the outcome of adding the symbol, which succeeds exactly if there is a place for it (`PlaceFor`). The other direction is C83's success theorem with the same condition. `Props/PutEmpty.lean`: contents without bytes.
* C92. `Props/Copy.lean`: a file dumped from a NakedOS disk is a whole number of sectors (C72 and the length of a file), so the padding that `put` adds is empty, and the dump after `put` is C63 (numbers) and C83 (symbols).
* C61, C70, C72, C73, C75, C92, C93, what fails: `Props/MoreWit.lean`, one disk or program each, from the witnesses of C63, C47, C80, C55 and C99.
* C93. `Spec/Undo.lean` (equal up to free sectors), `Props/Undo.lean`: for numbers the map after write and delete is the map before (the sectors taken were free, and are given back), and the bytes written are those of the sectors taken and of the map; what `ls` and `dump` print depends on nothing else (`same_reading`). For symbols: two steps of C83, whose changes cancel.
* C94. `Props/PutAny.lean`, for every disk, in the same way: after deleting the first entry with the name, the table can be written exactly if the other names can be stored. `Props/RmIff.lean`: equivalences from C73 (failure) and C29, C83 (success); deleting a file without sectors leaves map and image as they are, because storing a loaded map changes nothing (C21).
* C95. `Spec/Damage.lean` (which sectors have to do with which file), `Props/Damage.lean`: reading a chain from two images that agree on the sectors linked from its start gives the same sectors, by induction on the fuel; then lists, contents, catalog. NakedOS: files are the sectors of their owner (C13).
* C96. `Spec/Bulk.lean`, `Props/Bulk.lean`: induction over the session with C85 (what fits) and C77 (what is there); needs and files do not depend on the order of the list.
* C97. `Spec/Hello.lean` (what an Apple II running NakedOS does with the code, a contract for the call), `Props/Hello.lean`: symbolic execution of the program from an arbitrary state, with C61 for the bytes on the disk.
* C98. `Model/Sched.lean` (commands as trees of system calls, schedules), `Spec/Sched.lean`, `Proofs/Sched.lean` (the tree run alone equals `run`; which files it can touch), `Props/Sched.lean`: invariant by induction over the schedule that every program is where it would be alone after as many calls. `Model/Fine.lean` and `Props/Fine.lean` say the same when files are read and written piece by piece.
* C99. `Spec/ListNames.lean` (`Unmistakable`), `Props/ListNames.lean`: combines the exact output of `ls` (C71) with name resolution (C34) and `dump` (C72); no symbol decoded from a disk holds a colon, so full names never resolve. `Props/ListExact.lean`: exactly which lines can be given to `dump`.
* C100. `Props/Backup.lean`: `AllDumped` (all that `dump` gets), then C96 (many puts) with the sum of the dumped sizes shown equal to the space used on the first disk.
* C101. `Spec/Pipe.lean` (`piped`: the command with `-` for a file; `LikeTheFile`: what the two runs have in common) and `Props/Pipe.lean`: by cases over the commands, with one lemma for each of opening, reading, printing and writing.
* C102. `Model/Fine.lean` (reading and writing in pieces of any size), `Spec/Fine.lean`, `Proofs/Fine.lean`, `Proofs/Mixed.lean` (phases of the writer; every command reads a file that is not its target at most once; what a reader has got so far), `Props/Mixed.lean`: invariant by induction over the schedule, with a ghost file system for each reader in which the contents of the shared file are chosen when its reading ends.
* C103. `Spec/Fate.lean` (when taking out an entry spoils the table), `Proofs/Fate.lean` (what a table read from a disk is like; when the table is readable after one entry has changed), `Props/Fate.lean`: exact equations for put, mkhello and rm.
* C104. `Spec/Filetypes.lean` (a text at a column, followed by a space), `Props/Filetypes.lean`: a cell is shorter than its column, since the column is as wide as the longest cell and one more.
* C105. `Spec/Life.lean` (the addresses of each name; what a put and an rm make of them), `Props/Life.lean`: induction over the session, with the equations of C103 for one command; a disk and two commands in `Props/LifeWit.lean`.
* C106. `Spec/Live.lean` (the state after n system calls of an endless schedule; keeping to get turns), `Props/Live.lean`: each program is a tree without infinite branches, so it changes its place only finitely often; the writers move forward in their file with every call, so after some time nobody writes; then the files stay the same and a reader comes to the end of its file.
* C107. `Spec/Meddle.lean` (a program run against given states of the files; what may be believed of a file by looking at it), `Props/Meddle.lean`: every command looks at each of its files once, and not after it has begun to write; by induction on the tree of its system calls the files seen make up a file system on which it does the same alone.
* C108. `Model/Cli.lean` (the values that the `enum` and `default` tags of the commands' fields declare), `Props/Declared.lean`: an image opened with any options opens alike when the order and system found are named, so every command runs alike; with C84 for when NakedOS is found. By this the theorems about commands told `nakedos` (which dump, rm and put do not accept) are about accepted commands. Counterexample: a file put in track 17 sector 0.
* C109. `Spec/SdSafe.lean`, `Props/SdSafe.lean`: only a disk opened as NakedOS is written to; sectors 9, A and B of track 0 hold pages of the binary (C56), which ones depends on the orders the disk is made in and taken to be in; C59 for what failing commands leave. Also C57_command: when `mksd` succeeds. Counterexample: 13 pages of FF with twelve bytes FE.
* C110. `Props/Keep.lean`: dump prints the padded file (C63); appending to a file that decodes changes nothing as long as the header test says no before and after; with the length in front and two or more bytes appended the length is taken for the address of the second line, which is below the program. Integer BASIC: the padding is a line of length 0 (C53).
* C111. `Props/Unicode.lean`, `Props/UnicodePut.lean`, `Props/UnicodeExt.lean`: UTF-8 decoding, `ToUpper`, `ToLower` and `EqualFold` modelled on bytes with Unicode's tables as a parameter; every symbol read from a disk is capitals and digits, so only the characters that the tables map to ASCII matter; the functions of `supermon` and `disk` that use them, written again over these, are equal to those of the rest of the model. For `put`, which stores names too, they are equal for every name to a version without tables (`threeLetters` in the specification).
* C112. `Props/OneLine.lean`: the newlines of a listing are counted; symbols read from a NakedOS disk are capitals and digits (C111), so a line has none; for DOS 3.3 and ProDOS the count is the number of files if and only if no name adds to it, and two DOS 3.3 disks with the same listing are built.
* C113. `Model/Heap.lean` has slices as places in arrays that can be shared, and the code for NakedOS disks over them; `Spec/Values.lean` says what a program sees over slices and over values; a simulation (`Agree`) shows every call keeps the slices of the program, the disk and the sector map in different arrays, and that the memory changes only there. This also justifies the lists of the rest of the model of NakedOS disks: every function over slices is shown to be the function over lists. `Model/HeapDos3.lean`, `Spec/ValuesDos3.lean` and `Props/ValuesDos3.lean` do the same for DOS 3.3, where `GetFile` cuts its result out of one larger array, spare capacity included.
* C114. `Model/HeapOpen.lean` has the opening of images (all of disk/open.go) over slices in memory, on top of the operators of C113, with ProDOS as the third; `Spec/Library.lean` says what a program sees, over values and over memory; the invariant (`Match`) is that all disks and slices of the program are in different arrays.
* C115. The bound on rounds that stands for time in the model (`Env.budget`, the `n` of `readVolume` and `decode`) is here what the theorems are about: `Spec/Steps.lean` says when directories form a tree; exact numbers of rounds by counting the queue of `readVolume` (`ToRead` of C47), bounds by the pigeonhole principle on blocks, addresses of program lines and parents; the commands by cases. The witness is a tower of 254 directories, each listing the next one twice, and counting its queue is an induction over the levels.
* C116. No new model: the results of `putFile`, `delete`, `writeFile` and `writeBitMap` carry the operator, map and image after the call also when it fails. By cases on where the call fails, with the characterisations of success of C94 (`putFile_iff`, `delete_iff`). The witness is a disk whose symbol table, assembled byte by byte, has a name of one letter: such a name is read but cannot be written.
* C117. The model gives every error its kind (`ErrKind`), following the constructors in errors/errors.go and the `%v` wrappings. `AsksToPut` in `Spec/Kinds.lean` says what a put asks for. By cases, following the calls through (the write itself as for C25); DOS 3.3 by going through all its errors.
* C90, C92, C93 on any table: `Props/AnyTable.lean` (`C90_exact`, `C92_exact`, `C93_exact`), from the equations of C103 and the file after a put (C83); one put that keeps and one that spoils a table in `Props/AnyTableWit.lean`.
* C33 exactly: `Spec/Chains.lean` (histories in memory), `Props/Chains.lean` (`C33_exact`): induction over the history with the one-step equivalences of C103.
* C62 the table of file types; C64 error kinds; C65 number flags against a grammar of Go literals.

## Where code and properties disagree

Each of these is a theorem.

1. `readCatalogSectors` never writes its `seen` map: a looping catalog chain is read forever (`C16_violated`). `Contents` does it right (C17).
2. DOS `GetFile`: a text file of zero bytes panics; a last track/sector list of holes yields 122 zero sectors; a stored length beyond the data pads with zeros up to the slice's capacity, or panics (`C18_violated`, `C19_violated`).
3. `FreeSectorMap.IsFree`'s comment says sectors above 15 are free; the code says they are not (`C13_out_of_range`).
4. NakedOS `WriteFile` of empty contents panics (`C37_violated_*`).
5. Symbol names with unrepresentable characters are silently shortened (`C30_violated`).
6. `DeleteSymbol` moves chain tails without regard to links: the table can become unreadable (`C33_violated`); one `put` can do this to a disk (`C63_violated`).
7. `put DF03:FOO` stores the data in a file that the symbol table then overwrites (`C35_violated`). This happens exactly for the two files that hold the table: every other put is read back (`C35_dichotomy`). In the same way `rm` by a symbol that stands for one of them leaves the file there (`C73_violated_table`).
8. `ParseCompoundSymbol` has an inverted condition (`C38_violated`).
9. `NewVolumeBitMap` overflows 16 bits above 61440 blocks (`C42_violated`); `readVolumeBitMap` divides by 4096 twice (`C43_violated`); `IndexBlock.Set` has a value receiver and no effect (`C45_violated`).
10. ProDOS directories that loop are read forever, in three ways (`C47_violated_chain`, `_self`, `_parent`).
11. Applesoft `Decode` panics or loops on malformed link addresses, and mistakes some programs without length header for ones with header (`C50_violated*`, `C51_violated_*`); Integer BASIC likewise (`C52_violated`, `C53_violated`).
12. Applesoft token table: `^` is listed as `;`, `TAB(` without parenthesis, `DEF` as `DEF FN`, extra blanks (`C55_violated_keywords`). Integer BASIC: token $79 listed as DSP, digits in strings rendered as numbers (`C66_violated_*`).
13. mksd's guard adds the length to the start address instead of the load address (`C57_violated`).
14. Image files are not written atomically (`C60_violated`).
15. File types: the empty name resolves, type $F9 has no name, NewA/NewB's advertised letters resolve to others (`C62_violated_*`).
16. A put whose data land in track 17 sector 0 can make the disk be recognised as DOS 3.3 (`C63_violated_auto`).
17. ProDOS `DateTime.Validate` takes the minute for the hour (`C69_violated_*`). The program never calls `Validate`.
18. `rm --missingok` of an unknown symbolic name is an error (`C73_unknown_name`).
19. `Swizzle`'s comment promises that a nil order leaves the image alone; it is an error (`C05_nil_order_is_an_error`).
20. A blank disk is recognised as ProDOS (`C70_blank`).
21. mksd accepts binaries for page 0, which its loader skips, and for page 8, where they overwrite the loader while it runs (`C76_violated_page_zero`, `C76_violated_page_eight`); likewise for pages 1 and 3, which the ROM uses.
22. Commands take no lock: of two puts that run at the same time on one image both report success and one file is lost (`C79_violated_lost_update`).
23. An image called `.hdv` that a crash cut short at a whole number of blocks is accepted: after a reorder of a blank disk dies at 2048 bytes, `ls` lists the rest as an empty disk (`C82_violated_hdv`).
24. A disk whose DOS catalog goes round in a circle makes every command that opens it hang, also if it is a good NakedOS or ProDOS disk (`C84_hangs`, `C84_violated`).
25. What `ls` of a ProDOS subdirectory prints depends on Go's map order if two subdirectories have the same path, and on a volume with a looping parent pointer and a dangling one the map order decides between an error and a stack overflow (`C86_violated_twins`, `C86_violated_ends`).
26. `ls`, `applesoft decode` and `filetypes` exit with status 0 even if none of their output could be written (`C88_violated`).
27. A write that fails, for example because the disk is full, leaves a truncated image in place of the old one (`C89_violated`).
28. After `put` under the symbol of the table's first entry the same `put` fails, because the first one has destroyed the table (`C90_violated`, same cause as C83).
29. `mkhello` does not look whether the file it is to load is there (cmd/nakedos.go:74-83); it makes an FHELLO that loads nothing (`C97_missing_file`).
30. The check that keeps `reorder` from overwriting a file is made before the file is created, not by creating it (helpers/helpers.go:29-35): two commands that run at the same time can both pass it (`C98_shared_target_race`). Rewriting an image first empties it, and readers can see that (`C98_shared_reader_race`).
31. `ls` prints NakedOS files that have symbols as `DF05:GAME` (supermon/supermon.go:518-526), but `dump` and `rm` look names up with FileForName (supermon/supermon.go:545-560), which never accepts a colon: the lines of the default listing are not names (`C99_violated_full_names`). Short names that read like numbers lead to another file (`C99_violated_short_names`).
32. Images are rewritten in place, without a lock and without a temporary file (helpers/helpers.go:35): a command that reads one at that time can take the beginning from the old image and the rest from the new one, and succeed (`C102_violated`).
33. `rm` removes the file with the number it is given, and also the symbol of the same spelling, which may belong to another file (supermon/supermon.go:723-742): on a disk with the symbol DFAB for file 3, `put` and `rm` of file 0xAB as DFAB leave a disk without the symbol (`C93_violated`).
34. `dump`, `put` and `rm` offer only `auto` and `dos3` for `--system` (cmd/dump.go, cmd/put.go, cmd/delete.go), and `auto` prefers DOS 3.3: a NakedOS disk that also passes for DOS 3.3 can be listed, but its files cannot be reached any more (`C108_violated`).
35. A Standard Delivery disk can pass for a NakedOS disk, and `put` without options then writes over the program on it (`C109_violated`).
36. A BASIC program saved with its length is not recognised after it was kept on a NakedOS disk, because the copy is padded to whole sectors and the length is compared exactly (`C110_violated`).
37. Names are compared with Unicode's case folding (supermon/supermon.go:440-551) but stored as capitals of `strings.ToUpper`: the Kelvin sign is taken for a K (`C111_violated`), and a file put under a name with a dotless i is stored under I, where looking for the name given does not find it (`C111_violated_put`).
38. `ls` prints the names of DOS 3.3 and ProDOS files as they are on the disk (cmd/catalog.go:51-57), control characters included: a name with a newline within looks like two files (`C112_violated`).
39. `OpenImage` copies floppy images, but hands a `.hdv` image to the ProDOS operator as the slice it was given (disk/open.go, openHDV): a program that goes on using the slice writes into the open disk (`C114_violated_hdv`).
40. `readVolume` (prodos/prodos.go:715-732) puts a subdirectory on its queue for every entry that leads to it, whether it has been read or not: on a floppy image of 254 directories that each list the next one twice, `ls` takes more than 2^253 rounds (`C115_violated_ls`).
41. `PutFile` and `Delete` (supermon/supermon.go) change the map and the image before they write the symbol table; if that fails (a symbol that cannot be encoded, such as one of fewer than three letters, or no free entry) they return an error with the file already stored or removed (`C116_violated_put`, `C116_violated_delete`). `WriteFile` with the numbers 0, FE and FF fails after having freed the sectors with this number in the map in memory and written over a sector of the image (`C116_violated_write_file`).
42. `GetFile` (supermon/supermon.go:701-703) reports a numbered file that is not there with an ordinary error, while an unknown symbol is reported as file-not-found (`C117_violated_get`); the DOS 3.3 operator never uses the kinds (`C117_dos_exact`).

Not theorems but noticed: `ls` wraps errors with `%w` so that their kind is lost to the predicates (the
predicates use type assertions).

## Not modelled

* 6502 code other than mksd's boot loader: the assembly sources, and what the NakedOS images do when run.
* kong's command line parsing and its checks of arguments. The declared enums and defaults are modelled (Model/Cli.lean, C108; elsewhere options are free parameters), and so is the number flags' decoder (main.go).
* Help texts, the text of error messages, debug printing to standard error.
* I/O errors other than a missing input file, an existing output file and writes that fail (C88, C89); symbolic links, permissions; changes of files by other processes except as in C79, C98, C102, C106 and C107.
* Unicode's case tables: C111 takes the facts it needs of them as the hypothesis `IsUnicode`.
* The embedded disk images in `data` (no command uses them).

## Testing the model

`Props/Conformance.lean` repeats the repository's own unit tests of the Applesoft lister and of the symbol encoding with
the kernel evaluating the model. `Validate.lean` is a program that runs the model on the disk images that come with the
repository (`lake env lean --run Verif/Validate.lean /repo`, three minutes): it repeats the tests of `dos3_test.go` and
`supermon_test.go` that read disk images (the catalog with deleted files, locks and sizes; the sector map; the symbol
table; `TestGetFile`, `TestPutFile`), and lists, puts, dumps, removes and reorders on the images in `data/disks`. All its
checks pass. These are tests and no claim rests on them. Besides, `dump` of the Applesoft programs on the DOS 3.3 system
master followed by `decode` was seen to give their listings.

## Testing the theorems

`seeded/LOG.jsonl` has one line for every wrong program tried: the model definition edited, the
edit, the claim it breaks, the theorems that failed, and what was tightened if too few did.
