import Verif.Model.Cli
import Verif.Props.Sd
import Verif.Props.SdSafe
import Verif.Props.Faults
import Verif.Props.Decode
import Verif.Props.ListNames
import Verif.Props.PutAny

/-!
# Commands without options, and what is printed when printing fails
-/

set_option autoImplicit false

namespace Verif.Cmd
open Disk Spec Spec.Basic

variable {env : Env} {w : World} {image : Str} {ord : DiskOrder}

/-- C56: the order of the image that `mksd` makes: the one asked for, or, if none is, the order of ProDOS disks for a name that ends in
.po, in any case, and the order of DOS 3.3 disks for every other name. -/
theorem C56_order (order : DiskOrder) (diskImage : Str) :
    (order ≠ str "auto" → sdOrder order diskImage = order) ∧
    (order = str "auto" → toLower (pathExt diskImage) = str ".po" → sdOrder order diskImage = str "po") ∧
    (order = str "auto" → toLower (pathExt diskImage) ≠ str ".po" → sdOrder order diskImage = str "do") := by
  unfold sdOrder orderFromFilename
  refine ⟨fun h => if_neg h, fun h1 h2 => ?_, fun h1 h2 => ?_⟩
  · rw [if_pos (show order = orderAuto from h1)]
    simp only
    rw [h2, if_neg (by decide +kernel), if_pos rfl]
    rfl
  · rw [if_pos (show order = orderAuto from h1)]
    simp only
    split
    · rfl
    · rfl

/-- C56, without the options of the command: `mksd` of a binary to the file a.po leaves an image in the order of ProDOS disks, and to the
file a.do, or one whose name says nothing, one in the order of DOS 3.3 disks; in either case the disk for the binary at 0x6000. -/
theorem C56_plain (binary : Str) (hd : image ≠ str "-") (hb : binary ≠ str "-") (h : (run env (plainMksd image binary) w).1 = .ok ()) :
    ∃ contents img raw, w.files binary = some contents ∧ sdImage contents 0x6000 0x6000 = .ok img ∧
      (run env (plainMksd image binary) w).2.files image = some raw ∧ raw.length = 143360 ∧
      View (if toLower (pathExt image) = str ".po" then str "po" else str "do") (str "raw") raw img := by
  obtain ⟨contents, img, raw, h1, h2, h3, h4, h5⟩ := C56_command env w (str "auto") image binary 0x6000 0xFFFF hd hb h
  refine ⟨contents, img, raw, h1, h2, h3, h4, ?_⟩
  split
  · rename_i e; rw [(C56_order (str "auto") image).2.1 rfl e] at h5; exact h5
  · rename_i e; rw [(C56_order (str "auto") image).2.2 rfl e] at h5; exact h5

/-- C57, without the options of the command: `mksd` succeeds exactly if the binary can be read, has something in it, and fits below 0xC000
when loaded at 0x6000. -/
theorem C57_plain (binary : Str) :
    (run env (plainMksd image binary) w).1 = .ok () ↔
      ∃ contents, given w binary = some contents ∧ contents ≠ [] ∧ contents.length ≤ 0x6000 := by
  unfold plainMksd
  rw [C57_command]
  have ho : sdOrder (str "auto") image ∈ [str "do", str "po", str "raw"] := by
    by_cases e : toLower (pathExt image) = str ".po"
    · rw [(C56_order (str "auto") image).2.1 rfl e]; simp
    · rw [(C56_order (str "auto") image).2.2 rfl e]; simp
  have key : ∀ contents, (∃ img, sdImage contents 0x6000 (effectiveStart 0x6000 0xFFFF) = .ok img) ↔ contents ≠ [] ∧ contents.length ≤ 0x6000 := by
    intro contents
    rw [C57_default_start]
    have e : (0x6000 : UInt16).toNat = 0x6000 := rfl
    rw [e]
    unfold pages
    constructor
    · rintro ⟨_, h1, h2, _⟩; exact ⟨h1, by omega⟩
    · rintro ⟨h1, h2⟩; exact ⟨by decide, h1, by omega, by omega⟩
  constructor
  · rintro ⟨⟨contents, img, h1, h2⟩, _⟩
    exact ⟨contents, h1, (key contents).1 ⟨img, h2⟩⟩
  · rintro ⟨contents, h1, h2⟩
    obtain ⟨img, h3⟩ := (key contents).2 h2
    exact ⟨⟨contents, img, h1, h3⟩, ho⟩

/-- A binary of one page can be put on a disk. -/
example : ∃ w : World, (run env (plainMksd (str "a.po") (str "prog")) w).1 = .ok () :=
  ⟨⟨fun p => if p = str "prog" then some [0x60] else none, [], []⟩, (C57_plain _).2 ⟨[0x60], rfl, by simp, by simp⟩⟩

/-- C108: a command without any option is one that the program accepts. -/
theorem C108_plain_accepted (image name other : Str) :
    ∀ c ∈ [plainLs image, plainReorder image other, plainPut image name other, plainRm image name, plainDump image name, plainMkhello image name,
      plainMksd image other, plainDecode other], c.accepted = true := by
  intro c hc
  simp only [List.mem_cons, List.not_mem_nil, or_false] at hc
  rcases hc with rfl | rfl | rfl | rfl | rfl | rfl | rfl | rfl <;> rfl

/-- C108: `ls` without options lists the files of a disk that is found to be NakedOS, in order, with their symbols. -/
theorem C108_plain_ls {o : Supermon.Operator} (h : Finds env w image (str "auto") (str "auto") (.nakedos o) ord) :
    ∃ w', ∃ listed : List UInt8, run env (plainLs image) w = (.ok (), w') ∧
      w'.stdout = w.stdout ++ listed.flatMap (fun f => nakedName o.table false f ++ [0x0A]) ∧ listed.Pairwise (· < ·) ∧
      ∀ f, f ∈ listed ↔ IsFileNumber f ∧ fileOnDisk o.data f ≠ [] :=
  ls_lists h false

/-- C108: `rm` without options succeeds on a disk that is found to be NakedOS exactly if the name is that of a file which is there, and the
symbols that stay can be written again. -/
theorem C108_plain_rm {o : Supermon.Operator} (hi : image ≠ str "-") (h : Finds env w image (str "auto") (str "auto") (.nakedos o) ord)
    (name : Str) :
    (run env (plainRm image name) w).1 = .ok () ↔
      ∃ f, NameOf o.table name f ∧ fileOnDisk o.data f ≠ [] ∧
        ∀ before s after, FirstOf o.table name before s after → ∀ e ∈ before ++ after, Storable e.name := by
  unfold plainRm
  rw [C94_rm hi h]
  simp

/-- C108: `mkhello` without options makes the program that loads the named file to 0x6000 and starts it there, on a disk that is found to be
NakedOS. -/
theorem C108_plain_mkhello {name : Str} (hi : image ≠ str "-") (h : (run env (plainMkhello image name) w).1 = .ok ()) :
    ∃ raw o ord f new o', w.files image = some raw ∧
      openImage raw image (str "auto") (str "auto") (factories env) = .ok (.nakedos o, ord) ∧ AsksFor o.table name f ∧
      (run env (plainMkhello image name) w).2.files image = some new ∧
      openImage new image ord (str "nakedos") (factories env) = .ok (.nakedos o', ord) ∧
      fileOnDisk o'.data 1 = helloBytes f 0x6000 0x6000 ++ List.replicate 240 0 := by
  obtain ⟨_, _, raw, o, ord, f, new, o', h1, h2, h3, h4, h5, _, h6, _⟩ := C61_mkhello_partial hi h
  exact ⟨raw, o, ord, f, new, o', h1, h2, h3, h4, h5, h6⟩

/-- C108: `reorder` without options never writes over another file that is there. -/
theorem C108_plain_reorder {newImage : Str} (h1 : newImage ≠ []) (h2 : newImage ≠ str "-") {old : Bytes} (h : w.files newImage = some old) :
    (run env (plainReorder image newImage) w).1 ≠ .ok () ∧ (run env (plainReorder image newImage) w).2.files = w.files := by
  have key : (run env (plainReorder image newImage) w).1 ≠ .ok () := by
    change (reorder World.writeOutput (str "auto") (str "auto") false image newImage w).1 ≠ _
    rcases reorder_cases World.writeOutput w (str "auto") (str "auto") false image newImage with ⟨h, _⟩ | ⟨b, w', _, hs, _, _, _, e⟩
    · exact h
    · rw [e, if_neg h1, if_neg h1]
      have := (C58_refuses_to_overwrite w' newImage b h2 old (by rw [hs.1]; exact h)).1
      intro hc
      rw [hc] at this
      simp [Out.isErr] at this
  exact ⟨key, (C59_failure_changes_nothing env _ w key).1⟩

/-- C108: `decode` without options prints a saved program that was to be loaded at 0x801, with its control characters shown. -/
theorem C108_plain_decode {filename : Str} (lines : List Verif.Basic.Line) (hl : ∀ l ∈ lines, ApplesoftLine l)
    (hfit : 0x801 + (applesoftLayout 0x801 lines).length ≤ 65536) (hg : given w filename = some (withLength (applesoftLayout 0x801 lines)))
    (hb : lines.length < env.budget) :
    ∃ keyword text w', (∀ c, c ∉ misnamed → keyword c = applesoftKeyword c) ∧ IsListing keyword lines text ∧
      run env (plainDecode filename) w = (.ok (), w') ∧ w'.files = w.files ∧ w'.stdout = w.stdout ++ escaped text := by
  obtain ⟨kw, text, h1, h2, w', h3, h4, h5⟩ := C75_saved_program_partial (env := env) (w := w) (filename := filename) 0x801 lines hl (by decide)
    hfit [] (by simp) (by rw [List.append_nil]; exact hg) hb false
  exact ⟨kw, text, w', h1, h2, h3, h4, h5⟩

/-! ## Printing that fails -/

theorem lsPrint_prints (fa : Faults) (sh : Bool) (fds : List Descriptor) (i : Nat) (w : World) :
    (lsPrint fa sh i fds w).2.stdout = w.stdout ++ ((fds.map fun fd => (if sh = false ∧ fd.fullname ≠ [] then fd.fullname else fd.name) ++ [0x0A]).zipIdx i).flatMap
      fun p => match fa.stdout p.2 with | none => p.1 | some k => p.1.take k := by
  induction fds generalizing i w with
  | nil => rw [List.map_nil, List.zipIdx_nil, List.flatMap_nil, List.append_nil]; rfl
  | cons fd fds ih =>
    unfold lsPrint
    rw [bind_apply]
    unfold Act.bind ignoring
    dsimp only
    rw [ih, List.map_cons, List.zipIdx_cons, List.flatMap_cons, ← List.append_assoc]
    congr 1
    unfold Faults.print
    cases fa.stdout i <;> rfl

/-- C88, what `ls` does about it: every line of the listing that can be printed is printed, and one that cannot is cut short where its
printing failed; the next one follows. -/
theorem C88_ls_output (fa : Faults) {order : DiskOrder} {system directory : Str} {short : Bool}
    (h : (run env (.ls order system short image directory) w).1 = .ok ()) :
    ∃ lines : List Str, (∀ l ∈ lines, ∃ name, l = name ++ [0x0A]) ∧
      (run env (.ls order system short image directory) w).2.stdout = w.stdout ++ lines.flatten ∧
      (runWith fa env (.ls order system short image directory) w).2.stdout =
        w.stdout ++ (lines.mapIdx fun i l => match fa.stdout i with | none => l | some k => l.take k).flatten := by
  change (ls env order system short image directory w).1 = _ at h
  change ∃ lines : List Str, _ ∧ (ls env order system short image directory w).2.stdout = _ ∧ (lsWith fa env order system short image directory w).2.stdout = _
  have hq := Quiet.openDisk env image order system w
  unfold ls at h ⊢
  unfold lsWith
  rw [bind_apply] at h ⊢
  rw [bind_apply]
  unfold Act.bind at h ⊢
  rcases e : openDisk env image order system w with ⟨r, w'⟩
  rw [e] at h hq
  cases r with
  | ok p =>
    obtain ⟨op, _⟩ := p
    dsimp only at h ⊢
    by_cases hd : directory ≠ [] ∧ op.hasSubdirs = false
    · rw [if_pos hd] at h; simp [lift] at h
    rw [if_neg hd] at h
    rw [if_neg hd, if_neg hd]
    rw [bind_apply] at h ⊢
    rw [bind_apply]
    unfold Act.bind lift at h ⊢
    dsimp only at h ⊢
    cases hc : op.catalog env directory with
    | ok fds =>
      dsimp only
      refine ⟨fds.map fun fd => (if short = false ∧ fd.fullname ≠ [] then fd.fullname else fd.name) ++ [0x0A], ?_, ?_, ?_⟩
      · intro l hl
        obtain ⟨fd, _, rfl⟩ := List.mem_map.1 hl
        exact ⟨_, rfl⟩
      · unfold print lsLines
        dsimp only
        rw [hq.2, List.flatMap_def]
      · rw [lsPrint_prints, hq.2, List.mapIdx_eq_zipIdx_map, List.flatMap_def]
    | err k => rw [hc] at h; simp at h
    | panic => rw [hc] at h; simp at h
    | timeout => rw [hc] at h; simp at h
  | err k => simp at h
  | panic => simp at h
  | timeout => simp at h

/-- C88, `decode` when printing fails: the listing is one write, of which as much is printed as that write prints. -/
theorem C88_decode_output (fa : Faults) {filename : Str} {location : UInt16} {raw : Bool}
    (h : (run env (.decode filename location raw) w).1 = .ok ()) :
    ∃ text : Bytes, (run env (.decode filename location raw) w).2.stdout = w.stdout ++ text ∧
      (runWith fa env (.decode filename location raw) w).2.stdout =
        w.stdout ++ match fa.stdout 0 with | none => text | some k => text.take k := by
  change (decodeCmd env filename location raw w).1 = _ at h
  change ∃ text : Bytes, (decodeCmd env filename location raw w).2.stdout = _ ∧ (decodeWith fa env filename location raw w).2.stdout = _
  have hq := Quiet.contentsOf filename w
  unfold decodeCmd at h ⊢
  unfold decodeWith
  rw [bind_apply] at h ⊢
  rw [bind_apply]
  unfold Act.bind at h ⊢
  rcases e : contentsOf filename w with ⟨r, w'⟩
  rw [e] at h hq
  cases r with
  | ok contents =>
    dsimp only at h ⊢
    rw [bind_apply] at h ⊢
    rw [bind_apply]
    unfold Act.bind lift at h ⊢
    dsimp only at h ⊢
    cases hc : Applesoft.decode env.budget contents location with
    | ok listing =>
      dsimp only
      have hq2 : w'.stdout = w.stdout := hq.2
      have hp : ∀ t, (ignoring (fa.print 0 t) w').2.stdout = w.stdout ++ match fa.stdout 0 with | none => t | some k => t.take k := by
        intro t
        unfold ignoring Faults.print
        cases fa.stdout 0 <;> simp [hq2]
      cases raw with
      | true => exact ⟨Applesoft.Listing.string listing, by simp [print, hq2], hp _⟩
      | false => exact ⟨Basic.chevronControlCodes (Applesoft.Listing.string listing), by simp [print, hq2], hp _⟩
    | err k => rw [hc] at h; simp at h
    | panic => rw [hc] at h; simp at h
    | timeout => rw [hc] at h; simp at h
  | err k => simp at h
  | panic => simp at h
  | timeout => simp at h

end Verif.Cmd
