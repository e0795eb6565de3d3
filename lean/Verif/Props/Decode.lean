import Verif.Spec.Listing
import Verif.Props.Basic
import Verif.Props.CmdFiles

/-!
# C75: `applesoft decode` prints the listing
-/

set_option autoImplicit false

namespace Verif.Basic

open Spec.Basic

/-- C54 with all names: every control character other than tab and newline is replaced by its name
in chevrons, and everything else stays. -/
theorem C54_names (s : Str) : chevronControlCodes s = escaped s := by
  have h : ∀ c : UInt8, (if c < 0x20 then chevron c else [c]) =
      if IsControl c then chevroned (controlCode c) else [c] := by decide +kernel
  unfold chevronControlCodes escaped
  rw [List.flatMap_def, List.flatMap_def]
  exact congrArg List.flatten (List.map_congr_left fun c _ => h c)

example : escaped ([4, 0x1B, 0] ++ str "A\t\n") =
    chevroned (str "ctrl-D") ++ chevroned (str "?") ++ chevroned (str "NUL") ++ str "A\t\n" := by decide +kernel

end Verif.Basic

namespace Verif.Cmd

open Disk Spec.Basic Verif.Basic

/-- The tokens that `decode` does not show as their Applesoft keyword (see C55). -/
def misnamed : List UInt8 := [0x8A, 0x8B, 0xD7, 0xB8, 0xC0, 0xCC]

/-- `decode` succeeds, changes no file and prints `text`, escaped unless told not to. -/
def Prints (env : Env) (w : World) (filename : Str) (location : UInt16) (rawControlCodes : Bool) (text : Str) : Prop :=
  ∃ w', run env (.decode filename location rawControlCodes) w = (.ok (), w') ∧ w'.files = w.files ∧
    w'.stdout = w.stdout ++ if rawControlCodes = true then text else escaped text

theorem contentsOf_given {w : World} {path : Str} {b : Bytes} (h : given w path = some b) :
    ∃ w', contentsOf path w = (.ok b, w') ∧ w'.files = w.files ∧ w'.stdout = w.stdout := by
  unfold given at h
  unfold contentsOf World.fileContentsOrStdIn
  by_cases hp : path = str "-"
  · rw [if_pos hp] at h ⊢
    obtain rfl := Option.some.inj h
    exact ⟨_, rfl, rfl, rfl⟩
  · rw [if_neg hp] at h ⊢
    rw [h]
    exact ⟨_, rfl, rfl, rfl⟩

theorem decode_eq {env : Env} {w w' : World} {filename : Str} {location : UInt16} {b : Bytes}
    (h1 : contentsOf filename w = (.ok b, w')) (raw : Bool) :
    run env (.decode filename location raw) w =
      match Applesoft.decode env.budget b location with
      | .ok lines => (.ok (), { w' with
          stdout := w'.stdout ++ if raw = true then Applesoft.Listing.string lines
            else chevronControlCodes (Applesoft.Listing.string lines) })
      | .err k => (.err k, w')
      | .panic => (.panic, w')
      | .timeout => (.timeout, w') := by
  change decodeCmd env filename location raw w = _
  unfold decodeCmd
  rw [bind_run h1]
  cases Applesoft.decode env.budget b location with
  | ok lines => cases raw <;> rfl
  | err k => rfl
  | panic => rfl
  | timeout => rfl

theorem decode_prints {env : Env} {w : World} {filename : Str} {location : UInt16} {b : Bytes} {lines : List Line}
    (hg : given w filename = some b) (hd : Applesoft.decode env.budget b location = .ok lines) (raw : Bool) :
    Prints env w filename location raw (Applesoft.Listing.string lines) := by
  obtain ⟨w', h1, h2, h3⟩ := contentsOf_given hg
  have e := decode_eq (env := env) (location := location) h1 raw
  rw [hd] at e
  refine ⟨_, e, h2, ?_⟩
  dsimp only
  rw [h3, C54_names]

theorem listing_shown (lines : List Line) : ∃ keyword, (∀ c, c ∉ misnamed → keyword c = applesoftKeyword c) ∧
    IsListing keyword lines (Applesoft.Listing.string lines) := by
  refine ⟨Applesoft.tokenByCode, fun c hc => Applesoft.C55_keywords_partial.2.1 c hc, ?_⟩
  exact Applesoft.C55_listing lines

/-- C75: a saved Applesoft program, with its length in front and at most one byte after it, is
printed as its listing, with every token shown as its keyword except for the six of C55; the named file or,
for `-`, standard input is read. -/
theorem C75_saved_program_partial {env : Env} {w : World} {filename : Str} (loc : UInt16) (lines : List Line)
    (hl : ∀ l ∈ lines, ApplesoftLine l) (h1 : 1 ≤ loc.toNat)
    (hfit : loc.toNat + (applesoftLayout loc.toNat lines).length ≤ 65536) (extra : Bytes) (he : extra.length ≤ 1)
    (hg : given w filename = some (withLength (applesoftLayout loc.toNat lines) ++ extra))
    (hb : lines.length < env.budget) (rawControlCodes : Bool) :
    ∃ keyword text, (∀ c, c ∉ misnamed → keyword c = applesoftKeyword c) ∧ IsListing keyword lines text ∧
      Prints env w filename loc rawControlCodes text := by
  obtain ⟨kw, h2, h3⟩ := listing_shown lines
  exact ⟨kw, _, h2, h3, decode_prints hg (Applesoft.C50_with_header lines hl loc h1 hfit extra he env.budget hb) _⟩

/-- C75: so is a program without the length, if its first two bytes do not look like one. -/
theorem C75_bare_program_partial {env : Env} {w : World} {filename : Str} (loc : UInt16) (lines : List Line)
    (hl : ∀ l ∈ lines, ApplesoftLine l) (h1 : 1 ≤ loc.toNat)
    (hfit : loc.toNat + (applesoftLayout loc.toNat lines).length ≤ 65536) (tail : Bytes)
    (hamb : ¬ LooksHeadered (applesoftLayout loc.toNat lines ++ tail))
    (hg : given w filename = some (applesoftLayout loc.toNat lines ++ tail))
    (hb : lines.length < env.budget) (rawControlCodes : Bool) :
    ∃ keyword text, (∀ c, c ∉ misnamed → keyword c = applesoftKeyword c) ∧ IsListing keyword lines text ∧
      Prints env w filename loc rawControlCodes text := by
  obtain ⟨kw, h2, h3⟩ := listing_shown lines
  exact ⟨kw, _, h2, h3,
    decode_prints hg (Applesoft.C50_without_header_partial lines hl loc h1 hfit tail hamb env.budget hb) _⟩

/-- C75: whatever is read, `decode` changes no file, and if it does not succeed it prints nothing. A
file that is not there is an error. -/
theorem C75_failure (env : Env) (w : World) (filename : Str) (loc : UInt16) (rawControlCodes : Bool) :
    (run env (.decode filename loc rawControlCodes) w).2.files = w.files ∧
    ((run env (.decode filename loc rawControlCodes) w).1 = .ok () ∨
      (run env (.decode filename loc rawControlCodes) w).2.stdout = w.stdout) ∧
    (given w filename = none → (run env (.decode filename loc rawControlCodes) w).1.isErr = true) := by
  cases hg : given w filename with
  | none =>
    have hc : contentsOf filename w = (.err .other, w) := by
      unfold given at hg
      unfold contentsOf World.fileContentsOrStdIn
      by_cases hp : filename = str "-"
      · rw [if_pos hp] at hg; cases hg
      · rw [if_neg hp] at hg ⊢
        rw [hg]
    have e : run env (.decode filename loc rawControlCodes) w = (.err .other, w) := by
      change decodeCmd env filename loc rawControlCodes w = _
      unfold decodeCmd
      exact bind_err hc
    rw [e]
    exact ⟨rfl, Or.inr rfl, fun _ => rfl⟩
  | some b =>
    obtain ⟨w', h1, h2, h3⟩ := contentsOf_given hg
    rw [decode_eq h1]
    refine ⟨?_, ?_, fun h => by cases h⟩
    · cases Applesoft.decode env.budget b loc <;> exact h2
    · cases Applesoft.decode env.budget b loc
      · exact Or.inl rfl
      all_goals exact Or.inr h3

/-- C75: an Applesoft program on a DOS 3.3 disk comes out as its listing if `dump` is piped into
`decode`. -/
theorem C75_dump_decode_partial {env : Env} {w : World} {image : Str} {order : DiskOrder} {system : Str} {o : Dos3.Operator}
    {ord : DiskOrder} (h : Finds env w image order system (.dos3 o) ord)
    (hv : Spec.NormalVTOC o.data) (chain : List (Nat × Nat))
    (hc : Spec.Chain o.data (Spec.CatalogPlace o.data) (Spec.linkOf o.data Spec.vtocAt) chain) (name : Str) (e : Bytes)
    (he : ((Spec.entries o.data chain).filter (fun e => Spec.LiveEntry e)).find? (fun e => Spec.entryName e = name) = some e)
    (ht : e.getD 2 0 &&& 0x7f = 2) (lists : List (Nat × Nat))
    (hlists : Spec.Chain o.data (Spec.OnImage o.data) ((e.getD 0 0).toNat, (e.getD 1 0).toNat) lists)
    (hlast : Spec.LastListUsed o.data lists)
    (hon : ∀ p ∈ lists, ∀ q ∈ Spec.pairs o.data p, q ≠ (0, 0) → Spec.OnImage o.data q)
    (loc : UInt16) (lines : List Line) (padding : Bytes)
    (hwhole : Spec.pairsData o.data (Spec.filePairs o.data lists) = withLength (applesoftLayout loc.toNat lines) ++ padding)
    (hl : ∀ l ∈ lines, ApplesoftLine l) (h1 : 1 ≤ loc.toNat)
    (hfit : loc.toNat + (applesoftLayout loc.toNat lines).length ≤ 65536)
    (hamb : ¬ LooksHeadered (applesoftLayout loc.toNat lines)) (hb : lines.length < env.budget) (rawControlCodes : Bool) :
    ∃ out keyword text, Dumps env w order system image name out ∧
      (∀ c, c ∉ misnamed → keyword c = applesoftKeyword c) ∧ IsListing keyword lines text ∧
      ∀ w', w'.stdin = out → Prints env w' (str "-") loc rawControlCodes text := by
  have hd := (C72_dump_dos3_partial h hv chain hc name).1 e lists (applesoftLayout loc.toNat lines) he hlists hlast hon (by
    rw [ht, hwhole]
    refine Or.inr (Or.inl ⟨Or.inr rfl, (applesoftLayout loc.toNat lines).length, ?_, ?_, ?_⟩)
    · generalize applesoftLayout loc.toNat lines = d at hfit
      have : d.length < 65536 := by omega
      simp [withLength, word16, loByte, hiByte]
      omega
    · simp [withLength, word16]
      omega
    · simp [withLength, word16])
  obtain ⟨kw, h2, h3⟩ := listing_shown lines
  refine ⟨_, kw, _, hd, h2, h3, fun w' hw' => ?_⟩
  refine decode_prints (b := applesoftLayout loc.toNat lines) ?_ ?_ _
  · unfold given
    rw [if_pos rfl, hw']
  · have := Applesoft.C50_without_header_partial lines hl loc h1 hfit [] (by rwa [List.append_nil]) env.budget hb
    rwa [List.append_nil] at this

/-! ## A program -/

/-- `10 PRINT "HI"` and `20 GOTO 10`. -/
def hiProgram : List Line := [⟨10, [0xBA] ++ str "\"HI\""⟩, ⟨20, [0xAB] ++ str "10"⟩]

/-- Non-vacuity of C75. -/
example (env : Env) (hb : 2 < env.budget) (w : World) (hw : w.stdin = withLength (applesoftLayout 0x801 hiProgram)) :
    ∃ keyword text, (∀ c, c ∉ misnamed → keyword c = applesoftKeyword c) ∧ IsListing keyword hiProgram text ∧
      Prints env w (str "-") 0x801 false text :=
  C75_saved_program_partial 0x801 hiProgram (by
      intro l hl
      simp only [hiProgram, List.mem_cons, List.not_mem_nil, or_false] at hl
      rcases hl with rfl | rfl <;> exact ⟨by decide, by decide +kernel⟩) (by decide) (by decide +kernel) [] (by decide)
    (by unfold given; rw [if_pos rfl, hw, List.append_nil]; rfl) hb false

end Verif.Cmd
