import Verif.Spec.Chains
import Verif.Props.Fate

/-!
# C33: exactly which histories of additions and deletions leave a symbol table that can be read
-/

set_option autoImplicit false

namespace Verif.Supermon
open Disk Spec

/-- What holds of every table in memory as long as nothing spoils it. -/
structure Held (st : SymbolTable) : Prop where
  length : st.length = 819
  readable : Readable st
  unused : ∀ s ∈ st, s.address = 0 → s.name = []

theorem FromDisk.held {st : SymbolTable} (h : FromDisk st) : Held st := ⟨h.length, h.readable, h.unused⟩

theorem Held.live {st : SymbolTable} (h : Held st) {n : Str} (hn : n ≠ []) : ∀ i s, NamedAt st n i s → s.address ≠ 0 := by
  intro i s hat h0
  have := h.unused s (List.mem_of_getElem? hat.1) h0
  have h2 := hat.2.1
  rw [this] at h2
  exact hn (sameName_nil.1 h2.symm)

theorem Held.link {st : SymbolTable} (h : Held st) {s : Symbol} (hs : s ∈ st) : LinkRange s := by
  intro h0
  obtain ⟨i, hi⟩ := List.getElem?_of_mem hs
  rcases h.readable i s hi h0 with e | ⟨j, t, e, _, ht, _⟩
  · exact Or.inl e
  · have := getElem?_lt ht
    rw [h.length] at this
    exact Or.inr ⟨j, e, this⟩

theorem Held.range_delete {st : SymbolTable} (h : Held st) {n : Str} (hn : n ≠ []) : ∀ s ∈ (deleteSymbol st n).2, LinkRange s := by
  cases hf : findName st n with
  | none =>
    have : deleteSymbol st n = (false, st) := by unfold deleteSymbol; rw [hf]
    rw [this]
    exact fun s hs => h.link hs
  | some i =>
    obtain ⟨s, hs, e⟩ := deleteSymbol_some hf
    rw [e]
    exact linkRange_set (linkRange_relink (fun t ht => h.link ht)
      (h.link (List.mem_of_getElem? hs) (h.live hn i s (namedAt_iff.2 ⟨hf, hs⟩))) 0) fun h0 => absurd rfl h0

theorem Held.range_add {st : SymbolTable} (h : Held st) {n : Str} (hn : n ≠ []) (a : UInt16) : ∀ s ∈ (addSymbol st n a).2, LinkRange s := by
  have hb : ∀ s ∈ st, LinkRange s := fun s hs => h.link hs
  rcases addSymbol_cases st n a with ⟨_, e⟩ | ⟨_, i, s, h1, h2, h3, e⟩ | ⟨_, i, s, h1, h2, h3, e⟩ | ⟨_, _, _, e⟩ | ⟨_, _, p, s, h2, _, e⟩ <;> rw [e]
  · exact hb
  · have hls := h.link (List.mem_of_getElem? h2) (h.live hn i s (namedAt_iff.2 ⟨h1, h2⟩))
    exact linkRange_set hb fun _ => hls
  · exact linkRange_insertAt (h.range_delete hn) (by rw [← h.length]; exact getElem?_lt h2)
  · exact hb
  · exact linkRange_insertAt hb (by rw [← h.length]; exact getElem?_lt h2)

theorem relink_unused {st : SymbolTable} {i : Nat} {l : Int} (h : ∀ s ∈ st, s.address = 0 → s.name = []) (j : Nat) :
    ∀ s ∈ relink i l st j, s.address = 0 → s.name = [] := by
  induction st generalizing j with
  | nil => intro s hs; simp [relink] at hs
  | cons x rest ih =>
    have hx := h x (by simp)
    have hrest : ∀ s ∈ rest, s.address = 0 → s.name = [] := fun s hs => h s (by simp [hs])
    intro s hs
    unfold relink at hs
    split at hs
    · rcases List.mem_cons.1 hs with rfl | hs
      · exact hx
      · exact ih hrest _ s hs
    · split at hs
      · rcases List.mem_cons.1 hs with rfl | hs
        · exact hx
        · exact hrest s hs
      · rcases List.mem_cons.1 hs with rfl | hs
        · exact hx
        · exact ih hrest _ s hs

theorem set_unused {st : SymbolTable} {i : Nat} {x : Symbol} (h : ∀ s ∈ st, s.address = 0 → s.name = []) (hx : x.address = 0 → x.name = []) :
    ∀ s ∈ st.set i x, s.address = 0 → s.name = [] := fun s hs => by
  rcases List.mem_or_eq_of_mem_set hs with hs | rfl
  · exact h s hs
  · exact hx

theorem delete_unused {st : SymbolTable} (h : ∀ s ∈ st, s.address = 0 → s.name = []) (n : Str) :
    ∀ s ∈ (deleteSymbol st n).2, s.address = 0 → s.name = [] := by
  cases hf : findName st n with
  | none =>
    have : deleteSymbol st n = (false, st) := by unfold deleteSymbol; rw [hf]
    rw [this]
    exact h
  | some i =>
    obtain ⟨s, hs, e⟩ := deleteSymbol_some hf
    rw [e]
    exact set_unused (relink_unused h 0) fun _ => rfl

theorem insertAt_unused {st : SymbolTable} {n : Str} {a : UInt16} {p : Nat} (h : ∀ s ∈ st, s.address = 0 → s.name = []) (ha : a ≠ 0) :
    ∀ s ∈ insertAt st n a p, s.address = 0 → s.name = [] := by
  unfold insertAt
  apply set_unused _ (fun h0 => absurd h0 ha)
  rcases linkTail_cases (addrHash a) p st with e | ⟨k, s, hk, _, _, e⟩ <;> rw [e]
  · exact h
  · exact set_unused h fun h0 => h s (List.mem_of_getElem? (by assumption)) h0

theorem add_unused {st : SymbolTable} (h : ∀ s ∈ st, s.address = 0 → s.name = []) (n : Str) (a : UInt16) :
    ∀ s ∈ (addSymbol st n a).2, s.address = 0 → s.name = [] := by
  rcases addSymbol_cases st n a with ⟨_, e⟩ | ⟨ha, i, s, h1, h2, h3, e⟩ | ⟨ha, i, s, h1, h2, h3, e⟩ | ⟨_, _, _, e⟩ | ⟨ha, _, p, s, h2, _, e⟩ <;> rw [e]
  · exact h
  · exact set_unused h fun h0 => absurd h0 ha
  · exact insertAt_unused (delete_unused h n) ha
  · exact h
  · exact insertAt_unused h ha

theorem Held.fails {st : SymbolTable} {n : Str} {a : UInt16} (hno : (addSymbol st n a).1 ≠ .ok ()) : (addSymbol st n a).2 = st := by
  rcases addSymbol_cases st n a with ⟨_, e⟩ | ⟨ha, i, s, h1, h2, h3, e⟩ | ⟨ha, i, s, h1, h2, h3, e⟩ | ⟨_, _, _, e⟩ | ⟨ha, _, p, s, h2, _, e⟩ <;> rw [e] at hno ⊢
  all_goals exact absurd rfl hno

/-- One call. -/
theorem Held.step {st : SymbolTable} (h : Held st) {c : TableChange} (hn : c.name ≠ []) :
    (c.result st).length = 819 ∧ (∀ s ∈ c.result st, LinkRange s) ∧ (∀ s ∈ c.result st, s.address = 0 → s.name = []) ∧
    (Readable (c.result st) ↔ ¬ c.Spoils st) := by
  cases c with
  | add n a =>
    refine ⟨?_, h.range_add hn a, add_unused h.unused n a, ?_⟩
    · exact (addSymbol_length st n a).trans h.length
    · unfold TableChange.result TableChange.Spoils
      by_cases hok : (addSymbol st n a).1 = .ok ()
      · dsimp only
        rw [readable_add h.readable (h.live (n := n) hn) hok]
        exact ⟨fun h1 h2 => h1 h2.2, fun h1 h2 => h1 ⟨hok, h2⟩⟩
      · dsimp only
        rw [Held.fails hok]
        exact ⟨fun _ h2 => hok h2.1, fun _ => h.readable⟩
  | delete n =>
    refine ⟨?_, h.range_delete hn, delete_unused h.unused n, readable_delete h.readable (h.live hn)⟩
    exact (deleteSymbol_length st n).trans h.length

theorem Held.all {st st' : SymbolTable} {cs : List TableChange} (h : Held st) (hu : Unspoilt st cs st') : Held st' := by
  induction hu with
  | none => exact h
  | more hn hs _ ih =>
    obtain ⟨h1, _, h3, h4⟩ := h.step hn
    exact ih ⟨h1, h4.2 hs, h3⟩

/-- C33, exactly: of a table that was read from a disk, changed by any history of additions and deletions none of which spoils it, and then by one
more, it can be said whether it can be read again after it was written: if and only if the last change does not spoil it. -/
theorem C33_exact {sm0 : SectorMap} {img0 : Bytes} {st0 st : SymbolTable} (h0 : readSymbolTable sm0 img0 = .ok st0) {cs : List TableChange}
    (hcs : Unspoilt st0 cs st) {c : TableChange} (hn : c.name ≠ []) {sm : SectorMap} {img : Bytes} (hg : Good sm img)
    (hw : (writeSymbolTable sm img (c.result st)).1 = .ok ()) :
    (∃ t, readSymbolTable (writeSymbolTable sm img (c.result st)).2.1 (writeSymbolTable sm img (c.result st)).2.2 = .ok t) ↔ ¬ c.Spoils st := by
  obtain ⟨h1, h2, h3, h4⟩ := ((readSymbolTable_fromDisk h0).held.all hcs).step hn
  rw [← h4]
  have hr := read_write hg h1 h2 hw
  have hc := checkLinks_reread (c.result st)
  rw [hr]
  constructor
  · rintro ⟨t, ht⟩
    obtain ⟨u, hu, _⟩ := Out.bind_eq_ok.1 ht
    exact hc.1 hu
  · intro hre
    rw [hc.2 hre]
    exact ⟨_, rfl⟩

theorem chainTable_delete_spoils : DeletingSpoils chainTable (str "AAA") := by
  have h0 : chainTable[0]? = some ⟨1, str "AAA", -1⟩ := by unfold chainTable; rfl
  have h1 : chainTable[1]? = some ⟨0, [], 0⟩ := by unfold chainTable; rfl
  have h2 : chainTable[2]? = some ⟨0x100, str "BBB", 0⟩ := by unfold chainTable; rfl
  refine ⟨0, _, ⟨h0, SameName.refl _, fun k t hk => absurd hk (by omega)⟩, ?_⟩
  exact ⟨_, 2, _, h0, ⟨h2, by decide, by decide, rfl⟩, Or.inl ⟨⟨1, _, by decide, by decide, h1, rfl⟩, by decide +kernel⟩⟩

/-- Non-vacuity of C33_exact: a table that is on a disk; adding FOO to it does not spoil it, deleting AAA does, and the writes succeed. -/
example : ∃ sm img, Good sm img ∧ readSymbolTable sm img = .ok chainTable ∧
    Unspoilt chainTable [.add (str "FOO") 0xDF05] (addSymbol chainTable (str "FOO") 0xDF05).2 ∧
    (writeSymbolTable freshMap freshImg (addSymbol chainTable (str "FOO") 0xDF05).2).1 = .ok () ∧
    TableChange.Spoils chainTable (.delete (str "AAA")) ∧
    (writeSymbolTable freshMap freshImg (TableChange.result chainTable (.delete (str "AAA")))).1 = .ok () := by
  obtain ⟨img, sm, hg, ho, _⟩ := tabled
  have e := opened_table (o := ⟨img, sm, some _⟩) hg ho
  have hr : readSymbolTable sm img = .ok chainTable := by
    unfold tableOn at e
    dsimp only at e
    split at e
    · rename_i t ht
      rw [ht, Option.some.inj e]
    · cases e
  have hsnd := (C33_add_new chainTable_sound (name := str "FOO") (by decide +kernel) 0xDF05 chainTable_noFoo).wellFormed
  exact ⟨sm, img, hg, hr, .more (by unfold TableChange.name; decide +kernel) (fun h => chainTable_foo_fits h.2) (.none _), fresh_room _ hsnd,
    chainTable_delete_spoils, C33_violated.2.2.2⟩

end Verif.Supermon
