import Verif.Props.Bulk
import Verif.Props.Copy

/-!
# C100: copying all the files of a disk
-/

set_option autoImplicit false

namespace Verif.Cmd
open Disk Spec

/-- The list holds, each once, the numbers and contents of all the files that `dump`, with options for which it takes the image for NakedOS, can
get from it by number, except those of the symbol table. -/
structure AllDumped (env : Env) (w : World) (image : Str) (ord order : DiskOrder) (system : Str) (xs : List (UInt8 × Bytes)) : Prop where
  takes : Takes env w image ord order system
  once : (xs.map Prod.fst).Nodup
  each : ∀ x ∈ xs, Ordinary x.1 ∧ ∃ w1 name, w1.files image = w.files image ∧ NumericName name x.1 ∧
    Dumps env w1 order system image name x.2
  all : ∀ f, Ordinary f → (∃ name d, NumericName name f ∧ Dumps env w order system image name d) → f ∈ xs.map Prod.fst

variable {env : Env} {image imageA : Str} {ord ordA order orderA : DiskOrder} {system systemA : Str}

theorem hasFiles_move {w1 w2 : World} {m : Files} (e : w2.files image = w1.files image) (h : HasFiles w1 image ord m) :
    HasFiles w2 image ord m := by
  obtain ⟨raw, img, h1, h2⟩ := h
  exact ⟨raw, img, e.trans h1, h2⟩

/-- What `dump` does under any way of writing the number. -/
theorem dump_number {w : World} {m : Files} (hi : image ≠ str "-") (ho : ord = orderDO ∨ ord = orderPO) (h : HasFiles w image ord m)
    (ht : Takes env w image ord order system) {f : UInt8} (hf : Ordinary f) {name : Str} (hn : NumericName name f) (d : Bytes) :
    Dumps env w order system image name d ↔ m f ≠ [] ∧ d = m f := by
  obtain ⟨o, hfi⟩ := takes_finds hi ho h ht
  obtain ⟨raw, hg, hopen⟩ := id hfi
  unfold given at hg
  rw [if_neg hi] at hg hopen
  have hv := hasFiles_view h hg (open_naked hopen) f hf
  have hr : Supermon.fileForName o.table name = .ok f := (Supermon.C34_resolves_iff _ _ _).2 (Or.inl hn)
  obtain ⟨h1, h2, _, _⟩ := C72_dump_nakedos hfi name
  have h1 := h1 f hr
  have h2 := h2 f hr
  rw [← hv]
  clear hv
  generalize fileOnDisk o.data f = c at h1 h2 ⊢
  constructor
  · intro hd
    by_cases he : c = []
    · exact absurd (h2 he) (dumps_not_fails hd)
    · exact ⟨he, dumps_unique hd (h1 he)⟩
  · rintro ⟨he, rfl⟩
    exact h1 he

theorem takes_move {w1 w2 : World} (e : w2.files image = w1.files image) (h : Takes env w1 image ord order system) :
    Takes env w2 image ord order system := by
  refine h.imp_right ?_
  rintro ⟨hc, raw, o, h1, h2⟩
  exact ⟨hc, raw, o, e.trans h1, h2⟩

theorem numericName_dfName {f : UInt8} (hf : IsFileNumber f) : NumericName (dfName f) f := by
  rcases (Supermon.C34_resolves_iff [] _ f).1 (Supermon.fileForName_dfName hf []) with h | ⟨_, _, x, hx, _⟩
  · exact h
  · simp at hx

theorem allDumped_files {w : World} {m : Files} (hi : image ≠ str "-") (ho : ord = orderDO ∨ ord = orderPO) (h : HasFiles w image ord m)
    {xs : List (UInt8 × Bytes)} (hx : AllDumped env w image ord order system xs) :
    (∀ x ∈ xs, Ordinary x.1 ∧ m x.1 ≠ [] ∧ x.2 = m x.1 ∧ padded x.2 = x.2) ∧ (∀ f, f ∈ xs.map Prod.fst ↔ Ordinary f ∧ m f ≠ []) := by
  have each : ∀ x ∈ xs, Ordinary x.1 ∧ m x.1 ≠ [] ∧ x.2 = m x.1 ∧ padded x.2 = x.2 := by
    intro x hxs
    obtain ⟨h1, w1, name, h2, h3, h4⟩ := hx.each x hxs
    obtain ⟨h5, h6⟩ := (dump_number hi ho (hasFiles_move h2 h) (takes_move h2 hx.takes) h1 h3 x.2).1 h4
    obtain ⟨o, hfi⟩ := takes_finds hi ho (hasFiles_move h2 h) (takes_move h2 hx.takes)
    exact ⟨h1, h5, h6, (dumps_sectors hfi h4).2⟩
  refine ⟨each, fun f => ⟨?_, ?_⟩⟩
  · intro hf
    obtain ⟨x, hxs, rfl⟩ := List.mem_map.1 hf
    exact ⟨(each x hxs).1, (each x hxs).2.1⟩
  · rintro ⟨h1, h2⟩
    exact hx.all f h1 ⟨dfName f, m f, numericName_dfName h1.1, (dump_number hi ho h hx.takes h1 (numericName_dfName h1.1) _).2 ⟨h2, rfl⟩⟩

theorem needed_used {w : World} {m : Files} (hi : image ≠ str "-") (ho : ord = orderDO ∨ ord = orderPO) (h : HasFiles w image ord m)
    {xs : List (UInt8 × Bytes)} (hx : AllDumped env w image ord order system xs) : needed xs = used m := by
  obtain ⟨h1, h2⟩ := allDumped_files hi ho h hx
  have e1 : needed xs = ((xs.map Prod.fst).map fun g => sectors (m g)).sum := by
    unfold needed
    rw [List.map_map]
    refine congrArg List.sum (List.map_congr_left fun x hxs => ?_)
    obtain ⟨_, _, e, p⟩ := h1 x hxs
    show _ = sectors (m x.1)
    rw [← e, ← sectors_padded, p]
  have drop : ∀ L : List UInt8, ((L.filter fun g => Ordinary g).map fun g => sectors (m g)).sum =
      ((L.filter fun g => Ordinary g ∧ m g ≠ []).map fun g => sectors (m g)).sum := by
    intro L
    induction L with
    | nil => rfl
    | cons a L ih =>
      by_cases ha : Ordinary a
      · rw [List.filter_cons_of_pos (by simpa using ha)]
        by_cases hm : m a = []
        · rw [List.filter_cons_of_neg (by simp [hm]), List.map_cons, List.sum_cons, ih, hm]
          show 0 + _ = _
          omega
        · rw [List.filter_cons_of_pos (by simp [ha, hm]), List.map_cons, List.sum_cons, List.map_cons, List.sum_cons, ih]
      · rw [List.filter_cons_of_neg (by simpa using ha), List.filter_cons_of_neg (by simp [ha]), ih]
  have hperm : (xs.map Prod.fst).Perm (((List.range 256).map UInt8.ofNat).filter fun g => Ordinary g ∧ m g ≠ []) := by
    rw [List.perm_ext_iff_of_nodup hx.once (numbers_nodup.filter _)]
    intro f
    rw [h2, List.mem_filter, decide_eq_true_eq]
    exact ⟨fun h => ⟨mem_numbers f, h⟩, fun h => h.2⟩
  rw [e1, (hperm.map _).sum_eq]
  unfold used
  rw [drop]

theorem together_all {w : World} {mA m : Files} (hi : imageA ≠ str "-") (ho : ordA = orderDO ∨ ordA = orderPO) (h : HasFiles w imageA ordA mA)
    {xs : List (UInt8 × Bytes)} (hx : AllDumped env w imageA ordA orderA systemA xs) (f : UInt8) (hf : Ordinary f) :
    together m xs f = if mA f = [] then m f else mA f := by
  obtain ⟨h1, h2⟩ := allDumped_files hi ho h hx
  unfold together
  cases hx' : xs.find? (fun x => decide (x.1 = f)) with
  | none =>
    have : f ∉ xs.map Prod.fst := by
      intro hm
      obtain ⟨x, hxs, rfl⟩ := List.mem_map.1 hm
      have := List.find?_eq_none.1 hx' x hxs
      simp at this
    rw [h2] at this
    by_cases e : mA f = []
    · rw [if_pos e]
    · exact absurd ⟨hf, e⟩ this
  | some x =>
    have hxs := List.mem_of_find?_eq_some hx'
    have e : x.1 = f := by simpa using List.find?_some hx'
    obtain ⟨_, k1, k2, k3⟩ := h1 x hxs
    rw [e] at k1 k2
    rw [if_neg k1]
    show padded x.2 = _
    rw [k3, k2]

/-- C100: the files of one NakedOS disk can all be put on another one that has other files exactly if none is there already and there is room
for all; then every file of both is there, with its contents. -/
theorem C100_merge (hiA : imageA ≠ str "-") (hoA : ordA = orderDO ∨ ordA = orderPO) (hi : image ≠ str "-") (ho : ord = orderDO ∨ ord = orderPO)
    -- the first disk, and all that `dump` gets from it
    {wA : World} {mA : Files} (hA : HasFiles wA imageA ordA mA) {xs : List (UInt8 × Bytes)} (hx : AllDumped env wA imageA ordA orderA systemA xs)
    -- the second disk
    {w w' : World} {m : Files} (hm : HasFiles w image ord m) {n k : Nat} (hsp : HasSpace w image ord n k)
    -- all of it is put on the second disk
    {l : List (World × Command)} (hs : Session env image w l w') (hp : List.Forall₂ (Puts env image ord) xs l) :
    ((∀ p ∈ l, (run env p.2 p.1).1 = .ok ()) ↔ (∀ f, Ordinary f → mA f = [] ∨ m f = []) ∧ used mA + used m + k ≤ n) ∧
    ((∀ p ∈ l, (run env p.2 p.1).1 = .ok ()) → HasFiles w' image ord (fun f => if mA f = [] then m f else mA f) ∧ HasSpace w' image ord n k) := by
  obtain ⟨h1, h2⟩ := allDumped_files hiA hoA hA hx
  obtain ⟨c1, c2⟩ := C96_fits hi ho hs hp hx.once hm hsp
  refine ⟨?_, fun hall => ?_⟩
  · rw [c1, needed_used hiA hoA hA hx]
    refine and_congr_left fun _ => ⟨fun h f hf => ?_, fun h x hxs => ?_⟩
    · by_cases e : mA f = []
      · exact Or.inl e
      · obtain ⟨x, hxs, rfl⟩ := List.mem_map.1 ((h2 f).2 ⟨hf, e⟩)
        exact Or.inr (h x hxs)
    · rcases h x.1 (h1 x hxs).1 with e | e
      · exact absurd e (h1 x hxs).2.1
      · exact e
  · obtain ⟨⟨raw, img, d1, d2, d3, d4⟩, d5⟩ := c2 hall
    exact ⟨⟨raw, img, d1, d2, d3, fun f hf => (d4 f hf).trans (together_all hiA hoA hA hx f hf)⟩, d5⟩

/-- C100: all the files of a NakedOS disk can be put on an empty one of at least the same size; every `put` succeeds, and
afterwards `dump` prints the same on both disks under every number. -/
theorem C100_copy (hiA : imageA ≠ str "-") (hoA : ordA = orderDO ∨ ordA = orderPO) (hi : image ≠ str "-") (ho : ord = orderDO ∨ ord = orderPO)
    -- the first disk, and all that `dump` gets from it
    {wA : World} {mA : Files} (hA : HasFiles wA imageA ordA mA) {nA kA : Nat} (hspA : HasSpace wA imageA ordA nA kA)
    {xs : List (UInt8 × Bytes)} (hx : AllDumped env wA imageA ordA orderA systemA xs)
    -- the second disk, which is empty and not smaller
    {w w' : World} (hm : HasFiles w image ord (fun _ => [])) {n k : Nat} (hsp : HasSpace w image ord n k) (hn : nA - kA ≤ n - k)
    -- all of it is put on the second disk
    {l : List (World × Command)} (hs : Session env image w l w') (hp : List.Forall₂ (Puts env image ord) xs l) :
    (∀ p ∈ l, (run env p.2 p.1).1 = .ok ()) ∧ HasFiles w' image ord mA ∧
    ∀ order system, Takes env w' image ord order system → ∀ f, Ordinary f → ∀ name, NumericName name f → ∀ d,
      (Dumps env w' order system image name d ↔ Dumps env wA orderA systemA imageA name d) := by
  obtain ⟨c1, c2⟩ := C100_merge hiA hoA hi ho hA hx hm hsp hs hp
  have r1 := used_fits (env := env) hiA hoA hA hspA
  have r2 := used_fits (env := env) hi ho hm hsp
  have h0 : used (fun _ => []) = 0 := by
    unfold used
    generalize ((List.range 256).map UInt8.ofNat).filter _ = L
    induction L with
    | nil => rfl
    | cons a L ih => rw [List.map_cons, List.sum_cons, ih]; show 0 / 256 + 0 = 0; rfl
  have hall := c1.2 ⟨fun f _ => Or.inr rfl, by omega⟩
  obtain ⟨⟨raw, img, d1, d2, d3, d4⟩, _⟩ := c2 hall
  have hfin : HasFiles w' image ord mA := ⟨raw, img, d1, d2, d3, fun f hf => by
    rw [d4 f hf]
    show (if mA f = [] then [] else mA f) = mA f
    split
    · rename_i e; exact e.symm
    · rfl⟩
  refine ⟨hall, hfin, fun order system ht f hf name hname d => ?_⟩
  rw [dump_number hi ho hfin ht hf hname, dump_number hiA hoA hA hx.takes hf hname]

/-! ## A concrete case -/

/-- Non-vacuity of C100: a disk with one file, all that can be dumped from it, a freshly formatted disk of the same size, and the session that puts
it there. -/
example (env : Env) : ∃ wA mA nA kA xs w n k l w', HasFiles wA (str "a.do") orderDO mA ∧ HasSpace wA (str "a.do") orderDO nA kA ∧
    AllDumped env wA (str "a.do") orderDO orderDO (str "nakedos") xs ∧ xs ≠ [] ∧ HasFiles w (str "a.do") orderDO (fun _ => []) ∧
    HasSpace w (str "a.do") orderDO n k ∧ nA - kA ≤ n - k ∧ Session env (str "a.do") w l w' ∧
    List.Forall₂ (Puts env (str "a.do") orderDO) xs l := by
  have hi : str "a.do" ≠ str "-" := by decide +kernel
  -- the first disk
  have hm := hasFiles_good fresh_good (twoFiles_a Supermon.freshImg)
  have hs := hasSpace_good fresh_good (twoFiles_a Supermon.freshImg)
  have hx := twoFiles_x Supermon.freshImg
  have hs' := hs
  rw [fresh_fixed, Supermon.freshMap_file Supermon.isFile3, Supermon.freshMap_file Supermon.isFile4] at hs'
  obtain ⟨b1, b2⟩ := bulk_one (env := env) hi (Or.inl rfl) (puts_x hx) hm hs'
  have hok := b1.2 ⟨fresh_no_files numeric5.1, by rw [used_fresh]; decide⟩
  obtain ⟨f1, f2, _⟩ := b2 hok
  -- the second disk
  have hm2 := hasFiles_good fresh_good (copyWorld_a Supermon.freshImg (padded [1]))
  have hs2 := hasSpace_good fresh_good (copyWorld_a Supermon.freshImg (padded [1]))
  rw [fresh_fixed, Supermon.freshMap_file Supermon.isFile3, Supermon.freshMap_file Supermon.isFile4] at hs2
  have hx2 := copyWorld_x Supermon.freshImg (padded [1])
  have hm2' : HasFiles (copyWorld Supermon.freshImg (padded [1])) (str "a.do") orderDO (fun _ => []) := by
    obtain ⟨raw, img, g1, g2, g3, g4⟩ := hm2
    exact ⟨raw, img, g1, g2, g3, fun f hf => (g4 f hf).trans (fresh_no_files hf.1)⟩
  generalize copyWorld Supermon.freshImg (padded [1]) = w2 at *
  have e5 : Event.apply (fileOnDisk Supermon.freshImg) (.put 5 [1]) 5 = padded [1] := by
    show (if (5 : UInt8) = 5 then padded [1] else fileOnDisk Supermon.freshImg 5) = _
    rw [if_pos rfl]
  have en : ∀ f, Ordinary f → f ≠ 5 → Event.apply (fileOnDisk Supermon.freshImg) (.put 5 [1]) f = [] := by
    intro f hf hne
    have : Event.apply (fileOnDisk Supermon.freshImg) (.put 5 [1]) f = fileOnDisk Supermon.freshImg f := by
      show (if f = 5 then padded [1] else fileOnDisk Supermon.freshImg f) = _
      rw [if_neg hne]
    rw [this, fresh_no_files hf.1]
  generalize Event.apply (fileOnDisk Supermon.freshImg) (.put 5 [1]) = mA at *
  generalize (run env putX (twoFiles Supermon.freshImg)).2 = wA at *
  have hp1 : padded [1] ≠ [] := padded_one
  generalize padded [1] = d at *
  have h5 : Ordinary 5 := by decide
  refine ⟨wA, mA, _, _, [(5, d)], w2, _, _, [(w2, putX)], _, f1, f2, ⟨Or.inl ⟨rfl, rfl⟩, by simp, ?_, ?_⟩, by simp, hm2', hs2, Nat.le_refl _,
    .step rfl (.done rfl), .cons ⟨h5, hp1, str "do", str "nakedos", str "B", 0, str "DF05", str "x", rfl, Or.inl ⟨rfl, rfl⟩, by decide +kernel, numeric5, by decide +kernel, hx2⟩ .nil⟩
  · intro x hx
    rw [List.mem_singleton] at hx
    subst hx
    exact ⟨h5, wA, str "DF05", rfl, numeric5, (dump_number hi (Or.inl rfl) f1 (Or.inl ⟨rfl, rfl⟩) h5 numeric5 d).2 ⟨by rw [e5]; exact hp1, e5.symm⟩⟩
  · rintro f hf ⟨name, d', hn, hd⟩
    have := ((dump_number hi (Or.inl rfl) f1 (Or.inl ⟨rfl, rfl⟩) hf hn d').1 hd).1
    by_cases e : f = 5
    · rw [e]; simp
    · exact absurd (en f hf e) this

end Verif.Cmd
