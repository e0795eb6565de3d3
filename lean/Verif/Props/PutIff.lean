import Verif.Props.Again

/-!
# C91: when a put under a symbol succeeds
-/

set_option autoImplicit false

namespace Verif.Cmd
open Disk Spec

/-- The symbol of a change has a place in a table that knows it. -/
theorem placeFor_known {st : Supermon.SymbolTable} {z : Str} {t : Names} (hk : Knows st z t) {s : Str} (hs : Symbolic s) {f : UInt8}
    (h : t s = some f) : PlaceFor st s := by
  obtain ⟨_, e, he, hn, _⟩ := (hk.2.2 s hs f).1 h
  exact Or.inl ⟨e, he, hn⟩

/-- C91: on a disk whose symbol table is in order, `put` of something under a number, a symbol or both succeeds exactly if the name says
where to put it, there is room, nothing is replaced without permission, and the table has a place for the symbol. -/
theorem C91_tidy {env : Env} {w : World} {image order system : Str} {o : Supermon.Operator} {ord : DiskOrder}
    (hi : image ≠ str "-") (ho : Finds env w image order system (.nakedos o) ord) {st : Supermon.SymbolTable} (hst : o.st = some st)
    {z : Str} {t : Names} (hk : Knows st z t) {source ty name : Str} (hs : source ≠ str "-") {data : Bytes}
    (hdata : w.files source = some data) (hd : data ≠ []) {ow : Bool} {a : UInt16}
    (hc : Careful image z t (.put order system ty ow a image name source)) :
    (run env (.put order system ty ow a image name source) w).1 = .ok () ↔
      Types.filetypeForName ty = .ok filetypeBinary ∧
      ∃ f sym, Ordinary f ∧ PutTo (fileOnDisk o.data) t name f sym ∧
        sectorsNeeded data.length ≤ (ownedBy (owner o.data) 0xFF).length + (ownedBy (owner o.data) f).length ∧
        (ow = true ∨ fileOnDisk o.data f = []) ∧ ∀ s, sym = some s → PlaceFor st s := by
  have hfind := id ho
  obtain ⟨raw, hg, hopen⟩ := ho
  unfold given at hg
  rw [if_neg hi] at hg hopen
  have hnk := open_naked hopen
  have hop := hnk.opened
  rw [← hnk.data] at hop
  have hown : ∀ g, ownedBy (owner o.data) g = ownedBy (own o.sm) g := by
    intro g
    unfold ownedBy
    apply List.filter_congr
    intro n hn
    rw [(Supermon.loaded_iff (by have := hnk.good.len; omega) o.sm).1 hnk.good.loaded n (List.mem_range.1 hn)]
  constructor
  · intro h
    obtain ⟨raw', o', ord', data', ft, new, h1, h2, h3, h4, h5, h6, h7⟩ := put_inv_type hi h
    rw [hg] at h1
    cases h1
    rw [hopen] at h2
    cases h2
    unfold given at h3
    rw [if_neg hs, hdata] at h3
    cases h3
    have hft := (Supermon.putFile_checks h4).1
    dsimp only at hft
    subst hft
    refine ⟨h7, ?_⟩
    obtain ⟨f, sym, o2, st2, g1, g2, g3, g4, g5, g6, g7, g8, g9, g10, ⟨nf, s, g11⟩, g12⟩ :=
      Supermon.put_names_how hnk.good hop hst hk (fi := ⟨{ name := name, length := data.length, type := filetypeBinary }, data, a⟩) (hc rfl) h4
    have hw : (Supermon.writeFile o.sm o.data f data ow).out = .ok () := by
      rw [g11] at h4
      unfold Supermon.Operator.putNumbered at h4
      simp only at h4
      split at h4
      · assumption
      · exact h4
    obtain ⟨w1, w2⟩ := (Supermon.C25_write_outcome ow hnk.good.len g1.1 hd).2.2.1.1 hw
    refine ⟨f, sym, g1, g2, ?_, ?_, ?_⟩
    · rw [hown, hown]; exact w1
    · rw [Supermon.fileOnDisk_nil hnk.good]; exact w2.symm
    · rintro s' rfl
      rcases g12 with hsame | ⟨s', hs', hadd⟩
      · have hsy : Symbolic s' := by
          rcases g2 with ⟨_, e⟩ | ⟨hsy, e, _⟩ | ⟨_, b, _, _, hsy, e⟩
          · cases e
          · cases e; exact hsy
          · cases e; exact hsy
        refine placeFor_known hk hsy (f := f) ?_
        rw [← hsame s' hsy]
        show (if SameName s' s' then some f else _) = _
        rw [if_pos (show SameName _ _ from rfl)]
      · cases hs'
        exact (Supermon.addSymbol_succeeds (Supermon.addr_ne_zero f)).1 hadd
  · rintro ⟨hty, f, sym, hf, hto, hroom, hx, hplace⟩
    rw [hown, hown, Supermon.sectorsNeeded_eq] at hroom
    rw [Supermon.fileOnDisk_nil hnk.good] at hx
    have hput := Supermon.putFile_succeeds hnk.good hop hst hk (hc rfl) hf hto hd hroom hx hplace a
    obtain ⟨_, _, o2, _, _, _, _, _, g2, g3, _⟩ := Supermon.put_names hnk.good hop hst hk
      (fi := ⟨{ name := name, length := data.length, type := filetypeBinary }, data, a⟩) (hc rfl) hput
    rw [put_runs hi hs hg hdata hnk.order hopen hty hput (by rw [← g3]; exact g2.len)]

end Verif.Cmd
