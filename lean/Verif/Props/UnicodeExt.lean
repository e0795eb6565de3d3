import Verif.Props.Unicode

/-!
# C111: extensions with the Kelvin sign
-/

set_option autoImplicit false

namespace Verif.Unicode

open Verif Verif.Spec

theorem kelvinAsK_other {b : UInt8} {rest : Str} (h : ¬ kelvin <+: b :: rest) : kelvinAsK (b :: rest) = b :: kelvinAsK rest := by
  rw [kelvinAsK]
  rintro s rfl rfl; exact h ⟨s, rfl⟩

theorem kelvinAsK_ascii {b : UInt8} (h : b.toNat < 0x80) (rest : Str) : kelvinAsK (b :: rest) = b :: kelvinAsK rest :=
  kelvinAsK_other (by rintro ⟨z, hz⟩; cases hz; simp at h)

/-- Go's lower case, compared to ASCII text without an i. -/
theorem lower_kelvin {T : Tables} (hT : IsUnicode T) : ∀ (n : Nat) (s e : Str), s.length ≤ n → (∀ c ∈ e, c.toNat < 0x80 ∧ c ≠ 0x69) →
    (toLower T s = e ↔ Verif.toLower (kelvinAsK s) = e) := by
  intro n
  induction n with
  | zero =>
    intro s e hn _
    obtain rfl : s = [] := List.length_eq_zero_iff.1 (by omega)
    simp [toLower, runes_nil, Verif.toLower, kelvinAsK]
  | succ n ih =>
    intro s e hn he
    cases s with
    | nil => simp [toLower, runes_nil, Verif.toLower, kelvinAsK]
    | cons b s =>
      rw [List.length_cons] at hn
      have step : ∀ (r : Nat) (a : UInt8) (s' : Str), s'.length ≤ n → encodeRune (T.lower r) = [lowerByte a] →
          (((r :: runes s').flatMap fun r => encodeRune (T.lower r)) = e ↔ Verif.toLower (a :: kelvinAsK s') = e) := by
        intro r a s' hs h1
        rw [List.flatMap_cons, h1]
        show lowerByte a :: toLower T s' = e ↔ lowerByte a :: Verif.toLower (kelvinAsK s') = e
        cases e with
        | nil => simp
        | cons c e => rw [List.cons.injEq, List.cons.injEq, ih s' e hs fun x hx => he x (List.mem_cons_of_mem _ hx)]
      by_cases hb : b.toNat < 0x80
      · unfold toLower
        rw [runes_ascii_cons hb, kelvinAsK_ascii hb]
        refine step _ b s (by omega) ?_
        rw [hT.lower_ascii _ hb]
        have := (by decide +kernel : ∀ x : Fin 128, encodeRune (if 0x41 ≤ x.val ∧ x.val ≤ 0x5A then x.val + 0x20 else x.val) =
          [lowerByte (UInt8.ofNat x.val)]) ⟨b.toNat, hb⟩
        simpa only [UInt8.ofNat_toNat] using this
      · obtain ⟨r, k, e1, h1, _, h3⟩ := runes_other_bytes (Nat.not_lt.1 hb) s
        by_cases hk : r = 0x212A
        · obtain ⟨⟨z, hz⟩, rfl⟩ := h3 hk
          cases hz
          subst hk
          unfold toLower
          rw [e1]
          exact step 0x212A 0x6B z (by simp at hn; omega) (by rw [hT.lower_k]; decide)
        have hv : ¬ kelvin <+: b :: s := by
          rintro ⟨z, hz⟩
          cases hz
          revert e1
          rw [runes]
          simp [multi, isCont]
          intro e; omega
        rw [kelvinAsK_other hv]
        have h2 : Verif.toLower (b :: kelvinAsK s) = b :: Verif.toLower (kelvinAsK s) := by
          have := (by decide +kernel : ∀ x : Fin 256, 0x80 ≤ x.val → lowerByte (UInt8.ofNat x.val) = UInt8.ofNat x.val) ⟨b.toNat, b.toNat_lt⟩
            (Nat.not_lt.1 hb)
          simp only [UInt8.ofNat_toNat] at this
          show lowerByte b :: _ = _
          rw [this]; rfl
        have hR : Verif.toLower (b :: kelvinAsK s) ≠ e := by
          rintro rfl
          have := (he b (by rw [h2]; exact List.mem_cons_self)).1
          exact hb this
        have hL : toLower T (b :: s) ≠ e := by
          rintro rfl
          have hm : ∀ c ∈ encodeRune (T.lower r), c.toNat < 0x80 ∧ c ≠ 0x69 := fun c hc => he c (by
            unfold toLower
            rw [e1, List.flatMap_cons]
            exact List.mem_append_left _ hc)
          by_cases hi : r = 0x130
          · rw [hi, hT.lower_i] at hm
            exact (hm 0x69 (by decide)).2 rfl
          · have hge : 0x80 ≤ T.lower r := Nat.not_lt.1 fun h => by
              rcases (hT.lower_other r h1).1 h with h | h
              · exact hi h
              · exact hk h
            have hne : encodeRune (T.lower r) ≠ [] := by
              unfold encodeRune
              repeat' split
              all_goals simp
            obtain ⟨c, z, hc⟩ := List.exists_cons_of_ne_nil hne
            have h4 := encodeRune_high hge c (by rw [hc]; exact List.mem_cons_self)
            have h5 := hm c (by rw [hc]; exact List.mem_cons_self)
            omega
        exact ⟨fun h => absurd h hL, fun h => absurd h hR⟩

theorem pathExtGo_snoc (c : UInt8) : ∀ (r acc : Str), pathExtGo (r ++ [c]) acc =
    if 0x2F ∈ r ∨ 0x2E ∈ r then pathExtGo r acc else if c = 0x2E then c :: (r.reverse ++ acc) else [] := by
  intro r
  induction r with
  | nil =>
    intro acc
    simp only [List.nil_append, pathExtGo, List.not_mem_nil, or_self, if_false, List.reverse_nil]
    by_cases h : c = 0x2F
    · rw [if_pos h, if_neg (by rw [h]; decide)]
    · rw [if_neg h]
  | cons x r ih =>
    intro acc
    rw [List.cons_append]
    unfold pathExtGo
    by_cases h1 : x = 0x2F
    · rw [if_pos h1, if_pos (Or.inl (by rw [h1]; exact List.mem_cons_self)), if_pos h1]
    by_cases h2 : x = 0x2E
    · rw [if_neg h1, if_pos h2, if_pos (Or.inr (by rw [h2]; exact List.mem_cons_self)), if_neg h1, if_pos h2]
    rw [if_neg h1, if_neg h2, if_neg h1, if_neg h2, ih]
    have e : (0x2F ∈ x :: r ∨ 0x2E ∈ x :: r) ↔ (0x2F ∈ r ∨ 0x2E ∈ r) := by
      simp only [List.mem_cons]
      exact ⟨fun h => h.elim (fun h => h.elim (fun h => absurd h.symm h1) .inl) fun h => h.elim (fun h => absurd h.symm h2) .inr,
        fun h => h.elim (fun h => .inl (.inr h)) fun h => .inr (.inr h)⟩
    simp only [e, List.reverse_cons, List.append_assoc, List.singleton_append]

theorem pathExt_cons (c : UInt8) (s : Str) : pathExt (c :: s) =
    if 0x2F ∈ s ∨ 0x2E ∈ s then pathExt s else if c = 0x2E then c :: s else [] := by
  unfold pathExt
  rw [List.reverse_cons, pathExtGo_snoc]
  simp only [List.mem_reverse, List.reverse_reverse, List.append_nil]

theorem pathExt_kelvin : ∀ (n : Nat) (s : Str), s.length ≤ n →
    pathExt (kelvinAsK s) = kelvinAsK (pathExt s) ∧ ((0x2F ∈ kelvinAsK s ∨ 0x2E ∈ kelvinAsK s) ↔ (0x2F ∈ s ∨ 0x2E ∈ s)) := by
  intro n
  induction n with
  | zero =>
    intro s hn
    obtain rfl : s = [] := List.length_eq_zero_iff.1 (by omega)
    rw [kelvinAsK]
    exact ⟨rfl, Iff.rfl⟩
  | succ n ih =>
    intro s hn
    cases s with
    | nil => exact ih [] (by simp)
    | cons b s =>
      rw [List.length_cons] at hn
      by_cases hk : kelvin <+: b :: s
      · obtain ⟨z, hz⟩ := hk
        cases hz
        obtain ⟨h1, h2⟩ := ih z (by simp at hn; omega)
        have e : kelvinAsK (0xE2 :: [0x84, 0xAA].append z) = 0x6B :: kelvinAsK z := by
          show kelvinAsK (0xE2 :: 0x84 :: 0xAA :: z) = _
          rw [kelvinAsK]
        rw [e, pathExt_cons, h1]
        show (if _ then _ else _) = kelvinAsK (pathExt (0xE2 :: 0x84 :: 0xAA :: z)) ∧ (_ ↔ (0x2F ∈ 0xE2 :: 0x84 :: 0xAA :: z ∨ 0x2E ∈ 0xE2 :: 0x84 :: 0xAA :: z))
        have m : (0x2F ∈ (0xE2 : UInt8) :: 0x84 :: 0xAA :: z ∨ 0x2E ∈ (0xE2 : UInt8) :: 0x84 :: 0xAA :: z) ↔ (0x2F ∈ z ∨ 0x2E ∈ z) := by simp
        have m1 : (0x2F ∈ (0x84 : UInt8) :: 0xAA :: z ∨ 0x2E ∈ (0x84 : UInt8) :: 0xAA :: z) ↔ (0x2F ∈ z ∨ 0x2E ∈ z) := by simp
        have m2 : (0x2F ∈ (0xAA : UInt8) :: z ∨ 0x2E ∈ (0xAA : UInt8) :: z) ↔ (0x2F ∈ z ∨ 0x2E ∈ z) := by simp
        refine ⟨?_, by rw [m, ← h2]; simp⟩
        rw [pathExt_cons, pathExt_cons 0x84, pathExt_cons 0xAA]
        simp only [m1, m2, h2]
        by_cases hd : 0x2F ∈ z ∨ 0x2E ∈ z
        · simp only [if_pos hd]
        · simp only [if_neg hd]
          rw [if_neg (by decide), if_neg (by decide), kelvinAsK]
      · obtain ⟨h1, h2⟩ := ih s (by omega)
        rw [kelvinAsK_other hk, pathExt_cons, pathExt_cons, h1]
        simp only [List.mem_cons, h2]
        refine ⟨?_, by
          have := h2
          constructor
          · rintro ((h | h) | (h | h))
            · exact .inl (.inl h)
            · exact (h2.1 (.inl h)).elim (fun h => .inl (.inr h)) fun h => .inr (.inr h)
            · exact .inr (.inl h)
            · exact (h2.1 (.inr h)).elim (fun h => .inl (.inr h)) fun h => .inr (.inr h)
          · rintro ((h | h) | (h | h))
            · exact .inl (.inl h)
            · exact (h2.2 (.inl h)).elim (fun h => .inl (.inr h)) fun h => .inr (.inr h)
            · exact .inr (.inl h)
            · exact (h2.2 (.inr h)).elim (fun h => .inl (.inr h)) fun h => .inr (.inr h)⟩
        split
        · rfl
        split
        · rw [kelvinAsK_other hk]
        · rw [kelvinAsK]

theorem ext_kelvin {T : Tables} (hT : IsUnicode T) (f : Str) {e : Str} (he : ∀ c ∈ e, c.toNat < 0x80 ∧ c ≠ 0x69) :
    toLower T (pathExt f) = e ↔ Verif.toLower (pathExt (kelvinAsK f)) = e := by
  rw [(pathExt_kelvin f.length f (Nat.le_refl _)).1]
  exact lower_kelvin hT _ _ e (Nat.le_refl _) he

/-- C111: the sector order that `reorder` takes from the name of an image, for every name: the one of the name with each Kelvin sign
written as k, of which only A–Z have case. -/
theorem C111_order {T : Tables} (hT : IsUnicode T) (filename : Str) (d : Disk.DiskOrder) :
    orderFromFilename T filename d = Disk.orderFromFilename (kelvinAsK filename) d := by
  unfold orderFromFilename Disk.orderFromFilename
  simp only [ext_kelvin hT filename (show ∀ c ∈ str ".dsk", _ by decide +kernel), ext_kelvin hT filename (show ∀ c ∈ str ".do", _ by decide +kernel),
    ext_kelvin hT filename (show ∀ c ∈ str ".po", _ by decide +kernel)]

/-- C111: and the opening of an image, of every name, in the same way. -/
theorem C111_open {T : Tables} (hT : IsUnicode T) {Ω : Type} (filename : Str) (raw : Bytes) (order : Disk.DiskOrder)
    (system : Str) (fs : List (Disk.Factory Ω)) :
    openImage T raw filename order system fs = Disk.openImage raw (kelvinAsK filename) order system fs := by
  unfold openImage Disk.openImage Disk.openDoOrPo Disk.ordersToTry
  simp only [ext_kelvin hT filename (show ∀ c ∈ str ".dsk", _ by decide +kernel), ext_kelvin hT filename (show ∀ c ∈ str ".do", _ by decide +kernel),
    ext_kelvin hT filename (show ∀ c ∈ str ".po", _ by decide +kernel), ext_kelvin hT filename (show ∀ c ∈ str ".hdv", _ by decide +kernel),
    ext_kelvin hT filename (show ∀ c ∈ [], _ by simp)]

end Verif.Unicode
