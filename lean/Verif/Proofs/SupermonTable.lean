import Verif.Proofs.SupermonSym

/-! # Lemmas about symbol tables on disk -/

set_option autoImplicit false
set_option maxRecDepth 20000

namespace Verif.Supermon
open Disk Spec

/-- The five bytes of an entry in the first half of the table. -/
def row1 (s : Symbol) (six : Vector UInt8 6) : Bytes :=
  [lo8 s.address, hi8 s.address,
    intToByte ((if s.link ≠ -1 then s.link * 5 + 0xD000 else 0 : Int).tmod 256),
    intToByte ((if s.link ≠ -1 then s.link * 5 + 0xD000 else 0 : Int) / 256), six[5]]

/-- The five bytes of an entry in the second half of the table. -/
def row2 (six : Vector UInt8 6) : Bytes := [six[0], six[1], six[2], six[3], six[4]]

theorem fillTables_spec {st : SymbolTable} {i : Nat} {t1 t2 u1 u2 : Bytes}
    (h : fillTables st i t1 t2 = .ok (u1, u2)) (h1 : t1.length = 0x1000) (h2 : t2.length = 0x1000) :
    (∀ k, k < 5 * i → u1[k]? = t1[k]? ∧ u2[k]? = t2[k]?) ∧
    ∀ k s, st[k]? = some s → ∃ six, encodeSymbol s.name = .ok six ∧
      ∀ m, m < 5 → u1[5 * (i + k) + m]? = (row1 s six)[m]? ∧ u2[5 * (i + k) + m]? = (row2 six)[m]? := by
  induction st generalizing i t1 t2 with
  | nil =>
    simp only [fillTables, Out.ok.injEq, Prod.mk.injEq] at h
    obtain ⟨rfl, rfl⟩ := h
    exact ⟨fun _ _ => ⟨rfl, rfl⟩, fun k s hk => by simp at hk⟩
  | cons s rest ih =>
    unfold fillTables at h
    obtain ⟨six, hsix, h⟩ := Out.bind_eq_ok.1 h
    simp only at h
    split at h
    · simp at h
    · rename_i hlt
      have l1 : (row1 s six).length = 5 := rfl
      have l2 : (row2 six).length = 5 := rfl
      change fillTables rest (i + 1) (put t1 (i * 5) (row1 s six)) (put t2 (i * 5) (row2 six)) = _ at h
      obtain ⟨ha, hb⟩ := ih h (by rw [put_length (by omega)]; exact h1)
        (by rw [put_length (by omega)]; exact h2)
      refine ⟨?_, ?_⟩
      · intro k hk
        obtain ⟨a, b⟩ := ha k (by omega)
        rw [a, b, getElem?_put (by omega), getElem?_put (by omega), if_pos (by omega),
          if_pos (by omega)]
        exact ⟨rfl, rfl⟩
      · intro k s' hk
        cases k with
        | zero =>
          simp only [List.getElem?_cons_zero, Option.some.injEq] at hk
          subst hk
          refine ⟨six, hsix, fun m hm => ?_⟩
          obtain ⟨a, b⟩ := ha (5 * (i + 0) + m) (by omega)
          rw [a, b, getElem?_put (by omega), getElem?_put (by omega), if_neg (by omega),
            if_pos (by omega), if_neg (by omega), if_pos (by omega),
            show 5 * (i + 0) + m - i * 5 = m by omega]
          exact ⟨rfl, rfl⟩
        | succ k =>
          simp only [List.getElem?_cons_succ] at hk
          obtain ⟨six', e, h'⟩ := hb k s' hk
          refine ⟨six', e, ?_⟩
          rw [show i + (k + 1) = i + 1 + k by omega]
          exact h'

theorem fillTables_ok {st : SymbolTable} (i : Nat) (t1 t2 : Bytes) (h : i + st.length ≤ 819)
    (hn : ∀ s ∈ st, ∃ six, encodeSymbol s.name = .ok six) :
    ∃ u, fillTables st i t1 t2 = .ok u := by
  induction st generalizing i t1 t2 with
  | nil => exact ⟨_, rfl⟩
  | cons s rest ih =>
    unfold fillTables
    obtain ⟨six, e⟩ := hn s (by simp)
    rw [e, Out.bind_ok]
    simp only [List.length_cons] at h ⊢
    rw [if_neg (by omega)]
    exact ih _ _ _ (by omega) (fun s hs => hn s (by simp [hs]))

/-- The raw form of an entry read back. -/
def reread (s : Symbol) : Symbol :=
  if s.address = 0 then Symbol.empty else ⟨s.address, toUpper (s.name.filter alnum), s.link⟩

/-- Links that survive the two-byte form. -/
def LinkRange (s : Symbol) : Prop :=
  s.address ≠ 0 → s.link = -1 ∨ ∃ j : Nat, s.link = (j : Int) ∧ j < 819

theorem link_bytes {j : Nat} (hj : j < 819) :
    (le16 (intToByte (((j : Int) * 5 + 0xD000).tmod 256)) (intToByte (((j : Int) * 5 + 0xD000) / 256))).toNat
      = 5 * j + 0xD000 := by
  have e1 : ((j : Int) * 5 + 0xD000).tmod 256 = (((5 * j + 0xD000) % 256 : Nat) : Int) := by
    rw [Int.tmod_eq_emod_of_nonneg (by omega)]
    omega
  have e2 : ((j : Int) * 5 + 0xD000) / 256 = (((5 * j + 0xD000) / 256 : Nat) : Int) := by omega
  rw [e1, e2, le16_toNat]
  unfold intToByte
  have t1 : ∀ n : Nat, n < 256 → (UInt8.ofNat ((n : Int) % 256).toNat).toNat = n := by
    intro n hn
    have : ((n : Int) % 256).toNat = n := by omega
    rw [this, UInt8.toNat_ofNat']
    omega
  rw [t1 _ (by omega), t1 _ (by omega)]
  omega

theorem parseSymbol_row {v1 v2 : Vector UInt8 0x1000} {i : Nat} (hi : i + 4 < 0x1000) {s : Symbol}
    {six : Vector UInt8 6} (hsix : encodeSymbol s.name = .ok six) (hl : LinkRange s)
    (h1 : ∀ m, m < 5 → v1.toList[i + m]? = (row1 s six)[m]?)
    (h2 : ∀ m, m < 5 → v2.toList[i + m]? = (row2 six)[m]?) :
    parseSymbol v1 v2 i hi = .ok (reread s) := by
  have get : ∀ (v : Vector UInt8 0x1000) (k : Nat) (hk : k < 0x1000) (x : UInt8),
      v.toList[k]? = some x → v[k] = x := by
    intro v k hk x h
    have : v.toList[k]? = some v[k] := by
      rw [List.getElem?_eq_getElem (by simpa using hk)]; simp
    rw [this] at h
    exact Option.some.inj h
  have a0 := get v1 i (by omega) _ (h1 0 (by omega))
  have a1 := get v1 (i + 1) (by omega) _ (h1 1 (by omega))
  have a2 := get v1 (i + 2) (by omega) _ (h1 2 (by omega))
  have a3 := get v1 (i + 3) (by omega) _ (h1 3 (by omega))
  have a4 := get v1 (i + 4) (by omega) _ (h1 4 (by omega))
  have b0 := get v2 i (by omega) _ (h2 0 (by omega))
  have b1 := get v2 (i + 1) (by omega) _ (h2 1 (by omega))
  have b2 := get v2 (i + 2) (by omega) _ (h2 2 (by omega))
  have b3 := get v2 (i + 3) (by omega) _ (h2 3 (by omega))
  have b4 := get v2 (i + 4) (by omega) _ (h2 4 (by omega))
  have hfive : (Vector.ofFn fun k : Fin 5 => v2[i + k.val]) =
      (⟨#[six[0], six[1], six[2], six[3], six[4]], rfl⟩ : Vector UInt8 5) := by
    apply Vector.ext
    intro k hk
    rw [Vector.getElem_ofFn]
    have : k = 0 ∨ k = 1 ∨ k = 2 ∨ k = 3 ∨ k = 4 := by omega
    rcases this with rfl | rfl | rfl | rfl | rfl
    · exact b0
    · exact b1
    · exact b2
    · exact b3
    · exact b4
  unfold parseSymbol reread
  rw [hfive, a0, a1, a2, a3, a4, le16_lo8_hi8]
  simp only
  rw [decode_encode hsix]
  by_cases h0 : s.address = 0
  · rw [if_pos h0, if_pos h0]
  · rw [if_neg h0, if_neg h0]
    rcases hl h0 with e | ⟨j, e, hj⟩
    · rw [e]
      have : le16 (intToByte ((if (-1 : Int) ≠ -1 then (-1 : Int) * 5 + 0xD000 else 0).tmod 256))
          (intToByte ((if (-1 : Int) ≠ -1 then (-1 : Int) * 5 + 0xD000 else 0) / 256)) = 0 := by
        decide +kernel
      rw [this, if_neg (by simp)]
    · have hif : (if (j : Int) ≠ -1 then (j : Int) * 5 + 0xD000 else 0) = (j : Int) * 5 + 0xD000 :=
        if_pos (by omega)
      rw [e, hif]
      have hb := link_bytes hj
      have hne : le16 (intToByte (((j : Int) * 5 + 0xD000).tmod 256))
          (intToByte (((j : Int) * 5 + 0xD000) / 256)) ≠ 0 := by
        intro h; rw [h] at hb; simp at hb
      rw [if_pos hne, hb, if_neg (by omega), if_neg (by omega)]
      congr 2
      omega

theorem parseSymbols_rows {v1 v2 : Vector UInt8 0x1000} {st : SymbolTable} (hlen : st.length = 819)
    (h : ∀ k s, st[k]? = some s → ∃ six, encodeSymbol s.name = .ok six ∧ LinkRange s ∧
      ∀ m, m < 5 → v1.toList[5 * k + m]? = (row1 s six)[m]? ∧ v2.toList[5 * k + m]? = (row2 six)[m]?)
    (n : Nat) (hn : n ≤ 819) :
    parseSymbols v1 v2 n hn = .ok ((st.take n).map reread) := by
  induction n with
  | zero => simp [parseSymbols]
  | succ n ih =>
    have hs : st[n]? = some st[n] := List.getElem?_eq_getElem (by omega)
    obtain ⟨six, e, hl, hm⟩ := h n _ hs
    unfold parseSymbols
    rw [ih (by omega), Out.bind_ok,
      parseSymbol_row (by omega) e hl (fun m h' => (hm m h').1) (fun m h' => (hm m h').2), Out.bind_ok]
    rw [List.take_add_one, hs, List.map_append]
    rfl

/-- Reading back a table just written: exactly the re-read entries, if the link check accepts
them. -/
theorem read_write {sm : SectorMap} {img : Bytes} (h : Good sm img) {st : SymbolTable}
    (hlen : st.length = 819) (hl : ∀ s ∈ st, LinkRange s)
    (hw : (writeSymbolTable sm img st).1 = .ok ()) :
    readSymbolTable (writeSymbolTable sm img st).2.1 (writeSymbolTable sm img st).2.2 =
      (checkLinks (st.map reread) (st.map reread) 0).bind fun _ => .ok (st.map reread) := by
  unfold writeSymbolTable at hw ⊢
  split at hw
  case h_2 => simp at hw
  case h_3 => simp at hw
  case h_4 => simp at hw
  rename_i t1 t2 ht
  obtain ⟨l1, l2⟩ := fillTables_length ht (zeros_length _) (zeros_length _)
  have n1 := ne_nil_of_length l1
  have n2 := ne_nil_of_length l2
  have r1 := writeFile_returns (sm := sm) true h.len isFile3 n1
  have k1 := keep_writeFile (c := t1) (ow := true) h isFile3 (by rintro e; rw [e] at r1; simp at r1)
  have r2 := writeFile_returns (sm := (writeFile sm img 3 t1 true).sm)
    (img := (writeFile sm img 3 t1 true).img) true k1.good.len isFile4 n2
  have k2 := keep_writeFile (c := t2) (ow := true) k1.good isFile4
    (by rintro e; rw [e] at r2; simp at r2)
  simp only at hw ⊢
  split at hw
  case h_2 => simp at hw
  case h_3 => simp at hw
  case h_4 => simp at hw
  rename_i u1 ho1
  split at hw
  case h_2 => simp at hw
  case h_3 => simp at hw
  case h_4 => simp at hw
  rename_i u2 ho2
  simp only
  have p1 : padded t1 = t1 := by unfold padded; rw [l1]; simp
  have p2 : padded t2 = t2 := by unfold padded; rw [l2]; simp
  have f3 := (C23_write_read h.len h.legal isFile3 n1 ho1).1
  have f4 := (C23_write_read k1.good.len k1.good.legal isFile4 n2 ho2).1
  rw [p2] at f4
  rw [p1, readFile_eq k1.good.len] at f3
  have f3' : readFile (writeFile (writeFile sm img 3 t1 true).sm (writeFile sm img 3 t1 true).img 4 t2 true).sm
      (writeFile (writeFile sm img 3 t1 true).sm (writeFile sm img 3 t1 true).img 4 t2 true).img 3 = .ok t1 := by
    rw [readFile_eq k2.good.len, k2.bytes 3 isFile3 (by decide)]
    exact f3
  unfold readSymbolTable
  rw [f3', Out.bind_ok, dif_pos l1, f4, Out.bind_ok, dif_pos l2]
  have hp := parseSymbols_rows (v1 := ⟨t1.toArray, by simpa using l1⟩)
    (v2 := ⟨t2.toArray, by simpa using l2⟩) hlen (by
      intro k s hk
      obtain ⟨six, e, hm⟩ := (fillTables_spec ht (zeros_length _) (zeros_length _)).2 k s hk
      refine ⟨six, e, hl s (List.mem_of_getElem? hk), fun m h' => ?_⟩
      have := hm m h'
      rw [Nat.zero_add] at this
      exact this) 819 (Nat.le_refl _)
  rw [hp, Out.bind_ok, List.take_of_length_le (by omega)]
  rfl

theorem addrHash_eq (a : UInt16) : (addrHash a).toNat = symbolHash a := by
  unfold addrHash symbolHash
  rw [UInt8.toNat_and, UInt8.toNat_xor, lo8_toNat, hi8_toNat]
  exact Nat.and_two_pow_sub_one_eq_mod _ 7

theorem addrHash_inj {a b : UInt16} : addrHash a = addrHash b ↔ symbolHash a = symbolHash b := by
  rw [← addrHash_eq, ← addrHash_eq, UInt8.toNat_inj]

theorem checkLinks_ok_iff (table rest : SymbolTable) (i : Nat) :
    checkLinks table rest i = .ok () ↔ ∀ k s, rest[k]? = some s → checkLink table (i + k) s = .ok () := by
  induction rest generalizing i with
  | nil => simp [checkLinks]
  | cons s rest ih =>
    unfold checkLinks
    rw [Out.bind_eq_ok]
    constructor
    · rintro ⟨⟨⟩, h1, h2⟩ k s' hk
      cases k with
      | zero => simp at hk; subst hk; exact h1
      | succ k =>
        have := (ih (i + 1)).1 h2 k s' (by simpa using hk)
        rw [show i + (k + 1) = i + 1 + k by omega]; exact this
    · intro h
      refine ⟨(), h 0 s (by simp), (ih (i + 1)).2 fun k s' hk => ?_⟩
      have := h (k + 1) s' (by simpa using hk)
      rw [show i + (k + 1) = i + 1 + k by omega] at this; exact this

theorem checkLink_ok_iff (table : SymbolTable) (i : Nat) (s : Symbol) :
    checkLink table i s = .ok () ↔ LinkOk table i s := by
  unfold checkLink LinkOk
  by_cases h0 : s.address = 0
  · simp [h0]
  by_cases h1 : s.link = -1
  · simp [h1]
  rw [if_pos ⟨h0, h1⟩]
  constructor
  · intro h _
    right
    split at h
    · simp at h
    · rename_i h2
      split at h
      · simp at h
      · rename_i h3
        split at h
        · simp at h
        · rename_i t ht
          split at h
          · simp at h
          · rename_i h4
            refine ⟨s.link.toNat, t, by omega, by omega, ht, ?_⟩
            exact (addrHash_inj.1 (Decidable.not_not.1 h4)).symm
  · intro h
    rcases h h0 with h | ⟨j, t, e, hj, ht, hh⟩
    · exact absurd h h1
    · rw [if_neg (by omega), if_neg (by omega)]
      have : s.link.toNat = j := by omega
      rw [this, ht]
      simp only
      rw [if_neg]
      simpa using addrHash_inj.2 hh.symm

theorem reread_address (s : Symbol) : (reread s).address = s.address := by
  unfold reread
  split
  · rename_i h; rw [h]; rfl
  · rfl

theorem reread_link {s : Symbol} (h : s.address ≠ 0) : (reread s).link = s.link := by
  unfold reread
  rw [if_neg h]

theorem linkOk_reread {st : SymbolTable} {i : Nat} {s : Symbol} :
    LinkOk (st.map reread) i (reread s) ↔ LinkOk st i s := by
  unfold LinkOk
  rw [reread_address]
  apply imp_congr_right
  intro h
  rw [reread_link h]
  apply or_congr_right
  constructor
  · rintro ⟨j, t, e, hj, ht, hh⟩
    rw [List.getElem?_map] at ht
    cases hs : st[j]? with
    | none => rw [hs] at ht; simp at ht
    | some t' =>
      rw [hs] at ht
      simp only [Option.map_some, Option.some.injEq] at ht
      subst ht
      rw [reread_address] at hh
      exact ⟨j, t', e, hj, hs, hh⟩
  · rintro ⟨j, t, e, hj, ht, hh⟩
    exact ⟨j, reread t, e, hj, by rw [List.getElem?_map, ht]; rfl, by rw [reread_address]; exact hh⟩

theorem checkLinks_reread (st : SymbolTable) :
    checkLinks (st.map reread) (st.map reread) 0 = .ok () ↔ ∀ i s, st[i]? = some s → LinkOk st i s := by
  rw [checkLinks_ok_iff]
  constructor
  · intro h i s hi
    have := h i (reread s) (by rw [List.getElem?_map, hi]; rfl)
    rw [Nat.zero_add, checkLink_ok_iff, linkOk_reread] at this
    exact this
  · intro h k s hk
    rw [List.getElem?_map] at hk
    cases hs : st[k]? with
    | none => rw [hs] at hk; simp at hk
    | some t =>
      rw [hs] at hk
      simp only [Option.map_some, Option.some.injEq] at hk
      subst hk
      rw [Nat.zero_add, checkLink_ok_iff, linkOk_reread]
      exact h k t hs

end Verif.Supermon
