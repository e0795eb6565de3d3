import Verif.Props.SupermonPut

/-!
# Files whose sectors come before every free sector

A write takes the first free sectors, so it leaves the file it writes in this state; and writing such a file again with contents of
the same length takes the same sectors.
-/

set_option autoImplicit false

namespace Verif.Supermon
open Disk Spec

/-- Every free sector comes after all sectors of `f`. -/
def Settled (sm : SectorMap) (f : UInt8) : Prop :=
  ∀ n ∈ ownedBy (own sm) f, ∀ k ∈ ownedBy (own sm) 0xFF, n < k

/-- A filtered sorted list, the elements of `q` first. -/
theorem filter_front {l : List Nat} (hs : l.Pairwise (· < ·)) (p q : Nat → Bool) (hq : ∀ n, q n = true → p n = true)
    (h : ∀ n ∈ l, ∀ k ∈ l, q n = true → p k = true → q k = false → n < k) :
    l.filter p = l.filter q ++ l.filter (fun n => p n && !q n) := by
  induction l with
  | nil => rfl
  | cons a l ih =>
    rw [List.pairwise_cons] at hs
    have ih' := ih hs.2 (fun n hn k hk => h n (by simp [hn]) k (by simp [hk]))
    by_cases hqa : q a = true
    · simp only [List.filter_cons, hqa, hq a hqa, if_true, Bool.not_true, Bool.and_false, Bool.false_eq_true, if_false,
        List.cons_append, ih']
    · have hqa' : q a = false := by simpa using hqa
      by_cases hpa : p a = true
      · -- nothing of `q` comes after `a`
        have hnil : l.filter q = [] := by
          rw [List.filter_eq_nil_iff]
          intro n hn hqn
          have h1 := h n (by simp [hn]) a (by simp) hqn hpa hqa'
          have h2 := hs.1 n hn
          omega
        simp only [List.filter_cons, hqa', hpa, if_true, Bool.not_false, Bool.and_true, Bool.false_eq_true, if_false,
          hnil, List.nil_append]
        rw [ih', hnil, List.nil_append]
      · simp only [List.filter_cons, hqa', hpa, Bool.false_eq_true, if_false, Bool.false_and, ih']

theorem range_sorted (n : Nat) : (List.range n).Pairwise (· < ·) := List.pairwise_lt_range

theorem ownedBy_sorted (m : Nat → UInt8) (f : UInt8) : (ownedBy m f).Pairwise (· < ·) := by
  unfold ownedBy
  exact (range_sorted 560).filter _

/-- The free sectors once `f` is deleted: those of `f`, then the others. -/
theorem free_settled {sm : SectorMap} {f : UInt8} (hf : f ≠ 0xFF) (h : Settled sm f) :
    ownedBy (own (deleteFile sm f)) 0xFF = ownedBy (own sm) f ++ ownedBy (own sm) 0xFF := by
  have h1 : ownedBy (own (deleteFile sm f)) 0xFF = (List.range 560).filter (fun n => own sm n = 0xFF ∨ own sm n = f) := by
    unfold ownedBy
    apply List.filter_congr
    intro n hn
    rw [own_deleteFile sm f (List.mem_range.1 hn)]
    by_cases e : own sm n = f <;> simp [e]
  rw [h1, filter_front (range_sorted 560) (fun n => decide (own sm n = 0xFF ∨ own sm n = f)) (fun n => decide (own sm n = f))]
  · have h2 : ownedBy (own sm) 0xFF = (List.range 560).filter (fun n => decide (own sm n = 0xFF ∨ own sm n = f) && !decide (own sm n = f)) := by
      unfold ownedBy
      apply List.filter_congr
      intro n _
      by_cases e : own sm n = f
      · simp [e, hf]
      · simp [e]
    rw [h2]
    rfl
  · intro n hn
    simp only [decide_eq_true_eq] at hn ⊢
    exact Or.inr hn
  · intro n hn k hk h1 h2 h3
    simp only [decide_eq_true_eq, decide_eq_false_iff_not] at h1 h2 h3
    exact h n (mem_ownedBy.2 ⟨List.mem_range.1 hn, h1⟩) k (mem_ownedBy.2 ⟨List.mem_range.1 hk, h2.resolve_right h3⟩)

theorem targets_settled {sm : SectorMap} {f : UInt8} {c : Bytes} (hf : f ≠ 0xFF) (h : Settled sm f)
    (hc : (c.length + 255) / 256 = (ownedBy (own sm) f).length) : targets sm f c = ownedBy (own sm) f := by
  unfold targets
  rw [free_settled hf h, hc, List.take_left]

theorem newMap_settled {sm : SectorMap} {f : UInt8} {c : Bytes} (hf : f ≠ 0xFF) (h : Settled sm f)
    (hc : (c.length + 255) / 256 = (ownedBy (own sm) f).length) : newMap sm f c = sm := by
  apply own_ext
  intro n hn
  rw [own_newMap sm f c hn, targets_settled hf h hc]
  by_cases e : own sm n = f
  · rw [if_pos (mem_ownedBy.2 ⟨hn, e⟩), e]
  · rw [if_neg (fun hm => e (mem_ownedBy.1 hm).2)]
    rw [if_neg e]

/-- The free sectors after a write are those the write did not take. -/
theorem mem_free_newMap {sm : SectorMap} {f : UInt8} {c : Bytes} (hf : f ≠ 0xFF) {k : Nat}
    (h : k ∈ ownedBy (own (newMap sm f c)) 0xFF) :
    k ∈ (ownedBy (own (deleteFile sm f)) 0xFF).drop ((c.length + 255) / 256) := by
  obtain ⟨hk, he⟩ := mem_ownedBy.1 h
  unfold newMap at he
  rw [own_claim _ _ _ hk] at he
  split at he
  · exact absurd he hf
  rename_i hn
  have hm := mem_ownedBy.2 ⟨hk, he⟩
  rw [← List.take_append_drop ((c.length + 255) / 256) (ownedBy (own (deleteFile sm f)) 0xFF), List.mem_append] at hm
  exact hm.resolve_left hn

theorem take_lt_drop {l : List Nat} (hs : l.Pairwise (· < ·)) {i n k : Nat} (hn : n ∈ l.take i) (hk : k ∈ l.drop i) : n < k := by
  rw [← List.take_append_drop i l, List.pairwise_append] at hs
  exact hs.2.2 n hn k hk

theorem settled_newMap (sm : SectorMap) {f : UInt8} (c : Bytes) (hf : f ≠ 0xFF) : Settled (newMap sm f c) f := by
  intro n hn k hk
  rw [ownedBy_newMap_self sm c hf] at hn
  exact take_lt_drop (ownedBy_sorted _ _) hn (mem_free_newMap hf hk)

/-- Writing another file that does not become shorter does not free a sector before those of `f`. -/
theorem settled_newMap_other {sm : SectorMap} {f g : UInt8} {c : Bytes} (hf : f ≠ 0xFF) (hg : g ≠ 0xFF) (hfg : f ≠ g) (h : Settled sm f)
    (hc : (ownedBy (own sm) g).length ≤ (c.length + 255) / 256) : Settled (newMap sm g c) f := by
  intro n hn k hk
  rw [ownedBy_newMap_other sm c hfg hf] at hn
  have hk' := mem_free_newMap hg hk
  by_contra hlt
  have hcase : ∀ x, x ∈ ownedBy (own (deleteFile sm g)) 0xFF → x ≤ k → x ∈ ownedBy (own sm) g := by
    intro x hx hxk
    obtain ⟨hx1, hx2⟩ := mem_ownedBy.1 hx
    rw [own_deleteFile _ _ hx1] at hx2
    split at hx2
    · rename_i e; exact mem_ownedBy.2 ⟨hx1, e⟩
    · have := h n hn x (mem_ownedBy.2 ⟨hx1, hx2⟩)
      omega
  have hs := ownedBy_sorted (own (deleteFile sm g)) 0xFF
  generalize ownedBy (own (deleteFile sm g)) 0xFF = l at hk' hcase hs
  generalize (c.length + 255) / 256 = m at hk' hc
  have hlen : (l.take m).length = m := by
    rw [List.length_take]
    have := List.length_pos_of_mem hk'
    rw [List.length_drop] at this
    omega
  have hnd : (k :: l.take m).Nodup := by
    rw [List.nodup_cons]
    refine ⟨fun hc => ?_, (hs.sublist (List.take_sublist _ _)).imp (fun h => Nat.ne_of_lt h)⟩
    have := take_lt_drop hs hc hk'
    omega
  have hsub : (k :: l.take m) ⊆ ownedBy (own sm) g := by
    intro x hx
    rcases List.mem_cons.1 hx with rfl | hx
    · exact hcase _ (List.mem_of_mem_drop hk') (Nat.le_refl _)
    · exact hcase _ (List.mem_of_mem_take hx) (Nat.le_of_lt (take_lt_drop hs hx hk'))
  have := (List.subperm_of_subset hnd hsub).length_le
  rw [List.length_cons, hlen] at this
  omega

/-! ## Writing what is there already -/

theorem put_slice_self {α : Type} {l d : List α} {o : Nat} (h : slice l o d.length = d) (hl : o + d.length ≤ l.length) : put l o d = l := by
  apply List.ext_getElem?
  intro i
  rw [getElem?_put (by omega)]
  split
  · rfl
  · split
    · rename_i h1 h2
      rw [← h]
      unfold slice
      rw [List.getElem?_take, if_pos (by omega), List.getElem?_drop]
      congr 1
      omega
    · rfl

theorem putAll_same (ws : List (Nat × Bytes)) (l : Bytes)
    (h : ∀ w ∈ ws, w.2.length = 256 ∧ (w.1 + 1) * 256 ≤ l.length ∧ slice l (w.1 * 256) 256 = w.2) : putAll 256 ws l = l := by
  induction ws with
  | nil => rfl
  | cons w ws ih =>
    obtain ⟨h1, h2, h3⟩ := h w (by simp)
    unfold putAll
    rw [put_slice_self (by rw [h1]; exact h3) (by rw [h1]; omega)]
    exact ih (fun v hv => h v (by simp [hv]))

theorem slice_flatMap {α : Type} {k : Nat} (g : Nat → List α) (t : List Nat) (hg : ∀ n ∈ t, (g n).length = k) {i n : Nat} (h : t[i]? = some n) :
    slice (t.flatMap g) (i * k) k = g n := by
  induction t generalizing i with
  | nil => simp at h
  | cons a t ih =>
    have ha := hg a (by simp)
    cases i with
    | zero =>
      simp only [List.getElem?_cons_zero, Option.some.injEq] at h
      subst h
      unfold slice
      rw [Nat.zero_mul, List.drop_zero, List.flatMap_cons, List.take_append_of_le_length (by omega), ← ha, List.take_length]
    | succ i =>
      rw [List.getElem?_cons_succ] at h
      have := ih (fun n hn => hg n (by simp [hn])) h
      unfold slice at this ⊢
      rw [List.flatMap_cons, show (i + 1) * k = (g a).length + i * k by rw [ha, Nat.add_mul]; omega, List.drop_append,
        List.drop_eq_nil_of_le (by omega), List.nil_append, Nat.add_sub_cancel_left]
      exact this

theorem of_mem_chunks {cts : Bytes} {t : List Nat} {w : Nat × Bytes} (h : w ∈ chunks cts 0 t) :
    ∃ k, t[k]? = some w.1 ∧ w.2 = slice cts (k * 256) 256 := by
  unfold chunks at h
  obtain ⟨⟨n, k⟩, hm, rfl⟩ := List.mem_map.1 h
  rw [List.mem_zipIdx_iff_getElem?] at hm
  exact ⟨k, hm, rfl⟩

theorem padded_sectors {sm : SectorMap} {img : Bytes} (h : Good sm img) {f : UInt8} {c : Bytes}
    (hb : fileBytes (own sm) img f = padded c) : (c.length + 255) / 256 = (ownedBy (own sm) f).length := by
  have := congrArg List.length hb
  rw [fileBytes_length h.len, padded_length] at this
  omega

theorem sectorNo_length {img : Bytes} (hi : img.length = 143360) {n : Nat} (h : n < 560) : (sectorNo img n).length = 256 := by
  rw [sectorNo_eq]
  unfold slice
  rw [List.length_take, List.length_drop, hi]
  omega

/-- Writing what the file holds already, at the sectors it has. -/
theorem writeFile_same {sm : SectorMap} {img : Bytes} (h : Good sm img) {f : UInt8} (hf : IsFileNumber f) (hs : Settled sm f) {c : Bytes}
    (hc : c ≠ []) (hb : fileBytes (own sm) img f = padded c) : writeFile sm img f c true = ⟨true, .ok (), sm, img⟩ := by
  have hn := padded_sectors h hb
  have hpos : 0 < c.length := List.length_pos_iff.2 hc
  rw [writeFile_ok h.len hf hc (by unfold Fits; omega) (Or.inl rfl), newMap_settled hf.2.2 hs hn]
  have hmap : put img 2512 sm.toList = img := by
    have hl := h.len
    apply List.ext_getElem?
    intro i
    rw [getElem?_put (by omega)]
    split
    · rfl
    · split
      · rename_i h1 h2
        have := (loaded_iff (by omega) sm).1 h.loaded (i - 2512) (by simp at h2; omega)
        have h560 : i - 2512 < 560 := by simp at h2; omega
        rw [own_eq h560] at this
        unfold owner at this
        rw [List.getD_eq_getElem?_getD, show 2512 + (i - 2512) = i by omega, List.getElem?_eq_getElem (by omega), Option.getD_some] at this
        rw [List.getElem?_eq_getElem (by simp; omega), List.getElem?_eq_getElem (by omega), Vector.getElem_toList, this]
      · rfl
  have himg : newImg sm f c img = img := by
    unfold newImg
    rw [newMap_settled hf.2.2 hs hn, targets_settled hf.2.2 hs hn, putAll_same, hmap]
    intro w hw
    obtain ⟨k, hk, hw2⟩ := of_mem_chunks hw
    have hm := List.mem_of_getElem? hk
    have h560 := (mem_ownedBy.1 hm).1
    have key : sectorNo img w.1 = w.2 := by
      rw [hw2, ← hb]
      unfold fileBytes
      exact (slice_flatMap (k := 256) _ _ (fun n hn => sectorNo_length h.len (mem_ownedBy.1 hn).1) hk).symm
    rw [sectorNo_eq] at key
    refine ⟨?_, ?_, key⟩
    · rw [← key]
      unfold slice
      rw [List.length_take, List.length_drop, h.len]
      omega
    · rw [h.len]; omega
  rw [himg, decide_eq_true (by omega)]

end Verif.Supermon
