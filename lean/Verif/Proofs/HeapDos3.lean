import Verif.Proofs.HeapOp
import Verif.Model.HeapDos3

/-!
# Lemmas: the DOS 3.3 operator on slices in memory
-/

set_option autoImplicit false

namespace Verif.HeapDos3
open Disk Heap
open Dos3 (FileDesc TrackSector TrackSectorList tslLoop lastEntry)

/-- A new slice with these bytes and room for `c`, zeros behind them. -/
structure Fill (m m' : Mem) (r : Heap.Slice) (b : Bytes) (c : Nat) : Prop where
  valid : Valid m' r
  arr : m.length ≤ r.arr
  cap : r.cap = c
  len : r.len = b.length
  all : bytesOf m' ⟨r.arr, r.off, c, c⟩ = b ++ zeros (c - b.length)

theorem Fill.le {m m' : Mem} {r : Heap.Slice} {b : Bytes} {c : Nat} (h : Fill m m' r b c) : b.length ≤ c := by
  rw [← h.len, ← h.cap]; exact h.valid.len

theorem Fill.wide {m m' : Mem} {r : Heap.Slice} {b : Bytes} {c : Nat} (h : Fill m m' r b c) : Valid m' ⟨r.arr, r.off, c, c⟩ :=
  ⟨h.valid.arr, by rw [← h.cap]; exact h.valid.room, Nat.le_refl _⟩

/-- A part of the slice, up to its capacity. -/
theorem Fill.part {m m' : Mem} {r : Heap.Slice} {b : Bytes} {c : Nat} (h : Fill m m' r b c) {lo n k : Nat} (hn : lo + n ≤ c) :
    bytesOf m' ⟨r.arr, r.off + lo, n, k⟩ = slice (b ++ zeros (c - b.length)) lo n := by
  have := bytesOf_part (m := m') (s := ⟨r.arr, r.off, c, c⟩) (lo := lo) (hi := lo + n) (by omega) hn
  rw [h.all, Nat.add_sub_cancel_left] at this
  rw [← this]
  unfold bytesOf Heap.part
  simp

theorem Fill.bytes {m m' : Mem} {r : Heap.Slice} {b : Bytes} {c : Nat} (h : Fill m m' r b c) : bytesOf m' r = b := by
  have := h.part (lo := 0) (n := b.length) (k := r.cap) (by have := h.le; omega)
  rw [Nat.add_zero, ← h.len] at this
  rw [show bytesOf m' r = bytesOf m' ⟨r.arr, r.off, r.len, r.cap⟩ from rfl, this, h.len]
  unfold slice
  rw [List.drop_zero, List.take_left' rfl]

theorem Fill.append {m m' : Mem} {r : Heap.Slice} {b : Bytes} {c : Nat} (h : Fill m m' r b c) (x : Mem) : Fill m (m' ++ x) r b c :=
  ⟨h.valid.append x, h.arr, h.cap, h.len, by rw [bytesOf_append (by exact h.valid.arr)]; exact h.all⟩

theorem append_fill {grow : Nat → Nat → Nat} {m x : Mem} {r t : Heap.Slice} {b b' : Bytes} {c : Nat} (h : Fill m (m ++ x) r b c)
    (ht : Valid (m ++ x) t) (hb : bytesOf (m ++ x) t = b') (hc : b.length + b'.length ≤ c) :
    ∃ x' r', Heap.append grow r t (m ++ x) = (.ok r', m ++ x') ∧ Fill m (m ++ x') r' (b ++ b') c := by
  have htl : t.len = b'.length := by rw [← hb]; exact (bytesOf_length ht).symm
  have hcap := h.cap
  have hlen := h.len
  unfold Heap.append
  rw [if_pos (by omega)]
  obtain ⟨x', hx'⟩ := store_right (m := m) (x := x) (s := ⟨r.arr, r.off + r.len, t.len, t.len⟩) h.arr (bytesOf (m ++ x) t)
  rw [hx']
  refine ⟨x', _, rfl, ?_⟩
  rw [← hx', hb]
  rw [store_part h.wide (lo := r.len) ⟨r.arr, r.off + r.len, t.len, t.len⟩ rfl rfl (by show r.len + b'.length ≤ c; omega), h.all]
  have hl : (b ++ zeros (c - b.length)).length = c := by rw [List.length_append, zeros_length]; have := h.le; omega
  have hp : put (b ++ zeros (c - b.length)) r.len b' = b ++ b' ++ zeros (c - (b ++ b').length) := by
    unfold put
    rw [hlen, List.take_left' rfl, List.drop_append, List.drop_of_length_le (by omega), List.nil_append, List.length_append]
    unfold zeros
    rw [List.drop_replicate]
    congr 2
    omega
  have hpl : (put (b ++ zeros (c - b.length)) r.len b').length = c := by rw [put_length (by omega), hl]
  refine ⟨?_, h.arr, hcap, by show r.len + t.len = _; rw [List.length_append]; omega, ?_⟩
  · have : Valid (m ++ x) ⟨r.arr, r.off, r.len + t.len, r.cap⟩ := ⟨h.valid.arr, h.valid.room, by show r.len + t.len ≤ r.cap; omega⟩
    exact this.store h.wide (by rw [hpl]; exact Nat.le_refl _)
  · show bytesOf _ ⟨r.arr, r.off, c, c⟩ = _
    rw [bytesOf_store_same h.wide hpl, hp]

theorem appendSectors_run {grow : Nat → Nat → Nat} {m : Mem} {d : Heap.Slice} {img : Bytes} {c : Nat} (hd : Valid m d) (hi : bytesOf m d = img)
    (l : List TrackSector) {x : Mem} {r : Heap.Slice} {b : Bytes} (h : Fill m (m ++ x) r b c) (hc : b.length + 256 * l.length ≤ c) :
    (∃ b', Dos3.appendSectors img l b = .ok b' ∧ b'.length = b.length + 256 * l.length ∧
      ∃ x' r', appendSectors grow d l r (m ++ x) = (.ok r', m ++ x') ∧ Fill m (m ++ x') r' b' c) ∨
    ∃ k, Dos3.appendSectors img l b = .err k ∧ ∃ x', appendSectors grow d l r (m ++ x) = (.err k, m ++ x') := by
  induction l generalizing x r b with
  | nil => exact Or.inl ⟨b, rfl, by simp, x, r, rfl, h⟩
  | cons ts rest ih =>
    rw [List.length_cons] at hc
    unfold appendSectors Dos3.appendSectors
    by_cases hz : ts.track = 0 ∧ ts.sector = 0
    · rw [if_pos hz, if_pos hz, bind_ok (make_run 256 _)]
      have hzl := zeros_length 256
      generalize zeros 256 = z at hzl ⊢
      have hv := fresh_valid (m ++ x) z [] (n := 256) (Nat.le_refl _) (Nat.le_of_eq hzl.symm)
      have hb := bytesOf_fresh (m ++ x) z [] 256 hzl.symm
      have h' := h.append [z]
      rw [List.append_assoc] at hv hb h' ⊢
      obtain ⟨x', r', e, hf⟩ := append_fill (grow := grow) h' hv hb (by omega)
      rw [bind_ok e]
      have hl : (b ++ z).length = b.length + 256 := by rw [List.length_append, hzl]
      rcases ih hf (by omega) with ⟨b', h1, h2, h3⟩ | h1
      · exact Or.inl ⟨b', h1, by rw [h2, hl, List.length_cons]; omega, h3⟩
      · exact Or.inr h1
    · rw [if_neg hz, if_neg hz]
      rcases readSector_run (hd.append x) ts.track ts.sector with ⟨s, h1, h2, h3⟩ | ⟨k, h1, h2⟩ <;> rw [bytesOf_append hd.arr, hi] at h1 <;> rw [h1]
      case inr => rw [bind_err h2]; exact Or.inr ⟨k, rfl, x, rfl⟩
      rw [bind_ok h2]
      have hv := fresh_valid (m ++ x) s [] (n := 256) (Nat.le_refl _) (Nat.le_of_eq h3.symm)
      have hb := bytesOf_fresh (m ++ x) s [] 256 h3.symm
      have h' := h.append [s]
      rw [List.append_assoc] at hv hb h' ⊢
      obtain ⟨x', r', e, hf⟩ := append_fill (grow := grow) h' hv hb (by omega)
      rw [bind_ok e]
      have hl : (b ++ s).length = b.length + 256 := by rw [List.length_append, h3]
      dsimp only
      rcases ih hf (by omega) with ⟨b', g1, g2, g3⟩ | g1
      · exact Or.inl ⟨b', g1, by rw [g2, hl, List.length_cons]; omega, g3⟩
      · exact Or.inr g1

theorem appendLists_run {grow : Nat → Nat → Nat} {m : Mem} {d : Heap.Slice} {img : Bytes} {c : Nat} (hd : Valid m d) (hi : bytesOf m d = img)
    (l : List TrackSectorList) {x : Mem} {r : Heap.Slice} {b : Bytes} (h : Fill m (m ++ x) r b c) (hc : b.length + 256 * 122 * l.length ≤ c) :
    (∃ b', Dos3.appendLists img l b = .ok b' ∧ ∃ x' r', appendLists grow d l r (m ++ x) = (.ok r', m ++ x') ∧ Fill m (m ++ x') r' b' c) ∨
    ∃ k, Dos3.appendLists img l b = .err k ∧ ∃ x', appendLists grow d l r (m ++ x) = (.err k, m ++ x') := by
  induction l generalizing x r b with
  | nil => exact Or.inl ⟨b, rfl, x, r, rfl, h⟩
  | cons tsl rest ih =>
    rw [List.length_cons] at hc
    unfold appendLists Dos3.appendLists
    dsimp only
    generalize hL : tsl.trackSectors.toList.take _ = L
    have hLl : L.length ≤ 122 := by
      rw [← hL, List.length_take, Vector.length_toList]
      omega
    rcases appendSectors_run (grow := grow) hd hi L h (by omega) with ⟨b', h1, h2, x', r', h3, h4⟩ | ⟨k, h1, x', h2⟩
    · rw [h1, bind_ok h3]
      exact ih h4 (by omega)
    · rw [h1, bind_err h2]
      exact Or.inr ⟨k, rfl, x', rfl⟩

theorem contents_run {grow : Nat → Nat → Nat} {m : Mem} {d : Heap.Slice} {img : Bytes} (hd : Valid m d) (hi : bytesOf m d = img) (fd : FileDesc) :
    (∃ s, Dos3.contents fd img = .ok s ∧ ∃ x r, contents grow fd d m = (.ok r, m ++ x) ∧ Fill m (m ++ x) r s.data (s.data.length + s.spare)) ∨
    ∃ k : Out Unit, (∀ a, k ≠ .ok a) ∧ outcome (Dos3.contents fd img) = k ∧ ∃ x, outcome (contents grow fd d m).1 = k ∧ (contents grow fd d m).2 = m ++ x := by
  unfold contents Dos3.contents Dos3.contentsFuel
  rw [bind_ok (x := read d) (m' := m) (a := img) (by unfold read; rw [hi])]
  cases tslLoop img 65537 fd.trackSectorListTrack fd.trackSectorListSector [] [] with
  | err k => rw [bind_err (x := lift (.err k)) (k := k) (m' := m) rfl]; exact Or.inr ⟨.err k, (fun _ => by simp), rfl, [], rfl, by simp⟩
  | panic => rw [bind_panic (x := lift .panic) (m' := m) rfl]; exact Or.inr ⟨.panic, (fun _ => by simp), rfl, [], rfl, by simp⟩
  | timeout => rw [bind_timeout (x := lift .timeout) (m' := m) rfl]; exact Or.inr ⟨.timeout, (fun _ => by simp), rfl, [], rfl, by simp⟩
  | ok tsls =>
  rw [bind_ok (x := lift (.ok tsls)) (a := tsls) (m' := m) rfl, Out.bind_ok]
  have hc : ∀ c, Fill m (m ++ [zeros c]) ⟨m.length, 0, 0, c⟩ [] c := fun c =>
    ⟨fresh_valid m (zeros c) [] (Nat.zero_le _) (Nat.le_of_eq (zeros_length c).symm), Nat.le_refl _, rfl, rfl, bytesOf_fresh m (zeros c) [] c (zeros_length c).symm⟩
  rw [bind_ok (x := makeCap _) (m' := m ++ [zeros (256 * 122 * tsls.length)]) rfl]
  rcases appendLists_run (grow := grow) hd hi tsls (hc (256 * 122 * tsls.length)) (by simp) with ⟨b, h1, x, r, h2, h3⟩ | ⟨k, h1, x, h2⟩
  · rw [h1, h2, Out.bind_ok]
    refine Or.inl ⟨_, rfl, x, r, rfl, ?_⟩
    have := h3.le
    show Fill m (m ++ x) r b (b.length + (256 * 122 * tsls.length - b.length))
    rw [show b.length + (256 * 122 * tsls.length - b.length) = 256 * 122 * tsls.length by omega]
    exact h3
  · rw [h1, h2]
    exact Or.inr ⟨.err k, (fun _ => by simp), rfl, x, rfl, rfl⟩

/-- Trailing zeros. -/
theorem trimLoop_run {m m' : Mem} (n : Nat) {r : Heap.Slice} {b : Bytes} (h : New m m' r b) (hv : Valid m' r) (hn : r.len = n) :
    (∃ b', Dos3.Operator.trimZeros b = .ok b' ∧ ∃ r', trimLoop n r m' = (.ok r', m') ∧ New m m' r' b' ∧ Valid m' r' ∧ r'.arr = r.arr) ∨
    Dos3.Operator.trimZeros b = .panic ∧ trimLoop n r m' = (.panic, m') := by
  induction n generalizing r b with
  | zero =>
    have : b = [] := List.eq_nil_of_length_eq_zero (by rw [← h.len, hn])
    subst this
    exact Or.inr ⟨rfl, rfl⟩
  | succ n ih =>
    have hbl : b.length = n + 1 := by rw [← h.len, hn]
    obtain ⟨b0, y, rfl⟩ : ∃ b0 y, b = b0 ++ [y] := ⟨b.dropLast, b.getLast (by intro e; rw [e] at hbl; simp at hbl), (List.dropLast_concat_getLast _).symm⟩
    have hl0 : b0.length = n := by simpa using hbl
    unfold trimLoop
    have hix : index r n m' = (.ok y, m') := by
      unfold index
      rw [h.bytes, List.getElem?_append_right (by omega), hl0, Nat.sub_self]
      rfl
    rw [bind_ok hix]
    unfold Dos3.Operator.trimZeros
    rw [List.reverse_append, List.reverse_singleton, List.singleton_append, List.dropWhile_cons]
    by_cases hy : y = 0
    · rw [if_pos hy, if_pos (by simpa using hy)]
      have hlen := hv.len
      rw [bind_ok (sub_run (Nat.zero_le n) (by omega) _)]
      have hv' := part_valid hv (Nat.zero_le n) (by omega : n ≤ r.cap)
      have hpb : bytesOf m' (part r 0 n) = b0 := by
        rw [bytesOf_part (Nat.zero_le n) (by omega), h.bytes]
        unfold slice
        rw [List.drop_zero, Nat.sub_zero, List.take_left' hl0]
      have ha : m.length ≤ r.arr := by
        rcases h.place with h0 | h0
        · omega
        · exact h0.2
      rcases ih (r := part r 0 n) (b := b0) ⟨hpb, by show n - 0 = _; omega, Or.inr ⟨hv', ha⟩⟩ hv' (by show n - 0 = n; omega) with ⟨b', h1, r', h2, h3, h4, h5⟩ | ⟨h1, h2⟩
      · exact Or.inl ⟨b', h1, r', h2, h3, h4, h5⟩
      · exact Or.inr ⟨h1, h2⟩
    · rw [if_neg hy, if_neg (by simpa using hy)]
      refine Or.inl ⟨b0 ++ [y], ?_, r, rfl, h, hv, rfl⟩
      simp

theorem index_panic {m : Mem} {s : Heap.Slice} {i : Nat} (h : (bytesOf m s)[i]? = none) : index s i m = (.panic, m) := by
  unfold index
  rw [h]

theorem index_some {m : Mem} {s : Heap.Slice} {i : Nat} {y : UInt8} (h : (bytesOf m s)[i]? = some y) : index s i m = (.ok y, m) := by
  unfold index
  rw [h]

/-- The length word, and that many bytes after it. -/
theorem sized_run {m m' : Mem} {r : Heap.Slice} {s : Dos3.Slice} (h : Fill m m' r s.data (s.data.length + s.spare)) :
    (∃ n b, Dos3.Operator.sized s = .ok (n, b) ∧ ∃ r', (do let b0 ← index r 0; let b1 ← index r 1; sub r 2 (b0.toNat + b1.toNat * 256 + 2) : M Heap.Slice) m' = (.ok r', m') ∧
      bytesOf m' r' = b ∧ Valid m' r' ∧ m.length ≤ r'.arr) ∨
    Dos3.Operator.sized s = .panic ∧ (do let b0 ← index r 0; let b1 ← index r 1; sub r 2 (b0.toNat + b1.toNat * 256 + 2) : M Heap.Slice) m' = (.panic, m') := by
  have hb := h.bytes
  unfold Dos3.Operator.sized
  obtain ⟨data, spare⟩ := s
  dsimp only at *
  match data, h, hb with
  | [], h, hb => exact Or.inr ⟨rfl, by rw [bind_panic (index_panic (by rw [hb]; rfl))]⟩
  | [y], h, hb => exact Or.inr ⟨rfl, by rw [bind_ok (index_some (y := y) (by rw [hb]; rfl)), bind_panic (index_panic (by rw [hb]; rfl))]⟩
  | y0 :: y1 :: rest, h, hb =>
    dsimp only
    rw [bind_ok (index_some (y := y0) (by rw [hb]; rfl)), bind_ok (index_some (y := y1) (by rw [hb]; rfl))]
    generalize y0.toNat + y1.toNat * 256 = n
    unfold Dos3.Operator.reslice
    have hcap := h.cap
    by_cases hn : n + 2 > (y0 :: y1 :: rest).length + spare
    · dsimp only
      rw [if_pos hn]
      refine Or.inr ⟨rfl, ?_⟩
      unfold sub
      rw [if_neg (by omega)]
      rfl
    · dsimp only
      rw [if_neg hn]
      refine Or.inl ⟨n, _, rfl, part r 2 (n + 2), sub_run (by omega) (by omega) _, ?_, part_valid h.valid (by omega) (by omega), h.arr⟩
      have := h.part (lo := 2) (n := n) (k := r.cap - 2) (by omega)
      rw [Nat.add_sub_cancel_left] at this
      show bytesOf m' ⟨r.arr, r.off + 2, n + 2 - 2, r.cap - 2⟩ = _
      rw [Nat.add_sub_cancel, this]

/-- The file after its load address. -/
theorem Fill.tail {m m' : Mem} {r : Heap.Slice} {y0 y1 : UInt8} {rest : Bytes} {k : Nat} (h : Fill m m' r (y0 :: y1 :: rest) ((y0 :: y1 :: rest).length + k)) :
    Fill m m' (Heap.part r 2 r.len) rest (rest.length + k) := by
  have hcap := h.cap
  have hlen := h.len
  rw [List.length_cons, List.length_cons] at hcap hlen
  refine ⟨part_valid h.valid (by omega) h.valid.len, h.arr, by show r.cap - 2 = _; omega, by show r.len - 2 = _; omega, ?_⟩
  have := h.part (lo := 2) (n := rest.length + k) (k := rest.length + k) (by rw [List.length_cons, List.length_cons]; omega)
  show bytesOf m' ⟨r.arr, r.off + 2, rest.length + k, rest.length + k⟩ = _
  rw [this, Nat.add_sub_cancel_left, Nat.add_sub_cancel_left]
  unfold slice
  rw [List.cons_append, List.cons_append, List.drop_succ_cons, List.drop_succ_cons, List.drop_zero]
  exact List.take_of_length_le (by rw [List.length_append, zeros_length]; exact Nat.le_refl _)

theorem getFile_run {grow : Nat → Nat → Nat} {m : Mem} {d : Heap.Slice} {img : Bytes} (hd : Valid m d) (hi : bytesOf m d = img) (name : Str) :
    (∃ f, Dos3.Operator.getFile ⟨img⟩ name = .ok f ∧ ∃ x r, getFile grow d name m = (.ok r, m ++ x) ∧ bytesOf (m ++ x) r = f.data ∧
      Valid (m ++ x) r ∧ m.length ≤ r.arr) ∨
    ∃ k : Out Unit, (∀ a, k ≠ .ok a) ∧ outcome (Dos3.Operator.getFile ⟨img⟩ name) = k ∧
      ∃ x, outcome (getFile grow d name m).1 = k ∧ (getFile grow d name m).2 = m ++ x := by
  unfold getFile Dos3.Operator.getFile
  rw [bind_ok (x := read d) (m' := m) (a := img) (by unfold read; rw [hi])]
  cases Dos3.Operator.fileForFilename ⟨img⟩ name with
  | err k => rw [bind_err (x := lift (.err k)) (k := k) (m' := m) rfl]; exact Or.inr ⟨.err k, (fun _ => by simp), rfl, [], rfl, by simp⟩
  | panic => rw [bind_panic (x := lift .panic) (m' := m) rfl]; exact Or.inr ⟨.panic, (fun _ => by simp), rfl, [], rfl, by simp⟩
  | timeout => rw [bind_timeout (x := lift .timeout) (m' := m) rfl]; exact Or.inr ⟨.timeout, (fun _ => by simp), rfl, [], rfl, by simp⟩
  | ok fd =>
  rw [bind_ok (x := lift (.ok fd)) (a := fd) (m' := m) rfl, Out.bind_ok]
  dsimp only
  rcases contents_run (grow := grow) hd hi fd with ⟨s, h1, x, r, h2, hf⟩ | ⟨k, hk, h1, x, h2, h3⟩
  case inr =>
    exact Or.inr ⟨k, hk, out_bind_fail hk h1, x, bind_fail hk h2 h3⟩
  rw [h1, bind_ok h2, Out.bind_ok]
  generalize fd.filetype &&& 0x7f = t
  by_cases ht0 : t = 0x00
  · rw [if_pos ht0, if_pos ht0]
    have hnew : New m (m ++ x) r s.data := ⟨hf.bytes, hf.len, Or.inr ⟨hf.valid, hf.arr⟩⟩
    rcases trimLoop_run r.len hnew hf.valid rfl with ⟨b', g1, r', g2, g3, g4, g5⟩ | ⟨g1, g2⟩
    · rw [g1, g2]
      exact Or.inl ⟨_, rfl, x, r', rfl, g3.bytes, g4, by rw [g5]; exact hf.arr⟩
    · rw [g1, g2]
      exact Or.inr ⟨.panic, (fun _ => by simp), rfl, x, rfl, rfl⟩
  rw [if_neg ht0, if_neg ht0]
  by_cases ht1 : t = 0x01 ∨ t = 0x02 ∨ t = 0x04
  case neg =>
    rw [if_neg ht1, if_neg ht1]
    exact Or.inr ⟨.err .other, (fun _ => by simp), rfl, x, rfl, rfl⟩
  rw [if_pos ht1, if_pos ht1]
  by_cases ht4 : t = 0x04
  · rw [if_pos ht4, if_pos ht4]
    obtain ⟨data, spare⟩ := s
    dsimp only at *
    have hb := hf.bytes
    match data, hf, hb with
    | [], hf, hb =>
      rw [bind_panic (bind_panic (index_panic (by rw [hb]; rfl)))]
      exact Or.inr ⟨.panic, (fun _ => by simp), rfl, x, rfl, rfl⟩
    | [y], hf, hb =>
      rw [bind_panic ((bind_ok (index_some (y := y) (by rw [hb]; rfl))).trans (bind_panic (index_panic (by rw [hb]; rfl))))]
      exact Or.inr ⟨.panic, (fun _ => by simp), rfl, x, rfl, rfl⟩
    | y0 :: y1 :: rest, hf, hb =>
      have hl := hf.len
      rw [List.length_cons, List.length_cons] at hl
      rw [bind_ok ((bind_ok (index_some (y := y0) (by rw [hb]; rfl))).trans ((bind_ok (index_some (y := y1) (by rw [hb]; rfl))).trans
        (sub_run (by omega) hf.valid.len _))), Out.bind_ok]
      dsimp only
      rcases sized_run (s := ⟨rest, spare⟩) hf.tail with ⟨n, b, g1, r', g2, g3, g4, g5⟩ | ⟨g1, g2⟩
      · rw [g1, g2]
        exact Or.inl ⟨_, rfl, x, r', rfl, g3, g4, g5⟩
      · rw [g1, g2]
        exact Or.inr ⟨.panic, (fun _ => by simp), rfl, x, rfl, rfl⟩
  · rw [if_neg ht4, if_neg ht4, bind_ok (x := pure r) (a := r) (m' := m ++ x) rfl, Out.bind_ok]
    dsimp only
    rcases sized_run hf with ⟨n, b, g1, r', g2, g3, g4, g5⟩ | ⟨g1, g2⟩
    · rw [g1, g2]
      exact Or.inl ⟨_, rfl, x, r', rfl, g3, g4, g5⟩
    · rw [g1, g2]
      exact Or.inr ⟨.panic, (fun _ => by simp), rfl, x, rfl, rfl⟩

end Verif.HeapDos3
