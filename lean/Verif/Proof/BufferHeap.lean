import Verif.Model.BufferHeap
import Mathlib.Data.List.TakeDrop
import Mathlib.Tactic.Common
/-!
# Refinement of the pure buffer by the heap buffer
-/
namespace Distclus
variable {E : Type} [Inhabited E]

/-- The heap buffer `(h, b)` represents the pure buffer contents `data` with strategy `st`, does not
share the first `base` arrays, and in frame mode owns an array of capacity `size`. -/
structure HeapRep (base : Nat) (h : Heap E) (b : HeapBuffer) (data : List E) (st : Strategy) :
    Prop where
  own : base ≤ b.data.arr
  alloc : b.data.arr < h.length
  off : b.data.off = 0
  len : b.data.len = data.length
  content : (h.getD b.data.arr []).take data.length = data
  strat : b.strategy = st
  cap : ∀ size pos, st = .fixed size pos →
    (h.getD b.data.arr []).length = size ∧ pos ≤ size ∧ pos ≤ data.length ∧ 0 < size ∧
    (data.length < size → pos = data.length)

omit [Inhabited E] in
theorem getD_write_ne (h : Heap E) (a b i : Nat) (v : E) (hne : a ≠ b) :
    (h.write a i v).getD b [] = h.getD b [] := by
  simp [Heap.write, List.getD_eq_getElem?_getD, hne]

omit [Inhabited E] in
theorem getD_write_eq (h : Heap E) (a i : Nat) (v : E) :
    (h.write a i v).getD a [] = (h.getD a []).set i v := by
  simp only [Heap.write, List.getD_eq_getElem?_getD, List.getElem?_modify]
  cases h[a]? <;> simp

omit [Inhabited E] in
theorem length_write (h : Heap E) (a i : Nat) (v : E) : (h.write a i v).length = h.length := by
  simp [Heap.write]

theorem getD_makeCopy_old (h : Heap E) (src : List E) (cap a : Nat) (ha : a < h.length) :
    (h.makeCopy src cap).1.getD a [] = h.getD a [] := by
  simp [Heap.makeCopy, List.getD_eq_getElem?_getD, List.getElem?_append_left ha]

theorem getD_makeCopy_new (h : Heap E) (src : List E) (cap : Nat) :
    (h.makeCopy src cap).1.getD h.length [] =
      src ++ List.replicate (cap - src.length) default := by
  simp [Heap.makeCopy, List.getD_eq_getElem?_getD]

omit [Inhabited E] in
theorem take_len_le (l data : List E) (h : l.take data.length = data) :
    data.length ≤ l.length := by
  have := congrArg List.length h
  rw [List.length_take] at this; omega

/-- What an append does: contents, location, other arrays. -/
theorem append_spec (h : Heap E) (s : Slice) (e : E) (extra : Nat) (data : List E)
    (halloc : s.arr < h.length) (hoff : s.off = 0) (hlen : s.len = data.length)
    (hc : (h.getD s.arr []).take data.length = data) :
    let r := h.append s e extra
    s.arr ≤ r.2.arr ∧ r.2.arr < r.1.length ∧ r.2.off = 0 ∧ r.2.len = data.length + 1 ∧
    (r.1.getD r.2.arr []).take (data.length + 1) = data ++ [e] ∧
    h.length ≤ r.1.length ∧
    (∀ a, a < h.length → a ≠ s.arr → r.1.getD a [] = h.getD a []) ∧
    (r.1.getD s.arr []).take data.length = data ∧
    (s.len < (h.getD s.arr []).length → r.2.arr = s.arr ∧
      (r.1.getD r.2.arr []).length = (h.getD s.arr []).length) := by
  have hle := take_len_le _ _ hc
  unfold Heap.append
  rw [hoff, hlen, Nat.zero_add]
  split
  · rename_i hlt
    refine ⟨Nat.le_refl _, by rw [length_write]; exact halloc, rfl, rfl, ?_,
      by rw [length_write]; exact Nat.le_refl _, fun a _ hne => getD_write_ne _ _ _ _ _ (Ne.symm hne), ?_, ?_⟩
    · rw [getD_write_eq, List.take_add_one, List.take_set_of_le (Nat.le_refl _), hc,
        List.getElem?_set_self hlt]
      rfl
    · rw [getD_write_eq, List.take_set_of_le (Nat.le_refl _), hc]
    · intro _
      refine ⟨rfl, ?_⟩
      rw [getD_write_eq, List.length_set]
  · rename_i hnlt
    have hr : h.read s = data := by rw [Heap.read, hoff, hlen, List.drop_zero, hc]
    rw [hr]
    refine ⟨Nat.le_of_lt halloc, by simp [Heap.makeCopy], rfl, by simp [Heap.makeCopy], ?_,
      by simp [Heap.makeCopy], fun a ha _ => getD_makeCopy_old _ _ _ _ ha, ?_, ?_⟩
    · have : (h.makeCopy (data ++ [e]) (data.length + 1 + extra)).2.arr = h.length := rfl
      rw [this, getD_makeCopy_new]
      rw [List.take_append_of_le_length (by simp), List.take_of_length_le (by simp)]
    · rw [getD_makeCopy_old _ _ _ _ halloc, hc]
    · intro hlt; omega

/-- A slice handed out earlier, seen from the current state: it either lives in an array the buffer
has left, with contents a prefix of `data` that nothing writes any more, or in the buffer's array. -/
structure Retained (base : Nat) (h : Heap E) (b : HeapBuffer) (s : Slice) (data : List E)
    (st : Strategy) : Prop where
  own : base ≤ s.arr
  alloc : s.arr < h.length
  off : s.off = 0
  le : s.len ≤ data.length
  reads : (h.getD s.arr []).take s.len = data.take s.len
  frame : ∀ size pos, st = .fixed size pos → s.arr = b.data.arr

/-- One store: the representation and the retained slices are preserved, foreign arrays untouched. -/
theorem store_rep {base : Nat} {h : Heap E} {b : HeapBuffer} {data : List E} {st : Strategy}
    (hr : HeapRep base h b data st) (e : E) (extra : Nat) :
    HeapRep base (b.store h e extra).1 (b.store h e extra).2 (st.push data e).2 (st.push data e).1 ∧
    h.length ≤ (b.store h e extra).1.length ∧
    (∀ a, a < base → (b.store h e extra).1.getD a [] = h.getD a []) ∧
    (∀ s, Retained base h b s data st →
      Retained base (b.store h e extra).1 (b.store h e extra).2 s (st.push data e).2
        (st.push data e).1) := by
  obtain ⟨hown, halloc, hoff, hlen, hc, hst, hcap⟩ := hr
  have hle := take_len_le _ _ hc
  have happ := append_spec h b.data e extra data halloc hoff hlen hc
  have hapos : base ≤ b.data.arr := hown
  cases st with
  | infinite =>
    obtain ⟨a1, a2, a3, a4, a5, a6, a7, a8, _⟩ := happ
    unfold HeapBuffer.store
    rw [hst]
    simp only [Strategy.push]
    have hret : ∀ a, a < base → (h.append b.data e extra).1.getD a [] = h.getD a [] :=
      fun a ha => a7 a (by omega) (by omega)
    refine ⟨⟨by simp only; omega, a2, a3, by simp [a4], by simpa using a5, rfl,
      by intro _ _ h; cases h⟩, a6, hret, ?_⟩
    intro s hs
    refine ⟨hs.own, Nat.lt_of_lt_of_le hs.alloc a6, hs.off,
      by have := hs.le; simp; omega, ?_, by intro _ _ h; cases h⟩
    rw [List.take_append_of_le_length hs.le]
    by_cases hsa : s.arr = b.data.arr
    · rw [hsa]
      have : ((h.append b.data e extra).1.getD b.data.arr []).take s.len =
          (((h.append b.data e extra).1.getD b.data.arr []).take data.length).take s.len := by
        rw [List.take_take, Nat.min_eq_left hs.le]
      rw [this, a8]
    · rw [a7 s.arr hs.alloc hsa, hs.reads]
  | fixed size pos =>
    obtain ⟨c1, c2, c3, c4, c5⟩ := hcap size pos rfl
    unfold HeapBuffer.store
    rw [hst]
    simp only [Strategy.push]
    set p := (if pos = size then 0 else pos) with hp
    have hpsz : p < size := by rw [hp]; split <;> omega
    have hple : p ≤ data.length := by rw [hp]; split <;> omega
    by_cases hlt : p < data.length
    · have hlt' : p < b.data.len := by rw [hlen]; exact hlt
      simp only [hlt, hlt', if_true, hoff, Nat.zero_add]
      refine ⟨⟨hown, by rw [length_write]; exact halloc, hoff, by simp [hlen], ?_, rfl, ?_⟩,
        by rw [length_write]; exact Nat.le_refl _, fun a ha => getD_write_ne _ _ _ _ _ (by omega), ?_⟩
      · simp only
        rw [getD_write_eq, List.length_set, List.take_set, hc]
      · intro size' pos' heq
        cases heq
        simp only
        rw [getD_write_eq, List.length_set, List.length_set]
        refine ⟨c1, by omega, by omega, c4, ?_⟩
        intro hlt2
        have := c5 hlt2
        rw [hp] at hlt
        split at hlt
        · omega
        · omega
      · intro s hs
        refine ⟨hs.own, by rw [length_write]; exact hs.alloc, hs.off, by simpa using hs.le, ?_,
          fun _ _ _ => hs.frame size pos rfl⟩
        have hsa := hs.frame size pos rfl
        have hread := hs.reads
        rw [hsa] at hread ⊢
        rw [getD_write_eq, List.take_set, List.take_set, hread]
    · have hlt' : ¬ p < b.data.len := by rw [hlen]; exact hlt
      simp only [hlt, hlt', if_false]
      obtain ⟨a1, a2, a3, a4, a5, a6, a7, a8, a9⟩ := happ
      have hroom : b.data.len < (h.getD b.data.arr []).length := by rw [hlen, c1]; omega
      obtain ⟨a9, a10⟩ := a9 hroom
      refine ⟨⟨by simp only; omega, a2, a3, by simp [a4], by simpa using a5, rfl, ?_⟩, a6,
        fun a ha => a7 a (by omega) (by omega), ?_⟩
      · intro size' pos' heq
        cases heq
        simp only [List.length_append, List.length_singleton]
        refine ⟨by rw [a10, c1], by omega, by omega, c4, by omega⟩
      · intro s hs
        have hsa := hs.frame size pos rfl
        refine ⟨hs.own, Nat.lt_of_lt_of_le hs.alloc a6, hs.off,
          by have := hs.le; simp; omega, ?_, fun _ _ _ => by rw [a9, hsa]⟩
        rw [List.take_append_of_le_length hs.le, hsa]
        have : ((h.append b.data e extra).1.getD b.data.arr []).take s.len =
            (((h.append b.data e extra).1.getD b.data.arr []).take data.length).take s.len := by
          rw [List.take_take, Nat.min_eq_left hs.le]
        rw [this, a8]

/-- A whole history. -/
theorem heapRun_rep {base : Nat} (ops : List (HeapOp E)) {h : Heap E} {b : HeapBuffer}
    {p : DataBuffer E} (hb : base ≤ h.length) (hr : HeapRep base h b p.data p.strategy) :
    let p' := (storesOf ops).foldl DataBuffer.store p
    let r := heapRun base h b ops
    HeapRep base r.1 r.2 p'.data p'.strategy ∧
    (∀ a, a < base → r.1.getD a [] = (callerRun base h ops).getD a []) ∧
    (∀ s, Retained base h b s p.data p.strategy →
      Retained base r.1 r.2 s p'.data p'.strategy) := by
  have hcaller : ∀ (ops : List (HeapOp E)) (h h' : Heap E),
      (∀ a, a < base → h.getD a [] = h'.getD a []) →
      ∀ a, a < base → (callerRun base h ops).getD a [] = (callerRun base h' ops).getD a [] := by
    intro ops
    induction ops with
    | nil => intro h h' hh; exact hh
    | cons o os ih =>
      intro h h' hh
      cases o with
      | store e x => exact ih h h' hh
      | callerWrite arr i v =>
        refine ih _ _ ?_
        intro a ha
        split
        · by_cases haa : arr = a
          · subst haa; rw [getD_write_eq, getD_write_eq, hh _ ha]
          · rw [getD_write_ne _ _ _ _ _ haa, getD_write_ne _ _ _ _ _ haa, hh _ ha]
        · exact hh a ha
  induction ops generalizing h b p with
  | nil => exact ⟨hr, fun _ _ => rfl, fun _ hs => hs⟩
  | cons o os ih =>
    cases o with
    | store e extra =>
      obtain ⟨h1, h2, h3, h4⟩ := store_rep hr e extra
      have := ih (p := p.store e) (Nat.le_trans hb h2) h1
      obtain ⟨i1, i2, i3⟩ := this
      refine ⟨i1, ?_, fun s hs => i3 s (h4 s hs)⟩
      intro a ha
      exact (i2 a ha).trans (hcaller os _ _ h3 a ha)
    | callerWrite arr i v =>
      simp only [storesOf, heapRun, heapStep, callerRun]
      by_cases harr : arr < base
      · simp only [harr, if_true]
        have hne : ∀ a, base ≤ a → (h.write arr i v).getD a [] = h.getD a [] :=
          fun a ha => getD_write_ne _ _ _ _ _ (by omega)
        have hr' : HeapRep base (h.write arr i v) b p.data p.strategy := by
          refine ⟨hr.own, by rw [length_write]; exact hr.alloc, hr.off, hr.len, ?_, hr.strat, ?_⟩
          · rw [hne _ hr.own]; exact hr.content
          · intro size pos heq
            rw [hne _ hr.own]; exact hr.cap size pos heq
        obtain ⟨i1, i2, i3⟩ := ih (p := p) (by rw [length_write]; exact hb) hr'
        refine ⟨i1, i2, fun s hs => i3 s ?_⟩
        exact ⟨hs.own, by rw [length_write]; exact hs.alloc, hs.off, hs.le,
          by rw [hne _ hs.own]; exact hs.reads, hs.frame⟩
      · simp only [harr, if_false]
        exact ih hb hr

/-- The new buffer. -/
theorem newHeapBuffer_rep (h : Heap E) (s : Slice) (size : Int)
    (hs : s.off + s.len ≤ (h.getD s.arr []).length) :
    let r := newHeapBuffer h s size
    HeapRep h.length r.1 r.2 (newDataBuffer (h.read s) size).data
      (newDataBuffer (h.read s) size).strategy ∧ h.length ≤ r.1.length ∧
    ∀ a, a < h.length → r.1.getD a [] = h.getD a [] := by
  have hlen : (h.read s).length = s.len := by
    rw [Heap.read, List.length_take, List.length_drop]; omega
  unfold newHeapBuffer newDataBuffer
  rw [hlen]
  split
  · rename_i hgt
    refine ⟨⟨Nat.le_refl _, by simp [Heap.makeCopy], rfl, by simp [Heap.makeCopy], ?_, rfl, ?_⟩,
      by simp [Heap.makeCopy], fun a ha => getD_makeCopy_old _ _ _ _ ha⟩
    · have : (h.makeCopy (h.read s) size.toNat).2.arr = h.length := rfl
      simp only
      rw [this, getD_makeCopy_new]
      simp
    · intro size' pos' heq
      cases heq
      have : (h.makeCopy (h.read s) size.toNat).2.arr = h.length := rfl
      simp only
      rw [this, getD_makeCopy_new]
      simp; omega
  · split
    · rename_i hle hpos
      have hread : h.read { s with off := s.off + (s.len - size.toNat), len := size.toNat } =
          (h.read s).drop (s.len - size.toNat) := by
        simp only [Heap.read]
        rw [List.drop_take, List.drop_drop]
        congr 1
        omega
      have hl2 : ((h.read s).drop (s.len - size.toNat)).length = size.toNat := by
        rw [List.length_drop, hlen]; omega
      simp only
      rw [hread]
      refine ⟨⟨Nat.le_refl _, by simp [Heap.makeCopy], rfl, by simp [Heap.makeCopy], ?_, rfl, ?_⟩,
        by simp [Heap.makeCopy], fun a ha => getD_makeCopy_old _ _ _ _ ha⟩
      · have : (h.makeCopy ((h.read s).drop (s.len - size.toNat)) size.toNat).2.arr = h.length := rfl
        simp only
        rw [this, getD_makeCopy_new]
        simp
      · intro size' pos' heq
        cases heq
        have : (h.makeCopy ((h.read s).drop (s.len - size.toNat)) size.toNat).2.arr = h.length := rfl
        simp only
        rw [this, getD_makeCopy_new, List.length_append, hl2]
        simp; omega
    · refine ⟨⟨Nat.le_refl _, by simp [Heap.makeCopy], rfl, by simp [Heap.makeCopy], ?_, rfl, ?_⟩,
        by simp [Heap.makeCopy], fun a ha => getD_makeCopy_old _ _ _ _ ha⟩
      · have : (h.makeCopy (h.read s) s.len).2.arr = h.length := rfl
        simp only
        rw [this, getD_makeCopy_new]
        simp
      · intro size' pos' heq; cases heq

end Distclus
