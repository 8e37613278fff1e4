import Verif.Model.Copy
import Verif.Proof.Buffer
import Verif.Proof.BufferHeap
/-!
# C67: copies of an algorithm
-/
namespace Distclus
open Spec
variable {E : Type}

/-- **C67.** The copy of any buffer stores the same elements in the same order, whatever the new
configuration; it has nothing staged: what was staged in the original is not copied. -/
theorem C67_data (data : List E) (size new : Int) (ops : List (BufOp E)) (b : DataBuffer E)
    (h : (newDataBuffer data size).run ops = some b) :
    (b.copy size new).data = b.data ∧ (b.copy size new).pipe = [] := by
  have hr := (BufRep.run ops (BufRep.init data size) h).data
  unfold DataBuffer.copy newDataBuffer
  by_cases hs : 0 < size
  · rw [if_pos (by omega)] at hr
    obtain ⟨p, _, hinv⟩ := hr
    have hlen := hinv.len
    split
    · exact ⟨rfl, rfl⟩
    · refine ⟨?_, rfl⟩
      have : b.data.length - size.toNat = 0 := by omega
      simp only [this, List.drop_zero]
  · rw [if_neg (by omega), if_neg hs]
    exact ⟨rfl, rfl⟩

/-- **C67.** As long as the frame is not full, or when the buffer is unbounded, the copy is in the same
state as the original without its staged elements: the same pushes have the same effect. -/
theorem C67_same_future (data : List E) (size new : Int) (ops : List (BufOp E)) (b : DataBuffer E)
    (h : (newDataBuffer data size).run ops = some b) (hf : (b.data.length : Int) < size ∨ size ≤ 0) :
    b.copy size new = { b with pipe := [] } := by
  have hr := (BufRep.run ops (BufRep.init data size) h).data
  unfold DataBuffer.copy newDataBuffer
  by_cases hs : 0 < size
  · rw [if_pos (by omega)] at hr
    obtain ⟨p, hp, hinv⟩ := hr
    have hlen := hinv.len
    rw [if_pos (by omega), hp]
    have : p = b.data.length := by
      have := hinv.pos_lt (by omega)
      omega
    rw [this]
  · rw [if_neg (by omega)] at hr
    rw [if_neg (by omega), if_neg hs, hr.1]

/-- **C67.** When the frame is full the copy replaces its first element at the next push, whatever the
age of this element. -/
theorem C67_full_frame (data : List E) (size new : Int) (ops : List (BufOp E)) (b : DataBuffer E)
    (hs : 0 < size) (h : (newDataBuffer data size).run ops = some b)
    (hf : (b.data.length : Int) = size) (e : E) :
    ((b.copy size new).store e).data = b.data.set 0 e := by
  obtain ⟨h1, -⟩ := C67_data data size new ops b h
  have h2 : (b.copy size new).strategy = .fixed size.toNat size.toNat := by
    unfold DataBuffer.copy newDataBuffer
    rw [if_neg (by omega), if_pos hs]
  unfold DataBuffer.store
  rw [h1, h2]
  simp only [Strategy.push, if_true]
  rw [if_pos (by omega)]

/-- **C67 (claim examined).** So the copy can lose another element than the original would: the frame
of size 2 stored 1, 2, then 3; the next push makes the original forget 2, its oldest element, and the
copy forget 3. -/
theorem C67_evicts_newest : ∃ b : DataBuffer Nat,
    (newDataBuffer [1, 2] 2).run [.push 3 false] = some b ∧
    (b.store 4).data = [3, 4] ∧ ((b.copy 2 2).store 4).data = [4, 2] :=
  ⟨_, rfl, by decide, by decide⟩

/-- The hypotheses of C67 are met with staged elements: they are not copied. -/
example : ((newDataBuffer [1] 3).run [.push 2 true, .push 3 false]).map
    (fun b => (b.data, b.pipe, (b.copy 3 5).data, (b.copy 3 5).pipe)) =
    some ([1, 3], [2], [1, 3], []) := by decide

variable [Inhabited E]

/-- What a store changes: the array of the buffer, or a new array. -/
theorem store_frame {h : Heap E} {b : HeapBuffer} (e : E) (extra : Nat) :
    (∀ a, a < h.length → a ≠ b.data.arr → (b.store h e extra).1.getD a [] = h.getD a []) ∧
    ((b.store h e extra).2.data.arr = b.data.arr ∨ (b.store h e extra).2.data.arr = h.length) ∧
    h.length ≤ (b.store h e extra).1.length := by
  have happ : (∀ a, a < h.length → a ≠ b.data.arr →
        (h.append b.data e extra).1.getD a [] = h.getD a []) ∧
      ((h.append b.data e extra).2.arr = b.data.arr ∨ (h.append b.data e extra).2.arr = h.length) ∧
      h.length ≤ (h.append b.data e extra).1.length := by
    unfold Heap.append
    split
    · exact ⟨fun a _ hne => getD_write_ne _ _ _ _ _ (Ne.symm hne), .inl rfl,
        by rw [length_write]⟩
    · exact ⟨fun a ha _ => getD_makeCopy_old _ _ _ _ ha, .inr rfl, by simp [Heap.makeCopy]⟩
  unfold HeapBuffer.store
  split
  · rename_i size position _
    dsimp only
    generalize (if position = size then 0 else position) = q
    split
    · exact ⟨fun a _ hne => getD_write_ne _ _ _ _ _ (Ne.symm hne), .inl rfl,
        by rw [length_write]⟩
    · exact happ
  · exact happ

/-- The elements a history stores in one of the two buffers. -/
def pairStores (left : Bool) (ops : List (PairOp E)) : List E :=
  ops.filterMap fun o => if o.left = left then some o.elemt else none

omit [Inhabited E] in
theorem HeapRep.read {h : Heap E} {b : HeapBuffer} {data : List E} {st : Strategy} {base : Nat}
    (hr : HeapRep base h b data st) : h.read b.data = data := by
  rw [Heap.read, hr.off, hr.len, List.drop_zero]; exact hr.content

omit [Inhabited E] in
theorem HeapRep.other {h h' : Heap E} {b : HeapBuffer} {data : List E} {st : Strategy} {base : Nat}
    (hr : HeapRep base h b data st) (hl : h.length ≤ h'.length)
    (he : h'.getD b.data.arr [] = h.getD b.data.arr []) : HeapRep base h' b data st :=
  ⟨hr.own, Nat.lt_of_lt_of_le hr.alloc hl, hr.off, hr.len, by rw [he]; exact hr.content, hr.strat,
    by rw [he]; exact hr.cap⟩

omit [Inhabited E] in
theorem HeapRep.weaken {h : Heap E} {b : HeapBuffer} {data : List E} {st : Strategy} {base : Nat}
    (hr : HeapRep base h b data st) : HeapRep 0 h b data st :=
  ⟨Nat.zero_le _, hr.alloc, hr.off, hr.len, hr.content, hr.strat, hr.cap⟩

theorem pairRun_rep (ops : List (PairOp E)) {h : Heap E} {b1 b2 : HeapBuffer} {p1 p2 : DataBuffer E}
    (h1 : HeapRep 0 h b1 p1.data p1.strategy) (h2 : HeapRep 0 h b2 p2.data p2.strategy)
    (hne : b1.data.arr ≠ b2.data.arr) :
    let r := pairRun (h, b1, b2) ops
    r.1.read r.2.1.data = ((pairStores true ops).foldl DataBuffer.store p1).data ∧
    r.1.read r.2.2.data = ((pairStores false ops).foldl DataBuffer.store p2).data := by
  induction ops generalizing h b1 b2 p1 p2 with
  | nil => exact ⟨h1.read, h2.read⟩
  | cons o os ih =>
    obtain ⟨l, e, x⟩ := o
    cases l with
    | true =>
      obtain ⟨f1, f2, f3⟩ := store_frame (h := h) (b := b1) e x
      have hr := (store_rep h1 e x).1
      have := ih (h := (b1.store h e x).1) (b1 := (b1.store h e x).2) (b2 := b2)
        (p1 := p1.store e) (p2 := p2) hr (h2.other f3 (f1 _ h2.alloc (Ne.symm hne))) (by
          rcases f2 with f2 | f2 <;> rw [f2]
          · exact hne
          · exact Nat.ne_of_gt h2.alloc)
      exact this
    | false =>
      obtain ⟨f1, f2, f3⟩ := store_frame (h := h) (b := b2) e x
      have hr := (store_rep h2 e x).1
      have := ih (h := (b2.store h e x).1) (b1 := b1) (b2 := (b2.store h e x).2)
        (p1 := p1) (p2 := p2.store e) (h1.other f3 (f1 _ h1.alloc hne)) hr (by
          rcases f2 with f2 | f2 <;> rw [f2]
          · exact hne
          · exact Nat.ne_of_lt h1.alloc)
      exact this

/-- **C67.** The copy is independent of the original. Take any history of a buffer, copy it, then let
the original and the copy store elements in any order: each of them sees exactly what it would see if
the other one did not exist, although both were in the same memory. -/
theorem C67_independent (h : Heap E) (s : Slice) (size : Int)
    (hs : s.off + s.len ≤ (h.getD s.arr []).length) (before : List (HeapOp E))
    (after : List (PairOp E)) :
    let new := newHeapBuffer h s size
    let orig := heapRun h.length new.1 new.2 before
    let p := (storesOf before).foldl DataBuffer.store (newDataBuffer (h.read s) size)
    let copy := newHeapBuffer orig.1 orig.2.data size
    let r := pairRun (copy.1, orig.2, copy.2) after
    r.1.read r.2.1.data = ((pairStores true after).foldl DataBuffer.store p).data ∧
    r.1.read r.2.2.data = ((pairStores false after).foldl DataBuffer.store (p.copy size size)).data := by
  obtain ⟨h1, h2, -⟩ := newHeapBuffer_rep h s size hs
  obtain ⟨i1, -, -⟩ := heapRun_rep before h2 h1
  intro new orig p copy r
  have i1 : HeapRep h.length orig.1 orig.2 p.data p.strategy := i1
  have hread : orig.1.read orig.2.data = p.data := i1.read
  obtain ⟨c1, c2, c3⟩ := newHeapBuffer_rep orig.1 orig.2.data size (by
    rw [i1.off, i1.len, Nat.zero_add]; exact take_len_le _ _ i1.content)
  have c1 : HeapRep orig.1.length copy.1 copy.2 (p.copy size size).data (p.copy size size).strategy := by
    rw [hread] at c1; exact c1
  refine pairRun_rep after (p1 := p) (p2 := p.copy size size) ?_ c1.weaken ?_
  · exact (i1.other c2 (c3 _ i1.alloc)).weaken
  · have := i1.alloc
    have := c1.own
    omega

/-- An example in frame mode. -/
example :
    let new := newHeapBuffer ([[1, 2]] : Heap Nat) ⟨0, 0, 2⟩ 3
    let copy := newHeapBuffer new.1 new.2.data 3
    let r := pairRun (copy.1, new.2, copy.2) [⟨true, 3, 0⟩, ⟨false, 7, 0⟩, ⟨true, 4, 0⟩, ⟨false, 8, 0⟩]
    r.1.read r.2.1.data = [4, 2, 3] ∧ r.1.read r.2.2.data = [8, 2, 7] := by decide

end Distclus
