import Verif.Proof.BufferHeap
/-!
# C18: aliasing of the buffer
-/
namespace Distclus
variable {E : Type} [Inhabited E]

/-- **C18** (no sharing with the caller). Take any heap, any slice of the caller, any size and any
history of stores and of writes by the caller to the arrays that existed before.  The elements seen
by `Data()` only depend on the elements seen in the slice at creation and on the stores, and the
caller's arrays only undergo the caller's own writes. -/
theorem C18_no_alias_with_caller (h : Heap E) (s : Slice) (size : Int)
    (hs : s.off + s.len ≤ (h.getD s.arr []).length) (ops : List (HeapOp E)) :
    let new := newHeapBuffer h s size
    let r := heapRun h.length new.1 new.2 ops
    r.1.read r.2.data =
      ((storesOf ops).foldl DataBuffer.store (newDataBuffer (h.read s) size)).data ∧
    ∀ a, a < h.length → r.1.getD a [] = (callerRun h.length h ops).getD a [] := by
  obtain ⟨h1, h2, h3⟩ := newHeapBuffer_rep h s size hs
  obtain ⟨i1, i2, _⟩ := heapRun_rep ops h2 h1
  refine ⟨?_, ?_⟩
  · rw [Heap.read, i1.off, i1.len, List.drop_zero]
    exact i1.content
  · intro a ha
    rw [i2 a ha]
    have : ∀ (ops : List (HeapOp E)) (h1 h2 : Heap E) (base : Nat),
        (∀ a, a < base → h1.getD a [] = h2.getD a []) →
        ∀ a, a < base → (callerRun base h1 ops).getD a [] = (callerRun base h2 ops).getD a [] := by
      intro ops
      induction ops with
      | nil => intro h h' base hh; exact hh
      | cons o os ih =>
        intro h h' base hh
        cases o with
        | store e x => exact ih h h' base hh
        | callerWrite arr i v =>
          refine ih _ _ base ?_
          intro a ha
          split
          · by_cases haa : arr = a
            · subst haa; rw [getD_write_eq, getD_write_eq, hh _ ha]
            · rw [getD_write_ne _ _ _ _ _ haa, getD_write_ne _ _ _ _ _ haa, hh _ ha]
          · exact hh a ha
    exact this ops _ _ _ h3 a ha

/-- **C18** (live view). A slice obtained from `Data()` at any time shows, after any further history,
the first elements of the *current* contents of the buffer. -/
theorem C18_live_view (h : Heap E) (s : Slice) (size : Int)
    (hs : s.off + s.len ≤ (h.getD s.arr []).length) (ops more : List (HeapOp E)) :
    let new := newHeapBuffer h s size
    let r := heapRun h.length new.1 new.2 ops
    let r' := heapRun h.length r.1 r.2 more
    r'.1.read r.2.data = (r'.1.read r'.2.data).take r.2.data.len := by
  obtain ⟨h1, h2, h3⟩ := newHeapBuffer_rep h s size hs
  obtain ⟨i1, _, _⟩ := heapRun_rep ops h2 h1
  have hmono : ∀ (ops : List (HeapOp E)) (h1 : Heap E) (b : HeapBuffer) (base : Nat)
      (p : DataBuffer E), HeapRep base h1 b p.data p.strategy → base ≤ h1.length →
      base ≤ (heapRun base h1 b ops).1.length := by
    intro ops
    induction ops with
    | nil => intro h1 b base p _ hb; exact hb
    | cons o os ih =>
      intro h1 b base p hr hb
      cases o with
      | store e x =>
        obtain ⟨k1, k2, _, _⟩ := store_rep hr e x
        exact ih _ _ base (p.store e) k1 (Nat.le_trans hb k2)
      | callerWrite arr i v =>
        have k := (heapRun_rep [HeapOp.callerWrite arr i v] hb hr).1
        refine ih _ _ base p k ?_
        simp only [heapStep]
        split
        · rw [length_write]; exact hb
        · exact hb
  have hb := hmono ops _ _ _ (newDataBuffer (h.read s) size) h1 h2
  obtain ⟨j1, _, j3⟩ := heapRun_rep more hb i1
  have hret := j3 _ ⟨i1.own, i1.alloc, i1.off, Nat.le_of_eq i1.len, by
    rw [i1.len, i1.content, List.take_length], fun _ _ _ => rfl⟩
  simp only
  have e1 : ∀ (h : Heap E) (s : Slice), s.off = 0 → h.read s = (h.getD s.arr []).take s.len := by
    intro h s hs; rw [Heap.read, hs, List.drop_zero]
  rw [e1 _ _ hret.off, hret.reads, e1 _ _ j1.off, j1.len, j1.content]

/-- **C18** (unbounded mode). The elements visible in a slice obtained from `Data()` never change. -/
theorem C18_infinite_view_constant (h : Heap E) (s : Slice) (size : Int) (hsz : size ≤ 0)
    (hs : s.off + s.len ≤ (h.getD s.arr []).length) (ops more : List (HeapOp E)) :
    let new := newHeapBuffer h s size
    let r := heapRun h.length new.1 new.2 ops
    let r' := heapRun h.length r.1 r.2 more
    r'.1.read r.2.data = r.1.read r.2.data := by
  have happ : ∀ (a b : List (HeapOp E)) (base : Nat) (h : Heap E) (hb : HeapBuffer),
      heapRun base (heapRun base h hb a).1 (heapRun base h hb a).2 b =
        heapRun base h hb (a ++ b) := by
    intro a
    induction a with
    | nil => intros; rfl
    | cons o os ih => intro b base h hb; exact ih b base _ _
  have hst : ∀ a b : List (HeapOp E), storesOf (a ++ b) = storesOf a ++ storesOf b := by
    intro a b
    induction a with
    | nil => rfl
    | cons o os ih => cases o <;> simp [storesOf, ih]
  have hinf : ∀ (l : List E) (p : DataBuffer E), p.strategy = .infinite →
      (l.foldl DataBuffer.store p).data = p.data ++ l ∧
      (l.foldl DataBuffer.store p).strategy = .infinite := by
    intro l
    induction l with
    | nil => intro p hp; simp [hp]
    | cons e l ih =>
      intro p hp
      have h1 : (p.store e).strategy = .infinite := by simp [DataBuffer.store, hp, Strategy.push]
      have h2 : (p.store e).data = p.data ++ [e] := by simp [DataBuffer.store, hp, Strategy.push]
      obtain ⟨i1, i2⟩ := ih _ h1
      exact ⟨by rw [List.foldl_cons, i1, h2]; simp, i2⟩
  have hnew : (newDataBuffer (h.read s) size).strategy = .infinite := by
    unfold newDataBuffer
    rw [if_neg (by omega), if_neg (by omega)]
  have hl := C18_live_view h s size hs ops more
  have e1 := (C18_no_alias_with_caller h s size hs ops).1
  have e2 := (C18_no_alias_with_caller h s size hs (ops ++ more)).1
  obtain ⟨h1, h2, h3⟩ := newHeapBuffer_rep h s size hs
  obtain ⟨i1, _, _⟩ := heapRun_rep ops h2 h1
  simp only at hl e1 e2 ⊢
  rw [hl, happ, e2, e1, i1.len, hst, List.foldl_append, (hinf (storesOf more) _ (hinf _ _ hnew).2).1]
  simp

/-- **C18** (frame mode). A slice obtained from `Data()` may be overwritten by a later push: here
the retained slice showed `[1, 2]` and shows `[3, 2]` after storing 3. -/
theorem C18_frame_view_overwritten :
    ∃ (h : Heap Nat) (s : Slice) (size : Int) (more : List (HeapOp Nat)),
      s.off + s.len ≤ (h.getD s.arr []).length ∧
      (let new := newHeapBuffer h s size
       let r' := heapRun h.length new.1 new.2 more
       new.1.read new.2.data = [1, 2] ∧ r'.1.read new.2.data = [3, 2]) :=
  ⟨[[1, 2]], ⟨0, 0, 2⟩, 2, [.store 3 0], by decide, by decide⟩

/-- Non-vacuity: a sub-slice of the caller, caller writes in between. -/
example :
    let h : Heap Nat := [[9, 1, 2, 3, 9]]
    let new := newHeapBuffer h ⟨0, 1, 3⟩ 4
    let r := heapRun h.length new.1 new.2
      [.store 4 0, .callerWrite 0 1 7, .store 5 0, .callerWrite 0 4 8]
    r.1.read r.2.data = [5, 2, 3, 4] ∧ r.1.getD 0 [] = [9, 7, 2, 3, 8] := by decide

end Distclus
