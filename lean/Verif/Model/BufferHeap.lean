import Verif.Model.Buffer
/-!
# `core.DataBuffer` with explicit slices (core/buffer.go)

Same code as `Model/Buffer.lean` (without the pipe, which does not alias anything) on a heap of
arrays, so that sharing of backing arrays between the caller, the buffer and the slices returned by
`Data()` is visible.  The heap is a list of arrays, an array is a list of fixed length (its
capacity), a slice is a triple (array, offset, length).  `default : E` stands for a nil element.
-/
namespace Distclus

/-- Arrays reachable by the program. -/
abbrev Heap (E : Type) := List (List E)

/-- A Go slice header; its capacity is the length of the array minus the offset. -/
structure Slice where
  arr : Nat
  off : Nat
  len : Nat
deriving DecidableEq, Repr

variable {E : Type} [Inhabited E]

/-- The elements visible through a slice. -/
def Heap.read (h : Heap E) (s : Slice) : List E := ((h.getD s.arr []).drop s.off).take s.len

/-- `a[i] = v` on a backing array. -/
def Heap.write (h : Heap E) (arr i : Nat) (v : E) : Heap E := h.modify arr (·.set i v)

/-- `make([]Elemt, len, cap)` followed by `copy` of `src` (of length `len`) in it. -/
def Heap.makeCopy (h : Heap E) (src : List E) (cap : Nat) : Heap E × Slice :=
  (h ++ [src ++ List.replicate (cap - src.length) default],
   { arr := h.length, off := 0, len := src.length })

/-- `append(s, e)`: in place when there is room, otherwise in a new array whose spare room `extra`
is the choice of the Go runtime. -/
def Heap.append (h : Heap E) (s : Slice) (e : E) (extra : Nat) : Heap E × Slice :=
  if s.off + s.len < (h.getD s.arr []).length then
    (h.write s.arr (s.off + s.len) e, { s with len := s.len + 1 })
  else
    h.makeCopy (h.read s ++ [e]) (s.len + 1 + extra)

/-- `DataBuffer` on the heap, without its pipe (core/buffer.go:14-18). -/
structure HeapBuffer where
  data : Slice
  strategy : Strategy
deriving DecidableEq, Repr

/-- `NewDataBuffer` (core/buffer.go:25-51) on the slice `s` of the caller. -/
def newHeapBuffer (h : Heap E) (s : Slice) (size : Int) : Heap E × HeapBuffer :=
  if size > s.len then
    let r := h.makeCopy (h.read s) size.toNat
    (r.1, { data := r.2, strategy := .fixed size.toNat s.len })
  else if size > 0 then
    let src := { s with off := s.off + (s.len - size.toNat), len := size.toNat }
    let r := h.makeCopy (h.read src) size.toNat
    (r.1, { data := r.2, strategy := .fixed size.toNat size.toNat })
  else
    let r := h.makeCopy (h.read s) s.len
    (r.1, { data := r.2, strategy := .infinite })

/-- `push` of the strategies (core/buffer.go:102-116, 122-124), called by `Push` and `applyNext`
(core/buffer.go:58, 83). -/
def HeapBuffer.store (h : Heap E) (b : HeapBuffer) (e : E) (extra : Nat) : Heap E × HeapBuffer :=
  match b.strategy with
  | .fixed size position =>
    let position := if position = size then 0 else position
    if position < b.data.len then
      (h.write b.data.arr (b.data.off + position) e,
       { b with strategy := .fixed size (position + 1) })
    else
      let r := h.append b.data e extra
      (r.1, { data := r.2, strategy := .fixed size (position + 1) })
  | .infinite =>
    let r := h.append b.data e extra
    (r.1, { b with data := r.2 })

/-- Events: the buffer stores an element, or somebody else writes in one of the arrays that existed
before the buffer (the caller's arrays). -/
inductive HeapOp (E : Type) where
  | store (e : E) (extra : Nat)
  | callerWrite (arr i : Nat) (v : E)

/-- One event; `base` is the number of arrays that existed before the buffer, other caller writes
are ignored. -/
def heapStep (base : Nat) (h : Heap E) (b : HeapBuffer) : HeapOp E → Heap E × HeapBuffer
  | .store e extra => b.store h e extra
  | .callerWrite arr i v => (if arr < base then h.write arr i v else h, b)

/-- A history. -/
def heapRun (base : Nat) (h : Heap E) (b : HeapBuffer) : List (HeapOp E) → Heap E × HeapBuffer
  | [] => (h, b)
  | o :: os => heapRun base (heapStep base h b o).1 (heapStep base h b o).2 os

/-- The stores of a history. -/
def storesOf : List (HeapOp E) → List E
  | [] => []
  | .store e _ :: os => e :: storesOf os
  | .callerWrite _ _ _ :: os => storesOf os

/-- The effect of the caller's writes alone. -/
def callerRun (base : Nat) (h : Heap E) : List (HeapOp E) → Heap E
  | [] => h
  | .store _ _ :: os => callerRun base h os
  | .callerWrite arr i v :: os => callerRun base (if arr < base then h.write arr i v else h) os

end Distclus
