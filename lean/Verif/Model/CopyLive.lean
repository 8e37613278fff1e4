import Verif.Model.Copy
/-!
# `Copy` while the original stores data (core/ctrl.go:374-380)

`Copy` takes no lock: `impl.buffer.Data()` (kmeans/impl.go:41, mcmc/impl.go:32) yields a slice of the array of the
original, whose elements are copied one after the other by `copy` (core/buffer.go:35, 41, 47) while the run of the
original, or a client, may store elements (core/buffer.go:58, 83).

Simplifications: the slice header returned by `Data()`, and an element (an interface value), are read and written in
one step; `copy` reads in increasing order (Go does not say in which order; a frame is filled in this order too).
-/
namespace Distclus
variable {E : Type} [Inhabited E]

/-- A copy in progress: the heap, the buffer of the original, the slice given by `Data()`, and what has been
copied. -/
structure Copying (E : Type) where
  heap : Heap E
  orig : HeapBuffer
  src : Slice
  out : List E
deriving DecidableEq

/-- The events: `copy` reads its next element, or the original stores an element. -/
inductive CopyOp (E : Type) where
  | read
  | store (e : E) (extra : Nat)
deriving DecidableEq

/-- `impl.buffer.Data()` (kmeans/impl.go:41, mcmc/impl.go:32). -/
def Copying.start (h : Heap E) (b : HeapBuffer) : Copying E := ⟨h, b, b.data, []⟩

/-- One event. `copy` is over when the length of the slice is reached. -/
def Copying.step (s : Copying E) : CopyOp E → Copying E
  | .read =>
    if s.out.length < s.src.len then
      { s with out := s.out ++ [(s.heap.getD s.src.arr []).getD (s.src.off + s.out.length) default] }
    else s
  | .store e extra => { s with heap := (s.orig.store s.heap e extra).1, orig := (s.orig.store s.heap e extra).2 }

/-- A history. -/
def Copying.run (s : Copying E) (ops : List (CopyOp E)) : Copying E := ops.foldl Copying.step s

/-- The buffer of the copy (core/buffer.go:30-48), when all the elements have been read. -/
def Copying.result (s : Copying E) (size : Int) : DataBuffer E := newDataBuffer s.out size

end Distclus
