import Verif.Model.BufferHeap
/-!
# `Copy` of an algorithm on a buffer (core/ctrl.go:374-380, kmeans/impl.go:39-43, mcmc/impl.go:30-34)

The buffer of the copy is made by `NewDataBuffer` (kmeans/seq.go:10, mcmc/seq.go:13) from the slice
returned by `Data()` on the buffer of the original. Simplification: the copy is taken while nobody
uses the original (`Copy` takes no lock).
-/
namespace Distclus
variable {E : Type}

/-- The buffer of the copy. `frameSize` is the `FrameSize` of the original's configuration: the new
configuration given to `Copy` (`_newFrameSize`) goes to the controller only (core/ctrl.go:375-377). -/
def DataBuffer.copy (b : DataBuffer E) (frameSize _newFrameSize : Int) : DataBuffer E :=
  newDataBuffer b.data frameSize

/-- Two buffers on one heap: an original and its copy. `left` says which one stores the element. -/
structure PairOp (E : Type) where
  left : Bool
  elemt : E
  extra : Nat

/-- One store by one of the two buffers. -/
def pairStep [Inhabited E] (s : Heap E × HeapBuffer × HeapBuffer) (o : PairOp E) :
    Heap E × HeapBuffer × HeapBuffer :=
  if o.left then
    let r := s.2.1.store s.1 o.elemt o.extra
    (r.1, r.2, s.2.2)
  else
    let r := s.2.2.store s.1 o.elemt o.extra
    (r.1, s.2.1, r.2)

/-- A history of the two buffers. -/
def pairRun [Inhabited E] (s : Heap E × HeapBuffer × HeapBuffer) (ops : List (PairOp E)) :
    Heap E × HeapBuffer × HeapBuffer := ops.foldl pairStep s

end Distclus
