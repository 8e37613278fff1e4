import Verif.Model.Streaming
import Verif.Model.KMeans
/-!
# Vectors shared with the caller

`core.Elemt` holds a reference to a slice: the buffer (core/buffer.go:65-72, 103-124), the channel and the
centres of streaming (streaming/impl.go:47-58, 77-84, 107-117), the first centroid of `PPInitializer`
(kmeans/init.go:56) and the centroids kept of empty clusters (kmeans/seq.go:24-33) store the reference
they are given.  `Copy` and `Combine` return new vectors (euclid/vectors.go:44-67,
cosinus/cosinus.go:40-52, dtw/series.go:28-50; `C41_fresh` and `C41_copy_fresh` for the vectors).

The algorithms of the model are polymorphic in the elements: here they run on references, in a memory
which the caller may change between two calls.

Simplifications: only the vectors of the caller are given addresses (a vector made by the library is its
value, since the library never writes in a vector it has returned from `Copy` or `Combine`; the clients
of `Centroids()` who write in the centroids are outside of this model); a write replaces a whole vector.
-/
namespace Distclus

/-- A reference to a vector: one of the caller's, by its address, or one made by the library. -/
inductive Ref (E : Type) where
  | own (v : E)
  | ptr (i : Nat)
deriving DecidableEq, Repr

variable {E F R : Type}

/-- The vector seen through a reference when the vectors of the caller are `mem`. -/
def Ref.see (mem : Nat → E) : Ref E → E
  | .own v => v
  | .ptr i => mem i

/-- The space, on references: distances read the vectors, `Combine` and `Copy` make new ones. -/
def memSpace (space : Space E F) (mem : Nat → E) : Space (Ref E) F where
  dist a b := space.dist (a.see mem) (b.see mem)
  combine a w b v := .own (space.combine (a.see mem) w (b.see mem) v)
  copy a := .own (space.copy (a.see mem))
  dim l := space.dim (l.map (Ref.see mem))

/-- The caller stores `v` in their vector `i`. -/
def writeMem (mem : Nat → E) (i : Nat) (v : E) : Nat → E := fun j => if j = i then v else mem j

/-- What a client of the streaming algorithm does: a call, elements being pushed by reference, or a write
in one of their vectors. -/
inductive ShareOp (E F : Type) where
  | push (i : Nat)
  | init
  | iterate (threshold : F)
  | write (i : Nat) (v : E)

/-- Iterations of k-means (core/ctrl.go:280-293 with kmeans/impl.go:30-35), each on the content of the
buffer and the memory of its moment. -/
def memRun [Zero F] [One F] [Neg F] [LT F] [DecidableLT F] (s : KStrategy) (space : Space E F) :
    List ((Nat → E) × List (Ref E)) → List (Ref E) → Option (List (Ref E))
  | [], c => some c
  | (mem, data) :: rest, c => (kmeansStep s (memSpace space mem) data c).bind (memRun s space rest)

variable [Zero F] [LT F] [DecidableLT F] [One F] [Neg F] [BEq F] [Div F]

/-- One action; `none` is a panic. -/
def shareStep (space : Space E F) (st : (Nat → E) × StreamImpl (Ref E) F R) :
    ShareOp E F → Option ((Nat → E) × StreamImpl (Ref E) F R)
  | .push i => some (st.1, (st.2.push (.ptr i)).1)
  | .init => some (st.1, st.2.init.1)
  | .iterate t => (st.2.iterate (memSpace space st.1) t).map fun r => (st.1, r.1)
  | .write i v => some (writeMem st.1 i v, st.2)

/-- A sequence of actions. -/
def shareRun (space : Space E F) : (Nat → E) × StreamImpl (Ref E) F R → List (ShareOp E F) →
    Option ((Nat → E) × StreamImpl (Ref E) F R)
  | st, [] => some st
  | st, op :: ops => (shareStep space st op).bind fun st => shareRun space st ops

end Distclus
