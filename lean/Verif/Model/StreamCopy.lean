import Verif.Model.StreamHeap
/-!
# `Copy` of a streaming algorithm while it works (streaming/impl.go:22-27, 30-44, core/ctrl.go:374-380)

`Copy` takes no lock: `NewAlgo(*conf, model.Space(), impl.clust)` is given the slice of the centres of the original
and `NewImpl` sends its elements one after the other in the channel of the copy (streaming/impl.go:32-34), while the
original may go on.

Simplifications: the header of the slice `impl.clust`, and an element, are read in one step; a call to the original
(`Push`, `Init`, `Iterate`) takes place between two reads (it changes at most one centre, by one write).
-/
namespace Distclus

section
variable {E F R : Type} [Inhabited E] [Zero F] [One F] [Neg F] [LT F] [DecidableLT F] [BEq F] [Div F]

/-- A copy in progress: the original, the slice `elemts` given to `NewImpl`, and the content of the channel of the
copy. -/
structure StreamCopying (E F R : Type) where
  impl : StreamHeap E F R
  src : Slice
  out : List E

/-- The events: the loop sends its next element (streaming/impl.go:32-34), or a call to the original. -/
inductive StreamCopyOp (E F : Type) where
  | send
  | call (op : StreamHOp E F)

/-- The beginning of `Copy` (streaming/impl.go:24-25): `NewAlgo` panics (`none`) if there is not enough room
(streaming/algo.go:8-10), and so does `make` with a negative size (streaming/impl.go:31).  `conf` is the
configuration after `Verify` (streaming/algo.go:7). -/
def StreamCopying.start (i : StreamHeap E F R) (conf : StreamingConf F R) : Option (StreamCopying E F R) :=
  if conf.bufferSize < i.clust.len ∨ conf.bufferSize < 0 then none else some ⟨i, i.clust, []⟩

/-- One event; `none` is a panic of the original.  The loop is over when the length of the slice is reached. -/
def StreamCopying.step (space : Space E F) (s : StreamCopying E F R) :
    StreamCopyOp E F → Option (StreamCopying E F R)
  | .send =>
    if s.out.length < s.src.len then
      some { s with out := s.out ++ [(s.impl.heap.getD s.src.arr []).getD (s.src.off + s.out.length) default] }
    else some s
  | .call op =>
    match s.impl.step space op with
    | none => none
    | some (i, _) => some { s with impl := i }

/-- A history. -/
def StreamCopying.run (space : Space E F) :
    StreamCopying E F R → List (StreamCopyOp E F) → Option (StreamCopying E F R)
  | s, [] => some s
  | s, op :: ops =>
    match s.step space op with
    | none => none
    | some s => StreamCopying.run space s ops

/-- The implementation of the copy, when all the elements have been sent (streaming/impl.go:35-43). -/
def StreamCopying.result (s : StreamCopying E F R) (conf : StreamingConf F R) : StreamImpl E F R :=
  { maxDistance := 0, clust := [], cards := [], c := s.out, conf, count := 0 }

end
end Distclus
