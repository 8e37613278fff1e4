import Verif.Model.BufferHeap
import Verif.Model.Streaming
/-!
# The streaming algorithm with explicit slices (streaming/impl.go), and `Predict` during an iteration

Same code as `Model/Streaming.lean` on the heap of arrays of `Model/BufferHeap.lean`: `Iterate` returns the slice
`impl.clust` itself, which the controller stores and shows (core/ctrl.go:287-293, 313-317, core/model.go:14-18).
An element is a value: the points are never modified (`C41_fresh`).  The slice `cards` is not shown to anybody and
stays a list.
-/
namespace Distclus

section
variable {E F R : Type}

/-- `Impl` (streaming/impl.go:12-20) with its heap. -/
structure StreamHeap (E F R : Type) where
  heap : Heap E
  maxDistance : F
  clust : Slice
  cards : List Int
  c : List E
  conf : StreamingConf F R
  count : Int

/-- `NewImpl` (streaming/impl.go:30-44) in a heap `h`; the nil slice `clust` is a slice of an array without
room. -/
def StreamHeap.new [Zero F] (h : Heap E) (conf : StreamingConf F R) (elemts : List E) :
    Option (StreamHeap E F R) :=
  if conf.bufferSize < 0 ∨ conf.bufferSize < elemts.length then none
  else some { heap := h ++ [[]], maxDistance := 0, clust := ⟨h.length, 0, 0⟩, cards := [], c := elemts, conf,
              count := 0 }

/-- `Push` (streaming/impl.go:77-84). -/
def StreamHeap.push (i : StreamHeap E F R) (e : E) : StreamHeap E F R × Bool :=
  if (i.c.length : Int) < i.conf.bufferSize then ({ i with c := i.c ++ [e] }, false) else (i, true)

variable [Inhabited E] [Zero F] [LT F] [DecidableLT F]

/-- `UpdateMaxDistance` (streaming/impl.go:87-91). -/
def StreamHeap.updateMaxDistance (i : StreamHeap E F R) (distance : F) : StreamHeap E F R :=
  if i.maxDistance < distance then { i with maxDistance := distance } else i

/-- `GetRelativeDistance` (streaming/impl.go:99-104). -/
def StreamHeap.getRelativeDistance [BEq F] [Div F] (i : StreamHeap E F R) (distance : F) :
    StreamHeap E F R × F :=
  let i := if i.maxDistance == 0 then { i with maxDistance := distance } else i
  (i, distance / i.maxDistance)

/-- `AddOutlier` (streaming/impl.go:114-117); `extra` is the spare room chosen by the runtime if `append` makes a
new array. -/
def StreamHeap.addOutlier (i : StreamHeap E F R) (outlier : E) (extra : Nat) : StreamHeap E F R :=
  let r := i.heap.append i.clust outlier extra
  { i with heap := r.1, clust := r.2, cards := i.cards ++ [1] }

/-- `AddCenter` (streaming/impl.go:107-111). -/
def StreamHeap.addCenter (i : StreamHeap E F R) (cluster : E) (distance : F) (extra : Nat) :
    StreamHeap E F R :=
  let r := i.heap.append i.clust cluster extra
  StreamHeap.updateMaxDistance { i with heap := r.1, clust := r.2, cards := i.cards ++ [1] } distance

/-- `UpdateCenter` (streaming/impl.go:120-125): the write in `impl.clust[label]` is in place. -/
def StreamHeap.updateCenter (i : StreamHeap E F R) (label : Int) (elemt : E) (distance : F)
    (space : Space E F) : Option (StreamHeap E F R) :=
  match idx? (i.heap.read i.clust) label, idx? i.cards label with
  | some center, some card =>
    some (StreamHeap.updateMaxDistance
      { i with
        heap := i.heap.write i.clust.arr (i.clust.off + label.toNat) (space.combine center card elemt 1)
        cards := i.cards.set label.toNat (card + 1) } distance)
  | _, _ => none

/-- `Init` (streaming/impl.go:47-58): the result is a literal `core.Clust{...}`, an array of its own. -/
def StreamHeap.init (i : StreamHeap E F R) (extra : Nat) : StreamHeap E F R × Option Slice :=
  match i.c with
  | e :: q =>
    let r := i.heap.makeCopy [e] 1
    (StreamHeap.addCenter { i with heap := r.1, c := q } e 0 extra, some r.2)
  | [] => (i, none)

variable [One F] [Neg F] [BEq F] [Div F]

/-- `Process` (streaming/impl.go:133-148). -/
def StreamHeap.process (i : StreamHeap E F R) (space : Space E F) (threshold : F) (extra : Nat) (elemt : E) :
    Option (StreamHeap E F R) :=
  match assign space (i.heap.read i.clust) elemt with
  | none => none
  | some (_, label, distance) =>
    let (i, relative) := i.getRelativeDistance distance
    let r :=
      if i.conf.outAfter ≤ i.count ∧ i.conf.outRatio < relative then some (i.addOutlier elemt extra)
      else if threshold < relative then some (i.addCenter elemt distance extra)
      else i.updateCenter label elemt distance space
    match r with
    | none => none
    | some i => some { i with count := i.count + 1 }

/-- `Iterate` (streaming/impl.go:61-70): `clust = impl.clust` is the slice of the implementation. -/
def StreamHeap.iterate (i : StreamHeap E F R) (space : Space E F) (threshold : F) (extra : Nat) :
    Option (StreamHeap E F R × Option Slice × F) :=
  match i.c with
  | e :: q =>
    match StreamHeap.process { i with c := q } space threshold extra e with
    | none => none
    | some i => some (i, some i.clust, i.maxDistance)
  | [] => some (i, none, i.maxDistance)

/-- A call to the implementation, or a write of a client in a slice it got from `Centroids()`. -/
inductive StreamHOp (E F : Type) where
  | push (e : E)
  | init (extra : Nat)
  | iterate (threshold : F) (extra : Nat)
  | clientWrite (s : Slice) (i : Nat) (v : E)

/-- The result of a call. -/
inductive StreamHRes (F : Type) where
  | push (err : Bool)
  | init (clust : Option Slice)
  | iterate (clust : Option Slice) (maxDistance : F)
  | written
deriving DecidableEq

/-- One event; `none` is a panic. -/
def StreamHeap.step (i : StreamHeap E F R) (space : Space E F) :
    StreamHOp E F → Option (StreamHeap E F R × StreamHRes F)
  | .push e => let (i, err) := i.push e; some (i, .push err)
  | .init extra => let (i, cl) := i.init extra; some (i, .init cl)
  | .iterate t extra =>
    match i.iterate space t extra with
    | none => none
    | some (i, cl, m) => some (i, .iterate cl m)
  | .clientWrite s k v =>
    if k < s.len then some ({ i with heap := i.heap.write s.arr (s.off + k) v }, .written) else none

/-- A sequence of events with their results. -/
def StreamHeap.run (space : Space E F) :
    StreamHeap E F R → List (StreamHOp E F) → Option (StreamHeap E F R × List (StreamHRes F))
  | i, [] => some (i, [])
  | i, op :: ops =>
    match i.step space op with
    | none => none
    | some (i, r) =>
      match StreamHeap.run space i ops with
      | none => none
      | some (i, rs) => some (i, r :: rs)

/-- `Predict` (core/ctrl.go:201-205) on the slice `s` returned by `Centroids()`, while the array is being
written: `reads[j]` is the heap when `nearest` reads `(*c)[j]` (core/clustering.go:145-150) and `last` the heap
when `Assign` reads `(*c)[label]` (core/clustering.go:22). -/
def predictLive (space : Space E F) (s : Slice) (reads : List (Heap E)) (last : Heap E) (elemt : E) :
    Option (Option E × Int × F) :=
  match allSome ((List.range s.len).map fun j => (reads[j]?).bind fun h => (h.read s)[j]?) with
  | none => none
  | some c =>
    let (label, dist) := nearest space c elemt
    if label ≥ 0 then
      match idx? (last.read s) label with
      | some centroid => some (some centroid, label, dist)
      | none => none
    else some (none, label, dist)

end
end Distclus
