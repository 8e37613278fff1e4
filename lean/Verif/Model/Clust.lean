import Verif.Model.Par
/-!
# `core.Clust` (core/clustering.go, core/par_assign.go, core/par_dba.go, core/par_loss.go)

A `Clust` with all its centroids present is a `List E`; the result of `ReduceDBA`, which may contain
`nil` entries, is a `List (Option E)`.
-/

namespace Distclus

section
variable {E F : Type}

/-- One element write into one of two shared slices: `copy(labels[start:end], ...)` (`fst`) /
`copy(dists[start:end], ...)` (`snd`) of core/par_assign.go:8-9, or `part.dbas = ...` (`fst`) /
`part.cards = ...` (`snd`) with `part = &parts[rank]` of core/par_dba.go:36,40 and
core/par_loss.go:36,41. -/
inductive PairWrite (A B : Type) where
  | fst (i : Nat) (v : A)
  | snd (i : Nat) (v : B)

/-- Effect of one write on the two shared slices. -/
def PairWrite.run {A B : Type} (m : List A × List B) : PairWrite A B → List A × List B
  | .fst i v => (m.1.set i v, m.2)
  | .snd i v => (m.1, m.2.set i v)

/-- The shared `parts` slice of the reductions (core/par_dba.go:9,22, core/par_loss.go:9,22) after
all the workers are done: worker of rank `i`, whose local result is `results[i]`, stores the two
fields of `parts[i]`; `r` is a possible content for some interleaving. -/
def ParParts {A B : Type} (zero : A × B) (results : List (A × B)) (r : List A × List B) : Prop :=
  ∃ trace, Interleave
      (results.mapIdx fun i v => [PairWrite.fst i v.1, PairWrite.snd i v.2]) trace ∧
    r = trace.foldl PairWrite.run
      (List.replicate results.length zero.1, List.replicate results.length zero.2)

section Nearest
variable [Zero F] [One F] [Neg F] [LT F] [DecidableLT F]

/-- The loop of `nearest` (core/clustering.go:145-150), started at index `i` with the current
`label` and `min`.  `min > d` is `d < min`, `min < 0 || min > d` is lazy but `Dist` was already
called in the `if` initialiser. -/
def nearestLoop (space : Space E F) (elemt : E) : List E → Nat → Int → F → Int × F
  | [], _, label, min => (label, min)
  | c :: cs, i, label, min =>
    let d := space.dist elemt c
    if min < 0 ∨ d < min then nearestLoop space elemt cs (i + 1) (i : Int) d
    else nearestLoop space elemt cs (i + 1) label min

/-- `(*Clust).nearest` (core/clustering.go:141-153). -/
def nearest (space : Space E F) (c : List E) (elemt : E) : Int × F :=
  nearestLoop space elemt c 0 (-1) (-1)

/-- `(*Clust).Assign` (core/clustering.go:19-25).  The result `none` of the outer `Option` is an
index panic, `none` of the centroid is the Go `nil` left when the label is negative. -/
def assign (space : Space E F) (c : List E) (elemt : E) : Option (Option E × Int × F) :=
  let (label, dist) := nearest space c elemt
  if label ≥ 0 then
    match idx? c label with
    | some centroid => some (some centroid, label, dist)
    | none => none
  else some (none, label, dist)

/-- `(*Clust).MapLabel` (core/clustering.go:28-37). -/
def mapLabel (space : Space E F) (c : List E) (elemts : List E) : List Int × List F :=
  (elemts.map fun e => (nearest space c e).1, elemts.map fun e => (nearest space c e).2)

end Nearest

section ParMapLabel
variable [Zero F] [One F] [Neg F] [LT F] [DecidableLT F]

/-- The writes performed by the worker of a chunk, in its program order
(core/par_assign.go:7-11). -/
def labelWorker (space : Space E F) (c : List E) (data : List E) (k : Chunk) :
    List (PairWrite Int F) :=
  let (partLabels, partDists) := mapLabel space c (slice data k.start k.stop)
  partLabels.mapIdx (fun j v => .fst (k.start + j) v) ++
    partDists.mapIdx (fun j v => .snd (k.start + j) v)

/-- `parMapLabel` (core/par_assign.go:3-15) as a relation: `r` is a possible result, for some
interleaving of the workers. `make([]T, n)` gives zeroed slices. -/
def ParMapLabel (space : Space E F) (c : List E) (data : List E) (degree : Int)
    (r : List Int × List F) : Prop :=
  ∃ chunks, par data.length degree = some chunks ∧
  ∃ trace, Interleave (chunks.map (labelWorker space c data)) trace ∧
    r = trace.foldl PairWrite.run
      (List.replicate data.length 0, List.replicate data.length 0)

end ParMapLabel

/-! ### Averages -/

/-- One step of the loops of `ReduceDBA` (core/clustering.go:51-57) and `ReduceDBAForLabels`
(core/clustering.go:72-78): account `elemt` in cluster `ix`.  `none` is a panic: `cards[ix]` out of
range, or `Combine` called on a `nil` centroid. -/
def dbaStep (space : Space E F) (st : List (Option E) × List Int) (ix : Int) (elemt : E) :
    Option (List (Option E) × List Int) :=
  match idx? st.2 ix with
  | none => none
  | some card =>
    if card = 0 then
      some (st.1.set ix.toNat (some (space.copy elemt)), st.2.set ix.toNat 1)
    else
      match idx? st.1 ix with
      | some (some m) =>
        some (st.1.set ix.toNat (some (space.combine m card elemt 1)), st.2.set ix.toNat (card + 1))
      | _ => none

/-- The loop of `ReduceDBAForLabels` (core/clustering.go:68-79); `labels[i]` panics when there are
fewer labels than elements. -/
def dbaLoop (space : Space E F) :
    List E → List Int → List (Option E) × List Int → Option (List (Option E) × List Int)
  | [], _, st => some st
  | _ :: _, [], _ => none
  | e :: es, l :: ls, st =>
    match dbaStep space st l e with
    | none => none
    | some st' => dbaLoop space es ls st'

/-- `(*Clust).ReduceDBAForLabels` (core/clustering.go:65-81). -/
def reduceDBAForLabels (space : Space E F) (c : List E) (elemts : List E) (labels : List Int) :
    Option (List (Option E) × List Int) :=
  dbaLoop space elemts labels (List.replicate c.length none, List.replicate c.length 0)

section
variable [Zero F] [One F] [Neg F] [LT F] [DecidableLT F]

/-- The loop of `ReduceDBA` (core/clustering.go:49-58). -/
def reduceLoop (space : Space E F) (c : List E) :
    List E → List (Option E) × List Int → Option (List (Option E) × List Int)
  | [], st => some st
  | e :: es, st =>
    match assign space c e with
    | none => none
    | some (_, ix, _) =>
      match dbaStep space st ix e with
      | none => none
      | some st' => reduceLoop space c es st'

/-- `(*Clust).ReduceDBA` (core/clustering.go:45-62). -/
def reduceDBA (space : Space E F) (c : List E) (elemts : List E) :
    Option (List (Option E) × List Int) :=
  reduceLoop space c elemts (List.replicate c.length none, List.replicate c.length 0)
end

/-- `dbaCombine` (core/par_dba.go:57-74), for one index: merge the entry of another partition.
`Combine` on a `nil` (when a positive cardinality has no mean) would panic: `none`. -/
def dbaCombine1 (space : Space E F) (a : Option E × Int) (o : Option E × Int) :
    Option (Option E × Int) :=
  if a.2 = 0 then some o
  else if o.2 > 0 then
    match a.1, o.1 with
    | some x, some y => some (some (space.combine x a.2 y o.2), a.2 + o.2)
    | _, _ => none
  else some a

/-- The loop of `dbaCombine` (core/par_dba.go:58-71): `for i := 0; i < len(aggregate.dbas); i++`, on
the four slices walked in step. `other.dbas[i]` would panic if the other partition were shorter:
`none`. -/
def dbaCombineLoop (space : Space E F) :
    List (Option E) → List Int → List (Option E) → List Int → Option (List (Option E) × List Int)
  | [], cs, _, _ => some ([], cs)
  | d :: ds, c :: cs, d' :: ds', c' :: cs' =>
    match dbaCombine1 space (d, c) (d', c') with
    | none => none
    | some (d2, c2) =>
      match dbaCombineLoop space ds cs ds' cs' with
      | none => none
      | some (ds2, cs2) => some (d2 :: ds2, c2 :: cs2)
  | _, _, _, _ => none

/-- `dbaCombine` (core/par_dba.go:57-74). -/
def dbaCombine (space : Space E F) (a o : List (Option E) × List Int) :
    Option (List (Option E) × List Int) :=
  dbaCombineLoop space a.1 a.2 o.1 o.2

/-- The loop of `dbaAggregate` (core/par_dba.go:43-55) once `aggregate.dbas` is not nil. -/
def dbaAggregateLoop (space : Space E F) :
    List (List (Option E) × List Int) → List (Option E) × List Int →
    Option (List (Option E) × List Int)
  | [], agg => some agg
  | o :: os, agg =>
    match dbaCombine space agg o with
    | none => none
    | some agg' => dbaAggregateLoop space os agg'

/-- `dbaAggregate` (core/par_dba.go:43-55).  Every partition's `dbas` is a non-nil slice, so the
first partition initialises the aggregate and the others are combined. With no partition the
aggregate is empty. -/
def dbaAggregate (space : Space E F) :
    List (List (Option E) × List Int) → Option (List (Option E) × List Int)
  | [] => some ([], [])
  | p :: ps => dbaAggregateLoop space ps p

/-- All results or a panic: goroutines of `Par` run to completion, a panic in any of them kills the
process. -/
def allSome {α : Type} : List (Option α) → Option (List α)
  | [] => some []
  | none :: _ => none
  | some a :: r => match allSome r with
    | none => none
    | some l => some (a :: l)

/-- `parDBAForLabels` (core/par_dba.go:21-33).  Each worker only writes its own `parts[rank]`
(line 25), so the result does not depend on the schedule: `parts` is the list of workers' results in
rank order (see `Props/Par.lean` for the schedule independence of such writes). -/
def parDBAForLabels (space : Space E F) (c : List E) (data : List E) (labels : List Int)
    (degree : Int) : Option (List (Option E) × List Int) :=
  match par data.length degree with
  | none => none
  | some chunks =>
    match allSome (chunks.map fun k =>
        reduceDBAForLabels space c (slice data k.start k.stop) (slice labels k.start k.stop)) with
    | none => none
    | some parts => dbaAggregate space parts

/-- The loop of `buildResult` (core/par_dba.go:78-84), entry by entry: the aggregated mean when the
cluster has elements, the previous centroid otherwise. `none`: index panic when lengths differ. -/
def buildLoop : List E → List (Option E) → List Int → Option (List (Option E))
  | [], _, _ => some []
  | d :: ds, m :: ms, card :: cards =>
    match buildLoop ds ms cards with
    | none => none
    | some r => some ((if card > 0 then m else some d) :: r)
  | _ :: _, _, _ => none

/-- `buildResult` (core/par_dba.go:76-86). -/
def parBuildResult (data : List E) (aggr : List (Option E) × List Int) :
    Option (List (Option E)) :=
  buildLoop data aggr.1 aggr.2

section
variable [Zero F] [One F] [Neg F] [LT F] [DecidableLT F]

/-- `parReduceDBA` (core/par_dba.go:8-19). -/
def parReduceDBA (space : Space E F) (c : List E) (data : List E) (degree : Int) :
    Option (List (Option E) × List Int) :=
  match par data.length degree with
  | none => none
  | some chunks =>
    match allSome (chunks.map fun k => reduceDBA space c (slice data k.start k.stop)) with
    | none => none
    | some parts =>
      match dbaAggregate space parts with
      | none => none
      | some aggr =>
        match parBuildResult c aggr with
        | none => none
        | some r => some (r, aggr.2)
end

/-- Loop of `DBA` (core/clustering.go:166-169). -/
def dbaFold (space : Space E F) : List E → E → Int → E
  | [], m, _ => m
  | e :: es, m, w => dbaFold space es (space.combine m w e 1) (w + 1)

/-- `core.DBA` (core/clustering.go:156-172); `none` is the error "DBA needs at least one
elements". -/
def dba (space : Space E F) : List E → Option E
  | [] => none
  | e :: es => some (dbaFold space es (space.copy e) 1)

/-- Outcome of `WeightedDBA`. -/
inductive WDBA (E : Type) where
  | error
  | panic
  | ok (e : E)

/-- Loop of `WeightedDBA` (core/clustering.go:185-188); `weights[i]` may be out of range. -/
def wdbaFold (space : Space E F) : List E → List Int → E → Int → WDBA E
  | [], _, m, _ => .ok m
  | _ :: _, [], _, _ => .panic
  | e :: es, v :: vs, m, w => wdbaFold space es vs (space.combine m w e v) (w + v)

/-- `core.WeightedDBA` (core/clustering.go:175-191). -/
def weightedDBA (space : Space E F) : List E → List Int → WDBA E
  | [], _ => .error
  | _ :: _, [] => .panic
  | e :: es, w :: ws => wdbaFold space es ws (space.copy e) w

/-! ### Losses -/

section Loss
variable [Zero F] [Add F] [GoMath F]

/-- Body of the loops of `ReduceLoss` (core/clustering.go:111-112) and `ReduceLossForLabels`
(core/clustering.go:129-130). -/
def lossStep (st : List F × List Int) (label : Int) (loss : F) : Option (List F × List Int) :=
  match idx? st.2 label, idx? st.1 label with
  | some card, some l => some (st.1.set label.toNat (l + loss), st.2.set label.toNat (card + 1))
  | _, _ => none

/-- Loop of `ReduceLoss` (core/clustering.go:109-113). -/
def lossLoop [One F] [Neg F] [LT F] [DecidableLT F] (space : Space E F) (c : List E) (norm : F) :
    List E → List F × List Int → Option (List F × List Int)
  | [], st => some st
  | e :: es, st =>
    let (label, min) := nearest space c e
    match lossStep st label (GoMath.pow min norm) with
    | none => none
    | some st' => lossLoop space c norm es st'

/-- `(*Clust).ReduceLoss` (core/clustering.go:106-115). -/
def reduceLoss [One F] [Neg F] [LT F] [DecidableLT F] (space : Space E F) (c : List E)
    (elemts : List E) (norm : F) : Option (List F × List Int) :=
  lossLoop space c norm elemts (List.replicate c.length 0, List.replicate c.length 0)

/-- Loop of `ReduceLossForLabels` (core/clustering.go:126-131): `labels[i]`, `(*c)[label]` may be
out of range. -/
def lossLabelLoop (space : Space E F) (c : List E) (norm : F) :
    List E → List Int → List F × List Int → Option (List F × List Int)
  | [], _, st => some st
  | _ :: _, [], _ => none
  | e :: es, l :: ls, st =>
    match idx? c l with
    | none => none
    | some cl =>
      match lossStep st l (GoMath.pow (space.dist e cl) norm) with
      | none => none
      | some st' => lossLabelLoop space c norm es ls st'

/-- `(*Clust).ReduceLossForLabels` (core/clustering.go:123-133). -/
def reduceLossForLabels (space : Space E F) (c : List E) (elemts : List E) (labels : List Int)
    (norm : F) : Option (List F × List Int) :=
  lossLabelLoop space c norm elemts labels (List.replicate c.length 0, List.replicate c.length 0)

/-- `floats.Sum` of gonum: left-to-right sum from 0. -/
def sumF (l : List F) : F := l.foldl (· + ·) 0

/-- `(*Clust).TotalLoss` (core/clustering.go:94-97). -/
def totalLoss [One F] [Neg F] [LT F] [DecidableLT F] (space : Space E F) (c : List E)
    (elemts : List E) (norm : F) : Option F :=
  (reduceLoss space c elemts norm).map fun r => sumF r.1

/-- Inner loop of `lossAggregate` (core/par_loss.go:53-56), on the losses and cards of the other
partition and of the aggregate; `aggregate.losses[i]` may be out of range. -/
def addLoop : List F → List Int → List F → List Int → Option (List F × List Int)
  | [], _, ls, cs => some (ls, cs)
  | l' :: ls', c' :: cs', l :: ls, c :: cs =>
    match addLoop ls' cs' ls cs with
    | none => none
    | some (r, q) => some ((l + l') :: r, (c + c') :: q)
  | _, _, _, _ => none

/-- Inner loop of `lossAggregate` (core/par_loss.go:53-56). -/
def addLists (agg other : List F × List Int) : Option (List F × List Int) :=
  addLoop other.1 other.2 agg.1 agg.2

/-- Loop of `lossAggregate` (core/par_loss.go:46-58) after the first partition. -/
def lossAggregateLoop : List (List F × List Int) → List F × List Int → Option (List F × List Int)
  | [], agg => some agg
  | o :: os, agg =>
    match addLists agg o with
    | none => none
    | some agg' => lossAggregateLoop os agg'

/-- `lossAggregate` (core/par_loss.go:44-60): the first partition (whose slices are non-nil) is
copied, the following ones are added. -/
def lossAggregate : List (List F × List Int) → Option (List F × List Int)
  | [] => some ([], [])
  | p :: ps => lossAggregateLoop ps p

/-- `parLoss` (core/par_loss.go:21-32). -/
def parLoss [One F] [Neg F] [LT F] [DecidableLT F] (space : Space E F) (c : List E)
    (data : List E) (norm : F) (degree : Int) : Option (List F × List Int) :=
  match par data.length degree with
  | none => none
  | some chunks =>
    match allSome (chunks.map fun k => reduceLoss space c (slice data k.start k.stop) norm) with
    | none => none
    | some parts => lossAggregate parts

/-- `parLossForLabels` (core/par_loss.go:8-19). -/
def parLossForLabels (space : Space E F) (c : List E) (data : List E) (labels : List Int)
    (norm : F) (degree : Int) : Option (List F × List Int) :=
  match par data.length degree with
  | none => none
  | some chunks =>
    match allSome (chunks.map fun k =>
      reduceLossForLabels space c (slice data k.start k.stop) (slice labels k.start k.stop) norm) with
    | none => none
    | some parts => lossAggregate parts

/-- `(*Clust).ParTotalLoss` (core/clustering.go:100-103). -/
def parTotalLoss [One F] [Neg F] [LT F] [DecidableLT F] (space : Space E F) (c : List E)
    (elemts : List E) (norm : F) (degree : Int) : Option F :=
  (parLoss space c elemts norm degree).map fun r => sumF r.1

end Loss
end
end Distclus
