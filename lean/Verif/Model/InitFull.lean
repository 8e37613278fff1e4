import Verif.Model.KMeans
/-!
# What the initializers return with an error

`Model/KMeans.lean` keeps the centroids of a successful initialisation only.  Here are the two results of the
initializers, with the `nil` entries of `make(core.Clust, k)`.
-/
namespace Distclus

section
variable {E F : Type}

/-- The errors of the initializers (kmeans/init.go:27, 29, 74). -/
inductive InitErr where
  | lowK
  | fewer
  | nullSet
deriving DecidableEq, Repr

/-- Outcome of an initializer: a run-time panic, or the centroids (`none` is the `nil` slice, a `none` in the
list is a `nil` element) and the error. -/
inductive FullRes (E : Type) where
  | panic
  | ret (c : Option (List (Option E))) (err : Option InitErr)
deriving DecidableEq, Repr

/-- `check` (kmeans/init.go:25-33). -/
def initCheckErr (k : Int) (elemts : List E) : Option InitErr :=
  if k < 1 then some .lowK else if (elemts.length : Int) < k then some .fewer else none

/-- `GivenInitializer` (kmeans/init.go:36-47): the named result `centroids` stays `nil` with an error. -/
def givenFull (k : Int) (elemts : List E) (space : Space E F) : FullRes E :=
  match initCheckErr k elemts with
  | some e => .ret none (some e)
  | none =>
    match givenLoop space k.toNat elemts with
    | none => .panic
    | some c => .ret (some (c.map some)) none

/-- `RandInitializer` (kmeans/init.go:77-98): the centroids are made before the error is tested.  `none` when
more draws are needed. -/
def randFull (k : Int) (elemts : List E) (space : Space E F) (draws : List Nat) : Option (FullRes E) :=
  if k < 0 then some .panic
  else match initCheckErr k elemts with
    | some e => some (.ret (some (List.replicate k.toNat none)) (some e))
    | none =>
      match randLoop space elemts k.toNat draws [] [] with
      | none => none
      | some none => some .panic
      | some (some c) => some (.ret (some (c.map some)) none)

variable [Zero F] [One F] [Neg F] [LT F] [DecidableLT F] [Add F] [Sub F] [Mul F] [BEq F]

/-- The loop of `PPInitializer` (kmeans/init.go:58-60): `n` turns remain, the first entries are `acc`.  With the
null-set error `PPIter` (67-71) returns a copy of the first element, stored too, and the loop ends. -/
def ppFullLoop (space : Space E F) (elemts : List E) : Nat → List F → List E → Option (FullRes E)
  | 0, _, acc => some (.ret (some (acc.map some)) none)
  | _ + 1, [], _ => none
  | n + 1, u :: us, acc =>
    match ppIter space acc elemts u with
    | .panic => some .panic
    | .nullSet =>
      some (.ret (some ((acc ++ (elemts.take 1).map space.copy).map some ++ List.replicate n none)) (some .nullSet))
    | .ok e => ppFullLoop space elemts n us (acc ++ [e])

/-- `PPInitializer` (kmeans/init.go:50-64): the centroids are made before the error is tested. -/
def ppFull (k : Int) (elemts : List E) (space : Space E F) (first : Nat) (draws : List F) :
    Option (FullRes E) :=
  if k < 0 then some .panic
  else match initCheckErr k elemts with
    | some e => some (.ret (some (List.replicate k.toNat none)) (some e))
    | none =>
      match elemts[first]? with
      | none => some .panic
      | some e => ppFullLoop space elemts (k.toNat - 1) draws [e]

/-- The values of `initializersByNames` (kmeans/init.go:13-17). -/
inductive InitName where
  | given
  | pp
  | rand
deriving DecidableEq, Repr

/-- `CreateInitializer` (kmeans/init.go:13-22): `lower` is `strings.ToLower`; a name which is not in the map
gives the zero value of the map, a `nil` function. -/
def createInitializer (lower : String → String) (name : String) : Option InitName :=
  if lower name = "given" then some .given
  else if lower name = "pp" then some .pp
  else if lower name = "rand" then some .rand
  else none

/-- The call of the initializer by `Init` of k-means (kmeans/impl.go:24): the call of a `nil` function panics. -/
def callInitializer (i : Option InitName) (k : Int) (elemts : List E) (space : Space E F) (first : Nat)
    (ints : List Nat) (floats : List F) : Option (FullRes E) :=
  match i with
  | none => some .panic
  | some .given => some (givenFull k elemts space)
  | some .pp => ppFull k elemts space first floats
  | some .rand => randFull k elemts space ints

/-- The loop of `nearest` (core/clustering.go:145-150) on a slice with `nil` entries: `Dist` of the spaces of the
library begins with a type assertion of both elements (euclid/vectors.go:20-21, cosinus/cosinus.go:25-26,
dtw/series.go:36-37), which panics on `nil`; `none` is this panic. -/
def nearestNilLoop (space : Space E F) (elemt : E) : List (Option E) → Nat → Int → F → Option (Int × F)
  | [], _, label, min => some (label, min)
  | none :: _, _, _, _ => none
  | some c :: cs, i, label, min =>
    let d := space.dist elemt c
    if min < 0 ∨ d < min then nearestNilLoop space elemt cs (i + 1) (i : Int) d
    else nearestNilLoop space elemt cs (i + 1) label min

/-- `Predict` (core/ctrl.go:201-205) when `Centroids()` returns `c`: `Assign` (core/clustering.go:19-25); `none` is
a panic. -/
def predictNil (space : Space E F) (c : Option (List (Option E))) (elemt : E) :
    Option (Option E × Int × F) :=
  let l := c.getD []
  match nearestNilLoop space elemt l 0 (-1) (-1) with
  | none => none
  | some (label, dist) =>
    if label ≥ 0 then
      match idx? l label with
      | some centroid => some (centroid, label, dist)
      | none => none
    else some (none, label, dist)

end
end Distclus
