import Verif.Model.Dtw
import Verif.Model.Euclid
import Verif.Model.Mcmc
import Verif.Model.Streaming
import Verif.Spec.Example
import Mathlib.Data.Rat.Sqrt
import Mathlib.Order.WithBot
/-!
# The tests of the repository, on the model

The values expected by the deterministic tests of the repository (`*_test.go`), computed by the
definitions of the model with rational numbers.  These are checks of the model, not properties of the
code.
-/
namespace Distclus.Conformance

/-- Rational stand-ins for `math`: the square root of the square of a rational is exact. -/
@[reducible] def qMath : GoMath ℚ where
  ofInt n := n
  sqrt := Rat.sqrt
  pow x y := x ^ y.num.toNat
  exp x := x
  log x := x
  inf := 0

/-- The same with the identity as square root: the labels are the same, a distance is its square. -/
@[reducible] def qMath' : GoMath ℚ := { qMath with sqrt := fun x => x }

/-! ### euclid/vectors_test.go, cosinus/cosinus_test.go -/

section
attribute [local instance] qMath

example : pointDist? [(2 : ℚ)] [4] = some 2 := by decide +kernel
example : pointDist? [(0 : ℚ)] [0] = some 0 := by decide +kernel
example : sumSq? [(2 : ℚ), 2] [4, 4] 0 = some 8 := by decide +kernel
example : pointCombine? [(2 : ℚ)] 1 [4] 1 = some [3] := by decide +kernel
example : pointCombine? [(2 : ℚ), 1] 2 [4, 2] 2 = some [3, 3 / 2] := by decide +kernel
example : pointCombine? [(2 : ℚ), 1] 0 [4, 2] 1 = some [4, 2] := by decide +kernel
example : euclidDim [([] : List ℚ)] = 0 := by decide +kernel
example : euclidDim [[(1 : ℚ), 2, 3]] = 3 := by decide +kernel
example : scalarProduct? [(1 : ℚ), 1] [1, 2] = some 3 := by decide +kernel
example : pointCombine? [(1 : ℚ), 1] 4 [1, 2] 1 = some [1, 6 / 5] := by decide +kernel

/-- Points of any dimension, on which the tests do not panic. -/
def qSpace : Space (List ℚ) ℚ where
  dist p q := (pointDist? p q).getD 0
  combine p w q v := (pointCombine? p w q v).getD []
  copy := pointCopy
  dim := euclidDim

/-! ### core/clustering_test.go -/

/-- `testPoints` -/
def testPoints : List (List ℚ) :=
  [[2], [4], [1], [8], [-4], [6], [-10], [0], [-7], [3], [5], [-5], [-8], [9]]

example : assign qSpace [[0], [-1]] [2] = some (some [0], 0, 2) := by decide +kernel
example : (reduceDBA qSpace [[0], [-1]] testPoints).map (·.2) = some [9, 5] := by decide +kernel
example : (mapLabel qSpace [[0], [-1]] testPoints).1 = [0, 0, 0, 0, 1, 0, 1, 0, 1, 0, 0, 1, 1, 0] := by
  decide +kernel
example : totalLoss qSpace [[0], [-1]] testPoints 2 =
    some (4 + 16 + 1 + 64 + 9 + 36 + 81 + 0 + 36 + 9 + 25 + 16 + 49 + 81) := by decide +kernel
example : dba qSpace [] = none := by decide +kernel
example : dba qSpace testPoints = some [4 / 14] := by decide +kernel
example : dba qSpace (testPoints.map fun p => p ++ p.map (2 * ·)) = some [4 / 14, 8 / 14] := by decide +kernel
example : (match weightedDBA qSpace testPoints [1, 2, 3, 4, 5, 6, 7, 8, 9, 10, 11, 12, 13, 14] with
    | .ok e => some e
    | _ => none) =
    some [(2 * 1 + 4 * 2 + 1 * 3 + 8 * 4 - 4 * 5 + 6 * 6 - 10 * 7 + 0 * 8 - 7 * 9 + 3 * 10 + 5 * 11 -
      5 * 12 - 8 * 13 + 9 * 14) / 105] := by decide +kernel
example : mapLabel qSpace [] testPoints = (List.replicate 14 (-1), List.replicate 14 (-1)) := by decide +kernel

/-! ### kmeans/init_test.go -/

example : givenInitializer 1 [] qSpace = .err := by decide +kernel
example : givenInitializer 0 testPoints qSpace = .err := by decide +kernel
example : givenInitializer 4 testPoints qSpace = .ok (testPoints.take 4) := by decide +kernel
example : weightedChoice [(0 : ℚ), 0, 0] (1 / 2) = .nullSet := by decide +kernel
example : ppIter qSpace testPoints testPoints (1 / 2) = .nullSet := by decide +kernel

/-! ### streaming/impl_test.go -/

/-- The zero `Impl`. -/
def impl0 : StreamImpl (List ℚ) ℚ Unit :=
  { maxDistance := 0, clust := [], cards := [], c := [], count := 0,
    conf := { ctrl := { iter := 0, iterFreq := 0, timeout := 0, iterPerData := 0, dataPerIter := 0 },
              bufferSize := 5, mu := 0, sigma := 0, outRatio := 0, outAfter := 0, rgen := none } }

example : ((impl0.updateMaxDistance (6 / 5)).maxDistance = 6 / 5) ∧
    ((impl0.updateMaxDistance (6 / 5)).updateMaxDistance (13 / 10)).maxDistance = 13 / 10 ∧
    (((impl0.updateMaxDistance (6 / 5)).updateMaxDistance (13 / 10)).updateMaxDistance (6 / 5)).maxDistance =
      13 / 10 := by decide +kernel
example : (impl0.getRelativeDistance (6 / 5)).2 = 1 ∧
    ((impl0.updateMaxDistance (6 / 5)).getRelativeDistance (3 / 5)).2 = 1 / 2 ∧
    ((impl0.updateMaxDistance (6 / 5)).getRelativeDistance (3 / 2)).2 = 5 / 4 := by decide +kernel
example : ((impl0.addCenter [1] (6 / 5)).addCenter [2] (11 / 10)).clust = [[1], [2]] ∧
    ((impl0.addCenter [1] (6 / 5)).addCenter [2] (11 / 10)).maxDistance = 6 / 5 := by decide +kernel
example : ((impl0.addCenter [1] (6 / 5)).addOutlier [2]).clust = [[1], [2]] ∧
    ((impl0.addCenter [1] (6 / 5)).addOutlier [2]).maxDistance = 6 / 5 := by decide +kernel
example : (((impl0.addCenter [1] (6 / 5)).updateCenter 0 [2] (13 / 10) qSpace).bind
      fun i => (i.updateCenter 0 [3] (11 / 10) qSpace).map fun i => (i.clust, i.maxDistance)) =
    some ([[2]], 13 / 10) := by decide +kernel
example : impl0.init.2 = none ∧ (impl0.push [1]).1.init.2 = some [[1]] ∧ (impl0.push [1]).2 = false := by
  decide +kernel
example : ({ impl0 with c := List.replicate 5 [1] }.push [1]).2 = true := by decide +kernel

end

/-! ### internal/test/dotests.go (kmeans with GivenInitializer), core/par_loss_test.go, core/par_dba_test.go -/

section
attribute [local instance] qMath'

/-- `Vectors` -/
def vectors : List (List ℚ) := [
  [36 / 5, 6, 8, 11, 10],
  [-8, -21 / 2, -7, -17 / 2, -9],
  [42, 206 / 5, 42, 201 / 5, 45],
  [9, 8, 7, 15 / 2, 10],
  [36 / 5, 6, 8, 11, 10],
  [-9, -10, -8, -8, -15 / 2],
  [42, 206 / 5, 211 / 5, 201 / 5, 45],
  [50, 256 / 5, 49, 40, 226 / 5]]

/-- `qSpace` with squared distances. -/
def qSpace' : Space (List ℚ) ℚ where
  dist p q := (pointDist? p q).getD 0
  combine p w q v := (pointCombine? p w q v).getD []
  copy := pointCopy
  dim := euclidDim

/-- The centroids expected by `DoTestRunSyncCentroids`. -/
def expected : List (List ℚ) := [
  [(117 / 5) / 3, 20 / 3, 23 / 3, (59 / 2) / 3, 30 / 3],
  [-17 / 2, -(41 / 2) / 2, -15 / 2, -(33 / 2) / 2, -(33 / 2) / 2],
  [134 / 3, (668 / 5) / 3, (666 / 5) / 3, (602 / 5) / 3, (676 / 5) / 3]]

example : givenInitializer 3 vectors qSpace' = .ok (vectors.take 3) := by decide +kernel
example : (mapLabel qSpace' (vectors.take 3) vectors).1 = [0, 1, 2, 0, 0, 1, 2, 2] := by decide +kernel
example : kmeansRun .seq qSpace' (List.replicate 3 vectors) (vectors.take 3) = some expected := by
  decide +kernel
example : kmeansRun (.par 3) qSpace' (List.replicate 3 vectors) (vectors.take 3) = some expected := by
  decide +kernel
example : (mapLabel qSpace' expected vectors).1 = [0, 1, 2, 0, 0, 1, 2, 2] := by decide +kernel
/-- `DoTestRunAsyncCentroids`: after one more element. -/
example : (kmeansRun .seq qSpace' (List.replicate 2 (vectors ++ [[-9, -10, -83 / 10, -8, -15 / 2]])) expected).map
    (fun c => c[1]?) = some (some ([-26 / 3, -(61 / 2) / 3, -(233 / 10) / 3, -(49 / 2) / 3, -24 / 3] : List ℚ)) := by
  decide +kernel
example : (List.range 20).all fun d =>
    parTotalLoss qSpace' (vectors.take 3) vectors 2 (d + 1) == totalLoss qSpace' (vectors.take 3) vectors 2 := by
  decide +kernel
example : (List.range 20).all fun d =>
    (parDBAForLabels qSpace' (vectors.take 3) vectors [0, 1, 0, 1, 0, 1, 0, 1] (d + 1)).map (·.2) ==
      some [4, 4, 0] := by
  decide +kernel

/-! ### mcmc/store_test.go -/

example :
    let c3 := vectors.take 3
    let s := CenterStore.empty.setCenters c3
    s.getCenters qSpace' vectors 3 c3 (1 / 2) 0 = some (c3, false) ∧
    (s.getCenters qSpace' vectors 4 c3 (1 / 2) 0).map (fun r => (r.1.take 3, r.1.length)) = some (c3, 4) ∧
    (s.getCenters qSpace' vectors 2 c3 (1 / 2) 1) = some ([c3[0], c3[2]], false) := by decide +kernel

end

/-! ### dtw/*_test.go -/

section
attribute [local instance] qMath

/-- Distances may be `+Inf`. -/
def tSpace : Space (List ℚ) (WithTop ℚ) where
  dist p q := ((pointDist? p q).getD 0 : ℚ)
  combine p w q v := (pointCombine? p w q v).getD []
  copy := pointCopy
  dim := euclidDim

/-- `s1`, `s2` -/
def s1 : List (List ℚ) := [[1], [1], [2], [3], [2], [0]]
@[inherit_doc s1] def s2 : List (List ℚ) := [[0], [1], [1], [2], [3], [4], [2]]

/-- `cumCost`, `cumCost1` -/
def cumCost : List (List (WithTop ℚ)) := [
  [1, 1, 1, 2, 4, 7, 8],
  [2, 1, 1, 2, 4, 7, 8],
  [4, 2, 2, 1, 2, 4, 4],
  [7, 4, 4, 2, 1, 2, 3],
  [9, 5, 5, 2, 2, 3, 2],
  [9, 6, 6, 4, 5, 6, 4]]
@[inherit_doc cumCost] def cumCost1 : List (List (WithTop ℚ)) := [
  [1, 1, ⊤, ⊤, ⊤, ⊤, ⊤],
  [2, 1, 1, ⊤, ⊤, ⊤, ⊤],
  [⊤, 2, 2, 1, ⊤, ⊤, ⊤],
  [⊤, ⊤, 4, 2, 1, ⊤, ⊤],
  [⊤, ⊤, ⊤, 2, 2, 3, ⊤],
  [⊤, ⊤, ⊤, ⊤, 5, 6, 5]]

/-- The columns of a matrix of the tests. -/
def columns (m : List (List (WithTop ℚ))) : List (List (WithTop ℚ)) :=
  (List.range 7).map fun j => m.map fun r => r.getD j 0

/-- The matrix of the values of `Get`. -/
def matrix (a b : List (List ℚ)) (window : Int) : Option (List (List (WithTop ℚ))) :=
  let c := CostConf.new a b tSpace window
  match c.computeCumCost with
  | none => none
  | some v => allSome ((List.range a.length).map fun i => allSome ((List.range b.length).map fun j =>
      c.get v (i : Nat) (j : Nat)))

example : matrix s1 s2 0 = some cumCost := by decide +kernel
example : matrix s2 s1 0 = some (columns cumCost) := by decide +kernel
example : matrix s1 s2 1 = some cumCost1 := by decide +kernel
example : matrix s2 s1 1 = some (columns cumCost1) := by decide +kernel

/-- `path`, `path1` -/
def path : List (Int × Int) := [(5, 6), (4, 6), (3, 5), (3, 4), (2, 3), (1, 2), (0, 1), (0, 0)]
@[inherit_doc path] def path1 : List (Int × Int) := [(5, 6), (4, 5), (3, 4), (2, 3), (1, 2), (0, 1), (0, 0)]

/-- The distance and the path. -/
def distPath (a b : List (List ℚ)) (window : Int) : Option (WithTop ℚ × List (Int × Int)) :=
  (newDTWWindow a b tSpace window).map fun d => (d.dist, d.path.map fun e => (e.end0, e.end1))

example : distPath s1 s2 0 = some (4, path) := by decide +kernel
example : distPath s1 s2 1 = some (5, path1) := by decide +kernel
example : distPath s2 s1 0 = some (4, path.map Prod.swap) := by decide +kernel
example : distPath s2 s1 1 = some (5, path1.map Prod.swap) := by decide +kernel

/-- The average. -/
def average (a b : List (List ℚ)) (window w1 w2 : Int) : Option (List (List ℚ)) :=
  (newDTWWindow a b tSpace window).bind fun d => d.dba w1 w2

example : average s1 s2 0 1 1 = some [[1 / 2], [1], [3 / 2], [5 / 2], [7 / 2], [2]] := by decide +kernel
example : average s2 s1 0 1 1 = some [[1 / 2], [1], [3 / 2], [5 / 2], [7 / 2], [2]] := by decide +kernel
example : average s1 s2 1 1 1 = some [[1 / 2], [1], [3 / 2], [5 / 2], [3], [2]] := by decide +kernel
example : average s2 s1 1 1 1 = some [[1 / 2], [1], [3 / 2], [5 / 2], [3], [2]] := by decide +kernel
example : average s1 s2 0 1 2 = some [[1 / 3], [1], [4 / 3], [7 / 3], [10 / 3], [23 / 9]] := by decide +kernel
example : average s1 s2 1 2 1 = some [[2 / 3], [1], [5 / 3], [8 / 3], [25 / 9], [4 / 3]] := by decide +kernel

/-- `se` -/
def se : List (List ℚ) := [[1], [1], [1], [1], [4 / 3], [5 / 3], [2], [7 / 3], [8 / 3], [3], [8 / 3], [7 / 3],
  [2], [4 / 3], [2 / 3], [0]]

example : resize tSpace s1 6 = some s1 := by decide +kernel
example : resize tSpace s2 7 = some s2 := by decide +kernel
example : resize tSpace s1 16 = some se := by decide +kernel
example : interpolate tSpace [[1 / 2], [1], [1], [2], [3], [7 / 2], [2], [1]] [0, 1, 3, 5, 7, 8, 10, 11] 2 =
    some [[1 / 2], [1], [3 / 2], [5 / 2], [7 / 2], [2]] := by decide +kernel
example : interpolate tSpace [[1 / 2], [1], [1], [2], [3], [7 / 2], [2], [1]] [0, 1, 2, 3, 4, 5, 6, 7] 1 =
    some [[1 / 2], [1], [1], [2], [3], [7 / 2], [2], [1]] := by decide +kernel
example : (shrinkLongest s2 se tSpace 3).map (fun r => (r.1.length, r.2.length)) = some (7, 10) := by
  decide +kernel
example : (shrinkLongest se s2 tSpace 3).map (fun r => (r.1.length, r.2.length)) = some (10, 7) := by
  decide +kernel
example : (⟨1, tSpace⟩ : DtwSpace _ _).dist s1 s2 = some 5 := by decide +kernel
example : ((resize tSpace s2 13).bind fun r => (⟨1, tSpace⟩ : DtwSpace _ _).dist s1 r) = some 5 := by
  decide +kernel
example : (⟨1, tSpace⟩ : DtwSpace _ _).combine s1 1 s2 1 = some [[1 / 2], [1], [3 / 2], [5 / 2], [3], [2]] := by
  decide +kernel
example : ((resize tSpace s2 13).bind fun r => (⟨1, tSpace⟩ : DtwSpace _ _).combine s1 1 r 1) =
    some [[1 / 2], [1], [3 / 2], [5 / 2], [3], [2]] := by decide +kernel
example : (⟨1, tSpace⟩ : DtwSpace _ _).combine s1 2 s2 1 =
    some [[2 / 3], [1], [5 / 3], [8 / 3], [25 / 9], [4 / 3]] := by decide +kernel

end

/-! ### core/buffer_test.go -/

/-- Successive pushes. -/
def pushAll (b : DataBuffer Nat) (running : Bool) (l : List Nat) : Option (DataBuffer Nat) :=
  b.run (l.map fun e => .push e running)

example : (pushAll (newDataBuffer [1000, 1001] (-1)) false (List.range 128)).map (·.data) =
    some ([1000, 1001] ++ List.range 128) := by decide +kernel
example : (pushAll (newDataBuffer [1000, 1001] 50) false (List.range 128)).map
    (fun b => (b.data.length, b.data.all fun j => 78 ≤ j && j ≤ 127)) = some (50, true) := by decide +kernel
example : (newDataBuffer (List.range 120) 50).data = (List.range 120).drop 70 := by decide +kernel
example : (pushAll (newDataBuffer ((List.range 120).map (1000 + ·)) 50) false (List.range 128)).map
    (fun b => (b.data.length, b.data.all fun j => 78 ≤ j && j ≤ 127)) = some (50, true) := by decide +kernel
example : ((pushAll (newDataBuffer [] (-1)) false (List.range 128)).bind
      fun b => (pushAll b true (List.range 128)).map fun b => (b.data.length, b.apply.data.length)) =
    some (128, 256) := by decide +kernel

/-! ### core/conf_test.go -/

/-- A zero configuration. -/
def ctrl0 : CtrlConf ℚ := { iter := 0, iterFreq := 0, timeout := 0, dataPerIter := 0, iterPerData := 0 }

example : ctrl0.verify = none ∧ { ctrl0 with iterPerData := -10 }.verify.isSome ∧
    { ctrl0 with iterFreq := -10 }.verify.isSome ∧ { ctrl0 with timeout := -10 }.verify.isSome ∧
    { ctrl0 with iter := -10 }.verify.isSome := by decide +kernel

end Distclus.Conformance
