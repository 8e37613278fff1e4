import Verif.Model.Basic
/-!
# `euclid.Space` (euclid/vectors.go) and `cosinus.Space` (cosinus/cosinus.go)

A point `[]float64` is a `List F`.  The functions with `?` follow the code on arbitrary points,
`none` being the index panic.  `euclidSpace n` / `cosinusSpace n` are the same on points of a common
dimension `n`, where no panic is possible (`Props/Euclid.lean` proves the agreement).
-/
namespace Distclus

section
variable {F : Type} [Zero F] [One F] [Add F] [Sub F] [Mul F] [Div F] [GoMath F]

/-- The loop of `PointDist` (euclid/vectors.go:28-31): `for i := 0; i < len(point1); i++`, walking
both points in step; `point2[i]` panics when `point2` is exhausted first. -/
def sumSq? : List F → List F → F → Option F
  | [], _, sum => some sum
  | _ :: _, [], _ => none
  | a :: as, b :: bs, sum =>
    let v := a - b
    sumSq? as bs (sum + v * v)

/-- `Space.PointDist` (euclid/vectors.go:26-33). -/
def pointDist? (p q : List F) : Option F := (sumSq? p q 0).map GoMath.sqrt

/-- The loop of `PointCombine` (euclid/vectors.go:50-52). -/
def combineLoop? (w1 w2 t : F) : List F → List F → Option (List F)
  | [], _ => some []
  | _ :: _, [] => none
  | a :: as, b :: bs =>
    match combineLoop? w1 w2 t as bs with
    | none => none
    | some r => some ((a * w1 + b * w2) / t :: r)

/-- `Space.PointCombine` (euclid/vectors.go:44-54). -/
def pointCombine? (p : List F) (weight1 : Int) (q : List F) (weight2 : Int) : Option (List F) :=
  let w1 : F := GoMath.ofInt weight1
  let w2 : F := GoMath.ofInt weight2
  combineLoop? w1 w2 (w1 + w2) p q

/-- `Space.PointCopy` (euclid/vectors.go:63-67): a fresh slice with the same content. -/
def pointCopy (p : List F) : List F := p

/-- `Space.Dim` (euclid/vectors.go:70-76). -/
def euclidDim : List (List F) → Nat
  | [] => 0
  | p :: _ => p.length

/-- `ScalarProduct` (cosinus/cosinus.go:71-76). -/
def scalarLoop? : List F → List F → F → Option F
  | [], _, product => some product
  | _ :: _, [], _ => none
  | a :: as, b :: bs, product => scalarLoop? as bs (product + a * b)

/-- `ScalarProduct` (cosinus/cosinus.go:71-76). -/
def scalarProduct? (p q : List F) : Option F := scalarLoop? p q 0

/-- `Norm` (cosinus/cosinus.go:66-68). -/
def norm? (p : List F) : Option F := (scalarProduct? p p).map GoMath.sqrt

/-- `Cosinus` (cosinus/cosinus.go:60-63). -/
def cosinus? (p q : List F) : Option F :=
  match scalarProduct? p q, norm? p, norm? q with
  | some s, some n1, some n2 => some (s / n1 / n2)
  | _, _, _ => none

/-- `Space.PointDist` of the cosine space (cosinus/cosinus.go:30-32). -/
def cosDist? (p q : List F) : Option F := (cosinus? p q).map fun c => 1 - c

end

/-- Points of dimension `n`. -/
def Vec (F : Type) (n : Nat) : Type := { l : List F // l.length = n }

section
variable {F : Type} [Zero F] [One F] [Add F] [Sub F] [Mul F] [Div F] [GoMath F]

/-- `PointDist` on points of a common dimension. -/
def pointDist (p q : List F) : F :=
  GoMath.sqrt ((List.zip p q).foldl (fun s ab => s + (ab.1 - ab.2) * (ab.1 - ab.2)) 0)

/-- `PointCombine` on points of a common dimension. -/
def pointCombine (p : List F) (w : Int) (q : List F) (v : Int) : List F :=
  List.zipWith (fun a b => (a * GoMath.ofInt w + b * GoMath.ofInt v) /
    (GoMath.ofInt w + GoMath.ofInt v)) p q

/-- `ScalarProduct` on points of a common dimension. -/
def scalarProduct (p q : List F) : F :=
  (List.zip p q).foldl (fun s ab => s + ab.1 * ab.2) 0

/-- `PointDist` of the cosine space on points of a common dimension. -/
def cosDist (p q : List F) : F :=
  1 - scalarProduct p q / GoMath.sqrt (scalarProduct p p) / GoMath.sqrt (scalarProduct q q)

/-- `euclid.Space` as a `core.Space` on points of dimension `n` (euclid/vectors.go:19-76). -/
def euclidSpace (F : Type) [Zero F] [One F] [Add F] [Sub F] [Mul F] [Div F] [GoMath F] (n : Nat) :
    Space (Vec F n) F where
  dist p q := pointDist p.1 q.1
  combine p w q v := ⟨pointCombine p.1 w q.1 v, by
    unfold pointCombine; rw [List.length_zipWith, p.2, q.2, Nat.min_self]⟩
  copy p := ⟨pointCopy p.1, p.2⟩
  dim ps := euclidDim (ps.map (·.1))

/-- `cosinus.Space` as a `core.Space` on points of dimension `n` (cosinus/cosinus.go:24-58). -/
def cosinusSpace (F : Type) [Zero F] [One F] [Add F] [Sub F] [Mul F] [Div F] [GoMath F] (n : Nat) :
    Space (Vec F n) F where
  dist p q := cosDist p.1 q.1
  combine := (euclidSpace F n).combine
  copy := (euclidSpace F n).copy
  dim := (euclidSpace F n).dim

end
end Distclus
