import Verif.Model.Basic
import Mathlib.Order.Notation
import Mathlib.Order.Defs.PartialOrder
/-!
# Dynamic time warping (dtw/cost.go, dtw/dtw.go, dtw/interpolate.go, dtw/series.go)

A point `[]float64` is an element of `P` and a series `[][]float64` a `List P`. The inner
`PointSpace` is a `Space P F`; it is total, so the points are supposed to have a common dimension
(C42 tells when the Euclidean one panics).  `math.Inf(1)` is `⊤`.  `none` is a run-time panic.
-/
namespace Distclus

section
variable {P F : Type}

/-- `Ends` (dtw/cost.go:8-10). -/
structure Ends where
  end0 : Int
  end1 : Int
deriving DecidableEq, Repr

/-- The fields of `CumCostMatrix` that do not change during the computation
(dtw/cost.go:13-20). -/
structure CostConf (P F : Type) where
  s1 : List P
  s2 : List P
  space : Space P F
  window : Int
  stride0 : Int
  stride1 : Int

/-- The construction and `setStride(len(s1), len(s2))` (dtw/cost.go:23-31 and 51-62). -/
def CostConf.new (s1 s2 : List P) (space : Space P F) (window : Int) : CostConf P F :=
  let w : Int := if window = 0 then s2.length else window
  let maxWindow := 2 * w + 1
  { s1, s2, space, window := w, stride0 := s1.length,
    stride1 := if maxWindow < s2.length then maxWindow else s2.length }

/-- `inWindow` (dtw/cost.go:132-134). -/
def CostConf.inWindow (c : CostConf P F) (i j : Int) : Bool :=
  decide (i - j ≤ c.window) && decide (j - i ≤ c.window)

/-- `index` (dtw/cost.go:128-130). -/
def CostConf.index (c : CostConf P F) (i j : Int) : Int := i * c.stride1 + j

/-- `ravel` (dtw/cost.go:121-126). -/
def CostConf.ravel (c : CostConf P F) (i j : Int) : Int :=
  if i > c.window then c.index i (j - i + c.window) else c.index i j

/-- `Get` (dtw/cost.go:38-44). -/
def CostConf.get [Top F] (c : CostConf P F) (values : List F) (i1 i2 : Int) : Option F :=
  if c.inWindow i1 i2 then idx? values (c.ravel i1 i2) else some ⊤

/-- `min` (dtw/cost.go:136-145). -/
def min3 [LE F] [DecidableLE F] (v1 v2 v3 : F) : F :=
  if v1 ≤ v2 ∧ v1 ≤ v3 then v1 else if v2 ≤ v3 then v2 else v3

/-- `neighborCosts` (dtw/cost.go:114-119): `(l, u, ul)`. -/
def CostConf.neighborCosts [Top F] (c : CostConf P F) (values : List F) (i1 i2 : Int) :
    Option (F × F × F) :=
  match c.get values (i1 - 1) i2, c.get values i1 (i2 - 1), c.get values (i1 - 1) (i2 - 1) with
  | some l, some u, some ul => some (l, u, ul)
  | _, _, _ => none

/-- Go assignment `l[i] = v`; `none` is the index panic. -/
def setIdx? {α : Type} (l : List α) (i : Int) (v : α) : Option (List α) :=
  if i < 0 then none else if i.toNat < l.length then some (l.set i.toNat v) else none

variable [Top F] [Add F] [LE F] [DecidableLE F]

/-- The cost computed for a cell from its point distance (dtw/cost.go:80-90). -/
def CostConf.cellCost (c : CostConf P F) (values : List F) (i1 i2 : Int) (dist : F) : Option F :=
  if i1 = 0 ∧ i2 = 0 then some dist
  else if i1 = 0 then (c.get values i1 (i2 - 1)).map (· + dist)
  else if i2 = 0 then (c.get values (i1 - 1) i2).map (· + dist)
  else (c.neighborCosts values i1 i2).map fun n => min3 n.2.2 n.2.1 n.1 + dist

/-- The body of the inner loop of `computeCumCost` (dtw/cost.go:77-91). -/
def CostConf.cell (c : CostConf P F) (values : List F) (i1 i2 : Int) : Option (List F) :=
  match idx? c.s1 i1, idx? c.s2 i2 with
  | some p, some q =>
    match c.cellCost values i1 i2 (c.space.dist p q) with
    | none => none
    | some cost => setIdx? values (c.ravel i1 i2) cost
  | _, _ => none

/-- The inner loop of `computeCumCost` (dtw/cost.go:76-92), `n` being the number of turns left. -/
def CostConf.rowLoop (c : CostConf P F) (i1 : Int) : Nat → Int → List F → Option (List F)
  | 0, _, values => some values
  | n + 1, i2, values =>
    match c.cell values i1 i2 with
    | none => none
    | some values' => c.rowLoop i1 n (i2 + 1) values'

/-- `i2l` (dtw/cost.go:68-71). -/
def CostConf.left (c : CostConf P F) (i1 : Int) : Int :=
  if c.inWindow i1 0 then 0 else i1 - c.window

/-- `i2r` (dtw/cost.go:72-75). -/
def CostConf.right (c : CostConf P F) (i1 : Int) : Int :=
  if c.inWindow i1 (c.s2.length - 1) then c.s2.length - 1 else i1 + c.window

/-- The outer loop of `computeCumCost` (dtw/cost.go:67-93), `n` rows being left. -/
def CostConf.rowsLoop (c : CostConf P F) : Nat → Int → List F → Option (List F)
  | 0, _, values => some values
  | n + 1, i1, values =>
    match c.rowLoop i1 (c.right i1 - c.left i1 + 1).toNat (c.left i1) values with
    | none => none
    | some values' => c.rowsLoop n (i1 + 1) values'

/-- `computeCumCost` (dtw/cost.go:64-94): `make` panics for a negative size. -/
def CostConf.computeCumCost [Zero F] (c : CostConf P F) : Option (List F) :=
  if c.stride0 * c.stride1 < 0 then none
  else c.rowsLoop c.s1.length 0 (List.replicate (c.stride0 * c.stride1).toNat 0)

/-- `decrPath` (dtw/cost.go:147-156). -/
def decrPath (ul u l : F) (i1 i2 : Int) : Int × Int :=
  if ul ≤ u ∧ ul ≤ l then (i1 - 1, i2 - 1) else if l ≤ u then (i1 - 1, i2) else (i1, i2 - 1)

/-- The loop of `computePath` (dtw/cost.go:99-111).  The first argument bounds the number of turns;
for non-empty series `len(s1) + len(s2)` turns are enough (proved in `Proof/Dtw.lean`: the result is
then never `none`). -/
def CostConf.pathLoop (c : CostConf P F) (values : List F) : Nat → Int → Int → Option (List Ends)
  | 0, _, _ => none
  | n + 1, i1, i2 =>
    if i1 > 0 ∨ i2 > 0 then
      let next : Option (Int × Int) :=
        if i1 = 0 then some (i1, i2 - 1)
        else if i2 = 0 then some (i1 - 1, i2)
        else (c.neighborCosts values i1 i2).map fun n => decrPath n.2.2 n.2.1 n.1 i1 i2
      match next with
      | none => none
      | some j =>
        match c.pathLoop values n j.1 j.2 with
        | none => none
        | some path => some (⟨i1, i2⟩ :: path)
    else some [⟨0, 0⟩]

/-- `computePath` (dtw/cost.go:96-112): `make([]Ends, 0, i1+i2)` panics for a negative capacity. -/
def CostConf.computePath (c : CostConf P F) (values : List F) : Option (List Ends) :=
  let i1 : Int := c.s1.length - 1
  let i2 : Int := c.s2.length - 1
  if i1 + i2 < 0 then none
  else c.pathLoop values (c.s1.length + c.s2.length) i1 i2

/-- `DTW` (dtw/dtw.go:4-10). -/
structure DTW (P F : Type) where
  s1 : List P
  s2 : List P
  space : Space P F
  path : List Ends
  dist : F

/-- `NewDTWWindow` (dtw/dtw.go:18-29) with `NewCumCostMatrix` (dtw/cost.go:23-35). -/
def newDTWWindow [Zero F] (s1 s2 : List P) (space : Space P F) (window : Int) :
    Option (DTW P F) :=
  let c := CostConf.new s1 s2 space window
  match c.computeCumCost with
  | none => none
  | some values =>
    match c.computePath values, c.get values (s1.length - 1) (s2.length - 1) with
    | some path, some dist => some { s1, s2, space, path, dist }
    | _, _ => none

/-! ### Interpolation -/

/-- The inner loop of `Interpolate` (dtw/interpolate.go:11-12) on the part of `idx` from `j` on:
the first `j` with `x <= idx[j]`; `none` is the index panic. -/
def advance (x : Int) : List Int → Nat → Option Nat
  | [], _ => none
  | v :: vs, j => if x > v then advance x vs (j + 1) else some j

/-- The body of the loop of `Interpolate` once `j` is found (dtw/interpolate.go:13-17). -/
def interpPoint (space : Space P F) (s : List P) (idx : List Int) (x : Int) (j : Nat) : Option P :=
  match idx[j]?, s[j]? with
  | some b, some q =>
    if b = x then some q
    else
      match idx? idx (j - 1), idx? s (j - 1) with
      | some a, some p => some (space.combine p (b - x) q (x - a))
      | _, _ => none
  | _, _ => none

/-- The loop of `Interpolate` (dtw/interpolate.go:9-18), `n` turns being left. -/
def interpLoop (space : Space P F) (s : List P) (idx : List Int) (shrink : Int) :
    Nat → Int → Nat → Option (List P)
  | 0, _, _ => some []
  | n + 1, i, j =>
    match advance (i * shrink) (idx.drop j) j with
    | none => none
    | some j' =>
      match interpPoint space s idx (i * shrink) j' with
      | none => none
      | some p =>
        match interpLoop space s idx shrink n (i + 1) j' with
        | none => none
        | some r => some (p :: r)

/-- `Interpolate` (dtw/interpolate.go:5-20).  `idx[len(s)-1]` may be out of range, the division panics
on a null factor (and truncates), `make` panics on a negative size and `result[0]` on a null one. -/
def interpolate (space : Space P F) (s : List P) (idx : List Int) (shrink : Int) :
    Option (List P) :=
  match idx? idx ((s.length : Int) - 1) with
  | none => none
  | some lastIdx =>
    if shrink = 0 then none
    else
      let last := lastIdx.tdiv shrink + 1
      if last < 1 then none
      else
        match s[0]? with
        | none => none
        | some p =>
          match interpLoop space s idx shrink (last - 1).toNat 1 1 with
          | none => none
          | some r => some (p :: r)

/-- `Resize` (dtw/interpolate.go:23-30). -/
def resize (space : Space P F) (s : List P) (size : Int) : Option (List P) :=
  interpolate space s ((List.range s.length).map fun (i : Nat) => (i : Int) * (size - 1)) (s.length - 1)

/-- `ShrinkLongest` (dtw/interpolate.go:33-47). -/
def shrinkLongest (s1 s2 : List P) (space : Space P F) (window : Int) :
    Option (List P × List P) :=
  let l1 : Int := s1.length
  let l2 : Int := s2.length
  if window > 0 ∧ l1 > l2 + window then (resize space s1 (l2 + window)).map fun r => (r, s2)
  else if window > 0 ∧ l2 > l1 + window then (resize space s2 (l1 + window)).map fun r => (s1, r)
  else some (s1, s2)

/-! ### Averages and the space of series -/

/-- The loop of `DBA` (dtw/dtw.go:45-49), on the path read backwards. -/
def dbaPoints (d : DTW P F) (w1 w2 : Int) : List Ends → Option (List P × List Int)
  | [] => some ([], [])
  | e :: es =>
    match idx? d.s1 e.end0, idx? d.s2 e.end1 with
    | some p, some q =>
      match dbaPoints d w1 w2 es with
      | none => none
      | some (ps, is) => some (d.space.combine p w1 q w2 :: ps, (e.end0 * w1 + e.end1 * w2) :: is)
    | _, _ => none

/-- `DTW.DBA` (dtw/dtw.go:42-51). -/
def DTW.dba (d : DTW P F) (w1 w2 : Int) : Option (List P) :=
  match dbaPoints d w1 w2 d.path.reverse with
  | none => none
  | some (ps, is) => interpolate d.space ps is (w1 + w2)

/-- `dtw.Space` (dtw/series.go:8-11). -/
structure DtwSpace (P F : Type) where
  window : Int
  inner : Space P F

variable [Zero F]

/-- `Space.Dist` (dtw/series.go:22-26). -/
def DtwSpace.dist (sp : DtwSpace P F) (a b : List P) : Option F :=
  match shrinkLongest a b sp.inner sp.window with
  | none => none
  | some (s1, s2) => (newDTWWindow s1 s2 sp.inner sp.window).map (·.dist)

/-- `Space.Combine` (dtw/series.go:29-33). -/
def DtwSpace.combine (sp : DtwSpace P F) (a : List P) (w1 : Int) (b : List P) (w2 : Int) :
    Option (List P) :=
  match shrinkLongest a b sp.inner sp.window with
  | none => none
  | some (s1, s2) =>
    match newDTWWindow s1 s2 sp.inner sp.window with
    | none => none
    | some d => d.dba w1 w2

/-- `Space.Copy` (dtw/series.go:42-50): each point is copied into a fresh slice. -/
def DtwSpace.copy (_ : DtwSpace P F) (a : List P) : List P := a

/-- `Space.Dim` (dtw/series.go:53-61), `len` being the length of a point. -/
def dtwDim (len : P → Nat) : List (List P) → Nat
  | [] => 0
  | [] :: _ => 0
  | (p :: _) :: _ => len p

end
end Distclus
