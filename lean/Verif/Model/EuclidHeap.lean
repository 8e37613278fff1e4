import Verif.Model.BufferHeap
import Verif.Model.Euclid
/-!
# `PointCombine` and `PointCopy` with explicit slices (euclid/vectors.go:44-67)

Same heap as in `Model/BufferHeap.lean`; points are slices.
-/
namespace Distclus
variable {F : Type} [Zero F] [One F] [Add F] [Sub F] [Mul F] [Div F] [GoMath F]

/-- The loop of `PointCombine` (euclid/vectors.go:50-52): `n` turns from index `i`, writing in
`result`; `none` is an index panic. -/
def combineHeapLoop (w1 w2 t : F) (p q : Slice) (result : Nat) :
    Nat → Nat → Heap F → Option (Heap F)
  | 0, _, h => some h
  | n + 1, i, h =>
    match (h.read p)[i]?, (h.read q)[i]? with
    | some a, some b =>
      combineHeapLoop w1 w2 t p q result n (i + 1) (h.write result i ((a * w1 + b * w2) / t))
    | _, _ => none

/-- `PointCombine` (euclid/vectors.go:44-54): `make` fills with zeros. -/
def pointCombineHeap (h : Heap F) (p : Slice) (weight1 : Int) (q : Slice) (weight2 : Int) :
    Option (Heap F × Slice) :=
  let w1 : F := GoMath.ofInt weight1
  let w2 : F := GoMath.ofInt weight2
  let result : Slice := { arr := h.length, off := 0, len := p.len }
  match combineHeapLoop w1 w2 (w1 + w2) p q h.length p.len 0 (h ++ [List.replicate p.len 0]) with
  | some h' => some (h', result)
  | none => none

/-- `PointCopy` (euclid/vectors.go:63-67). -/
def pointCopyHeap (h : Heap F) (p : Slice) : Heap F × Slice :=
  (h ++ [h.read p], { arr := h.length, off := 0, len := p.len })

end Distclus
