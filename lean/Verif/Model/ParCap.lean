import Verif.Model.Clust
/-!
# Parallel reductions for labels: the capacity of the slice of labels
-/
namespace Distclus

/-- Go slice expression `l[a:b]` in full: the upper bound is compared with the capacity of the slice, not with its
length. `spare` are the elements of the array between the length and the capacity; `none` is the panic "slice bounds
out of range". `slice` (Model/Basic.lean) is the case where the bound is within the length. -/
def reslice {α : Type} (l spare : List α) (a b : Nat) : Option (List α) :=
  if a ≤ b ∧ b ≤ l.length + spare.length then some (slice (l ++ spare) a b) else none

section
variable {E F : Type}

/-- `parDBAForLabels` (core/par_dba.go:21-33), `labels[start:end]` (line 25) being computed by `reslice`.
`data[start:end]` stays within the length (`par_chunk_bounds`). -/
def parDBAForLabelsCap (space : Space E F) (c : List E) (data : List E) (labels spare : List Int)
    (degree : Int) : Option (List (Option E) × List Int) :=
  match par data.length degree with
  | none => none
  | some chunks =>
    match allSome (chunks.map fun k =>
        (reslice labels spare k.start k.stop).bind fun ls =>
          reduceDBAForLabels space c (slice data k.start k.stop) ls) with
    | none => none
    | some parts => dbaAggregate space parts

/-- `parLossForLabels` (core/par_loss.go:8-19), `labels[start:end]` (line 12) being computed by `reslice`. -/
def parLossForLabelsCap [Zero F] [Add F] [GoMath F] (space : Space E F) (c : List E) (data : List E)
    (labels spare : List Int) (norm : F) (degree : Int) : Option (List F × List Int) :=
  match par data.length degree with
  | none => none
  | some chunks =>
    match allSome (chunks.map fun k =>
        (reslice labels spare k.start k.stop).bind fun ls =>
          reduceLossForLabels space c (slice data k.start k.stop) ls norm) with
    | none => none
    | some parts => lossAggregate parts

end
end Distclus
