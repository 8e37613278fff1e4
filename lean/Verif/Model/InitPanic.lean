import Verif.Model.McmcPanic
/-!
# The initializers of k-means with operations which panic (kmeans/init.go)

`PPIter` (`ppIterP`) labels the data in the goroutines of `Par`, where a panic ends the process; the copies are made by
the caller.  `RandInitializer` only copies elements, like `GivenInitializer`, and is not followed here.
-/
namespace Distclus

section
variable {E F : Type}

/-- The loop of `GivenInitializer` (kmeans/init.go:41-43), see `givenLoop`; `none` is a panic of an index or of `Copy`. -/
def givenLoopP (sp : PSpace E F) : Nat → List E → Option (List E)
  | 0, _ => some []
  | _ + 1, [] => none
  | n + 1, e :: es =>
    match sp.copy e with
    | none => none
    | some x =>
      match givenLoopP sp n es with
      | none => none
      | some r => some (x :: r)

/-- `GivenInitializer` (kmeans/init.go:36-47), see `givenInitializer`; `.ok none` is an error. -/
def givenInitializerP (k : Int) (elemts : List E) (sp : PSpace E F) : Outcome (Option (List E)) :=
  if initCheck k elemts then
    match givenLoopP sp k.toNat elemts with
    | none => .panic
    | some c => .ok (some c)
  else .ok none

/-- The loop of `RandInitializer` (kmeans/init.go:85-94), see `randLoop`: `none` when more draws are needed,
`some none` is a panic of an index or of `Copy`. -/
def randLoopP (sp : PSpace E F) (elemts : List E) (k : Nat) :
    List Nat → List Nat → List E → Option (Option (List E))
  | [], _, acc => if acc.length < k then none else some (some acc)
  | d :: ds, chosen, acc =>
    if acc.length < k then
      if d ∈ chosen then randLoopP sp elemts k ds chosen acc
      else
        match elemts[d]? with
        | none => some none
        | some e =>
          match sp.copy e with
          | none => some none
          | some x => randLoopP sp elemts k ds (d :: chosen) (acc ++ [x])
    else some (some acc)

/-- `RandInitializer` (kmeans/init.go:77-98), see `randInitializer`; `.ok none` is an error. -/
def randInitializerP (k : Int) (elemts : List E) (sp : PSpace E F) (draws : List Nat) :
    Option (Outcome (Option (List E))) :=
  if k < 0 then some .panic
  else if initCheck k elemts then
    match randLoopP sp elemts k.toNat draws [] [] with
    | none => none
    | some none => some .panic
    | some (some c) => some (.ok (some c))
  else some (.ok none)

variable [Zero F] [One F] [Neg F] [LT F] [DecidableLT F] [Add F] [Sub F] [Mul F] [BEq F]

/-- The loop of `PPInitializer` (kmeans/init.go:58-60), see `ppLoop`: `n` turns remain, `none` when more draws are
needed. -/
def ppLoopP (sp : PSpace E F) (sysCPU : Int) (elemts : List E) :
    Nat → List F → List E → Option (Outcome (Option (List E)))
  | 0, _, acc => some (.ok (some acc))
  | _ + 1, [], _ => none
  | n + 1, u :: us, acc =>
    match ppIterP sp sysCPU acc elemts u with
    | .panic => some .panic
    | .crash => some .crash
    | .ok (_, true) => some (.ok none)
    | .ok (e, false) => ppLoopP sp sysCPU elemts n us (acc ++ [e])

/-- `PPInitializer` (kmeans/init.go:50-64), see `ppInitializer`; `sysCPU` is `runtime.NumCPU()` and the first centroid is
not copied. -/
def ppInitializerP (k : Int) (elemts : List E) (sp : PSpace E F) (sysCPU : Int) (first : Nat) (draws : List F) :
    Option (Outcome (Option (List E))) :=
  if k < 0 then some .panic
  else if initCheck k elemts then
    match elemts[first]? with
    | none => some .panic
    | some e => ppLoopP sp sysCPU elemts (k.toNat - 1) draws [e]
  else some (.ok none)

end
end Distclus
