import Verif.Model.Clust
import Verif.Model.Buffer
/-!
# k-means (kmeans/seq.go, kmeans/par.go, kmeans/impl.go, kmeans/init.go)
-/
namespace Distclus

section
variable {E F : Type}

/-! ### Iterations -/

/-- `SeqStrategy.buildResult` (kmeans/seq.go:26-33): a missing centroid is replaced by the previous
one; `centroids[i]` may be out of range (`none`). -/
def seqBuildResult : List E → List (Option E) → Option (List (Option E))
  | _, [] => some []
  | cs, some m :: r =>
    match seqBuildResult (cs.drop 1) r with
    | none => none
    | some l => some (some m :: l)
  | [], none :: _ => none
  | c :: cs, none :: r =>
    match seqBuildResult cs r with
    | none => none
    | some l => some (some c :: l)

/-- The strategies: `SeqStrategy` (kmeans/seq.go:17-18), `ParStrategy` (kmeans/par.go:17-19). -/
inductive KStrategy where
  | seq
  | par (degree : Int)

variable [Zero F] [One F] [Neg F] [LT F] [DecidableLT F]

/-- `SeqStrategy.Iterate` (kmeans/seq.go:21-24), `ParStrategy.Iterate` (kmeans/par.go:22-25).
`none` is a panic; an entry `none` of the result is a nil centroid. -/
def KStrategy.iterate (s : KStrategy) (space : Space E F) (c data : List E) :
    Option (List (Option E)) :=
  match s with
  | .seq =>
    match reduceDBA space c data with
    | none => none
    | some (result, _) => seqBuildResult c result
  | .par degree =>
    match parReduceDBA space c data degree with
    | none => none
    | some (result, _) => some result

/-- `Impl.Iterate` (kmeans/impl.go:27-31): the strategy works on the stored data, then the staged
data are stored (operands are evaluated from left to right). The error of `Apply` is always nil. -/
def kmeansIterate (s : KStrategy) (space : Space E F) (c : List E) (b : DataBuffer E) :
    Option (List (Option E) × DataBuffer E) :=
  match s.iterate space c b.data with
  | none => none
  | some r => some (r, b.apply)

/-- One iteration as seen by the controller, which hands the centroids to the next iteration
(core/ctrl.go:280-293): `none` is a panic, or a clustering with a nil centroid. -/
def kmeansStep (s : KStrategy) (space : Space E F) (data c : List E) : Option (List E) :=
  match s.iterate space c data with
  | none => none
  | some r => allSome r

/-- Successive iterations on the successive contents of the buffer. -/
def kmeansRun (s : KStrategy) (space : Space E F) : List (List E) → List E → Option (List E)
  | [], c => some c
  | data :: rest, c =>
    match kmeansStep s space data c with
    | none => none
    | some c' => kmeansRun s space rest c'

/-! ### Initialisation -/

/-- Outcome of an initializer: run-time panic, error, or a clustering. -/
inductive InitRes (E : Type) where
  | panic
  | err
  | ok (c : List E)
deriving DecidableEq, Repr

/-- `check` (kmeans/init.go:25-33); `false` is an error. -/
def initCheck (k : Int) (elemts : List E) : Bool :=
  if k < 1 then false else if (elemts.length : Int) < k then false else true

/-- The loop of `GivenInitializer` (kmeans/init.go:41-43): `n` turns from the start of `elemts`;
`none` is an index panic. -/
def givenLoop (space : Space E F) : Nat → List E → Option (List E)
  | 0, _ => some []
  | _ + 1, [] => none
  | n + 1, e :: es =>
    match givenLoop space n es with
    | none => none
    | some r => some (space.copy e :: r)

/-- `GivenInitializer` (kmeans/init.go:36-47). -/
def givenInitializer (k : Int) (elemts : List E) (space : Space E F) : InitRes E :=
  if initCheck k elemts then
    match givenLoop space k.toNat elemts with
    | none => .panic
    | some c => .ok c
  else .err

/-- The loop of `RandInitializer` (kmeans/init.go:85-94), on the list of the values drawn by
`src.Intn(len(elemts))` so far: `none` when more draws are needed, `some none` is an index panic.
`chosen` is the set of chosen positions, `acc` the centroids chosen so far. -/
def randLoop (space : Space E F) (elemts : List E) (k : Nat) :
    List Nat → List Nat → List E → Option (Option (List E))
  | draws, chosen, acc =>
    if acc.length < k then
      match draws with
      | [] => none
      | d :: ds =>
        if d ∈ chosen then randLoop space elemts k ds chosen acc
        else
          match elemts[d]? with
          | none => some none
          | some e => randLoop space elemts k ds (d :: chosen) (acc ++ [space.copy e])
    else some (some acc)

/-- `RandInitializer` (kmeans/init.go:77-98): `make(core.Clust, k)` panics for a negative `k`.
`none` when more draws are needed. -/
def randInitializer (k : Int) (elemts : List E) (space : Space E F) (draws : List Nat) :
    Option (InitRes E) :=
  if k < 0 then some .panic
  else if initCheck k elemts then
    match randLoop space elemts k.toNat draws [] [] with
    | none => none
    | some none => some .panic
    | some (some c) => some (.ok c)
  else some .err

variable [Add F] [Sub F] [Mul F] [BEq F]

/-- The second loop of `WeightedChoice` (kmeans/init.go:114-117): `idx` elements have been
consumed; `none` is an index panic. -/
def choiceLoop : List F → F → Int → Option Int
  | [], cursor, idx => if 0 < cursor then none else some (idx - 1)
  | w :: ws, cursor, idx => if 0 < cursor then choiceLoop ws (cursor - w) (idx + 1) else some (idx - 1)

/-- Outcome of `WeightedChoice`. -/
inductive ChoiceRes where
  | panic
  | nullSet
  | ok (i : Int)
deriving DecidableEq, Repr

/-- `WeightedChoice` (kmeans/init.go:101-120) when `rand.Float64()` yields `u`. -/
def weightedChoice (weights : List F) (u : F) : ChoiceRes :=
  let sum := sumF weights
  if sum == 0 then .nullSet
  else match choiceLoop weights (u * sum) 0 with
    | none => .panic
    | some i => .ok i

/-- Outcome of `PPIter`. -/
inductive PPRes (E : Type) where
  | panic
  | nullSet
  | ok (e : E)
deriving DecidableEq, Repr

/-- `PPIter` (kmeans/init.go:67-71). `ParMapLabel` returns the distances of `MapLabel` whatever the
schedule (`C02_parMapLabel_eq_mapLabel`), which is used here.  With the null-set error the first
element is copied too (a panic if there is none). -/
def ppIter (space : Space E F) (clust elemts : List E) (u : F) : PPRes E :=
  match weightedChoice (mapLabel space clust elemts).2 u with
  | .panic => .panic
  | .nullSet => if elemts.length = 0 then .panic else .nullSet
  | .ok i =>
    match idx? elemts i with
    | none => .panic
    | some e => .ok (space.copy e)

/-- The loop of `PPInitializer` (kmeans/init.go:58-60): `n` turns remain, `draws` are the values of
`src.Float64()`; `none` when more draws are needed. -/
def ppLoop (space : Space E F) (elemts : List E) : Nat → List F → List E → Option (InitRes E)
  | 0, _, acc => some (.ok acc)
  | _ + 1, [], _ => none
  | n + 1, u :: us, acc =>
    match ppIter space acc elemts u with
    | .panic => some .panic
    | .nullSet => some .err
    | .ok e => ppLoop space elemts n us (acc ++ [e])

/-- `PPInitializer` (kmeans/init.go:50-64): `first` is the value of `src.Intn(len(elemts))`, `draws`
those of `src.Float64()`. -/
def ppInitializer (k : Int) (elemts : List E) (space : Space E F) (first : Nat) (draws : List F) :
    Option (InitRes E) :=
  if k < 0 then some .panic
  else if initCheck k elemts then
    match elemts[first]? with
    | none => some .panic
    | some e => ppLoop space elemts (k.toNat - 1) draws [e]
  else some .err

end
end Distclus
