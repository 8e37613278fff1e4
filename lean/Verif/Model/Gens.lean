import Verif.Model.Mcmc
/-!
# The random generators (golang.org/x/exp/rand) of k-means and mcmc, and of their copies

A configuration holds a pointer to a generator (kmeans/conf.go:19, mcmc/conf.go:18), so that generators may be shared:
they live in a heap, an algorithm has their addresses.  A generator is a state machine; its state is arbitrary.
Simplification: the calls of two algorithms are interleaved, they do not overlap (`rand.Rand` is not made for
overlapping calls).
-/
namespace Distclus
variable {G α β E F R D : Type}

/-- `Float64` and `Intn` of `rand.Rand`. -/
structure Rng (G F : Type) where
  float64 : G → F × G
  intn : Nat → G → Nat × G

/-- The generators in memory. -/
abbrev Gens (G : Type) := Nat → G

/-- What draws from the generators in memory. -/
def Draw (G α : Type) := Gens G → α × Gens G

/-- Without a draw. -/
def Draw.ret (x : α) : Draw G α := fun h => (x, h)

/-- One after the other. -/
def Draw.bind (m : Draw G α) (f : α → Draw G β) : Draw G β := fun h => f (m h).1 (m h).2

/-- A call of the generator at the address `a`. -/
def Draw.take (a : Nat) (f : G → α × G) : Draw G α :=
  fun h => ((f (h a)).1, fun b => if b = a then (f (h a)).2 else h b)

instance : Monad (Draw G) where
  pure := Draw.ret
  bind := Draw.bind

/-- The generators of an mcmc algorithm: that of the configuration of the controller, which the initializer and
`nextK` use (mcmc/impl.go:47, 142), that which `uniform` and `store` have got when the implementation was made
(mcmc/seq.go:15-16), and that of the distribution (mcmc/multivt.go:45-46). -/
structure McmcGens where
  conf : Nat
  own : Nat
  distrib : Nat
deriving DecidableEq

/-- `NewAlgo` (mcmc/algo.go:7-11): the implementation gets the generator of the configuration. -/
def McmcGens.new (conf distrib : Nat) : McmcGens := ⟨conf, conf, distrib⟩

/-- `Copy` (core/ctrl.go:374-380, mcmc/impl.go:30-34): `impl.Copy(algo)` makes the implementation with the
configuration of the original and its distribution, then the controller of the copy gets the new configuration. -/
def McmcGens.copy (g : McmcGens) (newConf : Nat) : McmcGens := ⟨newConf, g.conf, g.distrib⟩

section
variable [Zero F] [One F] [Neg F] [LT F] [DecidableLT F] [Add F] [Sub F] [Mul F] [BEq F]

/-- The draws of `GetCenters` (mcmc/store.go:25-33, 40-77): `Float64` in `PPIter` unless all the distances are 0
(kmeans/init.go:101-113), or `Intn` in `delCenter`, or none. -/
def drawCenters (rng : Rng G F) (own : Nat) (store : CenterStore E) (space : Space E F) (data : List E) (k : Int)
    (clust : List E) : Draw G (F × Nat) :=
  match store k with
  | some _ => pure (0, 0)
  | none =>
    if (clust.length : Int) < k then
      if sumF (mapLabel space clust data).2 == 0 then pure (0, 0)
      else do
        let u ← Draw.take own rng.float64
        pure (u, 0)
    else if (clust.length : Int) > k then do
      let i ← Draw.take own (rng.intn clust.length)
      pure (0, i)
    else pure (0, 0)

/-- The samples of `alter` (mcmc/impl.go:157-165), one after the other; `smp mu time` draws one. -/
def sampleAll (smp : E → Nat → G → E × G) (time : Nat) : List E → G → List E × G
  | [], g => ([], g)
  | e :: es, g =>
    let x := smp e time g
    let r := sampleAll smp time es x.2
    (x.1 :: r.1, r.2)

/-- The draw of `WeightedChoice` in `nextK` (mcmc/impl.go:142): none if the weights sum to 0. -/
def drawMove (rng : Rng G F) (conf : Nat) (probaK : List F) : Draw G F :=
  if sumF probaK == 0 then pure 0 else Draw.take conf rng.float64

/-- The draws of the second call of `GetCenters` (mcmc/impl.go:118-121). -/
def drawAgain (rng : Rng G F) (own : Nat) (store : CenterStore E) (space : Space E F) (data : List E) (k : Int)
    (clust : List E) (fail : Bool) : Draw G (F × Nat) :=
  if fail then drawCenters rng own store space data k clust else pure (0, 0)

variable [GoMath F] [Div F]

/-- The draws of `Iterate` (mcmc/impl.go:64-72, 90-123, 125-165) in their order: `nextK`, `GetCenters` (twice if
the first fails), `alter`, `accept`; nothing is drawn after a panic. -/
def mcmcDraw (rng : Rng G F) (smp : E → Nat → G → E × G) (p : McmcParams D E F R) (g : McmcGens)
    (impl : McmcImpl E F) (c : List E) : Draw G (McmcDraws E F) := do
  let data := impl.buffer.data
  let move ← drawMove rng g.conf p.conf.probaK
  match nextK p.conf impl.current.k data move with
  | none => pure ⟨move, 0, 0, 0, 0, fun _ e => e, 0⟩
  | some k => do
    let x ← drawCenters rng g.own impl.store p.space data k c
    match impl.store.getCenters p.space data k c x.1 x.2 with
    | none => pure ⟨move, x.1, 0, x.2, 0, fun _ e => e, 0⟩
    | some (_, fail) => do
      let y ← drawAgain rng g.own impl.store p.space data impl.current.k c fail
      let d : McmcDraws E F := ⟨move, x.1, y.1, x.2, y.2, fun _ e => e, 0⟩
      match impl.getKCenters p impl.current c data d with
      | none => pure d
      | some (_, centers) => do
        let es ← Draw.take g.distrib (sampleAll smp data.length centers)
        let d : McmcDraws E F := { d with sample := fun i e => es.getD i e }
        match impl.propose p impl.current c data data.length d with
        | none => pure d
        | some _ => do
          let u ← Draw.take g.own rng.float64
          pure { d with accept := u }
end

/-- A call of the implementation. -/
inductive ImplOp (E : Type) where
  | push (e : E) (alive : Bool)
  | init
  | iterate

/-- One call of mcmc, with the centroids which the controller keeps; `gi` draws what the initializer needs.
`none`: a panic, an error or a full pipe. -/
def mcmcStep [Zero F] [One F] [Neg F] [LT F] [DecidableLT F] [Add F] [Sub F] [Mul F] [BEq F] [GoMath F] [Div F]
    (rng : Rng G F) (smp : E → Nat → G → E × G) (gi : Int → List E → G → D × G) (p : McmcParams D E F R)
    (g : McmcGens) (o : ImplOp E) (s : McmcImpl E F × List E) : Draw G (Option (McmcImpl E F × List E)) :=
  match o with
  | .push e a => pure ((s.1.buffer.push e a).map fun b => ({ s.1 with buffer := b }, s.2))
  | .init => do
    let d ← Draw.take g.conf (gi p.conf.initK s.1.buffer.apply.data)
    match s.1.init p d with
    | (i, .ok c) => pure (some (i, c))
    | _ => pure none
  | .iterate => do
    let d ← mcmcDraw rng smp p g s.1 s.2
    pure ((s.1.iterate p s.2 d).map fun x => (x.1, x.2.1))

/-- One call of k-means (kmeans/impl.go:20-36): only the initializer draws, from the generator of the configuration;
`step` is the strategy on the data and the centroids. -/
def kmeansGenStep (ini : Int → List E → G → Option (List E) × G) (k : Int) (step : List E → List E → Option (List E))
    (conf : Nat) (o : ImplOp E) (s : DataBuffer E × List E) : Draw G (Option (DataBuffer E × List E)) :=
  match o with
  | .push e a => pure ((s.1.push e a).map fun b => (b, s.2))
  | .init => do
    let c ← Draw.take conf (ini k s.1.apply.data)
    pure (c.map fun c => (s.1.apply, c))
  | .iterate => pure ((step s.1.data s.2).map fun c => (s.1.apply, c))

/-- The parameters of a copy: the configuration and the space of its controller are the new ones; the strategy, the
distribution and the initializer are those of the original (mcmc/impl.go:30-34). -/
def McmcParams.copy (p : McmcParams D E F R) (conf : McmcConf F R) (space : Space E F) : McmcParams D E F R :=
  { p with conf := { conf with par := p.conf.par }, space := space }

/-! ### Two algorithms -/

/-- The calls of two algorithms, one after the other; an algorithm which has failed does nothing more. -/
def pairGens {A B O : Type} (f : O → A → Draw G (Option A)) (f' : O → B → Draw G (Option B)) :
    List (O ⊕ O) → Option A × Option B → Draw G (Option A × Option B)
  | [], s => pure s
  | .inl o :: os, (some a, b) => do
    let a ← f o a
    pairGens f f' os (a, b)
  | .inr o :: os, (a, some b) => do
    let b ← f' o b
    pairGens f f' os (a, b)
  | .inl _ :: os, (none, b) => pairGens f f' os (none, b)
  | .inr _ :: os, (a, none) => pairGens f f' os (a, none)

/-- The calls of one algorithm. -/
def soloGens {A O : Type} (f : O → A → Draw G (Option A)) : List O → Option A → Draw G (Option A)
  | [], s => pure s
  | o :: os, some a => do
    let a ← f o a
    soloGens f os a
  | _ :: os, none => soloGens f os none

end Distclus
