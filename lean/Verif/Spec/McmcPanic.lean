import Verif.Model.McmcPanic
import Verif.Proof.ParPanic
/-!
# Points of one dimension among all the points
-/
namespace Distclus
namespace Spec
variable {D E E' F R : Type}

/-- The image of a buffer. -/
def imBuffer (φ : E' → E) (b : DataBuffer E') : DataBuffer E :=
  ⟨b.pipe.map φ, b.data.map φ, b.strategy⟩

/-- The image of stored centres. -/
def imStore (φ : E' → E) (s : CenterStore E') : CenterStore E := fun k => (s k).map (List.map φ)

/-- The image of a proposal. -/
def imProp (φ : E' → E) (p : Proposal E' F) : Proposal E F := ⟨p.k, p.centers.map φ, p.loss, p.pdf⟩

/-- The image of the state of the implementation. -/
def imImpl (φ : E' → E) (i : McmcImpl E' F) : McmcImpl E F :=
  { buffer := imBuffer φ i.buffer, store := imStore φ i.store, acc := i.acc, lambda := i.lambda, rho := i.rho,
    rGibbs := i.rGibbs, time := i.time, dim := i.dim, current := imProp φ i.current }

/-- The image of the result of an initializer. -/
def imInit (φ : E' → E) : InitRes E' → InitRes E
  | .ok c => .ok (c.map φ)
  | .err => .err
  | .panic => .panic

/-- On the images by `φ` the space, the density and the initializer do not panic, and they are those of `p`. -/
structure EmbedsParams (q : McmcPParams D E F R) (p : McmcParams D E' F R) (φ : E' → E) : Prop where
  conf : q.conf = p.conf
  space : PSpace.Embeds q.space p.space φ
  dim : ∀ c, q.dim (c.map φ) = p.space.dim c
  sysCPU : q.sysCPU = p.sysCPU
  pdf : ∀ a b t, q.pdf (φ a) (φ b) t = some (p.pdf a b t)
  initializer : ∀ d k data, q.initializer d k (data.map φ) = imInit φ (p.initializer d k data)

/-- The same draws, but for the samples. -/
structure SameDraws (d : McmcPDraws E F) (d' : McmcDraws E' F) : Prop where
  move : d.move = d'.move
  add : d.add = d'.add
  add' : d.add' = d'.add'
  del : d.del = d'.del
  del' : d.del' = d'.del'
  accept : d.accept = d'.accept

end Spec
end Distclus
