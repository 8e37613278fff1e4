import Verif.Spec.CtrlSource
import Verif.Spec.CtrlUse
import Verif.Model.Mcmc
/-!
# The MCMC implementation behind the controller

`Sampled p i0 l st`: the record `l` (last event first) is that of a controller whose implementation is
`mcmc.Impl` with the parameters `p`, initially `i0`, and the observer has noted `st`.  The draws are arbitrary.
`Iterate` reads the stored data when it is called and works on them until it returns: as the implementation stages
the elements pushed meanwhile, since the algorithm is alive (mcmc/impl.go:79-81), they are the data stored when it
returns.
-/
namespace Distclus
open Ctrl
namespace Spec
variable {D E F R : Type} [Zero F] [One F] [Neg F] [LT F] [DecidableLT F] [Add F] [Sub F] [Mul F] [BEq F]
  [GoMath F] [Div F]

/-- The notes: the implementation, the elements pushed, and the figures returned by the last `Iterate`, which
`RuntimeFigures()` shows (core/ctrl.go:288-294) until they are reset (core/ctrl.go:74). -/
structure McmcNotes (E F : Type) where
  impl : McmcImpl E F
  pushed : List E
  fig : Option (McmcFigures F)

/-- One event after the record `l`. -/
def McmcNotes.Next (p : McmcParams D E F R) (l : List (Event (List E))) (st : McmcNotes E F) :
    Event (List E) → McmcNotes E F → Prop
  | .implPushed, st' => ∃ e b, st.impl.buffer.push e (current l).alive = some b ∧
      st' = { st with impl := { st.impl with buffer := b }, pushed := st.pushed ++ [e] }
  | .initRet c e, st' => ∃ d i r, st.impl.init p d = (i, r) ∧ st' = { st with impl := i } ∧
      match r with
      | .ok x => c = some x ∧ e = none
      | .err => e ≠ none
      | .panic => False
  | .iterOk r c, st' => ∃ c0 d i fig, given r l = some c0 ∧
      st.impl.iterate p (c0.getD []) d = some (i, c, fig) ∧
      st' = { st with impl := i, fig := some fig }
  | .iterPanic r _, st' => ∃ c0 d, given r l = some c0 ∧ st.impl.iterate p (c0.getD []) d = none ∧ st' = st
  | .reset, st' => st' = { st with fig := none }
  | .iterNil _, _ => False
  | .iterErr _ _, _ => False
  | _, st' => st' = st

/-- A record. -/
def Sampled (p : McmcParams D E F R) (i0 : McmcImpl E F) : List (Event (List E)) → McmcNotes E F → Prop
  | [], st => st = ⟨i0, [], none⟩
  | e :: l, st' => ∃ st, Sampled p i0 l st ∧ st.Next p l e st'

/-- The elements pushed in a history. -/
def McmcOp.pushes : List (McmcOp D E F) → List E
  | [] => []
  | .push e _ :: os => e :: McmcOp.pushes os
  | _ :: os => McmcOp.pushes os

/-- The number of calls of `Iterate` in a history. -/
def McmcOp.iters : List (McmcOp D E F) → Nat
  | [] => 0
  | .iterate _ :: os => McmcOp.iters os + 1
  | _ :: os => McmcOp.iters os

/-- The number of calls of `Iterate` since the last `Init` in a history. -/
def McmcOp.itersSince (ops : List (McmcOp D E F)) : Nat :=
  ops.foldl (fun n o => match o with
    | .init _ => 0
    | .iterate _ => n + 1
    | .push _ _ => n) 0

/-- `Init` of the implementation returns. -/
def isInitRet {C : Type} : Event C → Bool
  | .initRet _ _ => true
  | _ => false

/-- One client, which either runs without limit or plays until the limit, and an implementation which does not
fail. -/
def Disciplined {C : Type} (conf : Conf) (s : Algo C) : Prop :=
  OneClient conf s ∧ ((Endless conf ∧ Peaceful s.log) ∨ (Limited conf ∧ Rebatching s.log))

end Spec
end Distclus
