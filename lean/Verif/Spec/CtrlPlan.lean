import Verif.Spec.CtrlSerial
import Verif.Spec.CtrlBuffered
import Verif.Spec.CtrlMcmc
/-!
# Which calls the implementation gets

`plan conf l`: the calls of the implementation which the completed calls `l` of the client (last first) ask for, when
the client plays until the limit; it says nothing of goroutines.  `Driven M σ0 es l st`: the record `l` is that of
a controller whose implementation is the sequential machine `M`.
-/
namespace Distclus
open Ctrl
namespace Spec
variable {C E σ : Type}

/-- A call of the implementation: `Push`, which finds the algorithm alive or not, `Init` or `Iterate`. -/
inductive Tag where
  | push (alive : Bool)
  | init
  | iter
  deriving DecidableEq

/-- The calls of the implementation in a record which have returned without an error (last first). -/
def tags : List (Event C) → List Tag
  | [] => []
  | .implPushed :: l => .push (current l).alive :: tags l
  | .initRet _ _ :: l => .init :: tags l
  | .iterOk _ _ :: l => .iter :: tags l
  | _ :: l => tags l

/-- The number of iterations since the last initialisation. -/
def itersSince : List Tag → Nat
  | [] => 0
  | .init :: _ => 0
  | .iter :: l => itersSince l + 1
  | .push _ :: l => itersSince l

/-- The calls of the implementation, and the number of elements which count for the limit. -/
structure Plan where
  tags : List Tag
  pushed : Nat

/-- An element is pushed. -/
def Plan.push (v : ClustStatus) (p : Plan) : Plan := ⟨.push (OCStatus.new v).alive :: p.tags, p.pushed + 1⟩

/-- The algorithm is initialised; after a stop the elements count from nought again. -/
def Plan.init (v : ClustStatus) (p : Plan) : Plan :=
  ⟨.init :: p.tags, if v = .finished then 0 else p.pushed⟩

/-- A run: what is missing to the limit. -/
def Plan.run (conf : Conf) (p : Plan) : Plan :=
  ⟨List.replicate (conf.iter + p.pushed * conf.iterPerData - itersSince p.tags) .iter ++ p.tags, p.pushed⟩

/-- The calls of the implementation which the calls of the client (last first) ask for. -/
def plan (conf : Conf) : List (Op × Res C) → Plan
  | [] => ⟨[], 0⟩
  | (op, r) :: l =>
    match op, followsL l with
    | .push, some v =>
      match r with
      | .err none => (plan conf l).push v
      | _ => plan conf l
    | .init, some .created => (plan conf l).init .created
    | .init, some .finished => (plan conf l).init .finished
    | .play, some .created => ((plan conf l).init .created).run conf
    | .play, some .finished => ((plan conf l).init .finished).run conf
    | .play, some .ready => (plan conf l).run conf
    | _, _ => plan conf l

/-- An implementation as a sequential machine; its state contains its data and its random generator. -/
structure Machine (σ E C : Type) where
  push : σ → E → Bool → Option σ
  init : σ → Option (σ × C)
  iterate : σ → C → Option (σ × C)

/-- The machine, its centroids and the number of elements it has got after the calls `ts` (last first), if none of
them fails; `es n` is the `n`-th element pushed. -/
def Machine.after (M : Machine σ E C) (σ0 : σ) (es : Nat → E) : List Tag → Option (σ × Option C × Nat)
  | [] => some (σ0, none, 0)
  | .push a :: ts => (M.after σ0 es ts).bind fun x => (M.push x.1 (es x.2.2) a).map fun st => (st, x.2.1, x.2.2 + 1)
  | .init :: ts => (M.after σ0 es ts).bind fun x => (M.init x.1).map fun y => (y.1, some y.2, x.2.2)
  | .iter :: ts => (M.after σ0 es ts).bind fun x => x.2.1.bind fun c =>
      (M.iterate x.1 c).map fun y => (y.1, some y.2, x.2.2)

/-- One event after the record `l`: the state of the machine and the number of elements it has got. -/
def Machine.Next (M : Machine σ E C) (es : Nat → E) (l : List (Event C)) (st : σ × Nat) : Event C → σ × Nat → Prop
  | .implPushed, st' => M.push st.1 (es st.2) (current l).alive = some st'.1 ∧ st'.2 = st.2 + 1
  | .initRet c e, st' => ∃ x, M.init st.1 = some (st'.1, x) ∧ c = some x ∧ e = none ∧ st'.2 = st.2
  | .iterOk r c, st' => ∃ c0, given r l = some (some c0) ∧ M.iterate st.1 c0 = some (st'.1, c) ∧ st'.2 = st.2
  | .iterNil _, _ => False
  | .iterErr _ _, _ => False
  | .iterPanic _ _, _ => False
  | _, st' => st' = st

/-- A record. -/
def Driven (M : Machine σ E C) (σ0 : σ) (es : Nat → E) : List (Event C) → σ × Nat → Prop
  | [], st => st = (σ0, 0)
  | e :: l, st' => ∃ st, Driven M σ0 es l st ∧ M.Next es l st e st'

/-- The calls of the client which do not only read. -/
def deeds (l : List (Op × Res C)) : List (Op × Res C) := l.filter fun c => !reader c.1

/-- k-means and its relatives with a random generator in the state `g`: `Init` draws from it
(kmeans/impl.go:20-36). -/
def bufferMachine {G : Type} (ini : G → List E → Option (G × C)) (step : List E → C → Option C) :
    Machine (DataBuffer E × G) E C where
  push st e a := (st.1.push e a).map fun b => (b, st.2)
  init st := (ini st.2 st.1.apply.data).map fun x => ((st.1.apply, x.1), x.2)
  iterate st c := (step st.1.data c).map fun x => ((st.1.apply, st.2), x)

/-- MCMC with a random generator: `gi` draws what `Init` needs and `gd` what `Iterate` needs; what is drawn may
depend on the implementation and on the centroids (mcmc/impl.go:59-110). -/
def mcmcMachine {D F R G : Type} [Zero F] [One F] [Neg F] [LT F] [DecidableLT F] [Add F] [Sub F] [Mul F] [BEq F]
    [GoMath F] [Div F] (p : McmcParams D E F R) (gi : McmcImpl E F → G → D × G)
    (gd : McmcImpl E F → List E → G → McmcDraws E F × G) : Machine (McmcImpl E F × G) E (List E) where
  push st e a := (st.1.buffer.push e a).map fun b => ({ st.1 with buffer := b }, st.2)
  init st :=
    match st.1.init p (gi st.1 st.2).1 with
    | (i, .ok x) => some ((i, (gi st.1 st.2).2), x)
    | _ => none
  iterate st c := (st.1.iterate p c (gd st.1 c st.2).1).map fun x => ((x.1, (gd st.1 c st.2).2), x.2.1)

end Spec
end Distclus
