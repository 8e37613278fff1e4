import Verif.Model.CtrlConf
import Verif.Spec.CtrlRun
/-!
# The configuration changed while the algorithm works: specification
-/
namespace Distclus
open Ctrl
namespace Spec
variable {C : Type}

/-- An execution during which at most one goroutine at a time is `looping`. -/
inductive Lone : Tuned C → Tuned C → Prop
  | refl (s : Tuned C) : Lone s s
  | next {s s' s'' : Tuned C} (a : Tuned.Act C) (h : Lone s s') (hn : s'.next a = some s'')
      (hb : waiting looping s''.algo ≤ 1) : Lone s s''

/-- The configuration sets a limit of iterations. -/
def Limits (conf : Conf) : Prop := 0 < conf.iter ∨ 0 < conf.iterPerData

/-- The action comes from the goroutines present, and no iteration fails. -/
def Ordinary : Tuned.Act C → Prop
  | .client => False
  | .act _ (.iterErr _) => False
  | .act _ (.iterPanic _) => False
  | _ => True

/-- The same action, the configuration being part of the state. -/
def tuned : Algo.Act C → Tuned.Act C
  | .act t c => .act t c
  | .client => .client

end Spec
end Distclus
