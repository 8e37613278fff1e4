import Verif.Spec.CtrlSerial
/-!
# When data are pushed, seen on the record
-/
namespace Distclus
open Ctrl
namespace Spec
variable {C : Type}

/-- `Iterate` has not been called. -/
def NoIter : List (Event C) → Prop
  | [] => True
  | .iterCall _ _ _ :: _ => False
  | .iterOk _ _ :: _ => False
  | _ :: l => NoIter l

/-- `OCStatus.Alive` (core/status.go:37-39). -/
def alive (st : OCStatus) : Bool := decide (st.value = .ready ∨ st.value = .running ∨ st.value = .idle)

/-- The data pushed since the last `Init` were pushed when the algorithm was alive. -/
def Steady : List (Event C) → Prop
  | [] => True
  | .initRet _ _ :: _ => True
  | .implPushed :: l => alive (current l) = true ∧ Steady l
  | _ :: l => Steady l

/-- Nothing has been pushed since the last `Init`. -/
def Fresh : List (Event C) → Prop
  | [] => True
  | .initRet _ _ :: _ => True
  | .implPushed :: _ => False
  | _ :: l => Fresh l

/-- Data are pushed and the algorithm is initialised before the iterations, and the data pushed between
the last `Init` and the iterations are pushed when the algorithm is alive. -/
def Orderly : List (Event C) → Prop
  | [] => True
  | .implPushed :: l => NoIter l ∧ Orderly l
  | .initRet _ _ :: l => NoIter l ∧ Orderly l
  | .iterCall _ _ _ :: l => Steady l ∧ Orderly l
  | _ :: l => Orderly l

/-- `Play` is not called when the documented status is Ready (then it initialises the algorithm). -/
def Cold : List (Event C) → Prop
  | [] => True
  | .call 0 .play :: l => followsL (session l).2 ≠ some .ready ∧ Cold l
  | _ :: l => Cold l

/-- The client calls when it has returned from its last call. -/
def Paired : List (Event C) → Prop
  | [] => True
  | .call 0 _ :: l => (session l).1 = none ∧ Paired l
  | _ :: l => Paired l

end Spec
end Distclus
