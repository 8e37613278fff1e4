import Verif.Spec.CtrlSerial
/-!
# Where centroids come from

Specification for C93: which centroids the implementation has produced, and which ones an event shows.
-/
namespace Distclus
open Ctrl
namespace Spec
variable {C : Type}

/-- `c` was returned by `Init` or by `Iterate` of the implementation. -/
def Produced (c : C) (l : List (Event C)) : Prop :=
  (∃ e, .initRet (some c) e ∈ l) ∨ ∃ r, .iterOk r c ∈ l

/-- The centroids an event shows: the result of `Centroids()`, the argument of `Iterate`, those recorded
after an iteration. -/
def shows : Event C → Option C
  | .ret _ (.centroids c) => c
  | .iterCall _ _ c => c
  | .saved c => some c
  | _ => none

/-- All the centroids shown in the record (last event first) had been produced before. -/
def Sourced : List (Event C) → Prop
  | [] => True
  | e :: l => (∀ c, shows e = some c → Produced c l) ∧ Sourced l

/-- The implementation keeps `Q`: the centroids returned by `Init` have it, and so do those returned by
`Iterate` if those it was given have it. -/
def Keeps (Q : C → Prop) : List (Event C) → Prop
  | [] => True
  | .initRet c _ :: l => (∀ x, c = some x → Q x) ∧ Keeps Q l
  | .iterOk r c :: l => ((∀ x, given r l = some (some x) → Q x) → Q c) ∧ Keeps Q l
  | _ :: l => Keeps Q l

/-- The implementation works with `I` and `R`: the centroids returned by `Init` satisfy `I`, and those
returned by `Iterate` are related by `R` to those it was given. -/
def Works (I : C → Prop) (R : C → C → Prop) : List (Event C) → Prop
  | [] => True
  | .initRet c _ :: l => (∀ x, c = some x → I x) ∧ Works I R l
  | .iterOk r c :: l => (∃ x, given r l = some (some x) ∧ R x c) ∧ Works I R l
  | _ :: l => Works I R l

/-- `Init` of the implementation has always returned centroids. -/
def Filled (l : List (Event C)) : Prop := ∀ e, .initRet none e ∉ l

end Spec
end Distclus
