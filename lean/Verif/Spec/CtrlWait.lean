import Verif.Model.Template
import Verif.Model.Finish
/-!
# Waiting for a condition

`honest f t conf s as`: the actions `as` from `s`, where goroutine `t` waits for the condition `f`: each of its polls
has the answer of `f` on what the model shows then.  (A poll is one action. The reads of a compound condition are
several ones in the code; in the still states of C155 nothing changes between them.)
-/
namespace Distclus
open Ctrl Algo
namespace Spec
variable {C : Type}

/-- What `Status()` and `RuntimeFigures()` show. -/
def shown (s : Algo C) : ModelView := ⟨s.status, s.figIter, s.figPushed⟩

/-- An action which is not a wrong answer of `t`. -/
def sincere (f : Finishing) (t : Nat) (s : Algo C) : Act C → Bool
  | .act u (.answer b) => u != t || b == isFinished (shown s) f
  | _ => true

/-- The actions, with the honest answers. -/
def honest (f : Finishing) (t : Nat) (conf : Conf) (s : Algo C) : List (Act C) → Option (Algo C)
  | [] => some s
  | a :: as =>
    if sincere f t s a then
      match s.next conf a with
      | none => none
      | some s' => honest f t conf s' as
    else none

/-- All goroutines but `t` are over (`home` is the end of a time-out which has called its
interruption), except notification loops, which have no notifier to call. -/
def Still (conf : Conf) (t : Nat) (s : Algo C) : Prop :=
  conf.notifier = false ∧ ∀ j, j < s.n → j ≠ t →
    (s.thr j).pc = .dead ∨ ((s.thr j).pc = .home ∧ (s.thr j).kind = .timer) ∨ (s.thr j).pc = .nl0 ∨
      ∃ st, (s.thr j).pc = .nl1 st

/-- The condition of `Wait(nil, _)` (core/timeout.go:44). -/
def ended : Finishing := .status true [.ready, .idle, .finished]

/-- The record of a controller whose implementation is `template.Impl`. -/
def Skeletal (l : List (Event C)) : Prop := ∀ e ∈ l, match e with
  | .initRet c e => (c, e) = Template.init
  | .iterNil _ => (Template.iterate : Option C × Option Err) = (none, none)
  | .iterOk _ c => (some c, none) = (Template.iterate : Option C × Option Err)
  | .iterErr _ e => (none, some e) = (Template.iterate : Option C × Option Err)
  | .iterPanic _ _ => False
  | .implPushed => Template.push = none
  | _ => True

end Spec
end Distclus
