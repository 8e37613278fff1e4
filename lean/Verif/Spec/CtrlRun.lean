import Verif.Spec.CtrlBlock
/-!
# Runs, acknowledgement channels and time-outs
-/
namespace Distclus
open Ctrl Algo
namespace Spec
variable {C : Type}

/-- The acknowledgement channels closed, last first. -/
def closedChans (l : List (Event C)) : List Nat :=
  l.filterMap fun
    | .closed a => some a
    | _ => none

/-- The program counters whose next action unlocks `statusMutex` locked before. -/
def unlocksS : PC C → Bool
  | .in10 .init _ | .pl1 | .it2 | .c8 => true
  | _ => false

/-- The program counters whose next action unlocks `modelMutex` locked for writing before. -/
def unlocksM : PC C → Bool
  | .pu4 | .in2 _ | .in7 _ _ _ | .rS' _ | .c3 _ => true
  | _ => false

/-- The program counters of a run between the test of its limits and the record of the iteration, and
that of an initialisation about to reset the counters. -/
def looping : PC C → Bool
  | .r7 | .r8 | .r9 | .rI | .rS _ | .rS' _ | .in2 _ => true
  | _ => false

/-- The states reached by executions in which at most `m` goroutines at a time are `looping`. -/
inductive Bounded (conf : Conf) (m : Nat) : Algo C → Prop
  | new : Bounded conf m new
  | next {s s' : Algo C} (a : Act C) (h : Bounded conf m s) (hn : s.next conf a = some s')
      (hb : waiting looping s' ≤ m) : Bounded conf m s'

/-- An initialisation after which a run may start. The second case is a quirk: `Play` takes
`ErrAlreadyCreated` from the implementation's `Init` for that of a refusal (core/ctrl.go:111). -/
def initOk : Event C → Bool
  | .initRet _ none => true
  | .initRet _ (some .alreadyCreated) => true
  | _ => false

/-- Every call of `Iterate` comes after a successful initialisation. -/
def IterAfterInit : List (Event C) → Prop
  | [] => True
  | .iterCall _ _ _ :: l => l.any initOk = true ∧ IterAfterInit l
  | _ :: l => IterAfterInit l

/-- How the last iteration of run `r` ended: the event. -/
def lastIter (r : Nat) : List (Event C) → Option (Event C)
  | [] => none
  | .iterCall r' a b :: l => if r' = r then some (.iterCall r' a b) else lastIter r l
  | .iterNil r' :: l => if r' = r then some (.iterNil r') else lastIter r l
  | .iterOk r' c :: l => if r' = r then some (.iterOk r' c) else lastIter r l
  | .iterErr r' e :: l => if r' = r then some (.iterErr r' e) else lastIter r l
  | .iterPanic r' e :: l => if r' = r then some (.iterPanic r' e) else lastIter r l
  | _ :: l => lastIter r l

/-- All centroids saved were just returned by a successful `Iterate`. -/
def SavedOk : List (Event C) → Prop
  | [] => True
  | .saved c :: l => (∃ r, lastIter r l = some (.iterOk r c)) ∧ SavedOk l
  | _ :: l => SavedOk l

/-- The program counters of a run which will not iterate any more. -/
def ending : PC C → Bool
  | .r15 _ | .r16 _ | .c0 _ | .c1 _ | .c2 _ | .c3 _ | .c4 _ | .c5 _ | .c6 | .c7 | .c8 | .dead => true
  | _ => false

/-- Number of calls of `Iterate` by run `r`. -/
def iterCalls (r : Nat) : List (Event C) → Nat
  | [] => 0
  | .iterCall r' _ _ :: l => if r' = r then iterCalls r l + 1 else iterCalls r l
  | _ :: l => iterCalls r l

/-- Every time-out interrupts at most once, and not after it was disabled. -/
def FiredOk : List (Event C) → Prop
  | [] => True
  | .fired i :: l => (.fired i ∉ l ∧ .disabled i ∉ l) ∧ FiredOk l
  | _ :: l => FiredOk l

end Spec
end Distclus
