import Verif.Spec.CtrlBatch
/-!
# The implementation, seen by a sequential observer

The record of an execution tells when `Init` and `Iterate` of the implementation were called and what they
returned.  `Serial l d`: these calls happened one at a time, each `Iterate` was given the centroids of the
last call which returned some, and the observer has noted `d`.
-/
namespace Distclus
open Ctrl
namespace Spec
variable {C : Type}

/-- The notes of the observer. -/
structure Desk (C : Type) where
  /-- the run which is in `Iterate` -/
  busy : Option Nat
  /-- the last centroids returned -/
  cur : Option C
  /-- the centroids returned by the last `Init` -/
  base : Option C
  /-- number of centroids returned by `Iterate` since -/
  count : Nat

/-- One event. -/
def Desk.Next (d : Desk C) : Event C → Desk C → Prop
  | .initRet c _, d' => d.busy = none ∧ d' = ⟨none, c, c, 0⟩
  | .iterCall r _ c, d' => d.busy = none ∧ c = d.cur ∧ d' = { d with busy := some r }
  | .iterNil r, d' => d.busy = some r ∧ d' = { d with busy := none }
  | .iterErr r _, d' => d.busy = some r ∧ d' = { d with busy := none }
  | .iterPanic r _, d' => d.busy = some r ∧ d' = { d with busy := none }
  | .iterOk r c, d' => d.busy = some r ∧ d' = { d with busy := none, cur := some c, count := d.count + 1 }
  | _, d' => d' = d

/-- The record (last event first) is that of a sequential use of the implementation. -/
def Serial : List (Event C) → Desk C → Prop
  | [], d => d = ⟨none, none, none, 0⟩
  | e :: l, d' => ∃ d, Serial l d ∧ d.Next e d'

/-- The centroids given to the last `Iterate` of run `r`. -/
def given (r : Nat) : List (Event C) → Option (Option C)
  | [] => none
  | .iterCall r' _ c :: l => if r' = r then some c else given r l
  | _ :: l => given r l

/-- The centroids returned by the last `Init`. -/
def initial : List (Event C) → Option C
  | [] => none
  | .initRet c _ :: _ => c
  | _ :: l => initial l

/-- The number of `Iterate` which have returned centroids since the last `Init`. -/
def doneSince : List (Event C) → Nat
  | [] => 0
  | .initRet _ _ :: _ => 0
  | .iterOk _ _ :: l => doneSince l + 1
  | _ :: l => doneSince l

/-- Every `Iterate` which returned centroids computed them from those it was given, the one of rank `n`
since the last `Init` by `f n`. -/
def Computes (f : Nat → C → Option C) : List (Event C) → Prop
  | [] => True
  | .iterOk r c :: l => (∃ c0, given r l = some (some c0) ∧ f (doneSince l) c0 = some c) ∧ Computes f l
  | _ :: l => Computes f l

/-- The functions `f 0`, ..., `f (n - 1)` one after the other. -/
def times (f : Nat → C → Option C) : Nat → C → Option C
  | 0, c => some c
  | n + 1, c => (times f n c).bind (f n)

end Spec

namespace Algo
variable {C : Type}

/-- The program counters of a goroutine which is in an initialisation, or in an iteration and the record
of its result. -/
def inside : PC C → Bool
  | .rI | .rS _ | .rS' _ | .in3 _ | .in4 _ | .in5 _ | .in6 _ _ _ | .in7 _ _ _ => true
  | _ => false

/-- At most one goroutine is `inside`. -/
def Alone (s : Algo C) : Prop := ∀ u v, inside (s.thr u).pc = true → inside (s.thr v).pc = true → u = v

/-- The states reached by executions in which at most one goroutine at a time is `inside`. -/
inductive Solo (conf : Conf) : Algo C → Prop
  | new : Solo conf new
  | next {s s' : Algo C} (a : Act C) (h : Solo conf s) (hn : s.next conf a = some s')
      (hb : Alone s') : Solo conf s'

end Algo
end Distclus
