import Verif.Model.Ctrl
/-!
# What the controller promises, stated on the record of what happened

The record (`Algo.log`) lists the calls and their results, the assignments of the status, the calls of
the implementation and so on, newest first.  The specifications below only read the record and what
the calls return.
-/
namespace Distclus
open Ctrl
namespace Spec
variable {C : Type}

/-- The last status assigned; Created before any assignment. -/
def current : List (Event C) → OCStatus
  | [] => ⟨.created, none⟩
  | .set st :: _ => st
  | _ :: l => current l

/-- An error goes with Finished only. -/
def Coherent (st : OCStatus) : Prop := st.error ≠ none → st.value = .finished

/-- Which status may follow which. -/
structure StatusSucc (a b : OCStatus) : Prop where
  notCreated : b.value ≠ .created
  coherent : Coherent b
  ofCreated : a.value = .created → b = ⟨.initializing, none⟩
  ofInitializing : a.value = .initializing →
    b = ⟨.ready, none⟩ ∨ (b.value = .finished ∧ b.error ≠ none)
  toInitializing : b.value = .initializing → a.value = .created ∨ a.value = .finished

/-- Every assignment of the status is allowed. -/
def HistoryOk : List (Event C) → Prop
  | [] => True
  | .set b :: l => StatusSucc (current l) b ∧ HistoryOk l
  | _ :: l => HistoryOk l

/-- Every status returned by `Status()` is the last one assigned, coherent and not Initializing. -/
def ObservedOk : List (Event C) → Prop
  | [] => True
  | .ret _ (.status st) :: l =>
    st = current l ∧ Coherent st ∧ st.value ≠ .initializing ∧ ObservedOk l
  | _ :: l => ObservedOk l

/-- When a command is refused, and with which error. -/
def refusal : Op → ClustStatus → Option Err
  | .init, .created => none
  | .init, .finished => none
  | .init, _ => some .alreadyCreated
  | .play, .running => some .running
  | .pause, .running => none
  | .pause, _ => some .notRunning
  | .stop, .ready => none
  | .stop, .running => none
  | .stop, .idle => none
  | .stop, _ => some .notAlive
  | _, _ => none

/-- Two states which differ in nothing but the record. -/
structure Same (s s' : Algo C) : Prop where
  status : s'.status = s.status
  sm : s'.sm = s.sm
  ma : s'.ma = s.ma
  mr : s'.mr = s.mr
  notif : s'.notif = s.notif
  ack : s'.ack = s.ack
  acks : s'.acks = s.acks
  closed : s'.closed = s.closed
  centroids : s'.centroids = s.centroids
  iterations : s'.iterations = s.iterations
  pushedData : s'.pushedData = s.pushedData
  newData : s'.newData = s.newData
  figIter : s'.figIter = s.figIter
  figPushed : s'.figPushed = s.figPushed
  timeout : s'.timeout = s.timeout
  disabled : s'.disabled = s.disabled
  thr : s'.thr = s.thr
  n : s'.n = s.n

/-- Two states which differ only in the record, in the holder of the status lock and in what goroutine
`t` is doing. -/
structure SameBut (t : Nat) (s s' : Algo C) : Prop where
  status : s'.status = s.status
  ma : s'.ma = s.ma
  mr : s'.mr = s.mr
  notif : s'.notif = s.notif
  ack : s'.ack = s.ack
  acks : s'.acks = s.acks
  closed : s'.closed = s.closed
  centroids : s'.centroids = s.centroids
  iterations : s'.iterations = s.iterations
  pushedData : s'.pushedData = s.pushedData
  newData : s'.newData = s.newData
  figIter : s'.figIter = s.figIter
  figPushed : s'.figPushed = s.figPushed
  timeout : s'.timeout = s.timeout
  disabled : s'.disabled = s.disabled
  thr : ∀ j, j ≠ t → s'.thr j = s.thr j
  n : s'.n = s.n

/-- Iterations saved since the last reset of the counters. -/
def savedSince : List (Event C) → Nat
  | [] => 0
  | .reset :: _ => 0
  | .saved _ :: l => savedSince l + 1
  | _ :: l => savedSince l

/-- Pushes counted since the last reset of the counters. -/
def pushedSince : List (Event C) → Nat
  | [] => 0
  | .reset :: _ => 0
  | .pushed :: l => pushedSince l + 1
  | _ :: l => pushedSince l

/-- Pushes counted since the last automatic start. -/
def countedSince : List (Event C) → Nat
  | [] => 0
  | .counted true :: _ => 0
  | .counted false :: l => countedSince l + 1
  | _ :: l => countedSince l

/-- Every result of `RuntimeFigures()` gives the number of iterations saved and of pushes counted
since the last reset. -/
def FiguresOk : List (Event C) → Prop
  | [] => True
  | .ret _ (.figures i p) :: l => i = savedSince l ∧ p = pushedSince l ∧ FiguresOk l
  | _ :: l => FiguresOk l

/-- Every push decides for an automatic start iff the algorithm is Ready, `DataPerIter` is set and at
least `DataPerIter` pushes were counted since the last automatic start. -/
def AutoOk (dataPerIter : Nat) : List (Event C) → Prop
  | [] => True
  | .counted b :: l =>
    (b = true ↔ (current l).value = .ready ∧ 0 < dataPerIter ∧ dataPerIter ≤ countedSince l) ∧
      AutoOk dataPerIter l
  | _ :: l => AutoOk dataPerIter l

/-- Number of recorded events of some kind. -/
def events (P : Event C → Bool) (l : List (Event C)) : Nat := l.countP P

/-- Number of goroutines at program counters of some kind. -/
def waiting (P : PC C → Bool) (s : Algo C) : Nat :=
  (List.range s.n).countP (fun j => P (s.thr j).pc)

/-- The kinds of events counted below. -/
def isImplPushed : Event C → Bool
  | .implPushed => true
  | _ => false
def isPushed : Event C → Bool
  | .pushed => true
  | _ => false
def isIterOk : Event C → Bool
  | .iterOk _ _ => true
  | _ => false
def isSaved : Event C → Bool
  | .saved _ => true
  | _ => false
def isSetTo (st : OCStatus) : Event C → Bool
  | .set st' => decide (st' = st)
  | _ => false
def isNotified (st : OCStatus) : Event C → Bool
  | .notified st' => decide (st' = st)
  | _ => false
def isCounted : Event C → Bool
  | .counted _ => true
  | _ => false

/-- Every push was counted while the algorithm was Ready. -/
def CountedReady : List (Event C) → Prop
  | [] => True
  | .counted _ :: l => (current l).value = .ready ∧ CountedReady l
  | _ :: l => CountedReady l

end Spec
end Distclus
