import Verif.Spec.CtrlUse
/-!
# Playing until the limit of iterations

`Batch` (core/ctrl.go:47-57) is `Stop`, `Play`, `Wait(nil, 0)`, `Stop`.  The calls of a client are
replayed on the documented workflow when a run ends by itself at its limit: the client plays, waits, and
only then stops; it plays again when the goroutine of the former run is over (`Rebatching`), or never
(`Batching`).
-/
namespace Distclus
open Ctrl
namespace Spec
variable {C : Type}

/-- The calls which change nothing. -/
def reader : Op → Bool
  | .status | .centroids | .figures | .conf => true
  | _ => false

/-- The documented status after a call when runs end at their limit; Running: a run has been started and
nobody has waited for it. -/
def afterL (v : ClustStatus) (op : Op) : ClustStatus :=
  if v = .running then (match op with | .wait _ _ => .ready | _ => after v op) else after v op

/-- The result is the documented one: `Wait` on a run returns nil; the status of a run nobody has waited
for is Running or, at its end, Ready. -/
def rightL (v : ClustStatus) (op : Op) (r : Res C) : Bool :=
  if v = .running then
    match op, r with
    | .wait _ _, .err e => decide (e = none)
    | .status, .status st => decide (st = ⟨.running, none⟩ ∨ st = ⟨.ready, none⟩)
    | op, r => right v op r
  else right v op r

/-- The documented status after a list of completed calls (last first), if all results are right. -/
def followsL : List (Op × Res C) → Option ClustStatus
  | [] => some .created
  | (op, r) :: l =>
    match followsL l with
    | some v => if rightL v op r then some (afterL v op) else none
    | none => none

/-- Has there been a call of `Play`? -/
def played (l : List (Op × Res C)) : Bool := l.any fun c => decide (c.1 = .play)

/-- What the client may call: anything before `Play`; then it may read and wait, and stop after it has
waited. -/
def allowed (l : List (Op × Res C)) (op : Op) : Prop :=
  played l = false ∨ reader op = true ∨ op = .wait false false ∨
    (op = .stop ∧ followsL l ≠ some .running)

/-- The hypotheses on the client and on the implementation, read off the record: only goroutine 0
calls, it does what is `allowed`, without condition or time-out for `Wait`, and the implementation's
`Init` and `Iterate` never fail. -/
def Batching : List (Event C) → Prop
  | [] => True
  | e :: l => (match e with
    | .call t op => t = 0 ∧ (∀ c d, op = .wait c d → c = false ∧ d = false) ∧ allowed (session l).2 op
    | .initRet _ e => e = none
    | .iterErr _ _ => False
    | .iterPanic _ _ => False
    | _ => True) ∧ Batching l

/-- Is there a run, or a call of `Play`, which is not over? -/
def busy : List (Event C) → Bool
  | [] => false
  | .call 0 .play :: _ => true
  | .runEnd _ :: _ => false
  | _ :: l => busy l

/-- What the client may call: anything when no run is going on and it has waited for the last one;
otherwise it may read and wait, and stop after it has waited. -/
def permitted (l : List (Event C)) (op : Op) : Prop :=
  (busy l = false ∧ followsL (session l).2 ≠ some .running) ∨ reader op = true ∨ op = .wait false false ∨
    (op = .stop ∧ followsL (session l).2 ≠ some .running)

/-- The hypotheses on the client and on the implementation, read off the record: only goroutine 0
calls, it does what is `permitted`, without condition or time-out for `Wait`, and the implementation's
`Init` and `Iterate` never fail. -/
def Rebatching : List (Event C) → Prop
  | [] => True
  | e :: l => (match e with
    | .call t op => t = 0 ∧ (∀ c d, op = .wait c d → c = false ∧ d = false) ∧ permitted l op
    | .initRet _ e => e = none
    | .iterErr _ _ => False
    | .iterPanic _ _ => False
    | _ => True) ∧ Rebatching l

/-- The calls after which the limit or the iterations may be other. -/
def changes : Op → Bool
  | .init | .play | .push => true
  | _ => false

/-- Is the last call which `changes` the limit or the iterations a `Play`? -/
def playedLast : List (Op × Res C) → Bool
  | [] => false
  | (op, _) :: l => if changes op then decide (op = .play) else playedLast l

/-- The current call, if there is one, leaves the limit and the iterations alone. -/
def harmless : Option Op → Bool
  | some op => !changes op
  | none => true

/-- Nothing has changed the limit or the iterations since the last `Play`, which has returned. -/
def settled (l : List (Event C)) : Bool := playedLast (session l).2 && harmless (session l).1

/-- A limit on the iterations, and nothing else. -/
def Limited (conf : Conf) : Prop := Tame conf ∧ (0 < conf.iter ∨ 0 < conf.iterPerData)

/-- The limit. -/
def limit (conf : Conf) (s : Algo C) : Nat := conf.iter + s.pushedData * conf.iterPerData

end Spec
end Distclus
