import Verif.Spec.Ctrl
/-!
# What the result of a call says

Specification for C113, for any number of clients: `Tells conf t l op r` is what a client `t` knows when its call
`op` returns the error `r` after the record `l` (last event first).
-/
namespace Distclus
open Ctrl
namespace Spec
variable {C : Type}

/-- The call of goroutine `t` in progress. -/
def pending (t : Nat) : List (Event C) → Option Op
  | [] => none
  | .call u op :: l => if u = t then some op else pending t l
  | .ret u _ :: l => if u = t then none else pending t l
  | _ :: l => pending t l

/-- The event is a call of `t`. -/
def callBy (t : Nat) : Event C → Bool
  | .call u _ => decide (u = t)
  | _ => false

/-- At some moment since the last call of `t`, the record satisfied `P`. -/
def During (t : Nat) (P : List (Event C) → Prop) : List (Event C) → Prop
  | [] => False
  | e :: l => P (e :: l) ∨ (callBy t e = false ∧ During t P l)

/-- The status is then `v`. -/
def showing (v : ClustStatus) (l : List (Event C)) : Prop := (current l).value = v

/-- The status is then Ready, Running or Idle. -/
def showingAlive (l : List (Event C)) : Prop :=
  (current l).value = .ready ∨ (current l).value = .running ∨ (current l).value = .idle

/-- The status is then Ready, Idle or Finished. -/
def showingEnd (l : List (Event C)) : Prop :=
  (current l).value = .ready ∨ (current l).value = .idle ∨ (current l).value = .finished

/-- A run has just been started. -/
def starting (l : List (Event C)) : Prop := ∃ r, l.head? = some (.runStart r)

/-- The implementation's `Init` has just returned this error. -/
def initReturns (e : Option Err) (l : List (Event C)) : Prop := ∃ c, l.head? = some (.initRet c e)

/-- The implementation's `Init` returned `r` since the last call of `t`, and the status says so. -/
def Initialised (t : Nat) (l : List (Event C)) (r : Option Err) : Prop :=
  During t (initReturns r) l ∧
    current l = match r with
      | none => ⟨.ready, none⟩
      | some e => ⟨.finished, some e⟩

/-- What the result says. -/
def Tells (conf : Conf) (t : Nat) (l : List (Event C)) : Op → Option Err → Prop
  | .init, r => (r = some .alreadyCreated ∧ (current l).value ≠ .created ∧ (current l).value ≠ .finished) ∨
      Initialised t l r
  | .play, none => During t (showing .idle) l ∨ During t starting l
  | .play, some e => (e = .running ∧ (current l).value = .running) ∨ Initialised t l (some e)
  | .pause, none => During t (showing .running) l
  | .pause, some e => e = .notRunning
  | .stop, none => (current l).error = none ∧ During t showingAlive l
  | .stop, some e => (e = .notAlive ∧ ((current l).value = .created ∨ (current l).value = .finished)) ∨
      (current l = ⟨.finished, some e⟩ ∧ During t showingAlive l)
  | .wait c _, none => ((current l).value = .ready ∨ (current l).value = .finished) ∨
      ((current l).error = none ∧ During t (showing .running) l ∧ (c = false → During t showingEnd l))
  | .wait c d, some e =>
      (e = .idle ∧ (current l).value = .idle) ∨
      (e = .notRunning ∧ (current l).value = .created) ∨
      (During t (showing .running) l ∧
        ((e = .neverFinish ∧ c = false ∧ d = false ∧ conf.finishing = false ∧ conf.timeout = false ∧
            conf.iter = 0 ∧ conf.iterPerData = 0) ∨
          (e = .timeout ∧ d = true) ∨ current l = ⟨.finished, some e⟩))
  | _, _ => True

/-- All the results in the record. -/
def Told (conf : Conf) : List (Event C) → Prop
  | [] => True
  | .ret t (.err r) :: l => (∀ op, pending t l = some op → Tells conf t l op r) ∧ Told conf l
  | _ :: l => Told conf l

end Spec
end Distclus
