import Verif.Spec.Ctrl
/-!
# Calls which never return
-/
namespace Distclus
open Ctrl Algo
namespace Spec
variable {C : Type}

/-- The results returned to goroutine `u`, last first. -/
def rets (u : Nat) (l : List (Event C)) : List (Res C) :=
  l.filterMap fun
    | .ret t r => if t = u then some r else none
    | _ => none

/-- Goroutine `u` is inside a call, and remains inside it whatever happens. -/
def NeverReturns (conf : Conf) (s : Algo C) (u : Nat) : Prop :=
  (s.thr u).pc ≠ .home ∧
  ∀ as s', exec conf s as = some s' → (s'.thr u).pc ≠ .home ∧ rets u s'.log = rets u s.log

/-- The calls which begin by taking the status lock. -/
def statusOp : Op → Bool
  | .status | .init | .play | .pause | .stop | .wait _ _ => true
  | _ => false

/-- A run goroutine, or a goroutine which may start one or which may change the status. -/
def activity : PC C → Bool
  | .in1 _ | .in2 _ | .in3 _ | .in4 _ | .in5 _ | .in6 _ _ _ | .in7 _ _ _ | .in8 _ _ | .in9 _ _
  | .in10 .play _ | .pl1 | .it1 _
  | .r0 | .r1 | .r2 _ | .r3 _ | .r4 _ | .r5 _ _ | .r6 | .r7 | .r8 | .r9 | .r10 _ | .r11 _ | .rI
  | .rS _ | .rS' _ | .r12 | .r13 | .r14 | .r15 _ | .r16 _
  | .c0 _ | .c1 _ | .c2 _ | .c3 _ | .c4 _ | .c5 _ | .c6 | .c7 | .c8 => true
  | _ => false

/-- The status is Idle but there is no run, and nobody is about to start one. -/
def Orphan (s : Algo C) : Prop := s.status.value = .idle ∧ ∀ j, activity (s.thr j).pc = false

end Spec
end Distclus
