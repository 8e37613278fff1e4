import Verif.Model.Ctrl
/-!
# Model: the configuration changed while the algorithm works

`Conf()` (core/model.go:35-39) returns the `CtrlConf` object of the algorithm itself: `conf.Ctrl()` (core/conf.go)
returns a pointer, and nothing is copied. A client may therefore write its fields at any time, and no
`Verify` follows. `Verif.Model.Ctrl` has one configuration for a whole execution; here it is part of the state.

Where it is read:
* `run` evaluates `Iter`, `IterPerData` and `Finishing` once, when it starts (core/ctrl.go:246, 260-263), and
  builds its finishing condition of them: `taken t` is the configuration run `t` read then, used by its
  test at line 269;
* `Play` (123), `CanNeverFinish` called by `Wait` (150-153, 159), `Push` (29) and `notify` (core/algo.go:87-92)
  read the fields each time.

Simplification: the fields read in one action are written together, by one action.
-/
namespace Distclus
open Ctrl

/-- An algorithm, its configuration now, and the configuration read by each run when it started. -/
structure Tuned (C : Type) where
  algo : Algo C
  conf : Conf
  taken : Nat → Conf

namespace Tuned
variable {C : Type}

/-- `NewAlgo` with this configuration (core/algo.go:40-58). -/
def new (conf : Conf) : Tuned C := ⟨Algo.new, conf, fun _ => conf⟩

/-- The configuration goroutine `t` looks at: its own finishing condition at the test of its loop
(core/ctrl.go:269), and the object elsewhere. -/
def used (s : Tuned C) (t : Nat) : Conf := if (s.algo.thr t).pc matches .r7 then s.taken t else s.conf

/-- One action of goroutine `t`. A run which starts reads the configuration (core/ctrl.go:243-263). -/
def step (s : Tuned C) (t : Nat) (c : Choice C) : Option (Tuned C) :=
  match s.algo.step (s.used t) t c with
  | none => none
  | some a => some ⟨a, s.conf, fun j => if j = t ∧ (s.algo.thr t).pc matches .r0 then s.conf else s.taken j⟩

/-- An action: one goroutine acts, a new client appears, or a client writes the configuration. -/
inductive Act (C : Type) where
  | act (t : Nat) (c : Choice C)
  | client
  | set (conf : Conf)
deriving DecidableEq, Repr

/-- One action of the system. -/
def next (s : Tuned C) : Act C → Option (Tuned C)
  | .act t c => s.step t c
  | .client => some { s with algo := s.algo.spawn .client .home }
  | .set conf => some { s with conf }

/-- A sequence of actions. -/
def exec (s : Tuned C) : List (Act C) → Option (Tuned C)
  | [] => some s
  | a :: as => match s.next a with
    | none => none
    | some s' => s'.exec as

/-- The states an algorithm made with this configuration can reach. -/
def Reachable (conf : Conf) (s : Tuned C) : Prop := ∃ as, (new conf).exec as = some s

end Tuned
end Distclus
