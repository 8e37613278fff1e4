import Verif.Proof.CtrlUser
import Verif.Proof.CtrlConf
import Verif.Spec.CtrlTrace
/-!
# C125: panics of the code of the user outside `Init`
-/
namespace Distclus
open Ctrl Algo Spec Trace

variable {C : Type} {conf : Conf} {s s1 s2 : Algo C}

/-- **C125.** Let `impl.Push`, the condition given to `Wait` and the finishing condition of the configuration panic
whenever they are called, the callers of `Push` and `Wait` recovering. Whatever happens, the algorithm is in a state
which it can reach with no such panic at all: status, locks, channels, centroids, counters, figures, time-outs and
goroutines are the same (up to the duration given to the calls of `Wait` in progress which were given a condition),
and so is everything recorded, but for calls which return an error and iterations which panic. -/
theorem C125 (h : UserReachable conf s) : ∃ l, Reachable conf (timed s l) ∧ LogLike s.log l := by
  obtain ⟨l, hr, hl⟩ := sim_exec h
  exact ⟨l, timed_reachable hr, hl⟩

/-- **C125.** In particular a panic leaves no lock locked: when `statusMutex` or `modelMutex` is held, a goroutine
is in a section of the code which holds it, or returned from `Play` with it, as without panics. -/
theorem C125_locks (h : UserReachable conf s) :
    (∀ t, s.ma = some t ↔ holdsM (s.thr t).pc = true) ∧ (∀ t, holdsS (s.thr t).pc = true → s.sm = some t) ∧
    ∀ t, s.mr.count t = if (s.thr t).inPush then 1 else 0 := by
  obtain ⟨l, hr, -⟩ := C125 h
  have hL := hr.lock
  have hM : ∀ p : PC C, holdsM (timedPc p) = holdsM p := by
    intro p
    cases p
    case wa0 c d => cases c <;> rfl
    case wa1 c d => cases c <;> rfl
    case wa2 c d => cases c <;> rfl
    all_goals rfl
  have hS : ∀ p : PC C, holdsS (timedPc p) = holdsS p := by
    intro p
    cases p
    case wa0 c d => cases c <;> rfl
    case wa1 c d => cases c <;> rfl
    case wa2 c d => cases c <;> rfl
    all_goals rfl
  refine ⟨fun t => ?_, fun t ht => ?_, fun t => hL.hR t⟩
  · have := hL.hM t
    simp only [timed, hM] at this
    exact this.symm
  · exact hL.hS t (by simp only [timed, hS]; exact ht)

/-- **C125.** A panic of `impl.Push` or of the condition given to `Wait` changes nothing but the goroutine which
called: it is between two calls. -/
theorem C125_caller {t : Nat} {e : Err} (h : s.userPanic t e = some s1) (hp : (s.thr t).pc ≠ .r8) :
    s1 = s.go t .home := by
  unfold userPanic at h
  split at h
  · split at h
    · cases h; rfl
    · cases h; rfl
    · exact absurd ‹_› hp
    · cases h
  · cases h

/-- The goroutine which acts, or panics. -/
def actor : UserAct C → Option Nat
  | .act (.act t _) => some t
  | .act .client => none
  | .panic t _ => some t

/-- **C125.** After a panic of the finishing condition of the configuration, whatever the other goroutines do, the
next action of the run sets the status Finished with the value of the panic as error. -/
theorem C125_run {t : Nat} {e : Err} (hp : (s.thr t).pc = .r8)
    (h : s.userPanic t e = some s1) {as : List (UserAct C)} (ho : ∀ a ∈ as, actor a ≠ some t) {s2 : Algo C}
    (hx : userExec conf s1 as = some s2) {c : Choice C} {s3 : Algo C} (hn : s2.next conf (.act t c) = some s3) :
    s3.status = .ofError (some e) ∧ s3.log = .set (.ofError (some e)) :: s2.log := by
  have h1 : t < s.n ∧ s1 = s.go t (.c0 (some e)) := by
    unfold userPanic at h
    split at h
    · simp only [hp] at h; cases h; exact ⟨‹_›, rfl⟩
    · cases h
  have key : ∀ (as : List (UserAct C)) (s1 : Algo C), t < s1.n → (s1.thr t).pc = .c0 (some e) →
      (∀ a ∈ as, actor a ≠ some t) → userExec conf s1 as = some s2 → (s2.thr t).pc = .c0 (some e) := by
    intro as
    induction as with
    | nil => intro s1 _ hp _ hx; cases hx; exact hp
    | cons a as ih =>
      intro s1 hlt hp ho hx
      simp only [userExec] at hx
      split at hx
      · cases hx
      rename_i s' hs
      have ha := ho a (by simp)
      refine ih s' ?_ ?_ (fun b hb => ho b (by simp [hb])) hx
      · cases a with
        | act a => rcases (Step.of_next hs).nFact with e | e <;> omega
        | panic u e' =>
          by_cases hu : (s1.thr u).pc = .r8
          · unfold userNext userPanic at hs
            simp only [hu] at hs
            split at hs <;> cases hs
            exact hlt
          · rw [C125_caller hs hu]; exact hlt
      · cases a with
        | act a =>
          cases a with
          | client =>
            cases hs
            rw [spawn_pc, if_neg (Nat.ne_of_lt hlt)]; exact hp
          | act u c => exact step_still rfl rfl rfl hs (fun h => ha (by rw [h]; rfl)) hp hlt
        | panic u e' =>
          have hu : t ≠ u := fun h => ha (by rw [h]; rfl)
          by_cases h8 : (s1.thr u).pc = .r8
          · unfold userNext userPanic at hs
            simp only [h8] at hs
            split at hs <;> cases hs
            rw [go_pc, if_neg hu]; exact hp
          · rw [C125_caller hs h8, go_pc, if_neg hu]; exact hp
  have h2 := key as s1 (by rw [h1.2]; exact h1.1) (by rw [h1.2, go_pc, if_pos rfl]) ho hx
  simp only [next, step, h2] at hn
  split at hn
  · cases c <;> simp only [stepRecover, reduceCtorEq] at hn
    split at hn
    · cases hn; exact ⟨rfl, rfl⟩
    · cases hn
  · cases hn

namespace UserPanics

/-- A configuration with a finishing condition. -/
def withFinishing : Conf := ⟨0, 0, 0, false, true, false⟩

/-- A run which evaluates its finishing condition. -/
def evaluating : List (UserAct Nat) := (init ++ play ++ [g 2, g 2]).map .act

/-- The finishing condition panics while a client is blocked in `Pause`: the run ends, `Pause` returns
`ErrNotRunning`, the status is Finished with the error. -/
example : ((userExec withFinishing new (evaluating ++ [call 0 .pause, g 0, g 0].map .act ++ [.panic 2 (.other 7)] ++
    [g 2, recv 1 2, g 1, g 2, g 2, recv 2 0, .act 2 .default, g 2, g 2, g 0, g 0].map .act)).map fun s =>
      (s.status, s.sm, (s.thr 2).pc, rets 0 s.log)) =
    some (.ofError (some (.other 7)), none, .dead, [.err (some .notRunning), .err none, .err none]) := by decide +kernel

/-- `impl.Push` panics, then accepts a datum. -/
example : ((userExec plain new (init.map .act ++ [call 0 .push, g 0].map .act ++ [.panic 0 (.other 7)] ++
    [call 0 .push, g 0, .act 0 (.pushRet none), g 0, g 0, g 0, g 0, g 0].map .act)).map fun s =>
      (s.pushedData, s.sm, s.ma, rets 0 s.log)) =
    some (1, none, none, [.err none, .err none]) := by decide +kernel

/-- The condition given to `Wait` panics. -/
example : ((userExec plain new ((init ++ play).map .act ++ [call 0 (.wait true false), g 0, g 0].map .act ++
    [.panic 0 (.other 7), .act (call 0 .status), .act (g 0)])).map fun s =>
      (s.sm, s.ma, rets 0 s.log)) =
    some (none, none, [.status (.new .running), .err none, .err none]) := by decide +kernel

end UserPanics

end Distclus
