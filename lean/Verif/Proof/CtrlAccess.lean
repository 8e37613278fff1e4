import Verif.Proof.CtrlBlock
import Verif.Spec.CtrlRace
/-!
# The table of accesses is sound

An action which the table does not list as an access to a variable neither depends on it (`blind`) nor
changes it (`kept`).
-/
namespace Distclus
open Ctrl
namespace Algo
open Spec
variable {C : Type} {conf : Conf} {s s' v : Algo C} {t : Nat} {c : Choice C} {x : Loc}

set_option linter.unusedSimpArgs false
set_option linter.unnecessarySeqFocus false
set_option linter.unusedTactic false
set_option linter.unreachableTactic false

/-- No access to a variable. -/
def Avoids (conf : Conf) (s : Algo C) (p : PC C) (x : Loc) : Prop :=
  ∀ a ∈ accesses conf s.status.value p, a.loc ≠ x

theorem patch_ret (r : Res C) : (patch x v s).ret t r = patch x v (s.ret t r) := by
  cases x <;> first | rfl | (unfold ret; dsimp only [patch]; by_cases h : (s.thr t).inPush <;> simp [h, go, ev])
theorem patch_sent (ok k) : (patch x v s).sent t ok k = patch x v (s.sent t ok k) := by
  cases x <;> first | rfl | (cases k <;> simp only [sent] <;> first | rfl | exact patch_ret (x := .status) .. | exact patch_ret (x := .centroids) .. | exact patch_ret (x := .counters) .. | exact patch_ret (x := .map) .. | exact patch_ret (x := .ack) .. | exact patch_ret (x := .notif) .. | exact patch_ret (x := .timeout) ..)

macro "avoid" h:ident : tactic => `(tactic| first
      | exact absurd rfl ($h _ (.head _))
      | exact absurd rfl ($h _ (.tail _ (.head _)))
      | exact absurd rfl ($h _ (.tail _ (.tail _ (.head _))))
      | exact absurd rfl ($h _ (.tail _ (.tail _ (.tail _ (.head _))))))

macro "fin" : tactic => `(tactic|
  ((repeat' split) <;>
    first
    | rfl
    | contradiction
    | (simp only [ret, Option.map_some]; split <;> rfl)
    | (cases ‹SendFrom› <;> simp only [sent, ret, Option.map_some] <;> first | rfl | (split <;> rfl))
    | (simp only [ret, spawn, Option.map_some]; split <;> rfl)
    | (simp_all [accesses]; done)
    | (simp_all [accesses, iterDone]; done)
    | skip))

theorem blind_stepPush {p} (h : Avoids conf s p x) (h' : x = .map → Avoids conf s p .figures) :
    stepPush conf (patch x v s) t p c = (stepPush conf s t p c).map (patch x v) := by
  unfold Avoids at h h'
  cases p <;> cases c <;> first | rfl | skip
  all_goals cases x <;> first | rfl | avoid h | skip
  all_goals simp only [stepPush]
  all_goals fin

theorem blind_stepInit {p} (h : Avoids conf s p x) (h' : x = .map → Avoids conf s p .figures) :
    stepInit (patch x v s) t p c = (stepInit s t p c).map (patch x v) := by
  unfold Avoids at h h'
  cases p <;> cases c <;> (try cases ‹InitFrom›) <;> first | rfl | skip
  all_goals cases x <;> first | rfl | avoid h | skip
  all_goals simp only [stepInit]
  all_goals fin

theorem blind_stepPlay {p} (h : Avoids conf s p x) (h' : x = .map → Avoids conf s p .figures) :
    stepPlay conf (patch x v s) t p c = (stepPlay conf s t p c).map (patch x v) := by
  unfold Avoids at h h'
  cases p <;> cases c <;> first | rfl | skip
  all_goals cases x <;> first | rfl | avoid h | skip
  all_goals simp only [stepPlay]
  all_goals fin
  all_goals first
    | exact congrArg some (patch_ret (x := .status) (s := ({ s with timeout := some s.n } : Algo C).spawn .timer .ti0) _)
    | exact congrArg some (patch_ret (x := .centroids) (s := ({ s with timeout := some s.n } : Algo C).spawn .timer .ti0) _)
    | exact congrArg some (patch_ret (x := .counters) (s := ({ s with timeout := some s.n } : Algo C).spawn .timer .ti0) _)
    | exact congrArg some (patch_ret (x := .map) (s := ({ s with timeout := some s.n } : Algo C).spawn .timer .ti0) _)
    | exact congrArg some (patch_ret (x := .ack) (s := ({ s with timeout := some s.n } : Algo C).spawn .timer .ti0) _)
    | exact congrArg some (patch_ret (x := .notif) (s := ({ s with timeout := some s.n } : Algo C).spawn .timer .ti0) _)

theorem blind_stepPause {p} (h : Avoids conf s p x) (h' : x = .map → Avoids conf s p .figures) :
    stepPause (patch x v s) t p c = (stepPause s t p c).map (patch x v) := by
  unfold Avoids at h h'
  cases p <;> cases c <;> first | rfl | skip
  all_goals cases x <;> first | rfl | avoid h | skip
  all_goals simp only [stepPause]
  all_goals fin

theorem blind_stepInterrupt {p} (h : Avoids conf s p x) (h' : x = .map → Avoids conf s p .figures) :
    stepInterrupt (patch x v s) t p c = (stepInterrupt s t p c).map (patch x v) := by
  unfold Avoids at h h'
  cases p <;> cases c <;> first | rfl | skip
  all_goals cases x <;> first | rfl | avoid h | skip
  all_goals simp only [stepInterrupt]
  all_goals fin

theorem blind_stepSend {p} (h : Avoids conf s p x) (h' : x = .map → Avoids conf s p .figures) :
    stepSend (patch x v s) t p c = (stepSend s t p c).map (patch x v) := by
  unfold Avoids at h h'
  cases p <;> cases c <;> first | rfl | skip
  all_goals cases x <;> first | rfl | avoid h | skip
  all_goals simp only [stepSend]
  all_goals fin
  all_goals first
    | exact congrArg some (patch_sent (x := .status) (s := s.go _ _) _ _)
    | exact congrArg some (patch_sent (x := .centroids) (s := s.go _ _) _ _)
    | exact congrArg some (patch_sent (x := .counters) (s := s.go _ _) _ _)
    | exact congrArg some (patch_sent (x := .map) (s := s.go _ _) _ _)
    | exact congrArg some (patch_sent (x := .ack) (s := s.go _ _) _ _)
    | exact congrArg some (patch_sent (x := .notif) (s := s.go _ _) _ _)
    | exact congrArg some (patch_sent (x := .timeout) (s := s.go _ _) _ _)

theorem blind_stepWait {p} (h : Avoids conf s p x) (h' : x = .map → Avoids conf s p .figures) :
    stepWait conf (patch x v s) t p c = (stepWait conf s t p c).map (patch x v) := by
  unfold Avoids at h h'
  cases p <;> cases c <;> first | rfl | skip
  all_goals cases x <;> first | rfl | avoid h | skip
  all_goals (try cases ‹Bool›) <;> (try cases ‹Bool›) <;> (try cases ‹Bool›) <;> first | rfl | avoid h | simp only [stepWait]
  all_goals fin

theorem patch_iterDone (h : Avoids conf s .r7 x) : iterDone conf (patch x v s) = iterDone conf s := by
  cases x <;> first | rfl | skip
  unfold Avoids accesses at h
  by_cases hc : conf.iter = 0 ∧ conf.iterPerData = 0
  · simp [iterDone, hc.1, hc.2]
  · rw [if_neg hc] at h
    exact absurd rfl (h _ (.tail _ (.head _)))

theorem blind_stepRun {p} (h : Avoids conf s p x) (h' : x = .map → Avoids conf s p .figures) :
    stepRun conf (patch x v s) t p c = (stepRun conf s t p c).map (patch x v) := by
  unfold Avoids at h h'
  cases p <;> cases c <;> first | rfl | skip
  all_goals cases x <;> first | rfl | avoid h | skip
  all_goals simp only [stepRun]
  all_goals try rw [patch_iterDone h]
  all_goals fin

theorem blind_stepRecover {p} (h : Avoids conf s p x) (h' : x = .map → Avoids conf s p .figures) :
    stepRecover (patch x v s) t p c = (stepRecover s t p c).map (patch x v) := by
  by_cases hx : x = .figures
  · subst hx; exact Option.map_id'.symm ▸ rfl
  unfold Avoids at h h'
  cases p <;> cases c <;> first | rfl | skip
  all_goals cases x <;> first | exact absurd rfl hx | rfl | avoid h | skip
  all_goals simp only [stepRecover]
  all_goals fin

theorem blind_stepNotif {p} (h : Avoids conf s p x) (h' : x = .map → Avoids conf s p .figures) :
    stepNotif conf (patch x v s) t p c = (stepNotif conf s t p c).map (patch x v) := by
  unfold Avoids at h h'
  cases p <;> cases c <;> first | rfl | skip
  all_goals cases x <;> first | rfl | avoid h | skip
  all_goals simp only [stepNotif]
  all_goals fin

theorem blind_stepTimer {p} (h : Avoids conf s p x) (h' : x = .map → Avoids conf s p .figures) :
    stepTimer (patch x v s) t p c = (stepTimer s t p c).map (patch x v) := by
  unfold Avoids at h h'
  cases p <;> cases c <;> first | rfl | skip
  all_goals cases x <;> first | rfl | avoid h | skip
  all_goals simp only [stepTimer]
  all_goals fin

theorem blind_stepRead {p} (h : Avoids conf s p x) (h' : x = .map → Avoids conf s p .figures) :
    stepRead (patch x v s) t p = (stepRead s t p).map (patch x v) := by
  unfold Avoids at h h'
  cases p <;> first | rfl | skip
  all_goals cases x <;> first | rfl | avoid h | (exact absurd rfl (h' rfl _ (.head _))) | skip
  all_goals simp only [stepRead]
  all_goals fin

theorem blind_stepHome : stepHome (patch x v s) t c = (stepHome s t c).map (patch x v) := by
  cases c <;> first | rfl | skip
  all_goals cases x <;> first | rfl | skip
  all_goals simp only [stepHome]
  all_goals fin

theorem patch_n : (patch x v s).n = s.n := by cases x <;> rfl
theorem patch_thr : (patch x v s).thr = s.thr := by cases x <;> rfl

theorem blind (h : Avoids conf s (s.thr t).pc x) (h' : x = .map → Avoids conf s (s.thr t).pc .figures) :
    step conf (patch x v s) t c = (step conf s t c).map (patch x v) := by
  unfold step
  rw [patch_n, patch_thr]
  split
  · generalize (s.thr t).pc = p at h h'
    cases p <;> dsimp only <;> first
      | exact blind_stepHome
      | rfl
      | (cases c <;> first | rfl | exact blind_stepRead h h')
      | exact blind_stepPush h h'
      | exact blind_stepInit h h'
      | exact blind_stepPlay h h'
      | exact blind_stepPause h h'
      | exact blind_stepInterrupt h h'
      | exact blind_stepSend h h'
      | exact blind_stepWait h h'
      | exact blind_stepRun h h'
      | exact blind_stepRecover h h'
      | exact blind_stepNotif h h'
      | exact blind_stepTimer h h'
  · rfl


/-! ## Writes -/

/-- No write to a variable. -/
def Spares (conf : Conf) (s : Algo C) (p : PC C) (x : Loc) : Prop :=
  ∀ a ∈ accesses conf s.status.value p, a.loc = x → a.write = false

theorem kept_sent {s0 : Algo C} {ok : Bool} {k : SendFrom} (h : patch x s0 s = s) :
    patch x s0 (s.sent t ok k) = s.sent t ok k := by
  rw [← patch_sent, h]

theorem kept_ret {s0 : Algo C} {r : Res C} (h : patch x s0 s = s) : patch x s0 (s.ret t r) = s.ret t r := by
  rw [← patch_ret, h]

macro "spare" h:ident : tactic => `(tactic| first
      | exact absurd ($h _ (.head _) rfl) (by decide)
      | exact absurd ($h _ (.tail _ (.head _)) rfl) (by decide)
      | exact absurd ($h _ (.tail _ (.tail _ (.head _))) rfl) (by decide)
      | exact absurd ($h _ (.tail _ (.tail _ (.tail _ (.head _)))) rfl) (by decide))

macro "keep" h:ident : tactic => `(tactic|
    first
    | rfl
    | spare $h
    | exact kept_ret rfl
    | exact kept_sent rfl
    | (simp_all [accesses, Spares]; done))

theorem kept_stepPush {p} (h : Spares conf s p x) (he : stepPush conf s t p c = some s') :
    patch x s s' = s' := by
  unfold Spares at h
  cases p <;> cases c <;> simp only [stepPush, reduceCtorEq] at he <;> (repeat' split at he) <;> (try cases he)
  all_goals cases x
  all_goals keep h

theorem kept_stepInit {p} (h : Spares conf s p x) (he : stepInit s t p c = some s') :
    patch x s s' = s' := by
  unfold Spares at h
  cases p <;> cases c <;> (try cases ‹InitFrom›) <;> simp only [stepInit, reduceCtorEq] at he <;> (repeat' split at he) <;> (try cases he)
  all_goals cases x
  all_goals keep h

theorem kept_stepPlay {p} (h : Spares conf s p x) (he : stepPlay conf s t p c = some s') :
    patch x s s' = s' := by
  unfold Spares at h
  cases p <;> cases c <;> simp only [stepPlay, reduceCtorEq] at he <;> (repeat' split at he) <;> (try cases he)
  all_goals cases x
  all_goals keep h

theorem kept_stepPause {p} (h : Spares conf s p x) (he : stepPause s t p c = some s') :
    patch x s s' = s' := by
  unfold Spares at h
  cases p <;> cases c <;> simp only [stepPause, reduceCtorEq] at he <;> (repeat' split at he) <;> (try cases he)
  all_goals cases x
  all_goals keep h

theorem kept_stepInterrupt {p} (h : Spares conf s p x) (he : stepInterrupt s t p c = some s') :
    patch x s s' = s' := by
  unfold Spares at h
  cases p <;> cases c <;> simp only [stepInterrupt, reduceCtorEq] at he <;> (repeat' split at he) <;> (try cases he)
  all_goals cases x
  all_goals keep h

theorem kept_stepSend {p} (h : Spares conf s p x) (he : stepSend s t p c = some s') :
    patch x s s' = s' := by
  unfold Spares at h
  cases p <;> cases c <;> simp only [stepSend, reduceCtorEq] at he <;> (repeat' split at he) <;> (try cases he)
  all_goals cases x
  all_goals keep h

theorem kept_stepWait {p} (h : Spares conf s p x) (he : stepWait conf s t p c = some s') :
    patch x s s' = s' := by
  unfold Spares at h
  cases p <;> cases c <;> (try cases ‹Bool›) <;> (try cases ‹Bool›) <;> (try cases ‹Bool›) <;> simp only [stepWait, reduceCtorEq] at he <;> (repeat' split at he) <;> (try cases he)
  all_goals cases x
  all_goals keep h

theorem kept_stepRun {p} (h : Spares conf s p x) (he : stepRun conf s t p c = some s') :
    patch x s s' = s' := by
  unfold Spares at h
  cases p <;> cases c <;> simp only [stepRun, reduceCtorEq] at he <;> (repeat' split at he) <;> (try cases he)
  all_goals cases x
  all_goals keep h

theorem kept_stepRecover {p} (h : Spares conf s p x) (he : stepRecover s t p c = some s') :
    patch x s s' = s' := by
  unfold Spares at h
  cases p <;> cases c <;> simp only [stepRecover, reduceCtorEq] at he <;> (repeat' split at he) <;> (try cases he)
  all_goals cases x
  all_goals keep h

theorem kept_stepNotif {p} (h : Spares conf s p x) (he : stepNotif conf s t p c = some s') :
    patch x s s' = s' := by
  unfold Spares at h
  cases p <;> cases c <;> simp only [stepNotif, reduceCtorEq] at he <;> (repeat' split at he) <;> (try cases he)
  all_goals cases x
  all_goals keep h

theorem kept_stepTimer {p} (h : Spares conf s p x) (he : stepTimer s t p c = some s') :
    patch x s s' = s' := by
  unfold Spares at h
  cases p <;> cases c <;> simp only [stepTimer, reduceCtorEq] at he <;> (repeat' split at he) <;> (try cases he)
  all_goals cases x
  all_goals keep h

theorem kept_stepRead {p} (h : Spares conf s p x) (he : stepRead s t p = some s') :
    patch x s s' = s' := by
  unfold Spares at h
  cases p <;> simp only [stepRead, reduceCtorEq] at he <;> (repeat' split at he) <;> (try cases he)
  all_goals cases x
  all_goals keep h

theorem kept_stepHome (he : stepHome s t c = some s') : patch x s s' = s' := by
  cases c <;> simp only [stepHome, reduceCtorEq] at he <;> split at he <;> cases he <;> cases x <;> rfl

/-- What is not listed as written is not changed. -/
theorem kept (h : Spares conf s (s.thr t).pc x) (he : step conf s t c = some s') : patch x s s' = s' :=
  step_elim he (fun _ => kept_stepHome) (kept_stepRead h) (kept_stepPush h) (kept_stepInit h)
    (kept_stepPlay h) (kept_stepPause h) (kept_stepInterrupt h) (kept_stepSend h) (kept_stepWait h)
    (kept_stepRun h) (kept_stepRecover h) (kept_stepNotif h) (kept_stepTimer h)

end Algo
end Distclus
