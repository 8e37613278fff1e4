import Verif.Spec.CtrlWait
import Verif.Proof.CtrlSource
import Verif.Props.Finish
import Verif.Props.Nearest
import Verif.Props.CtrlCount
import Verif.Props.CtrlBatch
/-!
# C155: waiting for a condition, and the skeleton of an implementation

`Wait(finishing, 0)` with a condition of the user polls this condition alone: when the algorithm is over and the
condition is false it polls for ever, be it after a failure or after the time-out of the configuration.  An
implementation without results, like the skeleton, never counts an iteration.
-/
namespace Distclus
open Ctrl Algo Spec

variable {C : Type} {conf : Conf} {s s' : Algo C}

theorem still_next {t : Nat} {f : Finishing} {a : Act C} (hS : Still conf t s) (ht : t < s.n)
    (hw : (s.thr t).pc = .wa2 true false) (hf : isFinished (shown s) f = false) (ha : a ≠ .client)
    (hb : ∀ b, a = .act t (.answer b) → b = isFinished (shown s) f) (hn : s.next conf a = some s') :
    Still conf t s' ∧ t < s'.n ∧ (s'.thr t).pc = .wa2 true false ∧ shown s' = shown s ∧ s'.log = s.log := by
  cases a with
  | client => exact absurd rfl ha
  | act u c =>
    simp only [next, step] at hn
    split at hn
    case isFalse => cases hn
    rename_i hu
    by_cases e : u = t
    · subst e
      rw [hw] at hn
      cases c <;> simp only [stepWait, reduceCtorEq] at hn
      rename_i b
      have := hb b rfl
      rw [hf] at this; subst this
      cases hn
      refine ⟨⟨hS.1, fun j hj hju => ?_⟩, ht, by rw [go_pc, if_pos rfl]; rfl, rfl, rfl⟩
      rw [go_pc, if_neg hju, go_kind]; exact hS.2 j hj hju
    · rcases hS.2 u hu e with hp | ⟨hp, hk⟩ | hp | ⟨st, hp⟩
      · rw [hp] at hn; cases hn
      · rw [hp] at hn
        cases c <;> simp [stepHome, hk] at hn
      · rw [hp] at hn
        cases c <;> simp only [stepNotif, reduceCtorEq] at hn
        rename_i j
        split at hn
        case h_2 => cases hn
        rename_i st p hj
        split at hn
        case isFalse => cases hn
        rename_i hjn
        exfalso
        by_cases ej : j = t
        · subst ej; rw [hw] at hj; cases hj
        · rcases hS.2 j hjn ej with hp | ⟨hp, _⟩ | hp | ⟨st, hp⟩ <;> (rw [hp] at hj; cases hj)
      · rw [hp] at hn
        cases c <;> simp only [stepNotif, reduceCtorEq] at hn
        split at hn
        case isFalse => cases hn
        rw [hS.1] at hn
        cases hn
        refine ⟨⟨hS.1, fun j hj hju => ?_⟩, ht, by rw [go_pc, if_neg (Ne.symm e)]; exact hw, rfl, rfl⟩
        rw [go_pc, go_kind]
        split
        · exact .inr (.inr (.inl rfl))
        · exact hS.2 j hj hju

/-- **C155 (no return; claim examined).** A client waits for its condition without time-out; all other goroutines are
over, and the condition is false. Then, whatever happens, as long as no other client comes, `Wait` never returns and
nothing changes. -/
theorem C155_stuck {t : Nat} {f : Finishing} (hS : Still conf t s) (ht : t < s.n)
    (hw : (s.thr t).pc = .wa2 true false) (hf : isFinished (shown s) f = false) (as : List (Act C))
    (ha : .client ∉ as) (he : honest f t conf s as = some s') :
    (s'.thr t).pc = .wa2 true false ∧ shown s' = shown s ∧ s'.log = s.log := by
  induction as generalizing s with
  | nil => cases he; exact ⟨hw, rfl, rfl⟩
  | cons a as ih =>
    unfold honest at he
    split at he
    case isFalse => cases he
    rename_i hb
    split at he
    · cases he
    · rename_i s1 hn
      have hb' : ∀ b, a = .act t (.answer b) → b = isFinished (shown s) f := by
        rintro b rfl
        simpa [sincere] using hb
      obtain ⟨h1, h2, h3, h4, h5⟩ := still_next hS ht hw hf
        (fun h => ha (h ▸ List.mem_cons_self)) hb' hn
      obtain ⟨k1, k2, k3⟩ := ih h1 h2 h3 (by rw [h4]; exact hf) (fun h => ha (List.mem_cons_of_mem _ h)) he
      exact ⟨k1, k2.trans h4, k3.trans h5⟩

/-- **C155 (return).** When the condition is true, the next poll is the last one, and `Wait` returns the error of the
status. -/
theorem C155_returns {t : Nat} {d : Bool} {f : Finishing} (ht : t < s.n) (hi : (s.thr t).inPush = false)
    (hw : (s.thr t).pc = .wa2 true d) (hm : s.sm = none) (hf : isFinished (shown s) f = true) :
    (∀ b as s', honest f t conf s (.act t (.answer b) :: as) = some s' → b = true) ∧
    ∃ s', honest f t conf s [.act t (.answer true), .act t .go] = some s' ∧ (s'.thr t).pc = .home ∧
      s'.log = .ret t (.err s.status.error) :: s.log := by
  refine ⟨fun b as s' h => ?_, ?_⟩
  · cases b
    · simp [honest, sincere, hf] at h
    · rfl
  · have h1 : s.next conf (.act t (.answer true)) = some (s.go t .wa3) := by
      simp only [next, step, if_pos ht, hw, stepWait]; rfl
    have h2 : (s.go t .wa3).next conf (.act t .go) = some ((s.go t .wa3).ret t (.err s.status.error)) := by
      have : ((s.go t .wa3).thr t).pc = .wa3 := by rw [go_pc, if_pos rfl]
      simp only [next, step, this, stepWait]
      rw [if_pos (show t < (s.go t .wa3).n from ht), if_pos (show (s.go t .wa3).sm = none from hm)]
      rfl
    have h3 : ((s.go t .wa3).thr t).inPush = false := by simp [go, hi]
    refine ⟨(s.go t .wa3).ret t (.err s.status.error), ?_, ?_, ?_⟩
    · simp [honest, sincere, hf, h1, h2]
    · rw [ret, h3]; simp [go_pc]
    · rw [ret, h3]; rfl

/-- **C155 (remedy).** The condition joined with that of `Wait(nil, _)` by `NewOrFinishing` is true as soon as the
algorithm is Finished, Ready, Idle or has an error, whatever the condition. -/
theorem C155_or (f : Finishing) (m : ModelView) (h : m.status.error ≠ none ∨ m.status.value = .ready ∨
    m.status.value = .idle ∨ m.status.value = .finished) : isFinished m (.or [f, ended]) = true := by
  rw [C19_or]
  refine ⟨ended, by simp, ?_⟩
  rw [ended, C19_status]
  rcases h with h | h | h | h <;> simp [h]

/-- **C155 (not with and).** Joined by `NewAndFinishing` it is no remedy: it is false whenever the condition is. -/
theorem C155_and (f : Finishing) (m : ModelView) (h : isFinished m f = false) :
    isFinished m (.and [f, ended]) = false := by
  cases hc : isFinished m (.and [f, ended]) with
  | false => rfl
  | true =>
    rw [C19_and] at hc
    rw [hc.2 f (by simp)] at h; cases h

open Trace in
/-- The client waits for its condition, polls it once, and the first iteration fails. -/
def waitFails : List (Act Nat) :=
  init ++ play ++ [call 0 (.wait true false), g 0, g 0, .act 0 (.answer false), g 2, g 2, .act 2 .default,
    .act 2 (.iterErr (.other 7)), g 2, recv 1 2, g 1, g 2, g 2, g 2, .act 2 .default, .act 2 .default, g 2, g 2]

/-- A test of `Still`. -/
def stillB (conf : Conf) (t : Nat) (s : Algo C) : Bool :=
  !conf.notifier && (List.range s.n).all fun j => decide (j = t) || match (s.thr j).pc with
    | .dead => true
    | .home => decide ((s.thr j).kind = .timer)
    | .nl0 => true
    | .nl1 _ => true
    | _ => false

theorem still_of_test {t : Nat} (h : stillB conf t s = true) : Still conf t s := by
  simp only [stillB, Bool.and_eq_true, Bool.not_eq_true', List.all_eq_true, List.mem_range,
    Bool.or_eq_true, decide_eq_true_eq] at h
  refine ⟨h.1, fun j hj hjt => ?_⟩
  rcases h.2 j hj with h | h
  · exact absurd h hjt
  · revert h
    cases (s.thr j).pc <;> simp

theorem honest_reachable {f : Finishing} {t : Nat} (as : List (Act C)) (h : Reachable conf s)
    (he : honest f t conf s as = some s') : Reachable conf s' := by
  induction as generalizing s with
  | nil => cases he; exact h
  | cons a as ih =>
    unfold honest at he
    split at he
    case isFalse => cases he
    split at he
    · cases he
    · rename_i s1 hn
      refine ih ?_ he
      obtain ⟨bs, hb⟩ := h
      refine ⟨bs ++ [a], ?_⟩
      rw [exec_append, hb]
      simp [exec, hn]

open Trace in
/-- **C155 (after a failure; claim examined).** `Wait(NewIterFinishing(10, 0), 0)`: the first iteration fails, the
algorithm is Finished with the error, and `Wait` never returns. -/
theorem C155_failed : ∃ s : Algo Nat, Reachable plain s ∧ s.status = ⟨.finished, some (.other 7)⟩ ∧
    (session s.log).1 = some (.wait true false) ∧
    ∀ as s', .client ∉ as → honest (.iter 10 0) 0 plain s as = some s' →
      (session s'.log).1 = some (.wait true false) := by
  have key : (honest (.iter 10 0) 0 plain (new : Algo Nat) waitFails).any (fun s => stillB plain 0 s &&
      decide (s.status = ⟨.finished, some (.other 7)⟩ ∧ (session s.log).1 = some (.wait true false) ∧ 0 < s.n ∧
        (s.thr 0).pc = .wa2 true false ∧ isFinished (shown s) (.iter 10 0) = false)) = true := by
    decide +kernel
  cases he : honest (.iter 10 0) 0 plain (new : Algo Nat) waitFails with
  | none => rw [he] at key; cases key
  | some s =>
    rw [he, Option.any_some, Bool.and_eq_true] at key
    obtain ⟨h1, h2, h3, h4, h5⟩ := of_decide_eq_true key.2
    refine ⟨s, honest_reachable waitFails ⟨[], rfl⟩ he, h1, h2, fun as s' ha hs => ?_⟩
    rw [(C155_stuck (still_of_test key.1) h3 h4 h5 as ha hs).2.2]
    exact h2

/-- A configuration with a time-out. -/
def waitTimed : Conf := ⟨0, 0, 0, true, false, false⟩

open Trace in
/-- The client waits for its condition, one iteration succeeds, the time-out interrupts the algorithm. -/
def waitTimesOut : List (Act Nat) :=
  init ++ play ++ [call 0 (.wait true false), g 0, g 0, .act 0 (.answer false)] ++ iterate 6 ++
    [.act 0 (.answer false), g 3, g 3, g 3, g 2, g 2, recv 2 3, g 2, recv 1 2, g 1, g 2, g 2, g 2, g 2,
     g 2, .act 2 .default, .act 2 .default, g 2, g 2, g 3, g 3, g 3]

open Trace in
/-- **C155 (after a time-out; claim examined).** `Wait(NewIterFinishing(10, 0), 0)` with `Timeout` set in the
configuration: the time-out interrupts the algorithm after one iteration, and `Wait` never returns. -/
theorem C155_timed_out : ∃ s : Algo Nat, Reachable waitTimed s ∧ s.status = ⟨.finished, some .timeout⟩ ∧
    s.iterations = 1 ∧ (session s.log).1 = some (.wait true false) ∧
    ∀ as s', .client ∉ as → honest (.iter 10 0) 0 waitTimed s as = some s' →
      (session s'.log).1 = some (.wait true false) := by
  have key : (honest (.iter 10 0) 0 waitTimed (new : Algo Nat) waitTimesOut).any (fun s => stillB waitTimed 0 s &&
      decide (s.status = ⟨.finished, some .timeout⟩ ∧ s.iterations = 1 ∧
        (session s.log).1 = some (.wait true false) ∧ 0 < s.n ∧
        (s.thr 0).pc = .wa2 true false ∧ isFinished (shown s) (.iter 10 0) = false)) = true := by
    decide +kernel
  cases he : honest (.iter 10 0) 0 waitTimed (new : Algo Nat) waitTimesOut with
  | none => rw [he] at key; cases key
  | some s =>
    rw [he, Option.any_some, Bool.and_eq_true] at key
    obtain ⟨h1, h2, h3, h4, h5, h6⟩ := of_decide_eq_true key.2
    refine ⟨s, honest_reachable waitTimesOut ⟨[], rfl⟩ he, h1, h2, h3, fun as s' ha hs => ?_⟩
    rw [(C155_stuck (still_of_test key.1) h4 h5 h6 as ha hs).2.2]
    exact h3

open Trace in
/-- The same time-out with the condition joined to that of `Wait(nil, _)`: `Wait` returns the error. -/
example : (honest (.or [.iter 10 0, ended]) 0 waitTimed (new : Algo Nat)
    (waitTimesOut ++ [.act 0 (.answer true), g 0])).any (fun s =>
      decide (s.log.head? = some (.ret 0 (.err (some .timeout))))) = true := by decide +kernel

/-! ## The skeleton -/

theorem savedSince_le : ∀ (l : List (Event C)), savedSince l ≤ events isSaved l := by
  intro l
  induction l with
  | nil => exact Nat.le_refl _
  | cons e l ih =>
    unfold events at ih ⊢
    rw [List.countP_cons]
    cases e <;> simp [savedSince, isSaved] <;> omega

theorem figuresOk_tail {e : Event C} {l : List (Event C)} (h : FiguresOk (e :: l)) : FiguresOk l := by
  cases e
  case ret t r => cases r <;> first | exact h | exact h.2.2
  all_goals exact h

/-- **C155 (skeleton).** Whatever the clients do, an algorithm made of the skeleton counts no iteration and has no
centroids: `Centroids()` returns nil, and the figure of the iterations is 0. -/
theorem C155_skeleton (h : Reachable conf s) (hK : Skeletal s.log) :
    s.iterations = 0 ∧ s.centroids = none ∧
    (∀ t c, .ret t (.centroids c) ∈ s.log → c = none) ∧
    ∀ t i p, .ret t (.figures i p) ∈ s.log → i = 0 := by
  have no : ∀ {l : List (Event C)}, Skeletal l → ∀ c, ¬ Produced c l := by
    rintro l hK c (⟨e, h⟩ | ⟨r, h⟩)
    · have := hK _ h; cases this
    · have := hK _ h; cases this
  have zero : ∀ {s : Algo C}, Reachable conf s → Skeletal s.log → s.iterations = 0 := by
    intro s h hK
    have h1 := (C55_counters h).1
    have h2 := savedSince_le s.log
    have h3 := C55_iterations h
    have h4 : events isIterOk s.log = 0 := by
      unfold events
      rw [List.countP_eq_zero]
      intro e he
      cases e
      case iterOk => have := hK _ he; cases this
      all_goals exact Bool.false_ne_true
    omega
  have tail : ∀ {l1 l2 : List (Event C)}, Skeletal (l1 ++ l2) → Skeletal l2 :=
    fun hK e he => hK e (List.mem_append_right _ he)
  refine ⟨zero h hK, ?_, fun t c hc => ?_, fun t i p hc => ?_⟩
  · cases hc : s.centroids with
    | none => rfl
    | some c => exact absurd (h.src.cur c hc) (no hK c)
  · cases c with
    | none => rfl
    | some c =>
      obtain ⟨l1, l2, hl⟩ := List.append_of_mem hc
      have hS := h.src.log
      rw [hl] at hS hK
      have : Sourced (.ret t (.centroids (some c)) :: l2) := by
        clear hl hK hc
        induction l1 with
        | nil => exact hS
        | cons e l1 ih => exact ih hS.2
      exact absurd (this.1 c rfl) (no (fun e he => tail hK e (List.mem_cons_of_mem _ he)) c)
  · obtain ⟨l1, l2, hl⟩ := List.append_of_mem hc
    have hF := C55_figures h
    rw [hl] at hF hK
    have hF : FiguresOk (.ret t (.figures i p) :: l2) := by
      clear hl hK hc
      induction l1 with
      | nil => exact hF
      | cons e l1 ih => exact ih (figuresOk_tail hF)
    obtain ⟨s0, s1, h0, hl0, -⟩ := h.past hl
    have hK0 : Skeletal s0.log := by
      rw [hl0]
      exact fun e he => tail hK e (List.mem_cons_of_mem _ he)
    have h1 := zero h0 hK0
    rw [(C55_counters h0).1, hl0] at h1
    exact hF.1.trans h1

/-- **C155 (skeleton, Batch; claim examined).** One client plays the skeleton with a limit which is positive: it never
sees the end of the run, so that `Batch` never returns. -/
theorem C155_skeleton_hang (hc : Limited conf) (h : OneClient conf s) (hP : Rebatching s.log) (hK : Skeletal s.log)
    (hN : 0 < limit conf s) (hp : settled s.log = true) : followsL (session s.log).2 = some .running := by
  by_contra hv
  have hr : Reachable conf s := by obtain ⟨as, _, he⟩ := h; exact ⟨_, he⟩
  have h1 := C82_limit hc h hP hp hv
  have h2 := (C155_skeleton hr hK).1
  omega

/-- **C155 (skeleton, no limit reached).** With `Iter` positive the run of the skeleton never finds its limit. -/
theorem C155_skeleton_runs (h : Reachable conf s) (hK : Skeletal s.log) (hi : 0 < conf.iter) :
    iterDone conf s = false := by
  have h1 := (C155_skeleton h hK).1
  have h2 := (C55_counters h).2.2.1
  simp only [iterDone, Bool.and_eq_false_iff, decide_eq_false_iff_not]
  right
  omega

open Trace in
/-- `Batch` on the skeleton: the client waits, and an iteration has given nothing. -/
def batchSkeleton : List (Act Nat) :=
  [.client, call 0 .stop, g 0, call 0 .play, g 0, g 0, recv 1 0, g 1, .act 0 (.initRet none none),
   g 0, g 0, g 0, recv 1 0, g 1, g 0] ++ play.drop 2 ++
  [call 0 (.wait false false), g 0, g 0, g 2, g 2, .act 2 .default, .act 2 .iterNil]

/-- A test of `Skeletal`. -/
def skeletalB (l : List (Event C)) : Bool := l.all fun
  | .initRet c e => c.isNone && e.isNone
  | .iterOk _ _ => false
  | .iterErr _ _ => false
  | .iterPanic _ _ => false
  | _ => true

theorem skeletal_of_test {l : List (Event C)} (h : skeletalB l = true) : Skeletal l := by
  intro e he
  have := List.all_eq_true.1 h e he
  cases e <;> first | trivial | (cases this; done) | skip
  case initRet c e =>
    simp only [Bool.and_eq_true, Option.isNone_iff_eq_none] at this
    rw [this.1, this.2]; rfl

/-- The hypotheses of C155 (skeleton, Batch) hold during `Batch` with `Iter` 2, after an iteration without result. -/
example : ∃ s : Algo Nat, Limited ⟨2, 0, 0, false, false, false⟩ ∧ OneClient ⟨2, 0, 0, false, false, false⟩ s ∧
    Rebatching s.log ∧ Skeletal s.log ∧ 0 < limit ⟨2, 0, 0, false, false, false⟩ s ∧ settled s.log = true ∧
    s.log.head? = some (.iterNil 2) := by
  have key : (exec ⟨2, 0, 0, false, false, false⟩ (new : Algo Nat) batchSkeleton).any (fun s =>
      rebatchingB s.log && skeletalB s.log && decide (0 < limit ⟨2, 0, 0, false, false, false⟩ s ∧
        settled s.log = true ∧ s.log.head? = some (.iterNil 2))) = true := by
    decide +kernel
  cases he : exec ⟨2, 0, 0, false, false, false⟩ (new : Algo Nat) batchSkeleton with
  | none => rw [he] at key; cases key
  | some s =>
    rw [he, Option.any_some, Bool.and_eq_true, Bool.and_eq_true] at key
    obtain ⟨⟨h1, h2⟩, h3⟩ := key
    exact ⟨s, ⟨⟨rfl, rfl, rfl⟩, .inl (by decide)⟩, ⟨batchSkeleton.tail, by decide, he⟩, rebatching_of_test h1,
      skeletal_of_test h2, of_decide_eq_true h3⟩

end Distclus
