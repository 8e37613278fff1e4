import Verif.Proof.CtrlBatchProg
import Verif.Proof.CtrlSerial
import Verif.Spec.CtrlTrace
/-!
# C82: `Batch` plays until the limit

`Batch` (core/ctrl.go:47-57) calls `Stop`, `Play`, `Wait(nil, 0)` and `Stop`; the theorems are about a
client which makes these calls, or others before them, alone, with a limit on the iterations, and which
starts a further run when the goroutine of the former one is over (C91 shows why).
-/
namespace Distclus
open Ctrl Algo Spec

set_option linter.unusedSimpArgs false
set_option linter.unusedTactic false

variable {C : Type} {conf : Conf} {s : Algo C}

theorem batch_home (hI : RunsInv conf s) (hh : (session s.log).1 = none) :
    ∃ v, followsL (session s.log).2 = some v ∧ s.status.error = none ∧
      (s.status.value = v ∨ (v = .running ∧ s.status.value = .ready)) := by
  rcases hI.phase with h | h
  · obtain ⟨op, d, ph, hR, hC, hO⟩ := h.use.row
    refine ⟨d, hR.2, h.use.err, .inl ?_⟩
    have hpc : (s.thr 0).pc = .home := by
      rw [hR.1] at hh
      subst hh
      revert hC
      generalize (s.thr 0).pc = p
      intro hC
      cases p <;> first
        | rfl
        | exact hC.elim
        | (simp only [ClientOk, sendOk, reduceCtorEq, false_and, and_false, or_self] at hC; done)
        | (cases ‹SendFrom› <;>
            (simp only [ClientOk, sendOk, reduceCtorEq, false_and, and_false, or_self] at hC; done))
    rw [hpc] at hC
    obtain ⟨_, rfl⟩ := hC
    exact hO.1
  · obtain ⟨op, v, hR, hC, hO⟩ := h.row
    refine ⟨v, hR.fol, h.err, ?_⟩
    rw [hR.cur] at hh
    subst hh
    have ha : Agree s.status.value v := by
      revert hC
      generalize (s.thr 0).pc = p
      intro hC
      cases p <;> first
        | exact hC.elim
        | exact hC.2
        | (simp only [ClientEnd, reduceCtorEq, false_and, and_false, or_self] at hC; done)
    cases v
    case running =>
      rcases ha with ha | ha
      · exact .inl ha
      · exact .inr ⟨rfl, ha⟩
    all_goals first | exact ha.elim | exact .inl ha

/-- **C82 (results).** At every moment, whatever the schedule, all the calls completed so far have
returned the documented result. -/
theorem C82_results (hc : Limited conf) (h : OneClient conf s) (hP : Rebatching s.log) :
    ∃ v, followsL (session s.log).2 = some v := by
  rcases (RunsInv.of_oneClient hc h hP).phase with h | h
  · obtain ⟨op, d, ph, hR, _⟩ := h.use.row
    exact ⟨d, hR.2⟩
  · obtain ⟨op, v, hR, _⟩ := h.row
    exact ⟨v, hR.fol⟩

/-- **C82 (status).** Whenever the client is between two calls, the status is the documented one — Running
or Ready when it has played and not waited — and holds no error. -/
theorem C82_status (hc : Limited conf) (h : OneClient conf s) (hP : Rebatching s.log)
    (hh : (session s.log).1 = none) : ∃ v, followsL (session s.log).2 = some v ∧
      (s.status = ⟨v, none⟩ ∨ (v = .running ∧ s.status = ⟨.ready, none⟩)) := by
  obtain ⟨v, h1, h2, h3⟩ := batch_home (RunsInv.of_oneClient hc h hP) hh
  refine ⟨v, h1, ?_⟩
  cases hs : s.status with
  | mk a e =>
    rw [hs] at h2 h3
    cases h2
    rcases h3 with h3 | ⟨rfl, h3⟩
    · cases h3; exact .inl rfl
    · cases h3; exact .inr ⟨rfl, rfl⟩

/-- **C82 (limit).** Once the client has waited for the last run, and until it initialises, pushes or plays
again, the iterations are exactly as many as the limit says. -/
theorem C82_limit (hc : Limited conf) (h : OneClient conf s) (hP : Rebatching s.log)
    (hp : settled s.log = true) (hv : followsL (session s.log).2 ≠ some .running) :
    s.iterations = limit conf s := by
  have hI := RunsInv.of_oneClient hc h hP
  exact Nat.le_antisymm (Nat.le_trans (Nat.le_add_right _ _) (Bounded.limit hc.2 hI.bounded).2.2)
    (hI.ended hP hp hv).1

/-- **C82 (bound).** At every moment there are at most as many iterations as the limit says. -/
theorem C82_bound (hc : Limited conf) (h : OneClient conf s) (hP : Rebatching s.log) :
    s.iterations ≤ limit conf s :=
  Nat.le_trans (Nat.le_add_right _ _)
    (Bounded.limit hc.2 (RunsInv.of_oneClient hc h hP).bounded).2.2

/-- **C82.** The four calls of `Batch`, after any others, a former `Batch` included: `Play`, `Wait` and the second `Stop` return nil,
the status is then Finished, and there have been exactly `Iter + PushedData * IterPerData` iterations. -/
theorem C82_batch (hc : Limited conf) (h : OneClient conf s) (hP : Rebatching s.log)
    {cs : List (Op × Res C)} {r1 r2 r3 r4 : Res C}
    (hs : session s.log =
      (none, (.stop, r4) :: (.wait false false, r3) :: (.play, r2) :: (.stop, r1) :: cs)) :
    r2 = .err none ∧ r3 = .err none ∧ r4 = .err none ∧ s.status = ⟨.finished, none⟩ ∧
    s.iterations = conf.iter + s.pushedData * conf.iterPerData := by
  obtain ⟨v, h1, h2⟩ := C82_status hc h hP (by rw [hs])
  have key : r2 = .err none ∧ r3 = .err none ∧ r4 = .err none ∧ v = .finished := by
    rw [hs] at h1
    simp only [followsL] at h1
    cases hv : followsL cs with
    | none => rw [hv] at h1; cases h1
    | some v0 =>
      rw [hv] at h1
      simp only at h1
      have hr1 : rightL v0 .stop r1 = true := by
        cases hr : rightL v0 .stop r1 with
        | true => rfl
        | false => rw [hr] at h1; cases h1
      rw [hr1] at h1
      simp only [if_true] at h1
      have ha : afterL v0 .stop ≠ .running := by
        cases v0 <;> simp [afterL, after, answer, refusal]
      generalize afterL v0 .stop = v1 at *
      have hr2 : rightL v1 .play r2 = true := by
        cases hr : rightL v1 .play r2 with
        | true => rfl
        | false => rw [hr] at h1; cases h1
      rw [hr2] at h1
      have ha2 : afterL v1 .play = .running := by
        unfold afterL; rw [if_neg ha]
        cases v1 <;> first | exact absurd rfl ha | rfl
      rw [ha2] at h1
      simp only [if_true] at h1
      have e2 : r2 = .err none := by
        unfold rightL at hr2; rw [if_neg ha] at hr2
        cases r2 <;> first | (cases hr2; done) | skip
        simp only [right, decide_eq_true_eq] at hr2
        cases v1 <;> first | exact absurd rfl ha | (rw [hr2]; rfl)
      have hr3 : rightL .running (.wait false false) r3 = true := by
        cases hr : rightL .running (.wait false false) r3 with
        | true => rfl
        | false => rw [hr] at h1; cases h1
      rw [hr3] at h1
      have e3 : r3 = .err none := by
        cases r3 <;> first | (cases hr3; done) | skip
        simp only [rightL, if_true, decide_eq_true_eq] at hr3
        rw [hr3]
      have hr4 : rightL .ready .stop r4 = true := by
        cases hr : rightL .ready .stop r4 with
        | true => rfl
        | false =>
          simp only [if_true] at h1
          rw [show afterL .running (.wait false false) = .ready from rfl, hr] at h1; cases h1
      have e4 : r4 = .err none := by
        cases r4 <;> first | (cases hr4; done) | skip
        simp only [rightL, right, answer, refusal, reduceCtorEq, if_false] at hr4
        rw [of_decide_eq_true hr4]
      simp only [if_true] at h1
      rw [show afterL .running (.wait false false) = .ready from rfl, hr4] at h1
      cases h1
      exact ⟨e2, e3, e4, rfl⟩
  obtain ⟨e2, e3, e4, rfl⟩ := key
  refine ⟨e2, e3, e4, ?_, ?_⟩
  · rcases h2 with h2 | ⟨h2, _⟩
    · exact h2
    · cases h2
  · refine C82_limit hc h hP ?_ ?_
    · rw [settled, hs]; rfl
    · rw [h1]; rintro ⟨⟩

/-- **C82 (return).** No call is ever stuck, `Wait` included: from every state where the client is in a call
`op`, this call can return, without any other call being made and without a failure of the
implementation. -/
theorem C82_returns [Nonempty C] (hc : Limited conf) (h : OneClient conf s) (hP : Rebatching s.log) {op : Op}
    (hh : (session s.log).1 = some op) : ∃ as s', exec conf s as = some s' ∧ OneClient conf s' ∧
      Rebatching s'.log ∧ ∃ r, session s'.log = (none, (op, r) :: (session s.log).2) := by
  have hI := RunsInv.of_oneClient hc h hP
  obtain ⟨as, s', h1, h2, h3, h4, h5, h6⟩ :=
    Under.goes hc (l := s.log) _ s (Nat.lt_succ_self _) ⟨hI, hP, .inl rfl⟩
  refine ⟨as, s', h2, ?_, h5, ?_⟩
  · obtain ⟨bs, hb, he⟩ := h
    refine ⟨bs ++ as, fun hm => ?_, ?_⟩
    · rcases List.mem_append.1 hm with hm | hm
      · exact hb hm
      · exact h1 hm
    · rw [← List.cons_append, exec_append, he]; exact h2
  · rcases h6 with h6 | ⟨op', r, e1, e2⟩
    · exfalso
      rcases h4.phase with h7 | h7
      · obtain ⟨_, _, _, hR, hC, _⟩ := h7.use.row
        rw [h3] at hC
        rw [← h6, hR.1, hC.1] at hh
        cases hh
      · obtain ⟨_, _, hR, hC, _⟩ := h7.row
        rw [h3] at hC
        rw [← h6, hR.cur, hC.1] at hh
        cases hh
    · rw [hh] at e1; cases e1
      exact ⟨r, e2⟩

/-! ## Executions which meet the hypotheses -/

/-- A test of `allowed`. -/
def allowedB (l : List (Op × Res C)) (op : Op) : Bool :=
  !played l || reader op || decide (op = .wait false false) ||
    (decide (op = .stop) && !decide (followsL l = some .running))

/-- A test of `Batching`. -/
def batchingB : List (Event C) → Bool
  | [] => true
  | e :: l => (match e with
    | .call t op => t == 0 && (match op with | .wait c d => !c && !d | _ => true) && allowedB (session l).2 op
    | .initRet _ e => e.isNone
    | .iterErr _ _ => false
    | .iterPanic _ _ => false
    | _ => true) && batchingB l

theorem batching_of_test : ∀ {l : List (Event C)}, batchingB l = true → Batching l := by
  intro l
  induction l with
  | nil => intro _; trivial
  | cons e l ih =>
    intro h
    cases e <;> simp only [batchingB, Bool.and_eq_true, Bool.false_and, Bool.true_and, reduceCtorEq] at h <;>
      first | exact ⟨trivial, ih h⟩ | skip
    case call t op =>
      obtain ⟨h1, h2⟩ := h
      simp only [beq_iff_eq] at h1
      refine ⟨⟨h1.1.1, ?_, ?_⟩, ih h2⟩
      · rintro c d rfl; simpa using h1.1.2
      · have := h1.2
        simpa [allowedB, allowed, or_assoc] using this
    case initRet c e => exact ⟨Option.isNone_iff_eq_none.1 h.1, ih h.2⟩

open Trace in
/-- The run, goroutine 2, in its loop with its limit reached, ends; the client, which is in `Wait`, returns. -/
def runOut : List (Act Nat) :=
  [g 2, g 2, g 2, g 2, recv 1 2, g 1, g 2, g 2, g 2, .act 2 .default, .act 2 .default, g 2, g 2, g 0, g 0]

open Trace in
/-- `Stop` when the algorithm is Ready. -/
def stopReady : List (Act Nat) := [call 0 .stop, g 0, recv 1 0, g 1, g 0]

open Trace in
/-- `Batch` on a new algorithm, with two iterations, the second one while the client waits. -/
def batchNew : List (Act Nat) :=
  [.client, call 0 .stop, g 0, call 0 .play, g 0, g 0, recv 1 0, g 1, .act 0 (.initRet (some 5) none),
   g 0, g 0, g 0, recv 1 0, g 1, g 0] ++ play.drop 2 ++ iterate 6 ++
  [call 0 (.wait false false), g 0, g 0] ++ iterate 7 ++ runOut ++ stopReady

/-- The hypotheses of C82 hold after `Batch` on a new algorithm with `Iter` 2. -/
example : ∃ s : Algo Nat, Limited ⟨2, 0, 0, false, false, false⟩ ∧
    OneClient ⟨2, 0, 0, false, false, false⟩ s ∧ Batching s.log ∧ session s.log =
      (none, [(.stop, .err none), (.wait false false, .err none), (.play, .err none),
        (.stop, .err (some .notAlive))]) ∧
    s.iterations = 2 ∧ s.centroids = some 7 := by
  have key : (exec ⟨2, 0, 0, false, false, false⟩ (new : Algo Nat) batchNew).any (fun s => batchingB s.log &&
      decide (session s.log = (none, [(.stop, .err none), (.wait false false, .err none), (.play, .err none),
        (.stop, .err (some .notAlive))]) ∧ s.iterations = 2 ∧ s.centroids = some 7)) = true := by
    decide +kernel
  cases he : exec ⟨2, 0, 0, false, false, false⟩ (new : Algo Nat) batchNew with
  | none => rw [he] at key; cases key
  | some s =>
    rw [he, Option.any_some, Bool.and_eq_true] at key
    exact ⟨s, ⟨⟨rfl, rfl, rfl⟩, .inl (by decide)⟩, ⟨batchNew.tail, by decide, he⟩, batching_of_test key.1,
      of_decide_eq_true key.2⟩

/-- A test of `permitted`. -/
def permittedB (l : List (Event C)) (op : Op) : Bool :=
  (!busy l && !decide (followsL (session l).2 = some .running)) || reader op || decide (op = .wait false false) ||
    (decide (op = .stop) && !decide (followsL (session l).2 = some .running))

/-- A test of `Rebatching`. -/
def rebatchingB : List (Event C) → Bool
  | [] => true
  | e :: l => (match e with
    | .call t op => t == 0 && (match op with | .wait c d => !c && !d | _ => true) && permittedB l op
    | .initRet _ e => e.isNone
    | .iterErr _ _ => false
    | .iterPanic _ _ => false
    | _ => true) && rebatchingB l

theorem rebatching_of_test : ∀ {l : List (Event C)}, rebatchingB l = true → Rebatching l := by
  intro l
  induction l with
  | nil => intro _; trivial
  | cons e l ih =>
    intro h
    cases e <;> simp only [rebatchingB, Bool.and_eq_true, Bool.false_and, Bool.true_and, reduceCtorEq] at h <;>
      first | exact ⟨trivial, ih h⟩ | skip
    case call t op =>
      obtain ⟨h1, h2⟩ := h
      simp only [beq_iff_eq] at h1
      refine ⟨⟨h1.1.1, ?_, ?_⟩, ih h2⟩
      · rintro c d rfl; simpa using h1.1.2
      · have := h1.2
        simpa [permittedB, permitted, or_assoc] using this
    case initRet c e => exact ⟨Option.isNone_iff_eq_none.1 h.1, ih h.2⟩

/-- A client which plays at most once satisfies the hypotheses of C82. -/
theorem rebatching_of_batching (hc : Limited conf) (h : OneClient conf s) (hP : Batching s.log) :
    Rebatching s.log := (BatchInv.of_oneClient hc h hP).reb

open Trace in
/-- `Batch` twice: the second one begins when the goroutine of the first run is over. -/
def batchAgain : List (Act Nat) :=
  batchNew ++ [call 0 .stop, g 0, call 0 .play, g 0, g 0, g 0, g 0, recv 1 0, g 1,
    .act 0 (.initRet (some 8) none), g 0, g 0, g 0, recv 1 0, g 1, g 0,
    g 0, g 3, g 0, recv 3 0, g 3, recv 1 3, g 1, g 0, g 3, recv 0 3, g 0, g 0,
    g 3, g 3, .act 3 .default, .act 3 (.iterOk 9), g 3, g 3, call 0 (.wait false false), g 0, g 0,
    g 3, g 3, .act 3 .default, .act 3 (.iterOk 10), g 3, g 3, g 3, g 3, g 3, g 3, recv 1 3, g 1,
    g 3, g 3, g 3, .act 3 .default, .act 3 .default, g 3, g 3, g 0, g 0] ++ stopReady

/-- The hypotheses of C82 hold after `Batch` twice on a new algorithm with `Iter` 2. -/
example : ∃ s : Algo Nat, Limited ⟨2, 0, 0, false, false, false⟩ ∧
    OneClient ⟨2, 0, 0, false, false, false⟩ s ∧ Rebatching s.log ∧ session s.log =
      (none, [(.stop, .err none), (.wait false false, .err none), (.play, .err none), (.stop, .err (some .notAlive)),
        (.stop, .err none), (.wait false false, .err none), (.play, .err none), (.stop, .err (some .notAlive))]) ∧
    s.iterations = 2 ∧ s.centroids = some 10 := by
  have key : (exec ⟨2, 0, 0, false, false, false⟩ (new : Algo Nat) batchAgain).any (fun s => rebatchingB s.log &&
      decide (session s.log = (none, [(.stop, .err none), (.wait false false, .err none), (.play, .err none), (.stop, .err (some .notAlive)),
        (.stop, .err none), (.wait false false, .err none), (.play, .err none), (.stop, .err (some .notAlive))]) ∧
        s.iterations = 2 ∧ s.centroids = some 10)) = true := by
    decide +kernel
  cases he : exec ⟨2, 0, 0, false, false, false⟩ (new : Algo Nat) batchAgain with
  | none => rw [he] at key; cases key
  | some s =>
    rw [he, Option.any_some, Bool.and_eq_true] at key
    exact ⟨s, ⟨⟨rfl, rfl, rfl⟩, .inl (by decide)⟩, ⟨batchAgain.tail, by decide, he⟩, rebatching_of_test key.1,
      of_decide_eq_true key.2⟩

open Trace in
/-- `Init`, a `Push`, and `Batch`. -/
def batchInit : List (Act Nat) :=
  init ++ [call 0 .push, g 0, .act 0 (.pushRet none), g 0, g 0, g 0, g 0, g 0] ++ stopReady ++
  [call 0 .play, g 0, g 0, g 0, g 0, recv 1 0, g 1, .act 0 (.initRet (some 5) none),
   g 0, g 0, g 0, recv 1 0, g 1, g 0] ++ play.drop 2 ++
  [call 0 (.wait false false), g 0, g 0] ++ runOut ++ stopReady

/-- **C82 (claim examined).** `PushedData` counts the data pushed since the last initialisation: with
`IterPerData` 1, after `Init` and a successful `Push`, `Batch` succeeds without a single iteration, because
its `Play` initialises the algorithm again. -/
theorem C82_forgets : ∃ (conf : Conf) (s : Algo Nat), conf.iterPerData = 1 ∧ Limited conf ∧
    OneClient conf s ∧ Batching s.log ∧ session s.log =
      (none, [(.stop, .err none), (.wait false false, .err none), (.play, .err none), (.stop, .err none),
        (.push, .err none), (.init, .err none)]) ∧
    s.status = ⟨.finished, none⟩ ∧ s.iterations = 0 ∧ ∀ t st c, .iterCall t st c ∉ s.log := by
  have key : (exec ⟨0, 1, 0, false, false, false⟩ (new : Algo Nat) batchInit).any (fun s => batchingB s.log &&
      s.log.all (fun e => match e with | .iterCall _ _ _ => false | _ => true) &&
      decide (session s.log = (none, [(.stop, .err none), (.wait false false, .err none), (.play, .err none),
        (.stop, .err none), (.push, .err none), (.init, .err none)]) ∧ s.status = ⟨.finished, none⟩ ∧
        s.iterations = 0)) = true := by
    decide +kernel
  cases he : exec ⟨0, 1, 0, false, false, false⟩ (new : Algo Nat) batchInit with
  | none => rw [he] at key; cases key
  | some s =>
    rw [he, Option.any_some, Bool.and_eq_true, Bool.and_eq_true] at key
    obtain ⟨h1, h2, h3⟩ := of_decide_eq_true key.2
    refine ⟨_, s, rfl, ⟨⟨rfl, rfl, rfl⟩, .inr (by decide)⟩, ⟨batchInit.tail, by decide, he⟩,
      batching_of_test key.1.1, h1, h2, h3, fun t st c hm => ?_⟩
    have := List.all_eq_true.1 key.1.2 _ hm
    cases this

end Distclus
