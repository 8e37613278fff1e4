import Verif.Proof.CtrlUseProg
import Verif.Spec.CtrlTrace
/-!
# C58: a client which uses the controller alone gets the documented workflow

The claim is false without the hypotheses of `Peaceful` and `Endless`: see C59 (failing initialisation),
C80 (`Stop` on Idle), C81 (automatic start by `Push`), and C74-C79 for several clients.
-/
namespace Distclus
open Ctrl Algo Spec

set_option linter.unusedSimpArgs false
set_option linter.unusedTactic false

variable {C : Type} {conf : Conf} {s : Algo C}

/-- **C58 (results).** At every moment, whatever the schedule, all the calls completed so far have
returned the documented result. -/
theorem C58_results (hc : Endless conf) (h : OneClient conf s) (hP : Peaceful s.log) :
    ∃ v, follows (session s.log).2 = some v := by
  obtain ⟨_, _, hI⟩ := UseInv.of_oneClient hc h hP
  obtain ⟨_, d, _, hR, _⟩ := hI.row
  exact ⟨d, hR.2⟩

/-- **C58 (status).** Whenever the client is between two calls, the status is the documented one, and
holds no error. -/
theorem C58_status (hc : Endless conf) (h : OneClient conf s) (hP : Peaceful s.log)
    (hh : (session s.log).1 = none) : ∃ v, follows (session s.log).2 = some v ∧ s.status = ⟨v, none⟩ := by
  obtain ⟨_, _, hI⟩ := UseInv.of_oneClient hc h hP
  obtain ⟨op, d, ph, hR, hC, hO⟩ := hI.row
  refine ⟨d, hR.2, ?_⟩
  have hpc : (s.thr 0).pc = .home := by
    rw [hR.1] at hh
    subst hh
    revert hC
    generalize (s.thr 0).pc = p
    intro hC
    cases p <;> first
      | rfl
      | exact hC.elim
      | (simp only [ClientOk, sendOk, reduceCtorEq, false_and, and_false, or_self] at hC; done)
      | (cases ‹SendFrom› <;>
          (simp only [ClientOk, sendOk, reduceCtorEq, false_and, and_false, or_self] at hC; done))
  rw [hpc] at hC
  obtain ⟨_, rfl⟩ := hC
  have hv := hO.1
  have he := hI.err
  cases hs : s.status with
  | mk v e => rw [hs] at hv he; cases hv; cases he; rfl

/-- **C58 (return).** No call is ever stuck: from every state where the client is in a call `op`, this
call can return, without any other call being made and without a failure of the implementation. -/
theorem C58_returns (hc : Endless conf) (h : OneClient conf s) (hP : Peaceful s.log) {op : Op}
    (hh : (session s.log).1 = some op) : ∃ as s', exec conf s as = some s' ∧ OneClient conf s' ∧
      Peaceful s'.log ∧ ∃ r, session s'.log = (none, (op, r) :: (session s.log).2) := by
  obtain ⟨hA, hW, hI⟩ := UseInv.of_oneClient hc h hP
  obtain ⟨as, s', h1, h2, h3, h4, h5, h6⟩ := UseInv.returns hc (rank s) s (Nat.le_refl _) hA hW hI hP (.inl rfl)
  refine ⟨as, s', h2, ?_, h5, ?_⟩
  · obtain ⟨bs, hb, he⟩ := h
    refine ⟨bs ++ as, fun hm => ?_, ?_⟩
    · rcases List.mem_append.1 hm with hm | hm
      · exact hb hm
      · exact h1 hm
    · rw [← List.cons_append, exec_append, he]; exact h2
  · rcases h6 with h6 | ⟨op', r, e1, e2⟩
    · exfalso
      obtain ⟨_, _, _, hR, hC, _⟩ := h4.row
      rw [h3] at hC
      rw [← h6, hR.1, hC.1] at hh
      cases hh
    · rw [hh] at e1; cases e1
      exact ⟨r, e2⟩

/-! ## An execution which meets the hypotheses -/

/-- A test of `Peaceful`. -/
def peacefulB : List (Event C) → Bool
  | [] => true
  | e :: l => (match e with
    | .call t op => t == 0 && (match op with | .wait c d => !c && !d | _ => true) &&
        !(op == .stop && follows (session l).2 == some .idle)
    | .initRet _ e => e.isNone
    | .iterErr _ _ => false
    | .iterPanic _ _ => false
    | _ => true) && peacefulB l

theorem peaceful_of_test : ∀ {l : List (Event C)}, peacefulB l = true → Peaceful l := by
  intro l
  induction l with
  | nil => intro _; trivial
  | cons e l ih =>
    intro h
    cases e <;> simp only [peacefulB, Bool.and_eq_true, Bool.false_and, Bool.true_and, reduceCtorEq] at h <;>
      first | exact ⟨trivial, ih h⟩ | skip
    case call t op =>
      obtain ⟨h1, h2⟩ := h
      simp only [beq_iff_eq, Bool.not_eq_true', Bool.and_eq_false_iff] at h1
      refine ⟨⟨h1.1.1, ?_, ?_⟩, ih h2⟩
      · rintro c d rfl; simpa using h1.1.2
      · rintro rfl he
        rcases h1.2 with h1 | h1
        · exact absurd h1 (by decide)
        · rw [he] at h1; exact absurd h1 (by decide)
    case initRet c e => exact ⟨Option.isNone_iff_eq_none.1 h.1, ih h.2⟩

/-- Init, Play, an iteration, Status, Pause, Wait, Play again, Stop while the run is iterating, Status. -/
def sequentialUse : List (Act Nat) :=
  Trace.init ++ Trace.play ++ Trace.iterate 6 ++ [Trace.call 0 .status, Trace.g 0] ++ Trace.pause ++
    [Trace.call 0 (.wait false false), Trace.g 0] ++ Trace.resume ++ Trace.iterate 7 ++ Trace.stop ++
    [Trace.call 0 .status, Trace.g 0, Trace.call 0 .pause]

/-- The hypotheses of C58 hold in a state where eight calls have been completed and `Pause` is in
progress; the last results are Finished for `Status()` and no error for `Stop()`. -/
example : ∃ s : Algo Nat, Endless Trace.plain ∧ OneClient Trace.plain s ∧ Peaceful s.log ∧
    (session s.log).1 = some .pause ∧ (session s.log).2 =
      [(.status, .status ⟨.finished, none⟩), (.stop, .err none), (.play, .err none),
       (.wait false false, .err (some .idle)), (.pause, .err none),
       (.status, .status ⟨.running, none⟩), (.play, .err none), (.init, .err none)] ∧
    follows (session s.log).2 = some .finished := by
  have key : (exec Trace.plain (new : Algo Nat) sequentialUse).any (fun s => peacefulB s.log &&
      decide ((session s.log).1 = some .pause ∧ (session s.log).2 =
      [(.status, .status ⟨.finished, none⟩), (.stop, .err none), (.play, .err none),
       (.wait false false, .err (some .idle)), (.pause, .err none),
       (.status, .status ⟨.running, none⟩), (.play, .err none), (.init, .err none)] ∧
      follows (session s.log).2 = some .finished)) = true := by decide +kernel
  cases he : exec Trace.plain (new : Algo Nat) sequentialUse with
  | none => rw [he] at key; cases key
  | some s =>
    rw [he, Option.any_some, Bool.and_eq_true] at key
    exact ⟨s, ⟨rfl, rfl, rfl, rfl, rfl⟩, ⟨sequentialUse.tail, by decide, he⟩, peaceful_of_test key.1,
      of_decide_eq_true key.2⟩

end Distclus
