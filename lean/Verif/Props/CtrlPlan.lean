import Verif.Proof.CtrlPlan
import Verif.Props.CtrlKMeans
import Verif.Spec.CtrlMcmc
/-!
# C127: what `Batch` computes does not depend on the schedule
-/
namespace Distclus
open Ctrl Algo Spec

variable {C E σ : Type} {conf : Conf} {s s1 s2 : Algo C}

theorem home_of_none (hI : RunsInv conf s) (hh : (session s.log).1 = none) : (s.thr 0).pc = .home := by
  rcases hI.phase with h | h
  · obtain ⟨op, d, ph, hR, hC, hO⟩ := h.use.row
    rw [hR.1] at hh
    subst hh
    generalize (s.thr 0).pc = p at hC
    cases p <;> first
      | rfl
      | exact hC.elim
      | (simp only [ClientOk, sendOk, reduceCtorEq, false_and, and_false, or_self] at hC; done)
      | (cases ‹SendFrom› <;>
          (simp only [ClientOk, sendOk, reduceCtorEq, false_and, and_false, or_self] at hC; done))
  · obtain ⟨op, v, hR, hC, hO⟩ := h.row
    rw [hR.cur] at hh
    subst hh
    generalize (s.thr 0).pc = p at hC
    cases p <;> first
      | rfl
      | exact hC.elim
      | (simp only [ClientEnd, reduceCtorEq, false_and, and_false] at hC; done)

/-- **C127 (at every moment).** When the client is between two calls, the calls which the implementation has
answered, in their order, are those which the completed calls of the client ask for, except for the last iterations
of a run which is not over. -/
theorem C127_prefix (hc : Limited conf) (h : OneClient conf s) (hP : Rebatching s.log)
    (hh : (session s.log).1 = none) :
    ∃ m, (plan conf (session s.log).2).tags = List.replicate m .iter ++ tags s.log := by
  obtain ⟨hI, _, d, m, _, hK⟩ := PlanInv.of_oneClient hc h hP
  have := hK.tags
  rw [home_of_none hI hh] at this
  exact ⟨m, this⟩

/-- **C127 (calls).** When the client has waited for its last run, the calls which the implementation has answered are
exactly those which the completed calls of the client ask for: the schedule has no influence on them. -/
theorem C127_calls (hc : Limited conf) (h : OneClient conf s) (hP : Rebatching s.log)
    (hh : (session s.log).1 = none) (hv : followsL (session s.log).2 ≠ some .running) :
    tags s.log = (plan conf (session s.log).2).tags ∧ s.pushedData = (plan conf (session s.log).2).pushed := by
  obtain ⟨hI, hS, d, m, _, hK⟩ := PlanInv.of_oneClient hc h hP
  have h1 := hK.tags
  have h2 := hK.pushed
  rw [home_of_none hI hh] at h1 h2
  have hm : m = 0 := by
    rcases hI.phase with hp | hp
    · by_contra hm
      exact hK.live hm (hp.waited hP (by rw [hh]; rfl) hv).2
    · obtain ⟨D, hD⟩ := hS.serInv
      exact hp.missing hI.ack.lock hD hK
  subst hm
  exact ⟨h1.symm, h2.symm⟩

theorem waited_out (hc : Limited conf) (h : OneClient conf s) (hP : Rebatching s.log)
    (hh : (session s.log).1 = none) (hv : followsL (session s.log).2 ≠ some .running) (t : Nat) :
    inside (s.thr t).pc = false := by
  have hI := RunsInv.of_oneClient hc h hP
  rcases hI.phase with hp | hp
  · obtain ⟨hx, hr⟩ := hp.waited hP (by rw [hh]; rfl) hv
    cases ht : inside (s.thr t).pc with
    | false => rfl
    | true =>
      have hne : (s.thr t).pc ≠ .dead := by intro h'; rw [h'] at ht; cases ht
      rcases hp.use.who (hI.ack.lock.lt hne) rfl hne with ⟨rfl, _⟩ | ⟨rfl, _, _, hN⟩ | ⟨_, _, h3, _⟩
      · rw [hx] at ht; cases ht
      · generalize (s.thr 1).pc = p at hN ht
        cases p <;> first | (cases ht; done) | exact hN.elim
      · exact absurd (h3.symm.trans hr) hne
  · exact hp.outside hI.ack.lock t

/-- **C127 (result).** If the implementation is a sequential machine, which contains its data and its random
generator, then what it is after the client has waited, and `Centroids()`, is what the machine makes of the calls which
the client asks for, one after the other. -/
theorem C127_result {M : Machine σ E C} {σ0 : σ} {es : Nat → E} {st : σ × Nat} (hc : Limited conf)
    (h : OneClient conf s) (hP : Rebatching s.log) (hM : Driven M σ0 es s.log st)
    (hh : (session s.log).1 = none) (hv : followsL (session s.log).2 ≠ some .running) :
    M.after σ0 es (plan conf (session s.log).2).tags = some (st.1, s.centroids, st.2) := by
  obtain ⟨d, h1, h2⟩ := C85_serial_batch hc h hP
  rw [← (C127_calls hc h hP hh hv).1, (Driven.after hM h1).1, (h2 (waited_out hc h hP hh hv)).1]

/-- **C127 (reproducible).** Two executions in which the same machine starts from the same state, and the client makes
the same calls with the same results, those which only read left aside, on the same elements: when the client has
waited, the centroids, the machine, the iterations and the elements counted are the same, whatever the schedules. -/
theorem C127_reproducible {M : Machine σ E C} {σ0 : σ} {es : Nat → E} {x1 x2 : σ × Nat} (hc : Limited conf)
    (h1 : OneClient conf s1) (h2 : OneClient conf s2) (hP1 : Rebatching s1.log) (hP2 : Rebatching s2.log)
    (hM1 : Driven M σ0 es s1.log x1) (hM2 : Driven M σ0 es s2.log x2)
    (hh1 : (session s1.log).1 = none) (hh2 : (session s2.log).1 = none)
    (hd : deeds (session s1.log).2 = deeds (session s2.log).2)
    (hv : followsL (session s1.log).2 ≠ some .running) :
    s1.centroids = s2.centroids ∧ x1 = x2 ∧ s1.iterations = s2.iterations ∧ s1.pushedData = s2.pushedData := by
  obtain ⟨v1, e1⟩ := C82_results hc h1 hP1
  obtain ⟨v2, e2⟩ := C82_results hc h2 hP2
  obtain ⟨f1, p1⟩ := plan_deeds (conf := conf) e1
  obtain ⟨f2, p2⟩ := plan_deeds (conf := conf) e2
  have hp : plan conf (session s1.log).2 = plan conf (session s2.log).2 := by rw [← p1, ← p2, hd]
  have hv2 : followsL (session s2.log).2 ≠ some .running := by
    rw [hd, f2] at f1
    rw [e1] at hv
    rw [e2, f1]; exact hv
  have r1 := C127_result hc h1 hP1 hM1 hh1 hv
  have r2 := C127_result hc h2 hP2 hM2 hh2 hv2
  rw [hp, r2] at r1
  simp only [Option.some.injEq, Prod.mk.injEq] at r1
  have t1 := C127_calls hc h1 hP1 hh1 hv
  have t2 := C127_calls hc h2 hP2 hh2 hv2
  have hit : ∀ {s : Algo C}, OneClient conf s → Rebatching s.log → (session s.log).1 = none →
      followsL (session s.log).2 ≠ some .running → s.iterations = itersSince (tags s.log) := by
    intro s h hP hh hv
    obtain ⟨d, k1, k2⟩ := C85_serial_batch hc h hP
    rw [(k2 (waited_out hc h hP hh hv)).2, itersSince_tags, (Serial.desk k1).2]
  refine ⟨r1.2.1.symm, Prod.ext r1.1.symm r1.2.2.symm, ?_, ?_⟩
  · rw [hit h1 hP1 hh1 hv, hit h2 hP2 hh2 hv2, t1.1, t2.1, hp]
  · rw [t1.2, t2.2, hp]

/-! ## The implementations as machines -/

/-- **C127 (k-means).** A controller driven by the machine of k-means is one with a buffered implementation. -/
theorem C127_buffer {G : Type} {ini : G → List E → Option (G × C)} {step : List E → C → Option C}
    {b0 : DataBuffer E} {g0 : G} {es : Nat → E} : ∀ {l : List (Event C)} {st : (DataBuffer E × G) × Nat},
    Driven (bufferMachine ini step) (b0, g0) es l st →
    ∃ n, Buffered (fun data c => ∃ g g', ini g data = some (g', c)) step b0 l n ∧ n.buf = st.1.1 ∧
      n.pushed = (List.range st.2).map es := by
  intro l
  induction l with
  | nil => rintro st rfl; exact ⟨_, rfl, rfl, rfl⟩
  | cons e l ih =>
    rintro st' ⟨st, hd, hn⟩
    obtain ⟨n, h1, h2, h3⟩ := ih hd
    cases e
    case implPushed =>
      obtain ⟨hn, h4⟩ := hn
      simp only [bufferMachine, Option.map_eq_some_iff] at hn
      obtain ⟨b, hb, hn⟩ := hn
      refine ⟨_, ⟨n, h1, es st.2, b, by rw [h2]; exact hb, rfl⟩, by rw [← hn], ?_⟩
      simp only [h3, h4, List.range_succ, List.map_append, List.map_cons, List.map_nil]
    case initRet c e =>
      obtain ⟨x, hn, rfl, rfl, h4⟩ := hn
      simp only [bufferMachine, Option.map_eq_some_iff] at hn
      obtain ⟨b, hb, hn⟩ := hn
      obtain ⟨hn1, rfl⟩ := Prod.mk.inj hn
      refine ⟨_, ⟨n, h1, fun _ => ⟨b.2, rfl, st.1.2, b.1, by rw [h2]; exact hb⟩, rfl⟩, by rw [← hn1, ← h2], ?_⟩
      simp only [h3, h4]
    case iterOk r c =>
      obtain ⟨c0, hg, hn, h4⟩ := hn
      simp only [bufferMachine, Option.map_eq_some_iff] at hn
      obtain ⟨b, hb, hn⟩ := hn
      obtain ⟨hn1, rfl⟩ := Prod.mk.inj hn
      refine ⟨_, ⟨n, h1, ⟨c0, hg, by rw [h2]; exact hb⟩, rfl⟩, by rw [← hn1, ← h2], ?_⟩
      simp only [h3, h4]
    case iterNil => exact hn.elim
    case iterErr => exact hn.elim
    case iterPanic => exact hn.elim
    all_goals
      have hn' : st' = st := hn
      subst hn'
      exact ⟨n, ⟨n, h1, rfl⟩, h2, h3⟩

/-- **C127 (MCMC).** A controller driven by the machine of MCMC is one with an MCMC implementation. -/
theorem C127_mcmc {D F R G : Type} [Zero F] [One F] [Neg F] [LT F] [DecidableLT F] [Add F] [Sub F] [Mul F] [BEq F]
    [GoMath F] [Div F] {p : McmcParams D E F R} {gi : McmcImpl E F → G → D × G}
    {gd : McmcImpl E F → List E → G → McmcDraws E F × G} {i0 : McmcImpl E F} {g0 : G} {es : Nat → E} :
    ∀ {l : List (Event (List E))} {st : (McmcImpl E F × G) × Nat}, Driven (mcmcMachine p gi gd) (i0, g0) es l st →
    ∃ n, Sampled p i0 l n ∧ n.impl = st.1.1 ∧ n.pushed = (List.range st.2).map es := by
  intro l
  induction l with
  | nil => rintro st rfl; exact ⟨_, rfl, rfl, rfl⟩
  | cons e l ih =>
    rintro st' ⟨st, hd, hn⟩
    obtain ⟨n, h1, h2, h3⟩ := ih hd
    cases e
    case implPushed =>
      obtain ⟨hn, h4⟩ := hn
      simp only [mcmcMachine, Option.map_eq_some_iff] at hn
      obtain ⟨b, hb, hn⟩ := hn
      refine ⟨_, ⟨n, h1, es st.2, b, by rw [h2]; exact hb, rfl⟩, by rw [← hn, h2], ?_⟩
      simp only [h3, h4, List.range_succ, List.map_append, List.map_cons, List.map_nil]
    case initRet c e =>
      obtain ⟨x, hn, rfl, rfl, h4⟩ := hn
      simp only [mcmcMachine] at hn
      split at hn
      · rename_i i y hi
        simp only [Option.some.injEq, Prod.mk.injEq] at hn
        obtain ⟨hn, rfl⟩ := hn
        refine ⟨{ n with impl := i }, ⟨n, h1, (gi st.1.1 st.1.2).1, i, .ok y, by rw [h2]; exact hi, rfl, rfl, rfl⟩,
          by rw [← hn], ?_⟩
        simp only [h3, h4]
      · cases hn
    case iterOk r c =>
      obtain ⟨c0, hg, hn, h4⟩ := hn
      simp only [mcmcMachine, Option.map_eq_some_iff] at hn
      obtain ⟨⟨i, c', fig⟩, hb, hn⟩ := hn
      obtain ⟨hn1, rfl⟩ := Prod.mk.inj hn
      refine ⟨{ n with impl := i, fig := some fig }, ⟨n, h1, some c0, (gd st.1.1 c0 st.1.2).1, i, fig, hg,
        by rw [h2]; exact hb, rfl⟩, by rw [← hn1], ?_⟩
      simp only [h3, h4]
    case iterNil => exact hn.elim
    case iterErr => exact hn.elim
    case iterPanic => exact hn.elim
    case reset =>
      have hn' : st' = st := hn
      subst hn'
      exact ⟨_, ⟨n, h1, rfl⟩, h2, h3⟩
    all_goals
      have hn' : st' = st := hn
      subst hn'
      exact ⟨n, ⟨n, h1, rfl⟩, h2, h3⟩

/-! ## Executions which meet the hypotheses, and one in which the client does not wait -/

/-- A machine: it sums what is pushed, and each iteration adds the sum. -/
def summing : Machine Nat Nat Nat where
  push st e _ := some (st + e)
  init st := some (st, st + 5)
  iterate st c := some (st, c + st)

/-- A test of `Driven`. -/
def drivenF [DecidableEq C] (M : Machine σ E C) (σ0 : σ) (es : Nat → E) : List (Event C) → Option (σ × Nat)
  | [] => some (σ0, 0)
  | e :: l =>
    match drivenF M σ0 es l, e with
    | none, _ => none
    | some st, .implPushed => (M.push st.1 (es st.2) (current l).alive).map fun x => (x, st.2 + 1)
    | some st, .initRet c e =>
      match M.init st.1 with
      | some (x, c') => if c = some c' ∧ e = none then some (x, st.2) else none
      | none => none
    | some st, .iterOk r c =>
      match given r l with
      | some (some c0) =>
        match M.iterate st.1 c0 with
        | some (x, c') => if c = c' then some (x, st.2) else none
        | none => none
      | _ => none
    | some _, .iterNil _ => none
    | some _, .iterErr _ _ => none
    | some _, .iterPanic _ _ => none
    | some st, _ => some st

theorem driven_of_test [DecidableEq C] {M : Machine σ E C} {σ0 : σ} {es : Nat → E} : ∀ {l : List (Event C)}
    {st : σ × Nat}, drivenF M σ0 es l = some st → Driven M σ0 es l st := by
  intro l
  induction l with
  | nil => intro st h; cases h; rfl
  | cons e l ih =>
    intro st' h
    unfold drivenF at h
    cases hl : drivenF M σ0 es l with
    | none => rw [hl] at h; cases h
    | some st =>
      rw [hl] at h
      refine ⟨st, ih hl, ?_⟩
      cases e
      case implPushed =>
        simp only [Option.map_eq_some_iff] at h
        obtain ⟨x, h1, rfl⟩ := h
        exact ⟨h1, rfl⟩
      case initRet c e =>
        simp only at h
        split at h
        · rename_i x c' hx
          split at h
          · rename_i hc; cases h; exact ⟨c', hx, hc.1, hc.2, rfl⟩
          · cases h
        · cases h
      case iterOk r c =>
        simp only at h
        split at h
        · rename_i c0 hg
          split at h
          · rename_i x c' hx
            split at h
            · rename_i hc; cases h; subst hc; exact ⟨c0, hg, hx, rfl⟩
            · cases h
          · cases h
        · cases h
      case iterNil => cases h
      case iterErr => cases h
      case iterPanic => cases h
      all_goals cases h; rfl

open Trace in
/-- `Init`, `Push`, `Play`, `Wait`. -/
def oneSchedule : List (Act Nat) :=
  init ++ pushIdle ++ play ++ [call 0 (.wait false false), g 0, g 0] ++ iterate 8 ++ runOut

open Trace in
/-- The same calls, and `Status()`: the iteration is over when the client waits. -/
def otherSchedule : List (Act Nat) :=
  init ++ pushIdle ++ play ++ iterate 8 ++ [call 0 .status, g 0, call 0 (.wait false false), g 0, g 0] ++ runOut

open Trace in
/-- `Init`, `Play`, `Push`, `Wait`: the element is pushed before the iteration. -/
def hastyBefore : List (Act Nat) :=
  init ++ play ++ pushIdle ++ [call 0 (.wait false false), g 0, g 0] ++ iterate 8 ++ runOut

open Trace in
/-- The same calls: the element is pushed after the iteration. -/
def hastyAfter : List (Act Nat) :=
  init ++ play ++ iterate 5 ++ pushIdle ++ [call 0 (.wait false false), g 0, g 0] ++ runOut

/-- Two schedules of the same calls: the hypotheses hold, and both end with the same centroids. -/
example : ∃ s1 s2 : Algo Nat, OneClient ⟨1, 0, 0, false, false, false⟩ s1 ∧
    OneClient ⟨1, 0, 0, false, false, false⟩ s2 ∧ Rebatching s1.log ∧ Rebatching s2.log ∧
    Driven summing 0 (fun n => n + 3) s1.log (3, 1) ∧ Driven summing 0 (fun n => n + 3) s2.log (3, 1) ∧
    (session s1.log).1 = none ∧ (session s2.log).1 = none ∧
    deeds (session s1.log).2 = deeds (session s2.log).2 ∧ s1.log ≠ s2.log ∧
    (session s1.log).2 ≠ (session s2.log).2 ∧
    followsL (session s1.log).2 ≠ some .running ∧ s1.centroids = some 8 ∧
    tags s1.log = [.iter, .push true, .init] := by
  have key : (exec ⟨1, 0, 0, false, false, false⟩ (new : Algo Nat) oneSchedule).any (fun s1 =>
      (exec ⟨1, 0, 0, false, false, false⟩ (new : Algo Nat) otherSchedule).any (fun s2 =>
        rebatchingB s1.log && rebatchingB s2.log &&
        decide (drivenF summing 0 (fun n => n + 3) s1.log = some (3, 1)) &&
        decide (drivenF summing 0 (fun n => n + 3) s2.log = some (3, 1)) &&
        decide ((session s1.log).1 = none) && decide ((session s2.log).1 = none) &&
        decide (deeds (session s1.log).2 = deeds (session s2.log).2) && decide (s1.log ≠ s2.log) &&
        decide ((session s1.log).2 ≠ (session s2.log).2) &&
        decide (followsL (session s1.log).2 ≠ some .running) && decide (s1.centroids = some 8) &&
        decide (tags s1.log = [.iter, .push true, .init]))) = true := by decide +kernel
  obtain ⟨s1, e1, key⟩ := any_some_true key
  obtain ⟨s2, e2, key⟩ := any_some_true key
  simp only [Bool.and_eq_true, decide_eq_true_eq] at key
  obtain ⟨⟨⟨⟨⟨⟨⟨⟨⟨⟨⟨k1, k2⟩, k3⟩, k4⟩, k5⟩, k6⟩, k7⟩, k8⟩, k9⟩, k10⟩, k11⟩, k12⟩ := key
  exact ⟨s1, s2, ⟨oneSchedule.tail, by decide, e1⟩, ⟨otherSchedule.tail, by decide, e2⟩, rebatching_of_test k1,
    rebatching_of_test k2, driven_of_test k3, driven_of_test k4, k5, k6, k7, k8, k9, k10, k11, k12⟩

/-- **C127 (examined).** A client which pushes during a run does not get this: the same calls with the same results, on
the same machine, and the centroids depend on the schedule. -/
theorem C127_hasty : ∃ s1 s2 : Algo Nat, OneClient ⟨1, 0, 0, false, false, false⟩ s1 ∧
    OneClient ⟨1, 0, 0, false, false, false⟩ s2 ∧
    Driven summing 0 (fun n => n + 3) s1.log (3, 1) ∧ Driven summing 0 (fun n => n + 3) s2.log (3, 1) ∧
    (session s1.log).1 = none ∧ (session s2.log).1 = none ∧ (session s1.log).2 = (session s2.log).2 ∧
    followsL (session s1.log).2 ≠ some .running ∧ s1.centroids = some 8 ∧ s2.centroids = some 5 := by
  have key : (exec ⟨1, 0, 0, false, false, false⟩ (new : Algo Nat) hastyBefore).any (fun s1 =>
      (exec ⟨1, 0, 0, false, false, false⟩ (new : Algo Nat) hastyAfter).any (fun s2 =>
        decide (drivenF summing 0 (fun n => n + 3) s1.log = some (3, 1)) &&
        decide (drivenF summing 0 (fun n => n + 3) s2.log = some (3, 1)) &&
        decide ((session s1.log).1 = none) && decide ((session s2.log).1 = none) &&
        decide ((session s1.log).2 = (session s2.log).2) &&
        decide (followsL (session s1.log).2 ≠ some .running) && decide (s1.centroids = some 8) &&
        decide (s2.centroids = some 5))) = true := by decide +kernel
  obtain ⟨s1, e1, key⟩ := any_some_true key
  obtain ⟨s2, e2, key⟩ := any_some_true key
  simp only [Bool.and_eq_true, decide_eq_true_eq] at key
  obtain ⟨⟨⟨⟨⟨⟨⟨k1, k2⟩, k3⟩, k4⟩, k5⟩, k6⟩, k7⟩, k8⟩ := key
  exact ⟨s1, s2, ⟨hastyBefore.tail, by decide, e1⟩, ⟨hastyAfter.tail, by decide, e2⟩, driven_of_test k1,
    driven_of_test k2, k3, k4, k5, k6, k7, k8⟩

end Distclus
