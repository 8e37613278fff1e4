import Verif.Proof.CtrlConf
import Verif.Spec.CtrlBlock
import Verif.Spec.CtrlTell
import Verif.Spec.CtrlTrace
/-!
# C120: the configuration changed while the algorithm works
-/
namespace Distclus
open Ctrl Spec Algo Trace

variable {C : Type} {conf : Conf}

theorem tuned_exec (as : List (Algo.Act C)) {a : Algo C} :
    (Tuned.exec ⟨a, conf, fun _ => conf⟩ (as.map tuned)) =
      (Algo.exec conf a as).map fun a' => ⟨a', conf, fun _ => conf⟩ := by
  induction as generalizing a with
  | nil => rfl
  | cons b as ih =>
    have e : Tuned.next ⟨a, conf, fun _ => conf⟩ (tuned b) =
        (a.next conf b).map fun a' => ⟨a', conf, fun _ => conf⟩ := by
      cases b with
      | client => rfl
      | act t c =>
        have hu : Tuned.used ⟨a, conf, fun _ => conf⟩ t = conf := by
          unfold Tuned.used; split <;> rfl
        simp only [tuned, Tuned.next, Tuned.step, Algo.next, hu]
        cases a.step conf t c <;> simp
    simp only [List.map_cons, Tuned.exec, Algo.exec, e]
    cases a.next conf b with
    | none => rfl
    | some a' => exact ih

/-- **C120.** As long as nobody writes the configuration, the algorithm is that of the other properties: the same
actions are possible and lead to the same state. -/
theorem C120_constant (as : List (Algo.Act C)) :
    ((Tuned.new conf).exec (as.map tuned)).map (·.algo) = Algo.exec conf Algo.new as := by
  unfold Tuned.new
  rw [tuned_exec]
  cases Algo.exec conf (Algo.new : Algo C) as <;> rfl

/-- **C120.** Whatever is written in the configuration and whenever, in every execution: the status is coherent,
every assignment of it is allowed, what `Status()` returns is the last assigned; the figures returned agree
with the record; `Iterate` is called after a successful initialisation only; all centroids saved were
returned by a successful `Iterate`, and all centroids shown were produced by the implementation; a
time-out interrupts at most once, and not after it was disabled; no channel is closed twice. -/
theorem C120_kept {s : Tuned C} (h : Tuned.Reachable conf s) :
    (Coherent s.algo.status ∧ HistoryOk s.algo.log ∧ current s.algo.log = s.algo.status ∧ ObservedOk s.algo.log) ∧
    (FiguresOk s.algo.log ∧ s.algo.iterations = savedSince s.algo.log ∧
      s.algo.pushedData = pushedSince s.algo.log) ∧
    (IterAfterInit s.algo.log ∧ SavedOk s.algo.log ∧ Sourced s.algo.log) ∧
    FiredOk s.algo.log ∧ (closedChans s.algo.log).Nodup := by
  have hc := Tuned.core h
  have ha : AckInv s.algo := Tuned.induction AckInv.init (fun _ _ _ hI hs => hI.step hs) h
  obtain ⟨-, -, hi, hsv, ht, hsrc⟩ : CountCore s.algo ∧ (s.algo.status.value = .created → s.algo.iterations = 0) ∧
      InitInv s.algo ∧ SaveInv s.algo ∧ TimerInv s.algo ∧ SrcInv s.algo :=
    Tuned.induction (P := fun s => CountCore s ∧ (s.status.value = .created → s.iterations = 0) ∧ InitInv s ∧
        SaveInv s ∧ TimerInv s ∧ SrcInv s)
      ⟨CountCore.init, fun _ => rfl, InitInv.init, SaveInv.init, TimerInv.init, SrcInv.init⟩
      (fun _ _ _ ⟨h1, h0, h2, h3, h4, h5⟩ hs => ⟨h1.step hs, created_step h1.hist.lock h1.hist.st h0 hs,
        h2.step h1.hist.lock h1.hist.st hs, h3.step h1.hist.lock hs,
        h4.step h1.hist.lock hs, h5.step hs (hs.cell h1.hist.lock h0)⟩) h
  refine ⟨⟨hc.hist.st.err, hc.hist.hist, hc.hist.cur, hc.hist.obs⟩, ⟨hc.figures, hc.it, hc.pd⟩,
    ⟨hi.log, hsv.log, hsrc.log⟩, ht.log, ?_⟩
  rw [ha.log]; exact ha.nodup

/-- **C120.** A run works with the limits it read when it started. Run `t` starts (`s` to `s1`) while the configuration sets a
limit. As long as at most one goroutine at a time is between the test of the limit and the record of an
iteration, or about to reset the counters: whatever is written in the configuration later, the run calls
`Iterate` only below that limit, and records no iteration beyond it. -/
theorem C120_limit {s s1 s2 s3 : Tuned C} {t : Nat} {a : Tuned.Act C} (h : Lone (Tuned.new conf) s)
    (hp : (s.algo.thr t).pc = .r0) (hn : s.next (.act t .go) = some s1) (h2 : Lone s1 s2)
    (h3 : s2.next a = some s3) (hl : Limits s.conf) :
    (∀ st c, s3.algo.log = .iterCall t st c :: s2.algo.log →
      s2.algo.iterations < s.conf.iter + s2.algo.pushedData * s.conf.iterPerData) ∧
    (∀ c, (s2.algo.thr t).pc = .rS' c → s3.algo.log = .saved c :: s2.algo.log →
      s3.algo.iterations ≤ s.conf.iter + s3.algo.pushedData * s.conf.iterPerData) := by
  have hR : Tuned.Reachable conf s := Tuned.Lone.reachable h ⟨[], rfl⟩
  have h0 := Tuned.Lone.limit (conf := conf) h ⟨[], rfl⟩ (Nat.zero_le _) (fun u hu => absurd hu (Nat.not_lt_zero _))
  have hR1 := hR.next hn
  obtain ⟨hs, -, htk⟩ := Tuned.step_some hn
  have ht : t < s.algo.n := step_lt hs
  have hs1 : s1.algo = ({ s.algo with ack := s.algo.acks, acks := s.algo.acks + 1 } : Algo C).go t .r1 := by
    simp only [step, if_pos ht, hp, stepRun] at hs
    exact (Option.some.inj hs).symm
  have hp1 : (s1.algo.thr t).pc ≠ .r0 := by rw [hs1, go_pc, if_pos rfl]; rintro ⟨⟩
  have ht1 : t < s1.algo.n := by rw [hs1, go_n]; exact ht
  have hw : waiting looping s1.algo ≤ 1 := by
    have h1 := h0.1
    rw [waiting_looping] at h1 ⊢
    have e1 := tot_go_eq (f := fIter) (s := s.algo) (p := .r1)
      (s1 := { s.algo with ack := s.algo.acks, acks := s.algo.acks + 1 }) rfl rfl ht hp
    have e2 := tot_go_eq (f := fTest) (s := s.algo) (p := .r1)
      (s1 := { s.algo with ack := s.algo.acks, acks := s.algo.acks + 1 }) rfl rfl ht hp
    have e3 := tot_go_eq (f := fReset) (s := s.algo) (p := .r1)
      (s1 := { s.algo with ack := s.algo.acks, acks := s.algo.acks + 1 }) rfl rfl ht hp
    rw [← hs1] at e1 e2 e3
    simp only [fIter, fTest, fReset] at e1 e2 e3
    omega
  have hI1 := h0.2.next hR hn h0.1 hw
  obtain ⟨-, hI2⟩ := Tuned.Lone.limit h2 hR1 hw hI1
  have hR2 := Tuned.Lone.reachable h2 hR1
  obtain ⟨ht2, -, htk2⟩ := Tuned.Lone.taken h2 hR1 ht1 hp1
  have htk1 : s1.taken t = s.conf := by rw [htk]; dsimp only; rw [if_pos ⟨rfl, by rw [hp]⟩]
  rw [htk1] at htk2
  have hst : ∀ e, s3.algo.log = e :: s2.algo.log → ∃ k, Step k s2.algo s3.algo := by
    intro e he
    cases a with
    | set k => cases h3; exact absurd (congrArg List.length he) (by simp)
    | client => cases h3; exact absurd (congrArg List.length he) (by simp [spawn])
    | act u c => exact ⟨_, Step.of_step (Tuned.step_some h3).1⟩
  have hlim : fIter (s2.algo.thr t).pc = 1 →
      s2.algo.iterations < s.conf.iter + s2.algo.pushedData * s.conf.iterPerData := by
    intro hf
    have := hI2 t ht2 hf (by rw [htk2]; exact hl)
    unfold Tuned.allowed at this
    rw [htk2] at this
    exact this
  constructor
  · intro st c he
    obtain ⟨k, hk⟩ := hst _ he
    apply hlim
    rcases hk.log with ⟨e, -⟩ | ⟨e, h1, -, hf⟩
    · rw [e] at he; exact absurd (congrArg List.length he) (by simp)
    · rw [h1] at he; injection he with he _; subst he; rw [hf.1]; rfl
  · intro c hpc he
    obtain ⟨k, hk⟩ := hst _ he
    have := hlim (by rw [hpc]; rfl)
    rcases hk.data with ⟨e, h1, h2, hf⟩ | ⟨h1, -⟩
    · rw [h1] at he; injection he with he _; subst he
      rw [hf.1, hf.2.1]; exact this
    · rcases h1 with h1 | ⟨e, h2, h1⟩
      · rw [h1] at he; exact absurd (congrArg List.length he) (by simp)
      · rw [h1] at he; injection he with he _; subst he; cases h2

/-- An execution during which at most one goroutine at a time is `looping`. -/
def loneExec (s : Tuned Nat) : List (Tuned.Act Nat) → Option (Tuned Nat)
  | [] => some s
  | a :: as => match s.next a with
    | none => none
    | some s' => if waiting looping s'.algo ≤ 1 then loneExec s' as else none

theorem loneExec_sound (as : List (Tuned.Act Nat)) {s0 s s' : Tuned Nat} (h : Lone s0 s)
    (he : loneExec s as = some s') : Lone s0 s' := by
  induction as generalizing s with
  | nil => cases he; exact h
  | cons a as ih =>
    simp only [loneExec] at he
    split at he
    · cases he
    · split at he
      · exact ih (.next a h ‹_› ‹_›) he
      · cases he

/-- A run starts with the limit 2; then the limit is set to 7; its second iteration is about to be recorded: the hypotheses of `C120_limit` are
met, and the bound is reached. -/
example : ∃ s s1 s2 s3 : Tuned Nat, Lone (Tuned.new ⟨2, 0, 0, false, false, false⟩) s ∧ (s.algo.thr 2).pc = .r0 ∧
    s.next (.act 2 .go) = some s1 ∧ Lone s1 s2 ∧ s2.next (.act 2 .go) = some s3 ∧ s2.conf.iter = 7 ∧
    (s2.algo.thr 2).pc = .rS' 7 ∧ s3.algo.log = .saved 7 :: s2.algo.log ∧ s3.algo.iterations = 2 := by
  have h : (((loneExec (Tuned.new ⟨2, 0, 0, false, false, false⟩)
      ((init ++ [call 0 .play, g 0, g 0]).map tuned)).any fun s => decide ((s.algo.thr 2).pc = .r0) &&
      ((s.next (.act 2 .go)).any fun s1 => (loneExec s1 ((play.drop 4).map tuned ++
        .set ⟨7, 0, 0, false, false, false⟩ :: (iterate 6 ++ (iterate 7).dropLast).map tuned)).any fun s2 =>
        (s2.next (.act 2 .go)).any fun s3 => decide (s2.conf.iter = 7 ∧ (s2.algo.thr 2).pc = .rS' 7 ∧
          s3.algo.log = .saved 7 :: s2.algo.log ∧ s3.algo.iterations = 2))) = true) := by decide +kernel
  obtain ⟨s, e, h⟩ := (Option.any_eq_true _ _).1 h
  rw [Bool.and_eq_true] at h
  obtain ⟨s1, e1, h1⟩ := (Option.any_eq_true _ _).1 h.2
  obtain ⟨s2, e2, h2⟩ := (Option.any_eq_true _ _).1 h1
  obtain ⟨s3, e3, h3⟩ := (Option.any_eq_true _ _).1 h2
  obtain ⟨a, b, c, d⟩ := of_decide_eq_true h3
  exact ⟨s, s1, s2, s3, loneExec_sound _ (.refl _) e, of_decide_eq_true h.1, e1, loneExec_sound _ (.refl _) e2, e3,
    a, b, c, d⟩

/-! ## Claims examined -/

/-- A configuration with a limit of `n` iterations. -/
def upTo (n : Nat) : Conf := ⟨n, 0, 0, false, false, false⟩

theorem Tuned.reach {conf : Conf} (as : List (Tuned.Act Nat)) (P : Tuned Nat → Bool)
    (h : ((Tuned.new conf).exec as).any P = true) : ∃ s, Tuned.Reachable conf s ∧ P s = true := by
  cases he : (Tuned.new conf : Tuned Nat).exec as with
  | none => simp [he] at h
  | some s => exact ⟨s, ⟨as, he⟩, by simpa [he] using h⟩

/-- **C120 (claim examined).** A limit lowered while the run works is exceeded: with `Iter = 1` in the configuration,
set before the first iteration, two iterations are made. -/
theorem C120_lowered : ∃ s : Tuned Nat, Tuned.Reachable plain s ∧ s.conf.iter = 1 ∧ s.algo.iterations = 2 ∧
    s.algo.status.value = .running := by
  obtain ⟨s, hr, hs⟩ := Tuned.reach (conf := plain)
    ((init ++ play).map tuned ++ [.set (upTo 1)] ++ (iterate 6 ++ iterate 7).map tuned)
    (fun s => decide (s.conf.iter = 1 ∧ s.algo.iterations = 2 ∧ s.algo.status.value = .running)) (by decide +kernel)
  exact ⟨s, hr, of_decide_eq_true hs⟩

/-- **C120 (claim examined).** A limit raised while the run works has no effect on it: the run ends after one iteration,
though `Iter = 5` was set before. -/
theorem C120_raised : ∃ s : Tuned Nat, Tuned.Reachable (upTo 1) s ∧ s.conf.iter = 5 ∧ s.algo.iterations = 1 ∧
    s.algo.status = ⟨.ready, none⟩ := by
  obtain ⟨s, hr, hs⟩ := Tuned.reach (conf := upTo 1)
    ((init ++ play).map tuned ++ [.set (upTo 5)] ++ (iterate 6 ++ [g 2, g 2, g 2, g 2, recv 1 2]).map tuned)
    (fun s => decide (s.conf.iter = 5 ∧ s.algo.iterations = 1 ∧ s.algo.status = ⟨.ready, none⟩)) (by decide +kernel)
  exact ⟨s, hr, of_decide_eq_true hs⟩

/-- **C120 (claim examined).** `Wait` answers `ErrNeverFinish` about a run which ends by itself, if its limit is removed from
the configuration meanwhile. -/
theorem C120_neverFinish : ∃ s : Tuned Nat, Tuned.Reachable (upTo 1) s ∧
    (rets 0 s.algo.log).getLast? = some (.err none) ∧ (rets 0 s.algo.log).head? = some (.err (some .neverFinish)) ∧
    s.algo.iterations = 1 ∧ s.algo.status = ⟨.ready, none⟩ := by
  obtain ⟨s, hr, hs⟩ := Tuned.reach (conf := upTo 1)
    ((init ++ play).map tuned ++ [.set plain] ++
      ([call 0 (.wait false false), g 0, g 0] ++ iterate 6 ++ [g 2, g 2, g 2, g 2, recv 1 2]).map tuned)
    (fun s => decide ((rets 0 s.algo.log).getLast? = some (.err none) ∧
      (rets 0 s.algo.log).head? = some (.err (some .neverFinish)) ∧
      s.algo.iterations = 1 ∧ s.algo.status = ⟨.ready, none⟩)) (by decide +kernel)
  exact ⟨s, hr, of_decide_eq_true hs⟩

/-- The loop of a run, outside the test of a user's finishing condition. -/
def cycling : PC C → Bool
  | .r6 | .r7 | .r9 | .rI | .rS _ | .rS' _ => true
  | _ => false

/-- A client waits for a run without limit, which nobody stops. -/
structure Hangs (s : Tuned C) : Prop where
  n : s.algo.n = 3
  client : (s.algo.thr 0).pc = .wa2 false false
  loop : (s.algo.thr 1).pc = .nl0
  run : cycling (s.algo.thr 2).pc = true
  status : s.algo.status = ⟨.running, none⟩
  taken : s.taken 2 = plain

theorem Hangs.go {s s' : Tuned C} (h : Hangs s) {s1 : Algo C} {p : PC C} (e : s'.algo = s1.go 2 p)
    (ht : s1.thr = s.algo.thr) (hn : s1.n = s.algo.n) (hs : s1.status = s.algo.status) (hp : cycling p = true)
    (hl : rets 0 s1.log = rets 0 s.algo.log) (hk : s'.taken 2 = plain) :
    Hangs s' ∧ rets 0 s'.algo.log = rets 0 s.algo.log := by
  refine ⟨⟨?_, ?_, ?_, ?_, ?_, hk⟩, ?_⟩
  · rw [e, go_n, hn, h.n]
  · rw [e, go_pc, if_neg (by decide), ht, h.client]
  · rw [e, go_pc, if_neg (by decide), ht, h.loop]
  · rw [e, go_pc, if_pos rfl, hp]
  · rw [e, go_status, hs, h.status]
  · rw [e, go_log, hl]

theorem Hangs.next {s s' : Tuned C} (h : Hangs s) {a : Tuned.Act C} (ha : Ordinary a)
    (hn : s.next a = some s') : Hangs s' ∧ rets 0 s'.algo.log = rets 0 s.algo.log := by
  obtain ⟨h0, h1, h2, h3, h4, h5⟩ := id h
  cases a with
  | client => exact ha.elim
  | set k => cases hn; exact ⟨⟨h0, h1, h2, h3, h4, h5⟩, rfl⟩
  | act t c =>
    obtain ⟨hs, -, htk⟩ := Tuned.step_some hn
    have ht := step_lt hs
    have h5' : s'.taken 2 = plain := by
      rw [htk]; dsimp only
      rw [if_neg, h5]
      rintro ⟨rfl, h⟩
      generalize (s.algo.thr 2).pc = p at h h3
      cases p <;> first | cases h; done | cases h3
    have same : s.algo.go t (s.algo.thr t).pc = s.algo := go_same rfl
    have hno : s.algo.noSender = true ∧ ∀ j, j < s.algo.n → notifying (s.algo.thr j).pc = none ∧
        sending (s.algo.thr j).pc = none := by
      have : ∀ j, j < s.algo.n → notifying (s.algo.thr j).pc = none ∧ sending (s.algo.thr j).pc = none := by
        intro j hj
        rw [h0] at hj
        have e : j = 0 ∨ j = 1 ∨ j = 2 := by omega
        rcases e with rfl | rfl | rfl
        · rw [h1]; exact ⟨rfl, rfl⟩
        · rw [h2]; exact ⟨rfl, rfl⟩
        · revert h3
          cases (s.algo.thr 2).pc <;> intro h3 <;> first | exact ⟨rfl, rfl⟩ | cases h3
      refine ⟨?_, this⟩
      unfold noSender
      exact decide_eq_true fun j hj => by rw [(this j hj).2]; rfl
    have ht3 := ht
    rw [h0] at ht3
    have e : t = 0 ∨ t = 1 ∨ t = 2 := by omega
    rcases e with rfl | rfl | rfl
    · simp only [step, if_pos ht, h1] at hs
      cases c <;> simp only [stepWait, h4, reduceCtorEq, Option.isSome_none, Bool.false_eq_true, or_self,
        if_false] at hs
      split at hs
      · rw [← h1, same] at hs
        have e := Option.some.inj hs
        rw [← e]
        exact ⟨⟨e ▸ h0, e ▸ h1, e ▸ h2, e ▸ h3, e ▸ h4, h5'⟩, rfl⟩
      · cases hs
    · simp only [step, if_pos ht, h2] at hs
      cases c with
      | recv j =>
        simp only [stepNotif] at hs
        split at hs
        · rename_i st p hq
          split at hs
          · rename_i hj
            rw [(hno.2 j hj).1] at hq; cases hq
          · cases hs
        · cases hs
      | _ => simp only [stepNotif, reduceCtorEq] at hs
    · have hu : s.used 2 = plain ∨ (s.algo.thr 2).pc ≠ .r7 := by
        by_cases hp : (s.algo.thr 2).pc = .r7
        · left; unfold Tuned.used; rw [hp]; exact h5
        · exact .inr hp
      have hdone : iterDone plain s.algo = false := rfl
      simp only [step, if_pos ht] at hs
      generalize hp : (s.algo.thr 2).pc = p at hs h3 hu
      cases p <;> simp only [cycling, Bool.false_eq_true] at h3
      · cases c <;> simp only [stepRun, reduceCtorEq, h4, if_true] at hs
        exact h.go (Option.some.inj hs).symm rfl rfl rfl rfl rfl h5'
      · rcases hu with hu | hu
        · rw [hu] at hs
          cases c <;> simp only [stepRun, reduceCtorEq, hdone] at hs
          split at hs
          · exact h.go (Option.some.inj hs).symm rfl rfl rfl rfl rfl h5'
          · cases hs
        · exact absurd rfl hu
      · cases c <;> simp only [stepRun, reduceCtorEq, hno.1, if_true] at hs
        · split at hs
          · rename_i j _ _ _ hq
            split at hs
            · rename_i hj
              rw [(hno.2 _ hj).2] at hq; cases hq
            · cases hs
          · cases hs
        · exact h.go (Option.some.inj hs).symm rfl rfl rfl rfl rfl h5'
      · cases c <;> simp only [stepRun, reduceCtorEq] at hs
        · exact h.go (Option.some.inj hs).symm rfl rfl rfl rfl rfl h5'
        · exact h.go (Option.some.inj hs).symm rfl rfl rfl rfl rfl h5'
        · exact ha.elim
        · exact ha.elim
      · cases c <;> simp only [stepRun, reduceCtorEq] at hs
        split at hs
        · exact h.go (Option.some.inj hs).symm rfl rfl rfl rfl rfl h5'
        · cases hs
      · cases c <;> simp only [stepRun, reduceCtorEq] at hs
        split at hs
        · exact h.go (Option.some.inj hs).symm rfl rfl rfl rfl rfl h5'
        · cases hs

theorem Hangs.exec {s s' : Tuned C} (h : Hangs s) (as : List (Tuned.Act C)) (ha : ∀ a ∈ as, Ordinary a)
    (he : s.exec as = some s') : Hangs s' ∧ rets 0 s'.algo.log = rets 0 s.algo.log := by
  induction as generalizing s with
  | nil => cases he; exact ⟨h, rfl⟩
  | cons a as ih =>
    simp only [Tuned.exec] at he
    split at he
    · cases he
    · rename_i s1 hn
      obtain ⟨h1, e1⟩ := h.next (ha a (List.mem_cons_self ..)) hn
      obtain ⟨h2, e2⟩ := ih h1 (fun b hb => ha b (List.mem_cons_of_mem _ hb)) he
      exact ⟨h2, e2.trans e1⟩

/-- **C120 (claim examined).** `Wait` does not return though the configuration sets a limit: a client plays without limit,
sets `Iter = 1`, and waits. `Wait` reads that limit and does not answer `ErrNeverFinish`; the run does not
read it. Whatever is done then - iterations, further writings - except by a new client or by an iteration which
fails, `Wait` has not returned and the status is Running. -/
theorem C120_wait_hangs : ∃ s : Tuned Nat, Tuned.Reachable plain s ∧ s.conf = upTo 1 ∧
    pending 0 s.algo.log = some (.wait false false) ∧
    ∀ as s', (∀ a ∈ as, Ordinary a) → s.exec as = some s' →
      rets 0 s'.algo.log = rets 0 s.algo.log ∧ s'.algo.status = ⟨.running, none⟩ := by
  obtain ⟨s, hr, hs⟩ := Tuned.reach (conf := plain)
    ((init ++ play).map tuned ++ [.set (upTo 1)] ++ [call 0 (.wait false false), g 0, g 0].map tuned)
    (fun s => decide (s.conf = upTo 1 ∧ pending 0 s.algo.log = some (.wait false false) ∧ s.algo.n = 3 ∧
      (s.algo.thr 0).pc = .wa2 false false ∧ (s.algo.thr 1).pc = .nl0 ∧ cycling (s.algo.thr 2).pc = true ∧
      s.algo.status = ⟨.running, none⟩ ∧ s.taken 2 = plain)) (by decide +kernel)
  obtain ⟨h1, h2, h3, h4, h5, h6, h7, h8⟩ := of_decide_eq_true hs
  refine ⟨s, hr, h1, h2, fun as s' ha he => ?_⟩
  obtain ⟨a, b⟩ := (⟨h3, h4, h5, h6, h7, h8⟩ : Hangs s).exec as ha he
  exact ⟨b, a.status⟩

/-- Such continuations: three iterations and two tests of `Wait`. -/
example : (((Tuned.new plain).exec ((init ++ play).map tuned ++ [.set (upTo 1)] ++
    ([call 0 (.wait false false), g 0, g 0] ++ iterate 6 ++ [g 0] ++ iterate 7 ++ [g 0] ++ iterate 8).map tuned)).map
      fun s => (s.algo.iterations, s.conf.iter, s.algo.status.value)) = some (3, 1, .running) := by decide +kernel

end Distclus
