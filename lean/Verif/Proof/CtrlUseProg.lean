import Verif.Proof.CtrlUseStep
import Verif.Proof.CtrlEdge
/-!
# A client which uses the controller alone: no call is stuck
-/
namespace Distclus
open Ctrl
namespace Algo
open Spec
variable {C : Type}
variable {conf : Conf} {s s' : Algo C} {t u : Nat}
variable {fol : List (Op × Res C) → Option ClustStatus}

set_option linter.unusedSimpArgs false
set_option linter.unusedTactic false
set_option linter.unusedVariables false
set_option linter.unnecessarySeqFocus false
set_option linter.unreachableTactic false

/-- An action of a goroutine starts no client. -/
theorem step_noClient {c : Choice C} (h : s.step conf t c = some s') :
    s'.n = s.n + 1 → (s'.thr s.n).kind ≠ .client := by
  have key : ∀ s1 : Algo C, s1.n = s.n → s1.n = s.n + 1 → (s1.thr s.n).kind ≠ .client := by
    intro s1 h1 h2; omega
  refine step_elim h ?_ ?_ ?_ ?_ ?_ ?_ ?_ ?_ ?_ ?_ ?_ ?_ ?_
  · intro _ h
    cases c <;> simp only [stepHome, reduceCtorEq] at h <;> split at h <;> cases h <;> exact key _ rfl
  · intro h
    generalize hp : (s.thr t).pc = p at h
    cases p <;> simp only [stepRead, reduceCtorEq] at h <;> split at h <;> cases h <;> exact key _ (by simp only [ret_n])
  · intro h
    generalize hp : (s.thr t).pc = p at h
    cases p <;> cases c <;> simp only [stepPush, reduceCtorEq] at h <;> (try split at h) <;> cases h <;>
      exact key _ (by simp only [ret_n, go_n, ev_n])
  · intro h
    generalize hp : (s.thr t).pc = p at h
    cases p <;> cases c <;> (try cases ‹InitFrom›) <;> simp only [stepInit, reduceCtorEq] at h <;>
      (repeat' split at h) <;> cases h
    all_goals first
      | (refine key _ ?_; simp only [ret_n, go_n, ev_n, put_n]; done)
      | (intro _; ctrl_proj; rw [if_pos trivial]; rintro ⟨⟩)
  · intro h
    generalize hp : (s.thr t).pc = p at h
    cases p <;> cases c <;> simp only [stepPlay, reduceCtorEq] at h <;> (repeat' split at h) <;> cases h
    all_goals first
      | (refine key _ ?_; simp only [ret_n, go_n, ev_n, put_n]; done)
      | (intro _; ctrl_proj; rw [if_pos trivial]; rintro ⟨⟩)
      | (intro _; ctrl_proj; rw [if_pos trivial]; rintro ⟨⟩)
  · intro h
    generalize hp : (s.thr t).pc = p at h
    cases p <;> cases c <;> simp only [stepPause, reduceCtorEq] at h <;> (repeat' split at h) <;> cases h <;>
      exact key _ (by simp only [ret_n, go_n, ev_n, put_n])
  · intro h
    generalize hp : (s.thr t).pc = p at h
    cases p <;> cases c <;> simp only [stepInterrupt, reduceCtorEq] at h <;> (repeat' split at h) <;> cases h <;>
      exact key _ (by simp only [ret_n, go_n, ev_n, put_n])
  · intro h
    generalize hp : (s.thr t).pc = p at h
    cases p <;> cases c <;> simp only [stepSend, reduceCtorEq] at h <;> (repeat' split at h) <;> cases h <;>
      (try cases ‹SendFrom›) <;> exact key _ (by simp only [sent, ret_n, go_n, ev_n, put_n])
  · intro h
    generalize hp : (s.thr t).pc = p at h
    cases p <;> cases c <;> (try cases ‹Bool›) <;> (try cases ‹Bool›) <;> (try cases ‹Bool›) <;>
      simp only [stepWait, reduceCtorEq] at h <;> (repeat' split at h) <;> (try cases h) <;>
      exact key _ (by simp only [ret_n, go_n, ev_n, put_n])
  · intro h
    generalize hp : (s.thr t).pc = p at h
    cases p <;> cases c <;> simp only [stepRun, reduceCtorEq] at h <;> (repeat' split at h) <;> cases h <;>
      exact key _ (by simp only [ret_n, go_n, ev_n, put_n])
  · intro h
    generalize hp : (s.thr t).pc = p at h
    cases p <;> cases c <;> simp only [stepRecover, reduceCtorEq] at h <;> (repeat' split at h) <;> cases h <;>
      exact key _ (by simp only [ret_n, go_n, ev_n, put_n])
  · intro h
    generalize hp : (s.thr t).pc = p at h
    cases p <;> cases c <;> simp only [stepNotif, reduceCtorEq] at h <;> (repeat' split at h) <;> cases h <;>
      exact key _ (by simp only [ret_n, go_n, ev_n, put_n])
  · intro h
    generalize hp : (s.thr t).pc = p at h
    cases p <;> cases c <;> simp only [stepTimer, reduceCtorEq] at h <;> (repeat' split at h) <;> cases h <;>
      exact key _ (by simp only [ret_n, go_n, ev_n, put_n])

/-- Choices which are neither a call nor a failure of the implementation. -/
def calm : Choice C → Bool
  | .go | .recv _ | .default | .pushRet _ | .iterNil | .iterOk _ => true
  | .initRet _ e => e.isNone
  | _ => false

/-- Events which are neither a call nor a failure of the implementation. -/
def calmEv : Event C → Bool
  | .call _ _ | .iterErr _ _ | .iterPanic _ _ => false
  | .initRet _ e => e.isNone
  | _ => true

/-- An action which records nothing, or one event which is no call and no failure. -/
def CalmLog (s s' : Algo C) : Prop := s'.log = s.log ∨ ∃ e, s'.log = e :: s.log ∧ calmEv e = true

theorem CalmLog.ret {s1 : Algo C} {r : Res C} (h : s1.log = s.log) : CalmLog s (s1.ret t r) := by
  rw [CalmLog, ret_log]
  split
  · exact .inl h
  · exact .inr ⟨_, by rw [h], rfl⟩

/-- A calm action records nothing, or one calm event. -/
theorem step_calm {c : Choice C} (h : s.step conf t c = some s') (hc : calm c = true) : CalmLog s s' := by
  refine step_elim h ?_ ?_ ?_ ?_ ?_ ?_ ?_ ?_ ?_ ?_ ?_ ?_ ?_
  · intro _ h
    cases c <;> simp only [stepHome, reduceCtorEq] at h <;> split at h <;> cases h <;> first | (cases hc; done) | exact .inl rfl | exact .inr ⟨_, rfl, rfl⟩ | exact .inr ⟨_, rfl, hc⟩ | exact CalmLog.ret rfl
  · intro h
    generalize hp : (s.thr t).pc = p at h
    cases p <;> simp only [stepRead, reduceCtorEq] at h <;> split at h <;> cases h <;> first | (cases hc; done) | exact .inl rfl | exact .inr ⟨_, rfl, rfl⟩ | exact .inr ⟨_, rfl, hc⟩ | exact CalmLog.ret rfl
  · intro h
    generalize hp : (s.thr t).pc = p at h
    cases p <;> cases c <;> simp only [stepPush, reduceCtorEq] at h <;> (try split at h) <;> cases h <;>
      first | (cases hc; done) | exact .inl rfl | exact .inr ⟨_, rfl, rfl⟩ | exact .inr ⟨_, rfl, hc⟩ | exact CalmLog.ret rfl
  · intro h
    generalize hp : (s.thr t).pc = p at h
    cases p <;> cases c <;> (try cases ‹InitFrom›) <;> simp only [stepInit, reduceCtorEq] at h <;>
      (repeat' split at h) <;> cases h
    all_goals first | (cases hc; done) | exact .inl rfl | exact .inr ⟨_, rfl, rfl⟩ | exact .inr ⟨_, rfl, hc⟩ | exact CalmLog.ret rfl
  · intro h
    generalize hp : (s.thr t).pc = p at h
    cases p <;> cases c <;> simp only [stepPlay, reduceCtorEq] at h <;> (repeat' split at h) <;> cases h
    all_goals first | (cases hc; done) | exact .inl rfl | exact .inr ⟨_, rfl, rfl⟩ | exact .inr ⟨_, rfl, hc⟩ | exact CalmLog.ret rfl
  · intro h
    generalize hp : (s.thr t).pc = p at h
    cases p <;> cases c <;> simp only [stepPause, reduceCtorEq] at h <;> (repeat' split at h) <;> cases h <;>
      first | (cases hc; done) | exact .inl rfl | exact .inr ⟨_, rfl, rfl⟩ | exact .inr ⟨_, rfl, hc⟩ | exact CalmLog.ret rfl
  · intro h
    generalize hp : (s.thr t).pc = p at h
    cases p <;> cases c <;> simp only [stepInterrupt, reduceCtorEq] at h <;> (repeat' split at h) <;> cases h <;>
      first | (cases hc; done) | exact .inl rfl | exact .inr ⟨_, rfl, rfl⟩ | exact .inr ⟨_, rfl, hc⟩ | exact CalmLog.ret rfl
  · intro h
    generalize hp : (s.thr t).pc = p at h
    cases p <;> cases c <;> simp only [stepSend, reduceCtorEq] at h <;> (repeat' split at h) <;> cases h <;>
      (try cases ‹SendFrom›) <;> first | (cases hc; done) | exact .inl rfl | exact .inr ⟨_, rfl, rfl⟩ | exact .inr ⟨_, rfl, hc⟩ | exact CalmLog.ret rfl
  · intro h
    generalize hp : (s.thr t).pc = p at h
    cases p <;> cases c <;> (try cases ‹Bool›) <;> (try cases ‹Bool›) <;> (try cases ‹Bool›) <;>
      simp only [stepWait, reduceCtorEq] at h <;> (repeat' split at h) <;> (try cases h) <;>
      first | (cases hc; done) | exact .inl rfl | exact .inr ⟨_, rfl, rfl⟩ | exact .inr ⟨_, rfl, hc⟩ | exact CalmLog.ret rfl
  · intro h
    generalize hp : (s.thr t).pc = p at h
    cases p <;> cases c <;> simp only [stepRun, reduceCtorEq] at h <;> (repeat' split at h) <;> cases h <;>
      first | (cases hc; done) | exact .inl rfl | exact .inr ⟨_, rfl, rfl⟩ | exact .inr ⟨_, rfl, hc⟩ | exact CalmLog.ret rfl
  · intro h
    generalize hp : (s.thr t).pc = p at h
    cases p <;> cases c <;> simp only [stepRecover, reduceCtorEq] at h <;> (repeat' split at h) <;> cases h <;>
      first | (cases hc; done) | exact .inl rfl | exact .inr ⟨_, rfl, rfl⟩ | exact .inr ⟨_, rfl, hc⟩ | exact CalmLog.ret rfl
  · intro h
    generalize hp : (s.thr t).pc = p at h
    cases p <;> cases c <;> simp only [stepNotif, reduceCtorEq] at h <;> (repeat' split at h) <;> cases h <;>
      first | (cases hc; done) | exact .inl rfl | exact .inr ⟨_, rfl, rfl⟩ | exact .inr ⟨_, rfl, hc⟩ | exact CalmLog.ret rfl
  · intro h
    generalize hp : (s.thr t).pc = p at h
    cases p <;> cases c <;> simp only [stepTimer, reduceCtorEq] at h <;> (repeat' split at h) <;> cases h <;>
      first | (cases hc; done) | exact .inl rfl | exact .inr ⟨_, rfl, rfl⟩ | exact .inr ⟨_, rfl, hc⟩ | exact CalmLog.ret rfl

theorem peaceful_calm {e : Event C} {l : List (Event C)} (h : Peaceful l) (he : calmEv e = true) :
    Peaceful (e :: l) := by
  cases e <;> first
    | exact ⟨trivial, h⟩
    | (cases he; done)
    | (refine ⟨?_, h⟩; exact Option.isNone_iff_eq_none.1 he)

theorem CalmLog.peaceful (h : CalmLog s s') (hP : Peaceful s.log) : Peaceful s'.log := by
  rcases h with h | ⟨e, h, he⟩ <;> rw [h]
  · exact hP
  · exact peaceful_calm hP he

/-- Without a new call, the record gains at most the result of the call in progress. -/
def Gains (l l' : List (Event C)) : Prop := session l' = session l ∨
  ∃ op r, (session l).1 = some op ∧ session l' = (none, (op, r) :: (session l).2)

theorem Gains.step {l l' : List (Event C)} (h : Gains l l') {e : Event C} (he : calmEv e = true) :
    Gains l (e :: l') := by
  cases e
  case call => cases he
  case ret j r =>
    rcases j with _ | j
    · rcases h with h | ⟨op, q, h1, h2⟩
      · cases ho : (session l).1 with
        | none =>
          left
          simp only [session, h, ho]
          exact Prod.ext ho.symm rfl
        | some op =>
          right
          refine ⟨op, r, ho, ?_⟩
          simp only [session, h, ho]
      · right
        refine ⟨op, q, h1, ?_⟩
        simp only [session, h2]
    · exact h
  all_goals exact h

theorem CalmLog.gains {l : List (Event C)} (hl : Gains l s.log) (h : CalmLog s s') : Gains l s'.log := by
  rcases h with h | ⟨e, h, he⟩ <;> rw [h]
  · exact hl
  · exact hl.step he

/-- How far the client is from the end of its call, on its own. -/
def cRank : PC C → Nat
  | .home | .dead => 0
  | .rdStatus | .rdCentroids | .rdFigures | .rdConf => 1
  | .pu6 => 1 | .pu5 => 2 | .pu4 => 3 | .pu3 => 4 | .pu2 => 5 | .pu1 => 6 | .pu0 => 7
  | .it3 => 1 | .it2 => 1 | .it1 _ => 2 | .wa1 _ _ => 1 | .wa0 _ _ => 2
  | .pl3 => 1 | .pl2 => 2 | .sd3 _ _ => 3 | .sd2 _ => 4 | .sd1 _ _ => 5 | .sd0 _ _ => 6 | .pl1 => 7
  | .in10 _ _ => 8 | .in9 _ _ => 9 | .in8 _ _ => 10 | .in7 _ _ _ => 11 | .in6 _ _ _ => 12
  | .in5 _ => 13 | .in4 _ => 14 | .in3 _ => 15 | .in2 _ => 16 | .in1 _ => 17
  | _ => 18

/-- How far the run is from its next meeting with the client. -/
def rRank : PC C → Nat
  | .dead => 0 | .c8 => 1 | .c7 => 2 | .c6 => 3 | .c4 _ => 4 | .c3 _ => 5 | .c2 _ => 6 | .c0 _ => 7
  | .r12 => 8 | .r9 => 8 | .r7 => 9 | .r6 => 10 | .rS' _ => 11 | .rS _ => 12 | .rI => 12
  | .r5 _ _ => 13 | .r4 _ => 14 | .r3 _ => 15 | .r11 _ => 15 | .r2 _ => 16 | .r10 _ => 16
  | .r1 => 17
  | _ => 18

/-- How far the notification loop is from its next reception. -/
def nRank : PC C → Nat
  | .nl0 => 0 | .home => 1 | _ => 2

theorem rRank_le (p : PC C) : rRank p ≤ 18 := by cases p <;> exact Nat.le_of_ble_eq_true rfl
theorem nRank_le (p : PC C) : nRank p ≤ 2 := by cases p <;> exact Nat.le_of_ble_eq_true rfl

/-- The notification loop, if there is one. -/
def notifPc (s : Algo C) : PC C := if 2 ≤ s.n then (s.thr 1).pc else .nl0

/-- How far the client is from the end of its call. -/
def rank (s : Algo C) : Nat := 1000 * cRank (s.thr 0).pc + 10 * rRank (runPc s) + nRank (notifPc s)

theorem rank_client (h : cRank (s'.thr 0).pc < cRank (s.thr 0).pc) : rank s' < rank s := by
  have := rRank_le (runPc s'); have := nRank_le (notifPc s')
  unfold rank; omega

theorem rank_run (h0 : (s'.thr 0).pc = (s.thr 0).pc) (h : rRank (runPc s') < rRank (runPc s)) :
    rank s' < rank s := by
  have := nRank_le (notifPc s')
  unfold rank; rw [h0]; omega

theorem rank_notif (h0 : (s'.thr 0).pc = (s.thr 0).pc) (hr : runPc s' = runPc s)
    (h : nRank (notifPc s') < nRank (notifPc s)) : rank s' < rank s := by
  unfold rank; rw [h0, hr]; omega

/-- A calm action which brings the client closer to the end of its call. -/
def Moves (conf : Conf) (s : Algo C) : Prop := ∃ t c s', s.step conf t c = some s' ∧ calm c = true ∧
  rank s' < rank s

/-- The client moves. -/
theorem Moves.client {c : Choice C} (h : s.step conf t c = some s') (hc : calm c = true)
    (hr : cRank (s'.thr 0).pc < cRank (s.thr 0).pc) : Moves conf s := ⟨t, c, s', h, hc, rank_client hr⟩

/-- The run moves. -/
theorem Moves.run {c : Choice C} (h3 : 3 ≤ s.n) (h : s.step conf t c = some s') (hc : calm c = true)
    (hn : s'.n = s.n) (h0 : (s'.thr 0).pc = (s.thr 0).pc)
    (hr : rRank (s'.thr (s.n - 1)).pc < rRank (s.thr (s.n - 1)).pc) : Moves conf s := by
  refine ⟨t, c, s', h, hc, rank_run h0 ?_⟩
  unfold runPc
  rw [hn, if_pos h3, if_pos h3]; exact hr

/-- The notification loop moves. -/
theorem Moves.notif {c : Choice C} {p : PC C} (h : s.step conf t c = some (s.go 1 p)) (hc : calm c = true)
    (h2 : 2 ≤ s.n) (hr : nRank p < nRank (s.thr 1).pc) : Moves conf s := by
  refine ⟨t, c, _, h, hc, rank_notif ?_ ?_ ?_⟩
  · rw [go_pc, if_neg (by omega)]
  · exact runPc_eq rfl fun h3 => by rw [go_pc, if_neg (by omega)]
  · unfold notifPc
    rw [go_n, if_pos h2, if_pos h2, go_pc, if_pos rfl]; exact hr

/-- A goroutine other than the client and the run is at no lock. -/
theorem UseInv.other (hI : UseInv fol s) (hL : LockInv s) (f : PC C → Bool) (hd : f .dead = false)
    (hn : ∀ p : PC C, NotifOk p → f p = false) (h0 : f (s.thr 0).pc = false) (hr : f (runPc s) = false) (j : Nat) :
    f (s.thr j).pc = false := by
  by_cases hj : (s.thr j).pc = .dead
  · rw [hj]; exact hd
  · rcases hI.who (hL.lt hj) rfl hj with ⟨rfl, _⟩ | ⟨rfl, _, _, h⟩ | ⟨_, _, h, _⟩
    · exact h0
    · exact hn _ h
    · rw [← h]; exact hr

theorem UseInv.smFree (hI : UseInv fol s) (hL : LockInv s) (h0 : holdsS (s.thr 0).pc = false)
    (hr : holdsS (runPc s) = false) : s.sm = none := by
  cases h : s.sm with
  | none => rfl
  | some j =>
    have h1 := hI.full j h
    rw [hI.other hL holdsS rfl (fun p hp => by cases p <;> first | rfl | exact hp.elim) h0 hr] at h1
    cases h1

theorem UseInv.maFree (hI : UseInv fol s) (hL : LockInv s) (h0 : holdsM (s.thr 0).pc = false)
    (hr : holdsM (runPc s) = false) : s.ma = none := by
  cases h : s.ma with
  | none => rfl
  | some j =>
    have h1 := (hL.hM j).2 h
    rw [hI.other hL holdsM rfl (fun p hp => by cases p <;> first | rfl | exact hp.elim) h0 hr] at h1
    cases h1

theorem RunOk.noPlay {a : Nat} {cl : Prop} {v : ClustStatus} {ph : Ph} {p : PC C}
    (h : RunOk a cl v p ph) : inPlay p = false ∧ sending p = none := by
  rcases h.pc with h | h
  · rw [h]; exact ⟨rfl, rfl⟩
  · cases p <;> first | exact ⟨rfl, rfl⟩ | (cases h; done)

theorem UseInv.mrFree (hI : UseInv fol s) (hL : LockInv s) (h0 : (s.thr 0).pc ≠ .pu6) : s.mr = [] := by
  rw [List.eq_nil_iff_forall_not_mem]
  intro j hj
  have h1 := hL.hR j
  have h2 : 0 < s.mr.count j := List.count_pos_iff.2 hj
  have hi : (s.thr j).inPush = true := by
    by_contra h
    rw [if_neg h] at h1; omega
  by_cases hj0 : j = 0
  · subst hj0; exact h0 (hI.push hi)
  · have h3 := hL.push j hi
    have hd : (s.thr j).pc ≠ .dead := by
      intro hd; rw [hd] at h3; cases h3
    rcases hI.who (hL.lt hd) rfl hd with ⟨h, _⟩ | ⟨rfl, _, _, h⟩ | ⟨_, _, h, _⟩
    · exact hj0 h
    · revert h h3
      generalize (s.thr 1).pc = p
      intro h3 h
      cases p <;> first | exact h.elim | (cases h3; done)
    · obtain ⟨_, _, _, _, _, ho⟩ := hI.row
      have := ho.noPlay.1
      rw [h, h3] at this; cases this

theorem RunOk.quietS {a : Nat} {cl : Prop} {v d : ClustStatus} {p : PC C}
    (h : RunOk a cl v p (.quiet d)) (h8 : p ≠ .c8) : holdsS p = false := by
  cases d
  case running => obtain ⟨_, ho, _⟩ := h; cases p <;> first | rfl | exact ho.elim
  case finished => rcases h.2 with h | h <;> first | (rw [h]; rfl) | exact absurd h h8
  all_goals
    simp only [RunOk, Quiet, and_false] at h
  all_goals
    first | (rw [h.2]; rfl) | (rw [h.2.1]; rfl)

set_option hygiene false in
/-- The client makes its next step. -/
macro "cgo" c:term "using" l:Lean.Parser.Tactic.simpLemma,* : tactic =>
  `(tactic| (
    apply Moves.client (t := 0) (c := $c)
    · simp only [Algo.step, n0, if_true, hp, stepRead, stepPush, stepInit, stepPlay, stepPause, stepInterrupt,
        stepSend, stepWait, $l,*]; rfl
    · rfl
    · simp [go_pc, ret_pc, ev_thr, put_thr, spawn_pc, spawn_inPush, hip, hp, cRank, beginPc]))

set_option hygiene false in
/-- The notification loop receives from the client. -/
macro "cnot" : tactic =>
  `(tactic| (
    apply Moves.client (t := 1) (c := .recv 0)
    · simp only [Algo.step, n1, n0, if_true, hp, hN, stepNotif, notifying]; rfl
    · rfl
    · simp [go_pc, ret_pc, ev_thr, put_thr, hip, hp, cRank]))

set_option hygiene false in
/-- The run makes its next step. -/
macro "rgo" c:term "using" l:Lean.Parser.Tactic.simpLemma,* : tactic =>
  `(tactic| (
    obtain ⟨h3, hq, h4, h5, h6⟩ := hr3 (by rintro ⟨⟩)
    apply Moves.run (t := s.n - 1) (c := $c) h3
    · simp only [Algo.step, h4, if_true, hq, stepRun, stepRecover, $l,*]; rfl
    · rfl
    · rfl
    · simp [go_pc, h5.symm, ev_thr, put_thr]
    · simp [go_pc, hq, rRank, ev_thr, put_thr]))

set_option hygiene false in
/-- The run receives from the client. -/
macro "rrecv" : tactic =>
  `(tactic| (
    obtain ⟨h3, hq, h4, h5, h6⟩ := hr3 (by rintro ⟨⟩)
    apply Moves.client (t := s.n - 1) (c := .recv 0)
    · simp only [Algo.step, h4, if_true, hq, stepRun, hp, sending, n0]; rfl
    · rfl
    · simp [go_pc, h5.symm, hp, cRank]))

set_option hygiene false in
/-- The notification loop receives from the run. -/
macro "rnot" "using" l:Lean.Parser.Tactic.simpLemma,* : tactic =>
  `(tactic| (
    obtain ⟨h3, hq, h4, h5, h6⟩ := hr3 (by rintro ⟨⟩)
    apply Moves.run (t := 1) (c := .recv (s.n - 1)) h3
    · simp only [Algo.step, n1, h4, if_true, hq, hN, stepNotif, notifying, $l,*]; rfl
    · rfl
    · rfl
    · simp [go_pc, h5.symm, ev_thr, put_thr]
    · simp [go_pc, hq, rRank, ev_thr, put_thr, h6]))

set_option hygiene false in
/-- The client receives the acknowledgement of the run. -/
macro "cack" : tactic =>
  `(tactic| (
    obtain ⟨h3, hq, h4, h5, h6⟩ := hr3 (by rintro ⟨⟩)
    apply Moves.client (t := 0) (c := .recv (s.n - 1))
    · simp only [Algo.step, n0, if_true, hq, hp, stepSend, acking, h4, hcl, not_false_eq_true, and_self, sent]; rfl
    · rfl
    · simp [go_pc, ret_pc, go_inPush, hip, hp, cRank, h5.symm]))

/-- Something can happen. -/
theorem UseInv.moves (hc : Tame conf) (hA : AckInv s) (hI : UseInv fol s) (hh : (s.thr 0).pc ≠ .home)
    (hw1 : ∀ c b, (s.thr 0).pc = .wa1 c b → Endless conf) (hw2 : ∀ c b, (s.thr 0).pc ≠ .wa2 c b)
    (hw3 : ∀ st k, (s.thr 0).pc = .sd1 st k → k = .pause ∨ k = .interrupt →
      iterDone conf s = false) :
    Moves conf s := by
  have hL := hA.lock
  have n0 : 0 < s.n := hI.pos
  by_cases h6 : (s.thr 0).pc = .pu6
  · apply Moves.client (t := 0) (c := .go)
    · simp only [Algo.step, n0, if_true, h6, stepPush]; rfl
    · rfl
    · simp [h6, cRank]
  have hip : (s.thr 0).inPush = false := by
    cases h : (s.thr 0).inPush with
    | false => rfl
    | true => exact absurd (hI.push h) h6
  have hmr := hI.mrFree hL h6
  obtain ⟨op, d, ph, hR, hC, hO⟩ := hI.row
  have hr3 : runPc s ≠ .dead → 3 ≤ s.n ∧ (s.thr (s.n - 1)).pc = runPc s ∧ s.n - 1 < s.n ∧ s.n - 1 ≠ 0 ∧ s.n - 1 ≠ 1 := by
    intro h
    have h3 : 3 ≤ s.n := by
      by_contra h3
      rw [runPc, if_neg h3] at h; exact h rfl
    refine ⟨h3, by rw [runPc, if_pos h3], by omega, by omega, by omega⟩
  generalize hr : runPc s = r at *
  by_cases h8 : r = .c8
  · subst h8
    obtain ⟨h3, hp, h4, h5, h6⟩ := hr3 (by rintro ⟨⟩)
    apply Moves.run (t := s.n - 1) (c := .go) h3
    · simp only [Algo.step, h4, if_true, hp, stepRecover]; rfl
    · rfl
    · rfl
    · simp [go_pc, h5.symm, ev_thr]
    · simp [go_pc, hp, rRank]
  by_cases hS : ∃ c, r = .rS' c
  · obtain ⟨c, rfl⟩ := hS
    obtain ⟨h3, hp, h4, h5, h6⟩ := hr3 (by rintro ⟨⟩)
    apply Moves.run (t := s.n - 1) (c := .go) h3
    · simp only [Algo.step, h4, if_true, hp, stepRun, hmr]; rfl
    · rfl
    · rfl
    · simp [go_pc, h5.symm, ev_thr]
    · simp [go_pc, hp, rRank]
  by_cases h3 : ∃ p, r = .c3 p
  · obtain ⟨p, rfl⟩ := h3
    obtain ⟨h3, hp, h4, h5, h6⟩ := hr3 (by rintro ⟨⟩)
    apply Moves.run (t := s.n - 1) (c := .go) h3
    · simp only [Algo.step, h4, if_true, hp, stepRecover, hmr]; rfl
    · rfl
    · rfl
    · simp [go_pc, h5.symm, ev_thr]
    · simp [go_pc, hp, rRank]
  have hrM : holdsM r = false := by
    cases r <;> first | rfl | exact absurd ⟨_, rfl⟩ hS | exact absurd ⟨_, rfl⟩ h3 | (cases hO.pc <;> contradiction)
  by_cases hM' : holdsM (s.thr 0).pc = true
  · generalize hp : (s.thr 0).pc = p at *
    cases p <;> simp only [holdsM] at hM' <;> (try (cases hM'; done)) <;> (try exact hC.elim)
    · apply Moves.client (t := 0) (c := .go)
      · simp only [Algo.step, n0, if_true, hp, stepPush, hmr]; rfl
      · rfl
      · simp [go_pc, hp, cRank]
    · have hsm : s.sm = none := by
        refine hI.smFree hL (by rw [hp]; rfl) ?_
        rw [hr]
        obtain ⟨_, rfl⟩ := hC
        exact hO.quietS h8
      apply Moves.client (t := 0) (c := .go)
      · simp only [Algo.step, n0, if_true, hp, stepPush, hmr, hsm]; rfl
      · rfl
      · simp [go_pc, hp, cRank]
    · apply Moves.client (t := 0) (c := .go)
      · simp only [Algo.step, n0, if_true, hp, stepInit, hmr]; rfl
      · rfl
      · simp [go_pc, hp, cRank]
    · apply Moves.client (t := 0) (c := .go)
      · simp only [Algo.step, n0, if_true, hp, stepInit, hmr]; rfl
      · rfl
      · simp [go_pc, hp, cRank]
  have hM : holdsM (s.thr 0).pc = false := by simpa using hM'
  clear hM'
  have hma := hI.maFree hL hM (hr ▸ hrM)
  by_cases hN' : notifPc s ≠ .nl0
  · have h2 : 2 ≤ s.n := by
      by_contra h
      rw [notifPc, if_neg h] at hN'; exact hN' rfl
    have h1 : 1 < s.n := h2
    rw [notifPc, if_pos h2] at hN'
    have hno := hI.notif h2
    generalize hp : (s.thr 1).pc = p at *
    cases p <;> first | exact hno.elim | exact absurd rfl hN' | skip
    · refine Moves.notif (t := 1) (c := .go) (p := .nl0) ?_ rfl h2 (by rw [hp]; exact Nat.le_of_ble_eq_true rfl)
      simp only [Algo.step, h1, if_true, hp, stepHome, hI.kind1 h2]
    · refine Moves.notif (t := 1) (c := .go) (p := if conf.notifier then .home else .nl0) ?_ rfl h2 ?_
      · simp only [Algo.step, h1, if_true, hp, stepNotif, hma]
      · rw [hp]; split <;> exact Nat.le_of_ble_eq_true rfl
  have hN : notifPc s = .nl0 := by simpa using hN'
  clear hN'
  have hNo : s.status.value ≠ .created → 1 < s.n ∧ (s.thr 1).pc = .nl0 := by
    intro h
    have h1 : 1 < s.n := by
      have := mt hI.born.2 h
      omega
    refine ⟨h1, ?_⟩
    rw [notifPc, if_pos (by omega)] at hN; exact hN
  have hsm : ph = .quiet d → holdsS (s.thr 0).pc = false → s.sm = none := by
    rintro rfl h0
    exact hI.smFree hL h0 (hr ▸ hO.quietS h8)
  generalize hp : (s.thr 0).pc = p at *
  cases p
  case home => exact absurd rfl hh
  case rdStatus => cgo .go using hsm hC.2 rfl
  case rdCentroids => cgo .go using hma
  case rdFigures => cgo .go using hma
  case rdConf => cgo .go using hma
  case pu0 => cgo .go using hsm hC.2 rfl
  case pu1 => cgo (.pushRet none) using hma
  case pu2 => cgo .go using hma
  case pu5 =>
    have := hI.newData hp
    apply Moves.client (t := 0) (c := .go)
    · simp only [Algo.step, n0, if_true, hp, stepPush, hma]; rfl
    · rfl
    · simp [this, hp, cRank]
  case in0 =>
    apply Moves.client (t := 0) (c := .go)
    · simp only [Algo.step, n0, if_true, hp, stepInit, hsm hC.2 rfl]; rfl
    · rfl
    · simp only [go_pc, if_true, hp, beginPc]; split <;> exact Nat.le_of_ble_eq_true rfl
  case in1 k => cgo .go using hma
  case in3 k =>
    apply Moves.client (t := 0) (c := .go)
    · simp only [Algo.step, n0, if_true, hp, stepInit]; rfl
    · rfl
    · simp [go_pc, hp, cRank]
  case in4 k =>
    obtain ⟨_, _, rfl⟩ := hC
    obtain ⟨n1, hN⟩ := hNo (by rw [hO.1]; decide)
    cnot
  case in5 k => cgo (.initRet none none) using hma
  case in6 k c e => cgo .go using hma
  case in8 k e => cgo .go using hC.1
  case in9 k e =>
    obtain ⟨rfl, _, _, rfl⟩ := hC
    obtain ⟨n1, hN⟩ := hNo (by rw [hO.1]; decide)
    cnot
  case in10 k e =>
    rcases k with _ | _
    · cgo .go using hma
    · have he : e = none := by rcases hC with h | h; exact h.1; cases h.2.1
      subst he
      apply Moves.client (t := 0) (c := .go)
      · simp only [Algo.step, n0, if_true, hp, stepInit, ne_eq, not_true, false_and, if_false]; rfl
      · rfl
      · simp [go_pc, hp, cRank]
  case pl0 =>
    have h := hsm hC.2 rfl
    obtain ⟨_, rfl⟩ := hC
    cases hv : s.status.value
    case initializing => rw [← hO.1, hv] at hO; exact hO.2.elim
    case finished => cgo .go using h, hv
    case created => cgo .go using h, hv
    all_goals cgo .go using h, hv
  case pl1 => cgo .go using hma
  case pl2 =>
    cases ht : s.timeout
    all_goals cgo .go using ht
  case pl3 => cgo .go using hma, hc.2.1
  case pa0 =>
    have h := hsm hC.2 rfl
    by_cases hv : s.status.value = .running
    all_goals cgo .go using h, hv
  case it0 e =>
    have h := hsm hC.2.2.2 rfl
    cases hv : s.status.value
    all_goals cgo .go using h, hv
  case it1 e =>
    obtain ⟨rfl, _, _, rfl⟩ := hC
    obtain ⟨n1, hN⟩ := hNo (by rw [hO.1]; decide)
    cnot
  case it2 => cgo .go using hma
  case it3 => cgo .go using hma
  case wa0 c b =>
    have h := hsm hC.2.2.2 rfl
    cases hv : s.status.value
    all_goals cgo .go using h, hv
  case wa1 c b =>
    obtain ⟨rfl, rfl, _⟩ := hC
    obtain ⟨e1, e2, e3, e4, e5⟩ := hw1 _ _ rfl
    cgo .go using hma, e1, e2, e4, e5, Bool.not_false, Bool.and_self, beq_self_eq_true
  case wa2 c b => exact absurd rfl (hw2 c b)
  case sd0 st k => cgo .go using hma
  case sd2 k => cgo .go using hma
  case sd1 st k =>
    obtain ⟨_, _, rfl⟩ := hC
    have hrun : k = .pause ∨ k = .interrupt → s.status.value = .running → InLoop r → Moves conf s := by
      intro hk hv hl
      obtain ⟨e3, e4, e5⟩ := hc
      have hit : iterDone conf s = false := hw3 _ _ rfl hk
      cases r <;> first | exact hl.elim | skip
      case r6 => rgo .go using hv
      case r7 => rgo .go using hma, hit, e5
      case r9 => rrecv
      case rI => rgo .iterNil using hma
      case rS c => rgo .go using hma
      case rS' c => exact absurd ⟨c, rfl⟩ hS
    cases k
    case playIdle => obtain ⟨_, rfl, _⟩ := hO; rrecv
    case playRun =>
      rcases hO.2 with rfl | ⟨rfl, _⟩
      · rgo .go using hma
      · rrecv
    case pause => exact hrun (.inl rfl) hO.1 hO.2.1
    case interrupt => exact hrun (.inr rfl) hO.1 hO.2.1
  case sd3 a k =>
    obtain ⟨hs, rfl, rfl⟩ := hC
    have hsmr : holdsS r = false → s.sm = none := fun h => hI.smFree hL (by rw [hp]; rfl) (hr ▸ h)
    have hst : k = .playRun ∨ k = .playIdle → Starting s.ack s.status.value r ∧ s.ack ∉ s.closed → Moves conf s := by
      rintro hk ⟨ho, hcl⟩
      cases r <;> first | exact ho.elim | skip
      case r2 st => rgo .go using hsmr rfl
      case r3 st =>
        obtain ⟨n1, hN⟩ := hNo (by rw [ho.2]; decide)
        rnot using hma
      case r4 i => rgo .go using hma
      case r5 i a =>
        obtain ⟨rfl, rfl, _⟩ := ho
        rcases hk with rfl | rfl <;> cack
    cases k
    case playRun => exact hst (.inl rfl) hO
    case playIdle => exact hst (.inr rfl) hO
    case pause =>
      obtain ⟨ho, hcl⟩ := hO
      cases r <;> first | exact ho.elim | skip
      case r10 st => rgo .go using hsmr rfl
      case r11 st =>
        obtain ⟨n1, hN⟩ := hNo (by rw [ho.2]; decide)
        have : st.value = .idle := by rw [ho.1]; rfl
        rnot using this
      case r4 i => rgo .go using hma
      case r5 i a =>
        obtain ⟨rfl, rfl, _⟩ := ho
        cack
    case interrupt =>
      have hdone : s.ack ∈ s.closed → Moves conf s := by
        intro hcl
        cgo .go using hcl, sent
      have hsnd : sending r = none → s.noSender = true := by
        intro h
        rw [noSender, decide_eq_true_iff]
        intro j _
        have := hI.other hL (fun p => (sending p).isSome) rfl
          (fun p h => by cases p <;> first | rfl | exact h.elim) (by rw [hp]; rfl) (by rw [hr, h]; rfl) j
        simpa using this
      have hack : acking r = none → ∀ j < s.n, (acking (s.thr j).pc).map (·.1) ≠ some s.ack := by
        intro h j _
        have := hI.other hL (fun p => (acking p).isSome) rfl
          (fun p h => by cases p <;> first | rfl | exact h.elim) (by rw [hp]; rfl) (by rw [hr, h]; rfl) j
        rw [Option.isSome_eq_false_iff, Option.isNone_iff_eq_none] at this
        rw [this]; rintro ⟨⟩
      cases r <;> first | exact hO.elim | skip
      case r10 st => rgo .go using hsmr rfl
      case r11 st =>
        obtain ⟨n1, hN⟩ := hNo (by rw [hO.2.1]; decide)
        have : st.value ≠ .idle := by rw [hO.1]; decide
        rnot using this
      case r6 =>
        have : s.status.value ≠ .running := by rw [hO.1]; decide
        rgo .go using this
      case r12 =>
        have : s.status.value ≠ .running := by rw [hO.1]; decide
        rgo .go using this
      case c0 p =>
        obtain ⟨rfl, _⟩ := hO
        rgo .go using hsmr rfl
      case c2 p => rgo .go using hma
      case c3 p => exact absurd ⟨p, rfl⟩ h3
      case c4 p => rgo .default using hsnd rfl
      case c6 =>
        have := And.intro hO.2 (hack rfl)
        rgo .default using if_pos this
      case c7 => rgo .go using hma
      case c8 => exact absurd rfl h8
      case dead => exact hdone hO.2
  all_goals first | exact hC.elim | (cases hM; done) | exact absurd rfl h6

/-! ## From the start -/

theorem UseInv.start (h0 : fol [] = some .created) : UseInv fol ((new : Algo C).spawn .client .home) where
  pos := Nat.le_refl 1
  others j _ h := absurd h (by rw [spawn_n]; show ¬ j + 1 < 0 + 1; omega)
  notif h := absurd h (by rw [spawn_n]; show ¬ 2 ≤ 0 + 1; omega)
  kind0 := rfl
  kind1 h := absurd h (by rw [spawn_n]; show ¬ 2 ≤ 0 + 1; omega)
  born := ⟨fun _ => rfl, fun _ => rfl⟩
  row := ⟨none, .created, .quiet .created, ⟨rfl, h0⟩, ⟨rfl, rfl⟩, ⟨rfl, rfl⟩⟩
  err := rfl
  push h := by cases h
  newData h := by cases h
  full j h := by cases h

theorem Peaceful_tail (h : Step conf s s') (hP : Peaceful s'.log) : Peaceful s.log := by
  rcases h.log with ⟨e, _⟩ | ⟨e, h1, _⟩
  · rw [← e]; exact hP
  · rw [h1] at hP; exact hP.2

/-- Where a waiting goroutine comes from. -/
theorem Edge.wa2 {p p' : PC C} (h : Edge conf s u p p') (hp : p' = .wa2 false false) :
    p = .wa2 false false ∨ (!false && !false && !conf.finishing && !conf.timeout && conf.iter == 0 &&
      conf.iterPerData == 0) = false := by
  cases h <;> first
    | (cases hp; done)
    | (cases hp; exact .inl rfl)
    | (cases hp; exact .inr (by assumption))
    | (unfold back at hp; split at hp <;> cases hp; done)
    | (split at hp <;> cases hp; done)
    | (unfold beginPc at hp; split at hp <;> cases hp; done)
    | (rename_i op _; cases op <;> cases hp; done)
    | (cases ‹SendFrom› <;> simp only [sentPc, back] at hp <;> (try split at hp) <;> (cases hp; done))

/-- Without a limit nobody waits in vain. -/
def NoWait (s : Algo C) : Prop := ∀ t, (s.thr t).pc ≠ .wa2 false false

theorem NoWait.step (hc : Endless conf) (hL : LockInv s) (hI : NoWait s) (h : Step conf s s') : NoWait s' := by
  intro t ht
  rcases h.edge hL t with e | e
  · dsimp only at e; rw [ht] at e; exact hI t e.symm
  · dsimp only at e
    rw [ht] at e
    generalize hp : (s.thr t).pc = p at e
    obtain ⟨e1, e2, e3, e4, e5⟩ := hc
    rcases e.wa2 rfl with rfl | h
    · exact hI t hp
    · simp [e1, e2, e4, e5] at h

theorem noEnd (hc : Endless conf) (t : Nat) (ht : t < s.n) (hp : (s.thr t).pc = .r7) (hm : s.ma = none)
    (hd : iterDone conf s = true) : s' ≠ s.go t .r12 := by
  simp [iterDone, hc.1, hc.2.1] at hd

theorem UseInv.movesE (hc : Endless conf) (hA : AckInv s) (hW : NoWait s) (hI : UseInv fol s)
    (hh : (s.thr 0).pc ≠ .home) : Moves conf s := by
  refine hI.moves hc.2.2 hA hh (fun _ _ _ => hc) (fun c b h => ?_) (fun _ _ _ _ => by simp [iterDone, hc.1, hc.2.1])
  obtain ⟨op, d, ph, _, hC, _⟩ := hI.row
  rw [h] at hC
  obtain ⟨rfl, rfl, _⟩ := hC
  exact hW 0 h

theorem exec_useInv (hc : Endless conf) : ∀ (as : List (Act C)) (s : Algo C), .client ∉ as →
    (AckInv s ∧ NoWait s ∧ (Peaceful s.log → UseInv follows s)) → exec conf s as = some s' →
    AckInv s' ∧ NoWait s' ∧ (Peaceful s'.log → UseInv follows s') := by
  intro as
  induction as with
  | nil => intro s _ hI he; cases he; exact hI
  | cons a as ih =>
    intro s hn hI he
    cases a with
    | client => exact absurd List.mem_cons_self hn
    | act t c =>
      simp only [exec, next] at he
      cases hs : s.step conf t c with
      | none => rw [hs] at he; cases he
      | some s1 =>
        rw [hs] at he
        have hst := Step.of_step hs
        exact ih s1 (fun h => hn (List.mem_cons_of_mem _ h))
          ⟨hI.1.step hst, hI.2.1.step hc hI.1.lock hst, fun hP => (hI.2.2 (Peaceful_tail hst hP)).step hc.2.2 .follows hI.1 hst
            (step_noClient hs) (peaceful_mild hP) (noEnd hc)⟩ he

theorem UseInv.of_oneClient (hc : Endless conf) (h : OneClient conf s) (hP : Peaceful s.log) :
    AckInv s ∧ NoWait s ∧ UseInv follows s := by
  obtain ⟨as, hn, he⟩ := h
  have := exec_useInv hc as ((new : Algo C).spawn .client .home) hn
    ⟨Reachable.ack (conf := conf) ⟨[.client], rfl⟩, fun t => by rw [spawn_pc]; split <;> rintro ⟨⟩, fun _ => UseInv.start rfl⟩ he
  exact ⟨this.1, this.2.1, this.2.2 hP⟩

theorem UseInv.returns (hc : Endless conf) {l : List (Event C)} : ∀ (n : Nat) (s : Algo C), rank s ≤ n →
    AckInv s → NoWait s → UseInv follows s → Peaceful s.log → Gains l s.log →
    ∃ as s', Act.client ∉ as ∧ exec conf s as = some s' ∧ (s'.thr 0).pc = .home ∧ UseInv follows s' ∧
      Peaceful s'.log ∧ Gains l s'.log := by
  intro n
  induction n with
  | zero =>
    intro s hr hA hW hI hP hG
    by_cases hh : (s.thr 0).pc = .home
    · exact ⟨[], s, List.not_mem_nil, rfl, hh, hI, hP, hG⟩
    · obtain ⟨_, _, _, _, _, h⟩ := hI.movesE hc hA hW hh
      omega
  | succ n ih =>
    intro s hr hA hW hI hP hG
    by_cases hh : (s.thr 0).pc = .home
    · exact ⟨[], s, List.not_mem_nil, rfl, hh, hI, hP, hG⟩
    · obtain ⟨t, c, s1, h1, h2, h3⟩ := hI.movesE hc hA hW hh
      have hl := step_calm h1 h2
      have hst := Step.of_step h1
      obtain ⟨as, s', i1, i2, i3⟩ := ih s1 (by omega) (hA.step hst) (hW.step hc hA.lock hst)
        (hI.step hc.2.2 .follows hA hst (step_noClient h1) (peaceful_mild (hl.peaceful hP)) (noEnd hc)) (hl.peaceful hP) (hl.gains hG)
      refine ⟨.act t c :: as, s', ?_, ?_, i3⟩
      · intro h
        rcases List.mem_cons.1 h with h | h
        · cases h
        · exact i1 h
      · simp only [exec, next, h1]; exact i2

end Algo
end Distclus
