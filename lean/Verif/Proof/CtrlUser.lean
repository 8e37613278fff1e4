import Verif.Spec.CtrlUser
import Verif.Proof.CtrlLock
/-!
# Panics of the code of the user: proofs

An execution with panics is matched by an execution without: `slow` is the matching state, where the goroutines
blocked in a send on `statusChannel` are still in front of it.
-/
namespace Distclus
open Ctrl Spec
namespace Algo
variable {C : Type}

set_option linter.unusedSimpArgs false
set_option linter.unusedTactic false
set_option linter.unusedVariables false
set_option linter.unnecessarySeqFocus false
set_option linter.unreachableTactic false

/-- The matching program counter. -/
def slow : PC C → PC C
  | .sd1 st k => .sd0 st k
  | p => timedPc p

/-- The matching state. -/
def slowed (s : Algo C) (l : List (Event C)) : Algo C :=
  { s with thr := fun j => { s.thr j with pc := slow (s.thr j).pc }, log := l }

variable {conf : Conf} {s s' : Algo C} {l : List (Event C)}

theorem slowed_go (t : Nat) (p : PC C) : slowed (s.go t p) l = (slowed s l).go t (slow p) := by
  simp only [slowed, go]; congr 1; funext j; split <;> rfl
theorem slowed_ev (e e' : Event C) : slowed (s.ev e) (e' :: l) = (slowed s l).ev e' := rfl
theorem slowed_put (st : OCStatus) : slowed (s.put st) (.set st :: l) = (slowed s l).put st := rfl
theorem slowed_spawn (k : Kind) (p : PC C) : slowed (s.spawn k p) l = (slowed s l).spawn k (slow p) := by
  simp only [slowed, spawn]; congr 1; funext j; by_cases h : j = s.n <;> simp [h]
theorem slowed_noSender : (slowed s l).noSender = true := by
  unfold noSender; apply decide_eq_true; intro j _
  simp only [slowed]
  cases (s.thr j).pc <;> simp [slow, timedPc, sending]
  all_goals (rename_i c _; cases c <;> simp)

theorem slow_notifying {q p : PC C} {st : OCStatus} (h : notifying q = some (st, p)) :
    notifying (slow q) = some (st, p) ∧ slow p = p := by
  rcases notifying_some h with ⟨k, rfl, rfl, rfl⟩ | ⟨k, rfl, rfl, rfl⟩ | ⟨k, e, rfl, rfl, rfl⟩ | ⟨e, rfl, rfl, rfl⟩ |
    ⟨rfl, rfl⟩ | ⟨rfl, hv, rfl⟩ | ⟨rfl, hv, rfl⟩ | ⟨rfl, rfl, rfl⟩ | ⟨e, rfl, rfl, rfl⟩ | ⟨e, rfl, rfl, rfl⟩ | ⟨rfl, rfl⟩ <;>
    simp_all [slow, timedPc, notifying]

theorem slowed_go_same {t : Nat} {p : PC C} (h : slow p = slow (s.thr t).pc) : slowed (s.go t p) l = slowed s l := by
  simp only [slowed, go]; congr 1; funext j; by_cases hj : j = t
  · subst hj; simp [h]
  · simp [hj]

theorem slow_acking {q : PC C} : acking (slow q) = acking q := by
  cases q <;> simp [slow, timedPc, acking]
  all_goals (rename_i c _; cases c <;> simp)

theorem slow_beginPc (v : ClustStatus) (k : InitFrom) : slow (beginPc v k : PC C) = beginPc v k := by
  cases v <;> rfl

/-- The event of the end of a call. -/
def retEvent (s : Algo C) (t : Nat) (r : Res C) : List (Event C) := if (s.thr t).inPush then [] else [.ret t r]

theorem ret_log' (s : Algo C) (t : Nat) (r : Res C) : (s.ret t r).log = retEvent s t r ++ s.log := by
  unfold Algo.ret retEvent; split <;> rfl

theorem slowed_ret (s : Algo C) (t : Nat) (r : Res C) (l : List (Event C)) :
    slowed (s.ret t r) ((retEvent s t r).map timedEv ++ l) = (slowed s l).ret t r := by
  unfold Algo.ret retEvent
  have : ((slowed s l).thr t).inPush = (s.thr t).inPush := rfl
  rw [this]; split
  · exact slowed_go _ _
  · exact slowed_go _ _

macro "simu" : tactic => `(tactic| (
  (try simp only [slowed_go, slowed_put, slowed_ev, slowed_spawn, timedEv, List.map, List.nil_append, List.cons_append])
  simp [exec, next, step, slowed, slow, timedPc, stepPush, stepInit, stepPlay, stepPause, stepInterrupt, stepSend, stepWait, stepRun, stepRecover, stepNotif, stepTimer, stepRead, stepHome, entry, sent, acking, sending, autoPlay, iterDone, beginPc, apply_ite slow, *]; done))

macro "sim0" : tactic => `(tactic| (
  refine ⟨[], [], rfl, ?_⟩
  simp only [exec, List.map, List.nil_append]
  rw [slowed_go_same]; simp [slow, timedPc, *]))

macro "sim1" t:term "," c:term : tactic => `(tactic| (
  first
  | (refine ⟨[], [.act $t $c], rfl, ?_⟩; simu)
  | (refine ⟨[_], [.act $t $c], rfl, ?_⟩; simu)))

macro "simr" t:term "," c:term : tactic => `(tactic| (
  refine ⟨_, [.act $t $c], ret_log' _ _ _, ?_⟩
  rw [slowed_ret]; simu))

theorem go_go (t : Nat) (p q : PC C) : (s.go t p).go t q = s.go t q := by
  simp only [go]; congr 1; funext j; by_cases hj : j = t <;> simp [hj]

theorem slowed_send {j : Nat} (hj : j < s.n) {st : OCStatus} {k : SendFrom} (hq : (s.thr j).pc = .sd1 st k) :
    (slowed s l).next conf (.act j .go) = some ((slowed s l).go j (.sd1 st k)) := by
  simp [next, step, slowed, hj, hq, slow, stepSend]

theorem slowed_pc (j : Nat) : ((slowed s l).thr j).pc = slow (s.thr j).pc := rfl
theorem slowed_n : (slowed s l).n = s.n := rfl
theorem slowed_sm : (slowed s l).sm = s.sm := rfl
theorem slowed_ma : (slowed s l).ma = s.ma := rfl
theorem slowed_ack : (slowed s l).ack = s.ack := rfl
theorem slowed_closed : (slowed s l).closed = s.closed := rfl
theorem slowed_status : (slowed s l).status = s.status := rfl
theorem slowed_centroids : (slowed s l).centroids = s.centroids := rfl
theorem slowed_iterDone : iterDone conf (slowed s l) = iterDone conf s := rfl

macro "sim3" t:term "," c:term "," p:term : tactic => `(tactic| (
  have hsl : slow (s.thr $t).pc = $p := by rw [‹(s.thr _).pc = $p›]; rfl
  first
  | (refine ⟨[], [.act $t $c], rfl, ?_⟩
     simp only [slowed_go, List.map, List.nil_append]
     simp [exec, next, step, stepRun, stepRecover, stepNotif, slowed_pc, slowed_n, slowed_sm, slowed_ma, slowed_ack, slowed_closed, slowed_status, slowed_centroids, slowed_iterDone,
       slowed_noSender, slow_acking, hsl, slow.eq_2, timedPc, *]
     done)
  | (refine ⟨[_], [.act $t $c], rfl, ?_⟩
     simp only [slowed_go, slowed_put, slowed_ev, List.map, timedEv, List.nil_append, List.cons_append]
     simp [exec, next, step, stepRun, stepRecover, stepNotif, slowed_pc, slowed_n, slowed_sm, slowed_ma, slowed_ack, slowed_closed, slowed_status, slowed_centroids, slowed_iterDone,
       slowed_noSender, slow_acking, hsl, slow.eq_2, timedPc, *]
     done)))

macro "sim2" t:term "," j:term "," p:term : tactic => `(tactic| (
  have hsl : slow (s.thr $t).pc = $p := by rw [‹(s.thr _).pc = $p›]; rfl
  have htj : $t ≠ $j := by
    rintro rfl; simp_all
  first
  | (refine ⟨[], [.act $j .go, .act $t (.recv $j)], rfl, ?_⟩
     simp only [slowed_go, exec, slowed_send ‹_› ‹(s.thr $j).pc = _›, List.map, List.nil_append]
     simp [next, step, stepRun, stepRecover, go_pc, go_n, slowed_pc, slowed_n, sending, go_go, htj, slow.eq_2, timedPc, hsl, *]
     done)
  | (refine ⟨[_], [.act $j .go, .act $t (.recv $j)], rfl, ?_⟩
     simp only [slowed_go, slowed_put, exec, slowed_send ‹_› ‹(s.thr $j).pc = _›, List.map, timedEv, List.nil_append, List.cons_append]
     simp [next, step, stepRun, stepRecover, go_pc, go_n, slowed_pc, slowed_n, sending, go_go, htj, slow.eq_2, timedPc, hsl, *]
     done)))

/-- Every action is matched. -/
theorem sim_step (h : Step conf s s') (l : List (Event C)) : ∃ es as, s'.log = es ++ s.log ∧
    exec conf (slowed s l) as = some (slowed s' (es.map timedEv ++ l)) := by
  cases h
  case client => exact ⟨[], [.client], rfl, by simp [exec, next, slowed_spawn, slow, timedPc]⟩
  case call t ht hp op hk =>
    cases op
    case wait a b =>
      cases a
      · sim1 t, .call (.wait false b)
      · sim1 t, .call (.wait true true)
    case status => sim1 t, .call .status
    case centroids => sim1 t, .call .centroids
    case figures => sim1 t, .call .figures
    case conf => sim1 t, .call .conf
    case init => sim1 t, .call .init
    case play => sim1 t, .call .play
    case pause => sim1 t, .call .pause
    case stop => sim1 t, .call .stop
    case push => sim1 t, .call .push
  case notifRet t ht hp hk => sim1 t, .go
  case rdStatus t ht hp hs => simr t, .go
  case rdCentroids t ht hp hm => simr t, .go
  case rdFigures t ht hp hm => simr t, .go
  case rdConf t ht hp hm => simr t, .go
  case pu0 t ht hp hs => sim1 t, .go
  case pu0' t ht hp => sim1 t, .default
  case pu1 t ht hp => sim1 t, .pushRet none
  case pu1Err t ht hp e => simr t, .pushRet (some e)
  case pu2 t ht hp hm => sim1 t, .go
  case pu3 t ht hp hr => sim1 t, .go
  case pu4 t ht hp hs => sim1 t, .go
  case pu5 t ht hp hm => 
    refine ⟨[], [.act t .go], rfl, ?_⟩
    have hsl : ((slowed s l).thr t).pc = .pu5 := by rw [slowed_pc, hp]; rfl
    simp only [exec, next, step, stepPush, hsl, slowed_n, ht, slowed_ma, hm, if_true, List.map, List.nil_append, Option.some.injEq]
    simp only [slowed]; congr 1; funext j
    by_cases hj : j = t
    · by_cases h0 : s.newData = 0 <;> simp [hj, h0, slow, timedPc]
    · simp [hj]
  case pu6 t ht hp => 
    refine ⟨[_], [.act t .go], rfl, ?_⟩
    have hsl : ((slowed s l).thr t).pc = .pu6 := by rw [slowed_pc, hp]; rfl
    simp only [exec, next, step, stepPush, hsl, slowed_n, ht, if_true, List.map, List.nil_append, List.cons_append, timedEv, Option.some.injEq]
    simp only [slowed]; congr 1; funext j
    by_cases hj : j = t
    · simp [hj, slow, timedPc]
    · simp [hj]
  case in0 t ht hp hs => rcases hv : s.status.value <;> simp only [beginPc, hv] <;> sim1 t, .go
  case in1 t ht k hp hm => sim1 t, .go
  case in2 t ht k hp hr => sim1 t, .go
  case in3Created t ht k hp hv => sim1 t, .go
  case in3 t ht k hp hv => sim1 t, .go
  case in5Read t ht k hp hm => sim0
  case in5 t ht k hp c e => sim1 t, .initRet c e
  case in6 t ht k c e hp hm => sim1 t, .go
  case in7 t ht k c e hp hr => sim1 t, .go
  case in8 t ht k hp => sim1 t, .go
  case in8Err t ht k e hp => sim1 t, .go
  case in10 t ht e hp => simr t, .go
  case in10Err t ht e hp he => simr t, .go
  case in10Play t ht e hp he => sim1 t, .go
  case pl0Idle t ht hp hs hv => sim1 t, .go
  case pl0Init t ht hp hs hv => rcases hv with hv | hv <;> simp only [beginPc, hv] <;> sim1 t, .go
  case pl0Ready t ht hp hs hv => sim1 t, .go
  case pl0Running t ht hp hs hv => simr t, .go
  case pl0Initializing t ht hp hs hv => simr t, .go
  case pl1 t ht hp => sim1 t, .go
  case pl2 t ht hp hi => sim1 t, .go
  case pl2Disable t ht hp i hi => sim1 t, .go
  case pl3Timeout t ht hp hm hc => simr t, .go
  case pl3 t ht hp hm hc => simr t, .go
  case pa0 t ht hp hs hv => sim1 t, .go
  case pa0Err t ht hp hs hv => simr t, .go
  case it0Ready t ht e hp hs hv => sim1 t, .go
  case it0 t ht e hp hs hv => rcases hv with hv | hv <;> sim1 t, .go
  case it0Err t ht e hp hs hv => simr t, .go
  case it2 t ht hp => simr t, .go
  case it3 t ht hp => simr t, .go
  case sd0 t ht st k hp => sim0
  case sd2 t ht k hp => sim1 t, .go
  case sd3Closed t ht a k hp ha => 
    cases k <;> simp only [sent]
    · simr t, .go
    · sim1 t, .go
    · simr t, .go
    · sim1 t, .go
  case sd3 t ht a k hp j hj i hq ha => 
    cases i <;> cases k <;> simp only [sent, if_true, if_false, Bool.false_eq_true]
    · simr t, .recv j
    · sim1 t, .recv j
    · simr t, .recv j
    · sim1 t, .recv j
    · simr t, .recv j
    · sim1 t, .recv j
    · simr t, .recv j
    · sim1 t, .recv j
  case wa0Running t ht c d hp hs hv => cases c <;> sim1 t, .go
  case wa0 t ht c d hp hs e hv hn => subst hv; cases c <;> rcases hv : s.status.value <;> (try exact absurd hv hn) <;> simr t, .go
  case wa1Never t ht c d hp hm hn => cases c <;> simp at hn <;> simr t, .go
  case wa1 t ht c d hp hm hn => 
    cases c
    · cases d <;> cases hf : conf.finishing <;> cases ht : conf.timeout <;> by_cases hi : conf.iter = 0 <;>
        by_cases hi2 : conf.iterPerData = 0 <;> simp [hf, ht, hi, hi2] at hn <;> sim1 t, .go
    · sim1 t, .go
  case wa2Done t ht c d hp hc => 
    cases c
    · obtain ⟨hs, hv⟩ := hc rfl
      sim1 t, .go
    · sim1 t, .answer true
  case wa2Again t ht c d hp => sim0
  case wa2Timeout t ht c hp => cases c <;> simr t, .default
  case wa3 t ht hp hs => simr t, .go
  case r0 t ht hp => sim1 t, .go
  case r1 t ht hp j hj st k hq => sim2 t, j, .r1
  case r2 t ht st hp hs => sim1 t, .go
  case r4 t ht i hp => sim1 t, .go
  case r5Closed t ht i a hp ha => sim1 t, .go
  case r6 t ht hp hv => sim1 t, .go
  case r6Exit t ht hp hv => sim1 t, .go
  case r7Done t ht hp hm hd => sim3 t, .go, .r7
  case r7 t ht hp hm hd => by_cases hf : conf.finishing = true <;> simp only [hf, if_true, if_false, Bool.false_eq_true] <;> sim3 t, .go, .r7
  case r8Done t ht hp => sim1 t, .answer true
  case r8 t ht hp => sim1 t, .answer false
  case r9 t ht hp j hj st k hq => sim2 t, j, .r9
  case r10 t ht st hp hs => sim1 t, .go
  case r9Default t ht hp hn => sim3 t, .default, .r9
  case iterNil t ht hp => sim1 t, .iterNil
  case iterOk t ht hp c => sim1 t, .iterOk c
  case iterErr t ht hp e => sim1 t, .iterErr e
  case iterPanic t ht hp e => sim1 t, .iterPanic e
  case rS t ht c hp hm => sim1 t, .go
  case rS' t ht c hp hr => sim1 t, .go
  case r12 t ht hp hv => sim1 t, .go
  case r12Exit t ht hp hv => sim1 t, .go
  case r13 t ht hp hs => sim1 t, .go
  case r15 t ht e hp hs => sim1 t, .go
  case c0 t ht hp hs => sim1 t, .go
  case c0Panic t ht e hp hs => sim1 t, .go
  case c2 t ht p hp hm => sim1 t, .go
  case c3 t ht p hp hr => sim1 t, .go
  case c4 t ht hp j hj st k hq => sim2 t, j, .c4 none
  case c4Panic t ht e hp j hj st k hq => sim2 t, j, .c4 (some e)
  case c4Default t ht p hp hn => sim3 t, .default, .c4 p
  case c6Closed t ht hp ha => sim1 t, .go
  case c6 t ht hp j hj i hq ha => 
    have hjs : acking ((slowed s l).thr j).pc = some (s.ack, if i then .r1 else .r6) := by
      rw [slowed_pc, slow_acking, hq]; rfl
    have hi : slow (if i then .r1 else .r6 : PC C) = if i then .r1 else .r6 := by cases i <;> rfl
    have hsl : ((slowed s l).thr t).pc = .c6 := by rw [slowed_pc, hp]; rfl
    refine ⟨[], [.act t (.recv j)], rfl, ?_⟩
    simp only [slowed_go, List.map, List.nil_append, hi]
    simp [exec, next, step, stepRecover, hsl, hjs, slowed_n, ht, hj, slowed_ack, slowed_closed, ha, slow.eq_2, timedPc]
  case c6Default t ht hp ha hn => 
    have hsl : ((slowed s l).thr t).pc = .c6 := by rw [slowed_pc, hp]; rfl
    have hna : ∀ j < s.n, (acking ((slowed s l).thr j).pc).map (·.1) ≠ some s.ack := by
      intro j hj
      rw [slowed_pc, slow_acking]
      cases hpc : (s.thr j).pc <;> simp [acking]
      rintro rfl; exact hn j hj _ hpc
    refine ⟨[], [.act t .default], rfl, ?_⟩
    simp only [slowed_go, List.map, List.nil_append]
    have hc : (slowed s l).ack ∉ (slowed s l).closed ∧
        ∀ j < (slowed s l).n, (acking ((slowed s l).thr j).pc).map (·.1) ≠ some (slowed s l).ack := ⟨ha, hna⟩
    have ht' : t < (slowed s l).n := ht
    simp only [exec, next, step, stepRecover, hsl, ht', if_true]
    rw [if_pos hc]; rfl
  case c7 t ht hp => sim1 t, .go
  case c8 t ht hp => sim1 t, .go
  case nl0 t ht hp j hj st p hq => 
    obtain ⟨hq', hpp⟩ := slow_notifying hq
    have hsl : ((slowed s l).thr t).pc = .nl0 := by rw [slowed_pc, hp]; rfl
    refine ⟨[_], [.act t (.recv j)], rfl, ?_⟩
    simp only [slowed_go, slowed_ev, timedEv, List.map, List.nil_append, List.cons_append, hpp]
    simp [exec, next, step, stepNotif, hsl, slowed_pc, hq', slowed_n, ht, hj, slow.eq_2, timedPc]
  case nl1 t ht st hp hm => by_cases hf : conf.notifier = true <;> simp only [hf, if_true, if_false, Bool.false_eq_true] <;> sim3 t, .go, .nl1 st
  case ti0 t ht hp hd => sim1 t, .go
  case ti0Fire t ht hp hd => sim1 t, .go

theorem exec_reachable {a : Algo C} (h : Reachable conf s) {as : List (Act C)} (he : exec conf s as = some a) :
    Reachable conf a := by
  obtain ⟨bs, hb⟩ := h
  exact ⟨bs ++ as, by rw [exec_append, hb]; exact he⟩

theorem logLike_nil : LogLike ([] : List (Event C)) [] := ⟨by simp, by simp⟩

theorem logLike_append {l0 l : List (Event C)} (h : LogLike l0 l) (es : List (Event C)) :
    LogLike (es ++ l0) (es.map timedEv ++ l) := by
  refine ⟨?_, ?_⟩
  · rw [List.map_append]; exact (List.Sublist.refl _).append h.1
  · rw [List.map_append, List.filter_append, List.filter_append, h.2]

theorem logLike_cons {l0 l : List (Event C)} (h : LogLike l0 l) {e : Event C} (he : standsFor e = true) :
    LogLike l0 (e :: l) :=
  ⟨h.1.cons _, by rw [List.filter_cons_of_neg (by simp [he]), h.2]⟩

/-- A panic is matched. -/
theorem sim_panic {t : Nat} {e : Err} (h : s.userPanic t e = some s') (hr : Reachable conf (slowed s l))
    (hl : LogLike s.log l) : ∃ l', Reachable conf (slowed s' l') ∧ LogLike s'.log l' := by
  unfold userPanic at h
  split at h
  case isFalse => cases h
  rename_i ht
  have ht' : t < (slowed s l).n := ht
  split at h
  case h_1 hp =>
    cases h
    have hsl : ((slowed s l).thr t).pc = .pu1 := by rw [slowed_pc, hp]; rfl
    have hb : ((slowed s l).thr t).inPush = false := by
      by_contra hc
      have := hr.lock.push t (by simpa using hc)
      rw [hsl] at this; cases this
    refine ⟨.ret t (.err (some e)) :: l, exec_reachable hr (as := [.act t (.pushRet (some e))]) ?_, logLike_cons hl rfl⟩
    simp only [exec, next, step, stepPush, hsl, ht', if_true, Algo.ret, hb, Bool.false_eq_true, if_false]
    rw [slowed_go]; rfl
  case h_2 d hp =>
    cases h
    have hsl : ((slowed s l).thr t).pc = .wa2 true true := by rw [slowed_pc, hp]; rfl
    have hb : ((slowed s l).thr t).inPush = false := by
      by_contra hc
      have := hr.lock.push t (by simpa using hc)
      rw [hsl] at this; cases this
    refine ⟨.ret t (.err (some .timeout)) :: l, exec_reachable hr (as := [.act t .default]) ?_, logLike_cons hl rfl⟩
    simp only [exec, next, step, stepWait, hsl, ht', if_true, Algo.ret, hb, Bool.false_eq_true, if_false]
    rw [slowed_go]; rfl
  case h_3 hp =>
    cases h
    have hsl : ((slowed s l).thr t).pc = .r8 := by rw [slowed_pc, hp]; rfl
    refine ⟨.iterPanic t e :: .iterCall t s.status s.centroids :: l,
      exec_reachable hr (as := [.act t (.answer false), .act t .default, .act t (.iterPanic e)]) ?_,
      logLike_cons (logLike_cons hl rfl) rfl⟩
    have h1 : (slowed s l).next conf (.act t (.answer false)) = some (slowed (s.go t .r9) l) := by
      simp only [next, step, stepRun, hsl, ht', if_true, Bool.false_eq_true, if_false]
      rw [slowed_go]; rfl
    have h2 : (slowed (s.go t .r9) l).next conf (.act t .default) =
        some (slowed ((s.go t .r9).go t .rI) (.iterCall t s.status s.centroids :: l)) := by
      have hsl : ((slowed (s.go t .r9) l).thr t).pc = .r9 := by rw [slowed_pc, go_pc, if_pos rfl]; rfl
      have ht' : t < (slowed (s.go t .r9) l).n := ht
      simp only [next, step, stepRun, hsl, ht', if_true, slowed_noSender]
      rw [slowed_go t .rI]; rfl
    have h3 : (slowed ((s.go t .r9).go t .rI) (.iterCall t s.status s.centroids :: l)).next conf
        (.act t (.iterPanic e)) =
        some (slowed (((s.go t .r9).go t .rI).go t (.c0 (some e)))
          (.iterPanic t e :: .iterCall t s.status s.centroids :: l)) := by
      have hsl : ((slowed ((s.go t .r9).go t .rI) (.iterCall t s.status s.centroids :: l)).thr t).pc = .rI := by
        rw [slowed_pc, go_pc, if_pos rfl]; rfl
      have ht' : t < (slowed ((s.go t .r9).go t .rI) (.iterCall t s.status s.centroids :: l)).n := ht
      simp only [next, step, stepRun, hsl, ht', if_true]
      rw [slowed_go t (.c0 (some e))]; rfl
    simp only [exec, h1, h2, h3]; rw [go_go, go_go]
  case h_4 => cases h

/-- Every execution with panics is matched. -/
theorem sim_exec (h : UserReachable conf s) : ∃ l, Reachable conf (slowed s l) ∧ LogLike s.log l := by
  obtain ⟨as, h⟩ := h
  have key : ∀ (as : List (UserAct C)) (s0 : Algo C), (∃ l, Reachable conf (slowed s0 l) ∧ LogLike s0.log l) →
      userExec conf s0 as = some s → ∃ l, Reachable conf (slowed s l) ∧ LogLike s.log l := by
    intro as
    induction as with
    | nil => intro s0 h0 he; cases he; exact h0
    | cons a as ih =>
      intro s0 h0 he
      simp only [userExec] at he
      split at he
      · cases he
      · rename_i s1 hn
        refine ih s1 ?_ he
        obtain ⟨l, hr, hl⟩ := h0
        cases a with
        | act a =>
          obtain ⟨es, as', he, hx⟩ := sim_step (Step.of_next hn) l
          exact ⟨_, exec_reachable hr hx, he ▸ logLike_append hl es⟩
        | panic t e => exact sim_panic hn hr hl
  refine key as new ⟨[], ⟨[], ?_⟩, logLike_nil⟩ h
  simp only [exec]; rfl

/-- The goroutines `< m` blocked in a send are, the others are still in front of it. -/
def partly (s : Algo C) (m : Nat) (l : List (Event C)) : Algo C :=
  { s with
    thr := fun j => { s.thr j with pc := if j < m then timedPc (s.thr j).pc else slow (s.thr j).pc }
    log := l }

theorem partly_reachable (h : Reachable conf (slowed s l)) : ∀ m ≤ s.n, Reachable conf (partly s m l)
  | 0, _ => by
    have : partly s 0 l = slowed s l := by simp [partly, slowed]
    rw [this]; exact h
  | m + 1, hm => by
    have ih := partly_reachable h m (by omega)
    by_cases hp : ∃ st k, (s.thr m).pc = .sd1 st k
    · obtain ⟨st, k, hp⟩ := hp
      have hpc : ((partly s m l).thr m).pc = .sd0 st k := by simp [partly, hp, slow]
      have hm' : m < (partly s m l).n := by exact hm
      refine exec_reachable ih (as := [.act m .go]) ?_
      simp only [exec, next, step, stepSend, hpc, hm', if_true, Option.some.injEq]
      simp only [partly, go]; congr 1; funext j
      by_cases hj : j = m
      · subst hj; simp [hp, timedPc]
      · have : j < m + 1 ↔ j < m := by omega
        simp [hj, this]
    · have : partly s (m + 1) l = partly s m l := by
        simp only [partly]; congr 1; funext j
        by_cases hj : j = m
        · subst hj
          have : slow (s.thr j).pc = timedPc (s.thr j).pc := by
            unfold slow
            split
            · exact absurd ⟨_, _, ‹_›⟩ hp
            · rfl
          simp [this]
        · have : j < m + 1 ↔ j < m := by omega
          simp [this]
      rw [this]; exact ih

theorem timed_reachable (h : Reachable conf (slowed s l)) : Reachable conf (timed s l) := by
  have hp := partly_reachable h s.n (Nat.le_refl _)
  have : partly s s.n l = timed s l := by
    simp only [partly, timed]; congr 1; funext j
    by_cases hj : j < s.n
    · simp [hj]
    · have hd : slow (s.thr j).pc = .dead := h.lock.unborn j (by simpa [slowed] using hj)
      have : (s.thr j).pc = .dead := by
        revert hd
        cases (s.thr j).pc <;> simp [slow, timedPc]
        all_goals (rename_i c _; cases c <;> simp)
      simp [hj, this, slow, timedPc]
  exact this ▸ hp

end Algo
end Distclus
