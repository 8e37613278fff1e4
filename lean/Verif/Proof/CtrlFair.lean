import Verif.Proof.CtrlLive
/-!
# Playing without limit: what an action does
-/
namespace Distclus
open Ctrl
namespace Algo
open Spec
variable {C : Type}
variable {conf : Conf} {s s' : Algo C} {t u : Nat}

set_option linter.unusedSimpArgs false
set_option linter.unusedTactic false
set_option linter.unusedVariables false
set_option linter.unnecessarySeqFocus false
set_option linter.unreachableTactic false

theorem beginPc_ne {v : ClustStatus} {k : InitFrom} {p : PC C} (h1 : ∀ k, p ≠ .in1 k) (h3 : ∀ k, p ≠ .in3 k)
    (h10 : ∀ k e, p ≠ .in10 k e) : beginPc v k ≠ p := by
  intro h
  unfold beginPc at h
  split at h
  · exact h1 _ h.symm
  · exact h3 _ h.symm
  · exact h10 _ _ h.symm

theorem entry_ne (op : Op) : (entry op : PC C) ≠ .home := by
  cases op <;> rintro ⟨⟩

macro "pc_ne" hp:term : tactic => `(tactic|
  first
    | contradiction
    | (left; exact go_same rfl)
    | (left; exact go_same $hp)
    | (right; rw [$hp:term, go_pc, if_pos rfl]; exact beginPc_ne (by rintro k ⟨⟩) (by rintro k ⟨⟩) (by rintro k e ⟨⟩))
    | (right; rw [$hp:term, go_pc, if_pos rfl]; rintro ⟨⟩; done)
    | (right; rw [$hp:term, go_pc, if_pos rfl]; split <;> (rintro ⟨⟩); done)
    | (right; rw [$hp:term, go_pc, if_pos rfl]; repeat' split <;> (rintro ⟨⟩); done)
    | (right; rw [$hp:term, go_pc, if_pos rfl]; unfold beginPc; split <;> (rintro ⟨⟩); done)
    | (right; rw [$hp:term, ret_pc, if_pos rfl]; split <;> (rintro ⟨⟩); done)
    | (right; rw [$hp:term, sent_pc_eq]; unfold sentPc back; (repeat' split) <;> (rintro ⟨⟩); done)
    | (right; rw [$hp:term]; dsimp only; rw [if_pos rfl]; (repeat' split) <;> (rintro ⟨⟩); done))

/-- An action of a goroutine leaves the state as it is, or the goroutine moves. -/
theorem step_pc {c : Choice C} (h : s.step conf t c = some s') : s' = s ∨ (s'.thr t).pc ≠ (s.thr t).pc := by
  refine step_elim h ?_ ?_ ?_ ?_ ?_ ?_ ?_ ?_ ?_ ?_ ?_ ?_ ?_
  · intro hp h
    cases c <;> simp only [stepHome, reduceCtorEq] at h <;> split at h <;> cases h
    · right; rw [go_pc, if_pos rfl, hp]; rintro ⟨⟩
    · right; rw [go_pc, if_pos rfl, hp]; exact entry_ne _
  · intro h
    generalize hp : (s.thr t).pc = p at h
    cases p <;> simp only [stepRead, reduceCtorEq] at h <;> split at h <;> cases h <;> rw [← hp] <;> pc_ne hp
  · intro h
    generalize hp : (s.thr t).pc = p at h
    cases p <;> cases c <;> simp only [stepPush, reduceCtorEq] at h <;> (try split at h) <;> cases h <;> rw [← hp] <;> pc_ne hp
  · intro h
    generalize hp : (s.thr t).pc = p at h
    cases p <;> cases c <;> dsimp only [stepInit, reduceCtorEq] at h <;>
      (repeat' split at h) <;> cases h <;> rw [← hp] <;> pc_ne hp
  · intro h
    generalize hp : (s.thr t).pc = p at h
    cases p <;> cases c <;> simp only [stepPlay, reduceCtorEq] at h <;> (repeat' split at h) <;> cases h <;> rw [← hp] <;> pc_ne hp
  · intro h
    generalize hp : (s.thr t).pc = p at h
    cases p <;> cases c <;> simp only [stepPause, reduceCtorEq] at h <;> (repeat' split at h) <;> cases h <;> rw [← hp] <;> pc_ne hp
  · intro h
    generalize hp : (s.thr t).pc = p at h
    cases p <;> cases c <;> simp only [stepInterrupt, reduceCtorEq] at h <;> (repeat' split at h) <;> cases h <;> rw [← hp] <;> pc_ne hp
  · intro h
    generalize hp : (s.thr t).pc = p at h
    cases p <;> cases c <;> simp only [stepSend, reduceCtorEq] at h <;> (repeat' split at h) <;> cases h <;> rw [← hp] <;> pc_ne hp
  · intro h
    generalize hp : (s.thr t).pc = p at h
    cases p <;> cases c <;> (try cases ‹Bool›) <;> (try cases ‹Bool›) <;> (try cases ‹Bool›) <;>
      simp only [stepWait, reduceCtorEq] at h <;> (repeat' split at h) <;> (try cases h) <;> rw [← hp] <;> pc_ne hp
  · intro h
    generalize hp : (s.thr t).pc = p at h
    cases p <;> cases c <;> simp only [stepRun, reduceCtorEq] at h <;> (repeat' split at h) <;> cases h <;> rw [← hp] <;> pc_ne hp
  · intro h
    generalize hp : (s.thr t).pc = p at h
    cases p <;> cases c <;> simp only [stepRecover, reduceCtorEq] at h <;> (repeat' split at h) <;> cases h <;> rw [← hp] <;> pc_ne hp
  · intro h
    generalize hp : (s.thr t).pc = p at h
    cases p <;> cases c <;> simp only [stepNotif, reduceCtorEq] at h <;> (repeat' split at h) <;> cases h <;> rw [← hp] <;> pc_ne hp
  · intro h
    generalize hp : (s.thr t).pc = p at h
    cases p <;> cases c <;> simp only [stepTimer, reduceCtorEq] at h <;> (repeat' split at h) <;> cases h <;> rw [← hp] <;> pc_ne hp

/-- How far a run is from the end of its loop. -/
def rCyc : PC C → Nat
  | .c8 => 1 | .c7 => 2 | .c6 => 3 | .c5 _ => 4 | .c4 _ => 5 | .c3 _ => 6 | .c2 _ => 7 | .c1 _ => 8 | .c0 _ => 9
  | .r16 _ => 10 | .r15 _ => 11 | .r14 => 10 | .r13 => 11 | .r12 => 12
  | .r9 => 13 | .r8 => 14 | .r7 => 15 | .r6 => 16 | .rS' _ => 17 | .rS _ => 18 | .rI => 19
  | .r5 _ _ => 20 | .r4 _ => 21 | .r3 _ => 22 | .r11 _ => 22 | .r2 _ => 23 | .r10 _ => 23
  | .r1 => 24 | .r0 => 25
  | _ => 0

/-- In its loop, a run notifies nothing. -/
theorem rCyc_quiet {p : PC C} (h1 : 13 ≤ rCyc p) (h2 : rCyc p ≤ 19) : notifying p = none := by
  cases p <;> first | rfl | (exfalso; simp only [rCyc] at h1 h2; omega)

/-- The run moves, the client does not, and the notification loop only if the run notifies. -/
def Ranks (s s' : Algo C) : Prop := (s'.thr 0).pc = (s.thr 0).pc ∧ s'.n = s.n ∧ rCyc (runPc s') < rCyc (runPc s) ∧
  (notifPc s' = notifPc s ∨ notifying (runPc s) ≠ none)

theorem Ranks.goRun {s1 : Algo C} {p : PC C} (h3 : 3 ≤ s.n) (hn : s1.n = s.n) (ht : s1.thr = s.thr)
    (hr : rCyc p < rCyc (s.thr (s.n - 1)).pc) : Ranks s (s1.go (s.n - 1) p) := by
  have e1 : runPc (s1.go (s.n - 1) p) = p := by
    unfold runPc; rw [go_n, hn, if_pos h3, go_pc, if_pos rfl]
  have e2 : runPc s = (s.thr (s.n - 1)).pc := by unfold runPc; rw [if_pos h3]
  refine ⟨by rw [go_pc, if_neg (by omega), ht], by rw [go_n, hn], by rw [e1, e2]; exact hr, .inl ?_⟩
  have e : ((s1.go (s.n - 1) p).thr 1).pc = (s.thr 1).pc := by rw [go_pc, if_neg (by omega), ht]
  unfold notifPc; rw [e, go_n, hn]

theorem UseInv.placed {fol : List (Op × Res C) → Option ClustStatus} (hU : UseInv fol s) : Placed s := by
  obtain ⟨op, d, ph, hR, hC, hO⟩ := hU.row
  refine ⟨fun ht h => hU.isClient ht rfl h, fun ht h => ?_, fun ht h h' => hU.isNotif ht rfl h h', fun ht hp => ?_,
    hC.pc, hU.kind0, fun ht hp => ?_⟩
  · have := hU.isRun ht rfl h; exact ⟨this.1, this.2.1⟩
  · rcases hU.who ht hp (by rintro ⟨⟩) with ⟨rfl, _⟩ | ⟨rfl, h2, _⟩ | ⟨_, _, hr, _⟩
    · exact .inl rfl
    · exact .inr ⟨rfl, h2⟩
    · rw [hr] at hO; rcases hO.pc with h | h <;> cases h
  · rcases hU.who ht hp (by rintro ⟨⟩) with ⟨rfl, h⟩ | ⟨rfl, h2, _, hN⟩ | ⟨_, _, hr, _⟩
    · rw [h] at hC; exact hC.elim
    · exact hN.elim
    · rw [hr] at hO; rcases hO.pc with h | h <;> cases h

/-- The client moves. -/
macro "fr_client" hW:term "," ht:term "," hp:term : tactic => `(tactic|
  (have e := Placed.client $hW $ht (by rw [$hp:term]; rfl)
   subst e
   refine .inr (.inl ?_)
   rw [$hp:term]
   first
    | (rw [go_pc, if_pos rfl]; exact Nat.le_of_ble_eq_true rfl)
    | exact Nat.lt_of_le_of_lt (cAll_back _ _) (Nat.le_of_ble_eq_true rfl)
    | exact Nat.lt_of_le_of_lt (cAll_sent _ _ _) (Nat.le_of_ble_eq_true rfl)))

/-- The run moves. -/
macro "fr_run" hW:term "," ht:term "," hp:term : tactic => `(tactic|
  (obtain ⟨e, h3⟩ := Placed.run $hW $ht (by rw [$hp:term]; rfl)
   subst e
   refine .inr (.inr (.inl (Ranks.goRun h3 rfl rfl ?_)))
   rw [$hp:term]
   exact Nat.le_of_ble_eq_true rfl))

/-- The client meets the run. -/
macro "fr_meet" hW:term "," ht:term "," hp:term "," hj:term "," hq:term : tactic => `(tactic|
  (obtain ⟨e, h3⟩ := Placed.run $hW $ht (by rw [$hp:term]; rfl)
   subst e
   have e' := Placed.client $hW $hj (by rw [$hq:term]; rfl)
   subst e'
   refine .inr (.inl ?_)
   rw [go_pc, if_neg (by omega)]
   first | rw [go_pc, if_pos rfl] | rw [put_thr, go_pc, if_pos rfl]
   rw [$hq:term]
   exact Nat.le_of_ble_eq_true rfl))

/-- What an action does during a call: nothing, or the client moves towards the end of its call, or the run
moves towards the end of its loop, or the notification loop comes closer to its next reception, or the run begins an
iteration. -/
theorem Step.ranks (hW : Placed s) (h : Step conf s s')
    (hcl : s'.n = s.n + 1 → (s'.thr s.n).kind ≠ .client) (hP : Peaceful s'.log) (hh : (s.thr 0).pc ≠ .home) :
    s' = s ∨ cAll (s'.thr 0).pc < cAll (s.thr 0).pc ∨ Ranks s s' ∨
    ((s'.thr 0).pc = (s.thr 0).pc ∧ s'.n = s.n ∧ runPc s' = runPc s ∧ nRank (notifPc s') < nRank (notifPc s)) ∨
    ((s'.thr 0).pc = (s.thr 0).pc ∧ s'.n = s.n ∧ notifPc s' = notifPc s ∧ runPc s = .r9 ∧ runPc s' = .rI ∧
      s.noSender = true) := by
  cases h
  case client => exact absurd (by rw [spawn_kind, if_pos rfl]) (hcl rfl)
  case call t ht hp op' hk =>
    obtain ⟨⟨rfl, _⟩, _⟩ := hP
    exact absurd hp hh
  case notifRet t ht hp hk =>
    rcases hW.home ht hp with rfl | ⟨rfl, h2⟩
    · exact absurd hp hh
    · refine .inr (.inr (.inr (.inl ⟨?_, rfl, ?_, ?_⟩)))
      · rw [go_pc, if_neg (by omega)]
      · exact runPc_eq rfl fun h3 => by rw [go_pc, if_neg (by omega)]
      · unfold notifPc
        rw [go_n, if_pos h2, if_pos h2, go_pc, if_pos rfl, hp]; exact Nat.le_of_ble_eq_true rfl
  case rdStatus t ht hp hs => fr_client hW, ht, hp
  case rdCentroids t ht hp hm => fr_client hW, ht, hp
  case rdFigures t ht hp hm => fr_client hW, ht, hp
  case rdConf t ht hp hm => fr_client hW, ht, hp
  case pu0 t ht hp hs => fr_client hW, ht, hp
  case pu0' t ht hp => fr_client hW, ht, hp
  case pu1 t ht hp => fr_client hW, ht, hp
  case pu1Err t ht hp e => fr_client hW, ht, hp
  case pu2 t ht hp hm => fr_client hW, ht, hp
  case pu3 t ht hp hr => fr_client hW, ht, hp
  case pu4 t ht hp hs => fr_client hW, ht, hp
  case pu5 t ht hp hm =>
    obtain rfl := hW.client ht (by rw [hp]; rfl)
    refine .inr (.inl ?_)
    rw [hp]; dsimp only; rw [if_pos rfl]
    split <;> exact Nat.le_of_ble_eq_true rfl
  case pu6 t ht hp =>
    obtain rfl := hW.client ht (by rw [hp]; rfl)
    refine .inr (.inl ?_)
    rw [hp]; dsimp only; rw [if_pos rfl]
    exact Nat.le_of_ble_eq_true rfl
  case in0 t ht hp hs =>
    obtain rfl := hW.client ht (by rw [hp]; rfl)
    refine .inr (.inl ?_)
    rw [hp, go_pc, if_pos rfl]
    unfold beginPc; split <;> exact Nat.le_of_ble_eq_true rfl
  case in1 t ht k hp hm => fr_client hW, ht, hp
  case in2 t ht k hp hr => fr_client hW, ht, hp
  case in3Created t ht k hp hv => fr_client hW, ht, hp
  case in3 t ht k hp hv => fr_client hW, ht, hp
  case in5Read t ht k hp hm => exact .inl (go_same hp)
  case in5 t ht k hp c e => fr_client hW, ht, hp
  case in6 t ht k c e hp hm => fr_client hW, ht, hp
  case in7 t ht k c e hp hr => fr_client hW, ht, hp
  case in8 t ht k hp => fr_client hW, ht, hp
  case in8Err t ht k e hp => fr_client hW, ht, hp
  case in10 t ht e hp => fr_client hW, ht, hp
  case in10Err t ht e hp he => fr_client hW, ht, hp
  case in10Play t ht e hp he => fr_client hW, ht, hp
  case pl0Idle t ht hp hs hv => fr_client hW, ht, hp
  case pl0Init t ht hp hs hv =>
    obtain rfl := hW.client ht (by rw [hp]; rfl)
    refine .inr (.inl ?_)
    rw [hp, go_pc, if_pos rfl]
    unfold beginPc; split <;> exact Nat.le_of_ble_eq_true rfl
  case pl0Ready t ht hp hs hv => fr_client hW, ht, hp
  case pl0Running t ht hp hs hv => fr_client hW, ht, hp
  case pl0Initializing t ht hp hs hv => fr_client hW, ht, hp
  case pl1 t ht hp => fr_client hW, ht, hp
  case pl2 t ht hp hi => fr_client hW, ht, hp
  case pl2Disable t ht hp i hi => fr_client hW, ht, hp
  case pl3Timeout t ht hp hm hc => fr_client hW, ht, hp
  case pl3 t ht hp hm hc => fr_client hW, ht, hp
  case pa0 t ht hp hs hv => fr_client hW, ht, hp
  case pa0Err t ht hp hs hv => fr_client hW, ht, hp
  case it0Ready t ht e hp hs hv => fr_client hW, ht, hp
  case it0 t ht e hp hs hv => fr_client hW, ht, hp
  case it0Err t ht e hp hs hv => fr_client hW, ht, hp
  case it2 t ht hp => fr_client hW, ht, hp
  case it3 t ht hp => fr_client hW, ht, hp
  case sd0 t ht st k hp => fr_client hW, ht, hp
  case sd2 t ht k hp => fr_client hW, ht, hp
  case sd3Closed t ht a k hp ha => fr_client hW, ht, hp
  case sd3 t ht a k hp j hj i hq ha => fr_client hW, ht, hp
  case wa0Running t ht c d hp hs hv => fr_client hW, ht, hp
  case wa0 t ht c d hp hs e hv hn => fr_client hW, ht, hp
  case wa1Never t ht c d hp hm hn => fr_client hW, ht, hp
  case wa1 t ht c d hp hm hn => fr_client hW, ht, hp
  case wa2Done t ht c d hp hc => fr_client hW, ht, hp
  case wa2Again t ht c d hp => exact .inl (go_same hp)
  case wa2Timeout t ht c hp => fr_client hW, ht, hp
  case wa3 t ht hp hs => fr_client hW, ht, hp
  case r0 t ht hp => fr_run hW, ht, hp
  case r1 t ht hp j hj st k hq => fr_meet hW, ht, hp, hj, hq
  case r2 t ht st hp hs => fr_run hW, ht, hp
  case r4 t ht i hp => fr_run hW, ht, hp
  case r5Closed t ht i a hp ha => fr_run hW, ht, hp
  case r6 t ht hp hv => fr_run hW, ht, hp
  case r6Exit t ht hp hv => fr_run hW, ht, hp
  case r7Done t ht hp hm hd => fr_run hW, ht, hp
  case r7 t ht hp hm hd =>
    obtain ⟨rfl, h3⟩ := hW.run ht (by rw [hp]; rfl)
    refine .inr (.inr (.inl (Ranks.goRun h3 rfl rfl ?_)))
    rw [hp]
    split <;> exact Nat.le_of_ble_eq_true rfl
  case r8Done t ht hp => fr_run hW, ht, hp
  case r8 t ht hp => fr_run hW, ht, hp
  case r9 t ht hp j hj st k hq => fr_meet hW, ht, hp, hj, hq
  case r10 t ht st hp hs => fr_run hW, ht, hp
  case r9Default t ht hp hn =>
    obtain ⟨rfl, h3⟩ := hW.run ht (by rw [hp]; rfl)
    refine .inr (.inr (.inr (.inr ⟨?_, rfl, ?_, ?_, ?_, hn⟩)))
    · rw [go_pc, if_neg (by omega)]; rfl
    · have e : (((s.ev (.iterCall (s.n - 1) s.status s.centroids)).go (s.n - 1) .rI).thr 1).pc = (s.thr 1).pc := by
        rw [go_pc, if_neg (by omega)]; rfl
      unfold notifPc; rw [e, go_n]; rfl
    · unfold runPc; rw [if_pos h3, hp]
    · unfold runPc; rw [go_n]
      change (if 3 ≤ s.n then _ else _) = _
      rw [if_pos h3]
      change ((Algo.go _ (s.n - 1) _).thr (s.n - 1)).pc = _
      rw [go_pc, if_pos rfl]
  case iterNil t ht hp => fr_run hW, ht, hp
  case iterOk t ht hp c => fr_run hW, ht, hp
  case iterErr t ht hp e => fr_run hW, ht, hp
  case iterPanic t ht hp e => fr_run hW, ht, hp
  case rS t ht c hp hm => fr_run hW, ht, hp
  case rS' t ht c hp hr => fr_run hW, ht, hp
  case r12 t ht hp hv => fr_run hW, ht, hp
  case r12Exit t ht hp hv => fr_run hW, ht, hp
  case r13 t ht hp hs => fr_run hW, ht, hp
  case r15 t ht e hp hs => fr_run hW, ht, hp
  case c0 t ht hp hs => fr_run hW, ht, hp
  case c0Panic t ht e hp hs => fr_run hW, ht, hp
  case c2 t ht p hp hm => fr_run hW, ht, hp
  case c3 t ht p hp hr => fr_run hW, ht, hp
  case c4 t ht hp j hj st k hq => fr_meet hW, ht, hp, hj, hq
  case c4Panic t ht e hp j hj st k hq => fr_meet hW, ht, hp, hj, hq
  case c4Default t ht p hp hn => fr_run hW, ht, hp
  case c6Closed t ht hp ha => fr_run hW, ht, hp
  case c6 t ht hp j hj i hq ha =>
    obtain ⟨h1, h3⟩ := hW.run ht (by rw [hp]; rfl)
    obtain ⟨h2, _⟩ := hW.run hj (by rw [hq]; rfl)
    rw [h1, ← h2, hq] at hp; cases hp
  case c6Default t ht hp ha hn => fr_run hW, ht, hp
  case c7 t ht hp => fr_run hW, ht, hp
  case c8 t ht hp => fr_run hW, ht, hp
  case nl0 t ht hp j hj st p hq =>
    obtain ⟨rfl, h2⟩ := hW.loop ht (by rw [hp]; trivial) (by rw [hp]; rintro ⟨⟩)
    have hcase : (clientPc (s.thr j).pc = true ∧ cAll p < cAll (s.thr j).pc) ∨
        (runnerPc (s.thr j).pc = true ∧ rCyc p < rCyc (s.thr j).pc) := by
      generalize (s.thr j).pc = q at hq
      cases q <;> simp only [notifying, reduceCtorEq, Option.some.injEq, Prod.mk.injEq] at hq
      case in4 k => obtain ⟨_, rfl⟩ := hq; exact .inl ⟨rfl, Nat.le_of_ble_eq_true rfl⟩
      case in9 k e =>
        cases e <;> simp only [notifying, reduceCtorEq, Option.some.injEq, Prod.mk.injEq] at hq <;>
          (obtain ⟨_, rfl⟩ := hq; exact .inl ⟨rfl, Nat.le_of_ble_eq_true rfl⟩)
      case it1 e => obtain ⟨_, rfl⟩ := hq; exact .inl ⟨rfl, Nat.le_of_ble_eq_true rfl⟩
      case r3 => obtain ⟨_, rfl⟩ := hq; exact .inr ⟨rfl, Nat.le_of_ble_eq_true rfl⟩
      case r11 =>
        obtain ⟨_, rfl⟩ := hq
        refine .inr ⟨rfl, ?_⟩
        split <;> exact Nat.le_of_ble_eq_true rfl
      case r14 => obtain ⟨_, rfl⟩ := hq; exact .inr ⟨rfl, Nat.le_of_ble_eq_true rfl⟩
      case r16 => obtain ⟨_, rfl⟩ := hq; exact .inr ⟨rfl, Nat.le_of_ble_eq_true rfl⟩
      case c1 => obtain ⟨_, rfl⟩ := hq; exact .inr ⟨rfl, Nat.le_of_ble_eq_true rfl⟩
      case c5 => obtain ⟨_, rfl⟩ := hq; exact .inr ⟨rfl, Nat.le_of_ble_eq_true rfl⟩
    rcases hcase with ⟨h1, h4⟩ | ⟨h1, h4⟩
    · obtain rfl := hW.client hj h1
      refine .inr (.inl ?_)
      rw [go_pc, if_neg (by omega), go_pc, if_pos rfl]; exact h4
    · obtain ⟨rfl, h3⟩ := hW.run hj h1
      refine .inr (.inr (.inl ⟨?_, rfl, ?_, .inr ?_⟩))
      · rw [go_pc, if_neg (by omega), go_pc, if_neg (by omega)]; rfl
      · have e1 : runPc (((s.ev (.notified st)).go (s.n - 1) p).go 1 (.nl1 st)) = p := by
          unfold runPc
          rw [go_n, go_n]
          change (if 3 ≤ s.n then _ else _) = _
          rw [if_pos h3]
          change ((((s.ev (.notified st)).go (s.n - 1) p).go 1 (.nl1 st)).thr (s.n - 1)).pc = p
          rw [go_pc, if_neg (by omega), go_pc, if_pos rfl]
        have e2 : runPc s = (s.thr (s.n - 1)).pc := by unfold runPc; rw [if_pos h3]
        rw [e1, e2]
        exact h4
      · unfold runPc; rw [if_pos h3, hq]; rintro ⟨⟩
  case nl1 t ht st hp hm =>
    obtain ⟨rfl, h2⟩ := hW.loop ht (by rw [hp]; trivial) (by rw [hp]; rintro ⟨⟩)
    refine .inr (.inr (.inr (.inl ⟨?_, rfl, ?_, ?_⟩)))
    · rw [go_pc, if_neg (by omega)]
    · exact runPc_eq rfl fun h3 => by rw [go_pc, if_neg (by omega)]
    · unfold notifPc
      rw [go_n, if_pos h2, if_pos h2, go_pc, if_pos rfl, hp]
      split <;> exact Nat.le_of_ble_eq_true rfl
  case ti0 t ht hp hd => exact absurd hp (hW.timer ht)
  case ti0Fire t ht hp hd => exact absurd hp (hW.timer ht)

end Algo
end Distclus
