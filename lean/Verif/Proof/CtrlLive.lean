import Verif.Proof.CtrlBatchProg
import Verif.Spec.CtrlLive
/-!
# Playing until the limit: a measure which decreases
-/
namespace Distclus
open Ctrl
namespace Algo
open Spec
variable {C : Type}
variable {conf : Conf} {s s' : Algo C} {t u : Nat}

set_option linter.unusedSimpArgs false
set_option linter.unusedTactic false
set_option linter.unusedVariables false
set_option linter.unnecessarySeqFocus false
set_option linter.unreachableTactic false

/-- How far the client is from the end of its call. -/
def cAll : PC C → Nat
  | .rdStatus | .rdCentroids | .rdFigures | .rdConf => 2
  | .pu6 => 1
  | .it3 => 2 | .it2 => 2 | .it1 _ => 3
  | .wa3 => 2 | .wa2 _ _ => 3 | .wa1 _ _ => 4 | .wa0 _ _ => 5
  | .pl3 => 2 | .pl2 => 3 | .sd3 _ _ => 4 | .sd2 _ => 5 | .sd1 _ _ => 6 | .sd0 _ _ => 7
  | .pa0 => 8 | .it0 _ => 8 | .pl1 => 8
  | .in10 _ _ => 9 | .in9 _ _ => 10 | .in8 _ _ => 11 | .in7 _ _ _ => 12 | .in6 _ _ _ => 13
  | .in5 _ => 14 | .in4 _ => 15 | .in3 _ => 16 | .in2 _ => 17 | .in1 _ => 18 | .in0 => 19 | .pl0 => 19
  | .pu5 => 20 | .pu4 => 21 | .pu3 => 22 | .pu2 => 23 | .pu1 => 24 | .pu0 => 25
  | _ => 0

/-- How far a run is from its end, without a new iteration. -/
def rAll : PC C → Nat
  | .c8 => 1 | .c7 => 2 | .c6 => 3 | .c5 _ => 4 | .c4 _ => 5 | .c3 _ => 6 | .c2 _ => 7 | .c1 _ => 8 | .c0 _ => 9
  | .r16 _ => 10 | .r15 _ => 11 | .r14 => 10 | .r13 => 11 | .r12 => 12
  | .rS' _ => 13 | .rS _ => 14 | .rI => 15 | .r9 => 16 | .r8 => 17 | .r7 => 18 | .r6 => 19
  | .r5 _ _ => 20 | .r4 _ => 21 | .r3 _ => 22 | .r11 _ => 22 | .r2 _ => 23 | .r10 _ => 23
  | .r1 => 24 | .r0 => 25
  | _ => 0

/-- What is left to do. -/
def left (conf : Conf) (s : Algo C) : Nat × Nat × Nat :=
  (cAll (s.thr 0).pc, 30 * (limit conf s - s.iterations) + rAll (runPc s), nRank (notifPc s))

/-- Less is left. -/
def Less (a b : Nat × Nat × Nat) : Prop := Prod.Lex (· < ·) (Prod.Lex (· < ·) (· < ·)) a b

theorem less_wf : WellFounded Less :=
  (Prod.lex ⟨_, Nat.lt_wfRel.wf⟩ (Prod.lex ⟨_, Nat.lt_wfRel.wf⟩ ⟨_, Nat.lt_wfRel.wf⟩)).wf

theorem Less.client (h : cAll (s'.thr 0).pc < cAll (s.thr 0).pc) : Less (left conf s') (left conf s) :=
  Prod.Lex.left _ _ h

theorem Less.run (h0 : (s'.thr 0).pc = (s.thr 0).pc)
    (h : 30 * (limit conf s' - s'.iterations) + rAll (runPc s') <
      30 * (limit conf s - s.iterations) + rAll (runPc s)) : Less (left conf s') (left conf s) := by
  unfold left; rw [h0]
  exact Prod.Lex.right _ (Prod.Lex.left _ _ h)

theorem Less.notif (h0 : (s'.thr 0).pc = (s.thr 0).pc) (hr : runPc s' = runPc s)
    (hd : s'.pushedData = s.pushedData) (hi : s'.iterations = s.iterations)
    (h : nRank (notifPc s') < nRank (notifPc s)) : Less (left conf s') (left conf s) := by
  have hl : limit conf s' = limit conf s := by unfold limit; rw [hd]
  unfold left; rw [h0, hr, hi, hl]
  exact Prod.Lex.right _ (Prod.Lex.right _ h)

/-- A run moves, without the end of an iteration. -/
theorem Less.goRun {s1 : Algo C} {p : PC C} (h3 : 3 ≤ s.n) (hn : s1.n = s.n) (ht : s1.thr = s.thr)
    (hd : s1.pushedData = s.pushedData) (hi : s1.iterations = s.iterations)
    (hr : rAll p < rAll (s.thr (s.n - 1)).pc) : Less (left conf (s1.go (s.n - 1) p)) (left conf s) := by
  refine Less.run (by rw [go_pc, if_neg (by omega), ht]) ?_
  have e1 : runPc (s1.go (s.n - 1) p) = p := by
    unfold runPc; rw [go_n, hn, if_pos h3, go_pc, if_pos rfl]
  have e2 : runPc s = (s.thr (s.n - 1)).pc := by unfold runPc; rw [if_pos h3]
  unfold limit
  rw [e1, e2, go_pushedData, go_iterations, hd, hi]; omega

/-- Which goroutine is where. -/
structure Placed (s : Algo C) : Prop where
  client : ∀ {t : Nat}, t < s.n → clientPc (s.thr t).pc = true → t = 0
  run : ∀ {t : Nat}, t < s.n → runnerPc (s.thr t).pc = true → t = s.n - 1 ∧ 3 ≤ s.n
  loop : ∀ {t : Nat}, t < s.n → NotifOk (s.thr t).pc → (s.thr t).pc ≠ .home → t = 1 ∧ 2 ≤ s.n
  home : ∀ {t : Nat}, t < s.n → (s.thr t).pc = .home → t = 0 ∨ (t = 1 ∧ 2 ≤ s.n)
  self : (s.thr 0).pc = .home ∨ clientPc (s.thr 0).pc = true
  kind : (s.thr 0).kind = .client
  timer : ∀ {t : Nat}, t < s.n → (s.thr t).pc ≠ .ti0

theorem RunsInv.placed (hI : RunsInv conf s) : Placed s := by
  rcases hI.phase with h | h
  · have hU := h.use
    obtain ⟨op, d, ph, hR, hC, hO⟩ := hU.row
    refine ⟨fun ht h => hU.isClient ht rfl h, fun ht h => ?_, fun ht h h' => hU.isNotif ht rfl h h', fun ht hp => ?_,
      hC.pc, hU.kind0, fun ht hp => ?_⟩
    · have := hU.isRun ht rfl h; exact ⟨this.1, this.2.1⟩
    · rcases hU.who ht hp (by rintro ⟨⟩) with ⟨rfl, _⟩ | ⟨rfl, h2, _⟩ | ⟨_, _, hr, _⟩
      · exact .inl rfl
      · exact .inr ⟨rfl, h2⟩
      · rw [hr] at hO; rcases hO.pc with h | h <;> cases h
    · rcases hU.who ht hp (by rintro ⟨⟩) with ⟨rfl, h⟩ | ⟨rfl, h2, _, hN⟩ | ⟨_, _, hr, _⟩
      · rw [h] at hC; exact hC.elim
      · exact hN.elim
      · rw [hr] at hO; rcases hO.pc with h | h <;> cases h
  · obtain ⟨op, v, _, hC, hO⟩ := h.row
    refine ⟨fun ht h' => h.isClient ht rfl h', fun ht h' => ⟨h.isRun ht rfl h', h.n3⟩,
      fun ht h1 h' => ⟨h.isNotif ht rfl h1 h', by have := h.n3; omega⟩, fun ht hp => ?_, hC.pc, h.kind0, fun ht hp => ?_⟩
    · rcases h.who ht hp (by rintro ⟨⟩) with ⟨rfl, _⟩ | ⟨rfl, _, _⟩ | ⟨_, hr⟩
      · exact .inl rfl
      · exact .inr ⟨rfl, by have := h.n3; omega⟩
      · rw [hr] at hO; rcases hO.pc with h | h <;> cases h
    · rcases h.who ht hp (by rintro ⟨⟩) with ⟨rfl, h⟩ | ⟨rfl, _, hN⟩ | ⟨_, hr⟩
      · rw [h] at hC; exact hC.elim
      · exact hN.elim
      · rw [hr] at hO; rcases hO.pc with h | h <;> cases h

theorem go_same {p : PC C} (h : (s.thr t).pc = p) : s.go t p = s := by
  subst h
  unfold go
  congr 1
  funext j
  split
  · rename_i h; subst h; rfl
  · rfl

theorem cAll_back (s1 : Algo C) (r : Res C) : cAll ((s1.ret 0 r).thr 0).pc ≤ 1 := by
  rw [ret_pc, if_pos rfl]; split <;> exact Nat.le_of_ble_eq_true rfl

theorem cAll_sent (s1 : Algo C) (ok : Bool) (k : SendFrom) : cAll ((s1.sent 0 ok k).thr 0).pc ≤ 3 := by
  cases k <;> simp only [sent]
  · exact Nat.le_trans (cAll_back _ _) (by omega)
  · rw [go_pc, if_pos rfl]; exact Nat.le_of_ble_eq_true rfl
  · exact Nat.le_trans (cAll_back _ _) (by omega)
  · rw [go_pc, if_pos rfl]; exact Nat.le_of_ble_eq_true rfl

/-- The client moves. -/
macro "lv_client" hW:term "," ht:term "," hp:term : tactic => `(tactic|
  (have e := Placed.client $hW $ht (by rw [$hp:term]; rfl)
   subst e
   refine .inr (.inl (Less.client ?_))
   rw [$hp:term]
   first
    | (rw [go_pc, if_pos rfl]; exact Nat.le_of_ble_eq_true rfl)
    | exact Nat.lt_of_le_of_lt (cAll_back _ _) (Nat.le_of_ble_eq_true rfl)
    | exact Nat.lt_of_le_of_lt (cAll_sent _ _ _) (Nat.le_of_ble_eq_true rfl)))

/-- The run moves. -/
macro "lv_run" hW:term "," ht:term "," hp:term : tactic => `(tactic|
  (obtain ⟨e, h3⟩ := Placed.run $hW $ht (by rw [$hp:term]; rfl)
   subst e
   refine .inr (.inl (Less.goRun h3 rfl rfl rfl rfl ?_))
   rw [$hp:term]
   exact Nat.le_of_ble_eq_true rfl))

/-- The client meets the run. -/
macro "lv_meet" hW:term "," ht:term "," hp:term "," hj:term "," hq:term : tactic => `(tactic|
  (obtain ⟨e, h3⟩ := Placed.run $hW $ht (by rw [$hp:term]; rfl)
   subst e
   have e' := Placed.client $hW $hj (by rw [$hq:term]; rfl)
   subst e'
   refine .inr (.inl (Less.client ?_))
   rw [go_pc, if_neg (by omega)]
   first | rw [go_pc, if_pos rfl] | rw [put_thr, go_pc, if_pos rfl]
   rw [$hq:term]
   exact Nat.le_of_ble_eq_true rfl))

/-- During a call every action, except an `Iterate` without result, leaves the state as it is or leaves less to do. -/
theorem Step.descends (hc : Tame conf) (hW : Placed s) (h : Step conf s s')
    (hcl : s'.n = s.n + 1 → (s'.thr s.n).kind ≠ .client) (hP : Rebatching s'.log)
    (hb : s'.iterations ≤ limit conf s') (hh : (s.thr 0).pc ≠ .home) :
    s' = s ∨ Less (left conf s') (left conf s) ∨ ∃ t, s'.log = .iterNil t :: s.log := by
  cases h
  case client => exact absurd (by rw [spawn_kind, if_pos rfl]) (hcl rfl)
  case call t ht hp op' hk =>
    obtain ⟨⟨rfl, _⟩, _⟩ := hP
    exact absurd hp hh
  case notifRet t ht hp hk =>
    rcases hW.home ht hp with rfl | ⟨rfl, h2⟩
    · exact absurd hp hh
    · refine .inr (.inl (Less.notif ?_ ?_ rfl rfl ?_))
      · rw [go_pc, if_neg (by omega)]
      · exact runPc_eq rfl fun h3 => by rw [go_pc, if_neg (by omega)]
      · unfold notifPc
        rw [go_n, if_pos h2, if_pos h2, go_pc, if_pos rfl, hp]; exact Nat.le_of_ble_eq_true rfl
  case rdStatus t ht hp hs => lv_client hW, ht, hp
  case rdCentroids t ht hp hm => lv_client hW, ht, hp
  case rdFigures t ht hp hm => lv_client hW, ht, hp
  case rdConf t ht hp hm => lv_client hW, ht, hp
  case pu0 t ht hp hs => lv_client hW, ht, hp
  case pu0' t ht hp => lv_client hW, ht, hp
  case pu1 t ht hp => lv_client hW, ht, hp
  case pu1Err t ht hp e => lv_client hW, ht, hp
  case pu2 t ht hp hm => lv_client hW, ht, hp
  case pu3 t ht hp hr => lv_client hW, ht, hp
  case pu4 t ht hp hs => lv_client hW, ht, hp
  case pu5 t ht hp hm =>
    obtain rfl := hW.client ht (by rw [hp]; rfl)
    refine .inr (.inl (Less.client ?_))
    rw [hp]; dsimp only; rw [if_pos rfl]
    split <;> exact Nat.le_of_ble_eq_true rfl
  case pu6 t ht hp =>
    obtain rfl := hW.client ht (by rw [hp]; rfl)
    refine .inr (.inl (Less.client ?_))
    rw [hp]; dsimp only; rw [if_pos rfl]
    exact Nat.le_of_ble_eq_true rfl
  case in0 t ht hp hs =>
    obtain rfl := hW.client ht (by rw [hp]; rfl)
    refine .inr (.inl (Less.client ?_))
    rw [hp, go_pc, if_pos rfl]
    unfold beginPc; split <;> exact Nat.le_of_ble_eq_true rfl
  case in1 t ht k hp hm => lv_client hW, ht, hp
  case in2 t ht k hp hr => lv_client hW, ht, hp
  case in3Created t ht k hp hv => lv_client hW, ht, hp
  case in3 t ht k hp hv => lv_client hW, ht, hp
  case in5Read t ht k hp hm => exact .inl (go_same hp)
  case in5 t ht k hp c e => lv_client hW, ht, hp
  case in6 t ht k c e hp hm => lv_client hW, ht, hp
  case in7 t ht k c e hp hr => lv_client hW, ht, hp
  case in8 t ht k hp => lv_client hW, ht, hp
  case in8Err t ht k e hp => lv_client hW, ht, hp
  case in10 t ht e hp => lv_client hW, ht, hp
  case in10Err t ht e hp he => lv_client hW, ht, hp
  case in10Play t ht e hp he => lv_client hW, ht, hp
  case pl0Idle t ht hp hs hv => lv_client hW, ht, hp
  case pl0Init t ht hp hs hv =>
    obtain rfl := hW.client ht (by rw [hp]; rfl)
    refine .inr (.inl (Less.client ?_))
    rw [hp, go_pc, if_pos rfl]
    unfold beginPc; split <;> exact Nat.le_of_ble_eq_true rfl
  case pl0Ready t ht hp hs hv => lv_client hW, ht, hp
  case pl0Running t ht hp hs hv => lv_client hW, ht, hp
  case pl0Initializing t ht hp hs hv => lv_client hW, ht, hp
  case pl1 t ht hp => lv_client hW, ht, hp
  case pl2 t ht hp hi => lv_client hW, ht, hp
  case pl2Disable t ht hp i hi => lv_client hW, ht, hp
  case pl3Timeout t ht hp hm hc => lv_client hW, ht, hp
  case pl3 t ht hp hm hc => lv_client hW, ht, hp
  case pa0 t ht hp hs hv => lv_client hW, ht, hp
  case pa0Err t ht hp hs hv => lv_client hW, ht, hp
  case it0Ready t ht e hp hs hv => lv_client hW, ht, hp
  case it0 t ht e hp hs hv => lv_client hW, ht, hp
  case it0Err t ht e hp hs hv => lv_client hW, ht, hp
  case it2 t ht hp => lv_client hW, ht, hp
  case it3 t ht hp => lv_client hW, ht, hp
  case sd0 t ht st k hp => lv_client hW, ht, hp
  case sd2 t ht k hp => lv_client hW, ht, hp
  case sd3Closed t ht a k hp ha => lv_client hW, ht, hp
  case sd3 t ht a k hp j hj i hq ha => lv_client hW, ht, hp
  case wa0Running t ht c d hp hs hv => lv_client hW, ht, hp
  case wa0 t ht c d hp hs e hv hn => lv_client hW, ht, hp
  case wa1Never t ht c d hp hm hn => lv_client hW, ht, hp
  case wa1 t ht c d hp hm hn => lv_client hW, ht, hp
  case wa2Done t ht c d hp hc => lv_client hW, ht, hp
  case wa2Again t ht c d hp => exact .inl (go_same hp)
  case wa2Timeout t ht c hp => lv_client hW, ht, hp
  case wa3 t ht hp hs => lv_client hW, ht, hp
  case r0 t ht hp => lv_run hW, ht, hp
  case r1 t ht hp j hj st k hq => lv_meet hW, ht, hp, hj, hq
  case r2 t ht st hp hs => lv_run hW, ht, hp
  case r4 t ht i hp => lv_run hW, ht, hp
  case r5Closed t ht i a hp ha => lv_run hW, ht, hp
  case r6 t ht hp hv => lv_run hW, ht, hp
  case r6Exit t ht hp hv => lv_run hW, ht, hp
  case r7Done t ht hp hm hd => lv_run hW, ht, hp
  case r7 t ht hp hm hd =>
    obtain ⟨rfl, h3⟩ := hW.run ht (by rw [hp]; rfl)
    refine .inr (.inl (Less.goRun h3 rfl rfl rfl rfl ?_))
    rw [hp]
    split <;> exact Nat.le_of_ble_eq_true rfl
  case r8Done t ht hp => lv_run hW, ht, hp
  case r8 t ht hp => lv_run hW, ht, hp
  case r9 t ht hp j hj st k hq => lv_meet hW, ht, hp, hj, hq
  case r10 t ht st hp hs => lv_run hW, ht, hp
  case r9Default t ht hp hn => lv_run hW, ht, hp
  case iterNil t ht hp => exact .inr (.inr ⟨t, rfl⟩)
  case iterOk t ht hp c => lv_run hW, ht, hp
  case iterErr t ht hp e => lv_run hW, ht, hp
  case iterPanic t ht hp e => lv_run hW, ht, hp
  case rS t ht c hp hm => lv_run hW, ht, hp
  case rS' t ht c hp hr =>
    obtain ⟨rfl, h3⟩ := hW.run ht (by rw [hp]; rfl)
    refine .inr (.inl (Less.run (by rw [go_pc, if_neg (by omega)]; rfl) ?_))
    have e2 : runPc s = (s.thr (s.n - 1)).pc := by unfold runPc; rw [if_pos h3]
    have e1 : ∀ s1 : Algo C, s1.n = s.n → runPc (s1.go (s.n - 1) .r6) = .r6 := by
      intro s1 hn; unfold runPc; rw [go_n, hn, if_pos h3, go_pc, if_pos rfl]
    rw [e2, hp]
    unfold limit at *
    rw [go_iterations, go_pushedData] at hb
    rw [go_iterations, go_pushedData]
    refine lt_of_eq_of_lt (congrArg (fun p => _ + rAll p) (e1 _ rfl)) ?_
    change s.iterations + 1 ≤ conf.iter + s.pushedData * conf.iterPerData at hb
    change 30 * (conf.iter + s.pushedData * conf.iterPerData - (s.iterations + 1)) + 19 < 30 * _ + 13
    omega
  case r12 t ht hp hv => lv_run hW, ht, hp
  case r12Exit t ht hp hv => lv_run hW, ht, hp
  case r13 t ht hp hs => lv_run hW, ht, hp
  case r15 t ht e hp hs => lv_run hW, ht, hp
  case c0 t ht hp hs => lv_run hW, ht, hp
  case c0Panic t ht e hp hs => lv_run hW, ht, hp
  case c2 t ht p hp hm => lv_run hW, ht, hp
  case c3 t ht p hp hr => lv_run hW, ht, hp
  case c4 t ht hp j hj st k hq => lv_meet hW, ht, hp, hj, hq
  case c4Panic t ht e hp j hj st k hq => lv_meet hW, ht, hp, hj, hq
  case c4Default t ht p hp hn => lv_run hW, ht, hp
  case c6Closed t ht hp ha => lv_run hW, ht, hp
  case c6 t ht hp j hj i hq ha =>
    obtain ⟨h1, h3⟩ := hW.run ht (by rw [hp]; rfl)
    obtain ⟨h2, _⟩ := hW.run hj (by rw [hq]; rfl)
    rw [h1, ← h2, hq] at hp; cases hp
  case c6Default t ht hp ha hn => lv_run hW, ht, hp
  case c7 t ht hp => lv_run hW, ht, hp
  case c8 t ht hp => lv_run hW, ht, hp
  case nl0 t ht hp j hj st p hq =>
    obtain ⟨rfl, h2⟩ := hW.loop ht (by rw [hp]; trivial) (by rw [hp]; rintro ⟨⟩)
    have hcase : (clientPc (s.thr j).pc = true ∧ cAll p < cAll (s.thr j).pc) ∨
        (runnerPc (s.thr j).pc = true ∧ rAll p < rAll (s.thr j).pc) := by
      generalize (s.thr j).pc = q at hq
      cases q <;> simp only [notifying, reduceCtorEq, Option.some.injEq, Prod.mk.injEq] at hq
      case in4 k => obtain ⟨_, rfl⟩ := hq; exact .inl ⟨rfl, Nat.le_of_ble_eq_true rfl⟩
      case in9 k e =>
        cases e <;> simp only [notifying, reduceCtorEq, Option.some.injEq, Prod.mk.injEq] at hq <;>
          (obtain ⟨_, rfl⟩ := hq; exact .inl ⟨rfl, Nat.le_of_ble_eq_true rfl⟩)
      case it1 e => obtain ⟨_, rfl⟩ := hq; exact .inl ⟨rfl, Nat.le_of_ble_eq_true rfl⟩
      case r3 => obtain ⟨_, rfl⟩ := hq; exact .inr ⟨rfl, Nat.le_of_ble_eq_true rfl⟩
      case r11 =>
        obtain ⟨_, rfl⟩ := hq
        refine .inr ⟨rfl, ?_⟩
        split <;> exact Nat.le_of_ble_eq_true rfl
      case r14 => obtain ⟨_, rfl⟩ := hq; exact .inr ⟨rfl, Nat.le_of_ble_eq_true rfl⟩
      case r16 => obtain ⟨_, rfl⟩ := hq; exact .inr ⟨rfl, Nat.le_of_ble_eq_true rfl⟩
      case c1 => obtain ⟨_, rfl⟩ := hq; exact .inr ⟨rfl, Nat.le_of_ble_eq_true rfl⟩
      case c5 => obtain ⟨_, rfl⟩ := hq; exact .inr ⟨rfl, Nat.le_of_ble_eq_true rfl⟩
    rcases hcase with ⟨h1, h4⟩ | ⟨h1, h4⟩
    · obtain rfl := hW.client hj h1
      refine .inr (.inl (Less.client ?_))
      rw [go_pc, if_neg (by omega), go_pc, if_pos rfl]; exact h4
    · obtain ⟨rfl, h3⟩ := hW.run hj h1
      refine .inr (.inl (Less.run ?_ ?_))
      · rw [go_pc, if_neg (by omega), go_pc, if_neg (by omega)]; rfl
      · have e1 : runPc (((s.ev (.notified st)).go (s.n - 1) p).go 1 (.nl1 st)) = p := by
          unfold runPc
          rw [go_n, go_n]
          change (if 3 ≤ s.n then _ else _) = _
          rw [if_pos h3]
          change ((((s.ev (.notified st)).go (s.n - 1) p).go 1 (.nl1 st)).thr (s.n - 1)).pc = p
          rw [go_pc, if_neg (by omega), go_pc, if_pos rfl]
        have e2 : runPc s = (s.thr (s.n - 1)).pc := by unfold runPc; rw [if_pos h3]
        rw [e1, e2]
        change 30 * (limit conf s - s.iterations) + _ < _
        omega
  case nl1 t ht st hp hm =>
    obtain ⟨rfl, h2⟩ := hW.loop ht (by rw [hp]; trivial) (by rw [hp]; rintro ⟨⟩)
    refine .inr (.inl (Less.notif ?_ ?_ rfl rfl ?_))
    · rw [go_pc, if_neg (by omega)]
    · exact runPc_eq rfl fun h3 => by rw [go_pc, if_neg (by omega)]
    · unfold notifPc
      rw [go_n, if_pos h2, if_pos h2, go_pc, if_pos rfl, hp]
      split <;> exact Nat.le_of_ble_eq_true rfl
  case ti0 t ht hp hd => exact absurd hp (hW.timer ht)
  case ti0Fire t ht hp hd => exact absurd hp (hW.timer ht)

end Algo
end Distclus
