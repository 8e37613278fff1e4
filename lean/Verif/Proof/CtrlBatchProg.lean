import Verif.Proof.CtrlBatchRun
/-!
# Playing until the limit: every call returns
-/
namespace Distclus
open Ctrl
namespace Algo
open Spec
variable {C : Type}
variable {conf : Conf} {s s' : Algo C} {t u : Nat}

set_option linter.unusedSimpArgs false
set_option linter.unusedTactic false
set_option linter.unusedVariables false
set_option linter.unnecessarySeqFocus false
set_option linter.unreachableTactic false

theorem rebatching_calmEv {e : Event C} {l : List (Event C)} (h : Rebatching l) (he : calmEv e = true) :
    Rebatching (e :: l) := by
  cases e <;> first
    | exact ⟨trivial, h⟩
    | (cases he; done)
    | (refine ⟨?_, h⟩; exact Option.isNone_iff_eq_none.1 he)

theorem CalmLog.rebatching (h : CalmLog s s') (hP : Rebatching s.log) : Rebatching s'.log := by
  rcases h with h | ⟨e, h, he⟩ <;> rw [h]
  · exact hP
  · exact rebatching_calmEv hP he

/-- The call in progress can return. -/
def Goes (conf : Conf) (l : List (Event C)) (s : Algo C) : Prop :=
  ∃ as s', Act.client ∉ as ∧ exec conf s as = some s' ∧ (s'.thr 0).pc = .home ∧ RunsInv conf s' ∧
    Rebatching s'.log ∧ Gains l s'.log

/-- A state in which the call may be in progress. -/
structure Under (conf : Conf) (l : List (Event C)) (s : Algo C) : Prop where
  inv : RunsInv conf s
  bat : Rebatching s.log
  gains : Gains l s.log

theorem Under.step {c : Choice C} {l : List (Event C)} (hc : Limited conf) (hU : Under conf l s)
    (h : s.step conf t c = some s') (hcalm : calm c = true) : Under conf l s' := by
  have hl := step_calm h hcalm
  have hP := hl.rebatching hU.bat
  exact ⟨hU.inv.step hc h hP, hP, hl.gains hU.gains⟩

theorem Goes.step {c : Choice C} {l : List (Event C)} (h : s.step conf t c = some s') (hg : Goes conf l s') :
    Goes conf l s := by
  obtain ⟨as, s2, i1, i2, i3⟩ := hg
  refine ⟨.act t c :: as, s2, ?_, ?_, i3⟩
  · intro h
    rcases List.mem_cons.1 h with h | h
    · cases h
    · exact i1 h
  · simp only [exec, next, h]; exact i2

theorem Goes.home {l : List (Event C)} (hU : Under conf l s) (hh : (s.thr 0).pc = .home) : Goes conf l s :=
  ⟨[], s, List.not_mem_nil, rfl, hh, hU.inv, hU.bat, hU.gains⟩

/-! ## After the limit -/

/-- How far the client is from the end of its call. -/
def cEnd : PC C → Nat
  | .home | .dead => 0
  | .rdStatus | .rdCentroids | .rdFigures | .rdConf => 1
  | .it2 => 1 | .it1 _ => 2 | .it0 _ => 3
  | .pl3 => 1 | .pl2 => 2
  | .wa3 => 1 | .wa2 _ _ => 2 | .wa1 _ _ => 3 | .wa0 _ _ => 4
  | _ => 5

/-- How far the run is from its end. -/
def rEnd : PC C → Nat
  | .dead => 0 | .c8 => 1 | .c7 => 2 | .c6 => 3 | .c4 _ => 4 | .c3 _ => 5 | .c2 _ => 6 | .c0 _ => 7
  | .r14 => 8 | .r13 => 9 | .r12 => 10
  | _ => 11

def endRank (s : Algo C) : Nat :=
  1000 * cEnd (s.thr 0).pc + 10 * rEnd (s.thr (s.n - 1)).pc + nRank (s.thr 1).pc

theorem rEnd_le (p : PC C) : rEnd p ≤ 11 := by cases p <;> exact Nat.le_of_ble_eq_true rfl

/-- A calm action which brings the client closer to the end of its call. -/
def MovesE (conf : Conf) (s : Algo C) : Prop := ∃ t c s', s.step conf t c = some s' ∧ calm c = true ∧
  endRank s' < endRank s

theorem MovesE.client {c : Choice C} (h : s.step conf t c = some s') (hc : calm c = true)
    (hr : cEnd (s'.thr 0).pc < cEnd (s.thr 0).pc) : MovesE conf s := by
  refine ⟨t, c, s', h, hc, ?_⟩
  have := rEnd_le (s'.thr (s'.n - 1)).pc; have := nRank_le (s'.thr 1).pc
  unfold endRank; omega

theorem MovesE.run {c : Choice C} (h : s.step conf t c = some s') (hc : calm c = true)
    (hn : s'.n = s.n) (h0 : (s'.thr 0).pc = (s.thr 0).pc)
    (hr : rEnd (s'.thr (s.n - 1)).pc < rEnd (s.thr (s.n - 1)).pc) : MovesE conf s := by
  refine ⟨t, c, s', h, hc, ?_⟩
  have := nRank_le (s'.thr 1).pc
  unfold endRank; rw [h0, hn]; omega

theorem MovesE.notif {c : Choice C} {p : PC C} (h : s.step conf t c = some (s.go 1 p)) (hc : calm c = true)
    (h3 : 3 ≤ s.n) (hr : nRank p < nRank (s.thr 1).pc) : MovesE conf s := by
  refine ⟨t, c, _, h, hc, ?_⟩
  unfold endRank
  rw [go_n, go_pc, go_pc, go_pc, if_neg (by omega), if_neg (by omega), if_pos rfl]; omega

/-- A goroutine other than the client and the run is at no lock. -/
theorem EndInv.other (hI : EndInv conf s) (hL : LockInv s) (f : PC C → Bool) (hd : f .dead = false)
    (hn : ∀ p : PC C, NotifOk p → f p = false) (h0 : f (s.thr 0).pc = false)
    (hr : f (s.thr (s.n - 1)).pc = false) (j : Nat) : f (s.thr j).pc = false := by
  by_cases hj : (s.thr j).pc = .dead
  · rw [hj]; exact hd
  · rcases hI.who (hL.lt hj) rfl hj with ⟨rfl, _⟩ | ⟨rfl, _, h⟩ | ⟨h, _⟩
    · exact h0
    · exact hn _ h
    · rw [h]; exact hr

theorem EndInv.smFree (hI : EndInv conf s) (hL : LockInv s) (h0 : holdsS (s.thr 0).pc = false)
    (hr : holdsS (s.thr (s.n - 1)).pc = false) : s.sm = none := by
  cases h : s.sm with
  | none => rfl
  | some j =>
    have h1 := hI.full j h
    rw [hI.other hL holdsS rfl (fun p hp => by cases p <;> first | rfl | exact hp.elim) h0 hr] at h1
    cases h1

theorem EndInv.maFree (hI : EndInv conf s) (hL : LockInv s) (hr : holdsM (s.thr (s.n - 1)).pc = false) :
    s.ma = none := by
  obtain ⟨op, v, _, hC, hO⟩ := hI.row
  have h0 : holdsM (s.thr 0).pc = false := by
    generalize (s.thr 0).pc = p at hC
    cases p <;> first | rfl | exact hC.elim
  cases h : s.ma with
  | none => rfl
  | some j =>
    have h1 := (hL.hM j).2 h
    rw [hI.other hL holdsM rfl (fun p hp => by cases p <;> first | rfl | exact hp.elim) h0 hr] at h1
    cases h1

theorem EndInv.mrFree (hI : EndInv conf s) (hL : LockInv s) : s.mr = [] := by
  obtain ⟨op, v, _, hC, hO⟩ := hI.row
  rw [List.eq_nil_iff_forall_not_mem]
  intro j hj
  have h1 := hL.hR j
  have h2 : 0 < s.mr.count j := List.count_pos_iff.2 hj
  have hi : (s.thr j).inPush = true := by
    by_contra h
    rw [if_neg h] at h1; omega
  by_cases hj0 : j = 0
  · subst hj0; rw [hI.push] at hi; cases hi
  · have h3 := hL.push j hi
    have hd : (s.thr j).pc ≠ .dead := by
      intro hd; rw [hd] at h3; cases h3
    rcases hI.who (hL.lt hd) rfl hd with ⟨h, _⟩ | ⟨rfl, _, h⟩ | ⟨rfl, _⟩
    · exact hj0 h
    · revert h h3
      generalize (s.thr 1).pc = p
      intro h3 h
      cases p <;> first | exact h.elim | (cases h3; done)
    · generalize (s.thr (s.n - 1)).pc = p at hO h3
      cases p <;> first | exact hO.elim | (cases h3; done)

set_option hygiene false in
/-- The client makes its next step. -/
macro "ego" c:term "using" l:Lean.Parser.Tactic.simpLemma,* : tactic =>
  `(tactic| (
    apply MovesE.client (t := 0) (c := $c)
    · simp only [Algo.step, n0, if_true, hp, stepRead, stepPlay, stepInterrupt, stepWait, $l,*]; rfl
    · rfl
    · simp [go_pc, ret_pc, ev_thr, put_thr, hip, hp, cEnd]))

set_option hygiene false in
/-- The run makes its next step. -/
macro "ero" c:term "using" l:Lean.Parser.Tactic.simpLemma,* : tactic =>
  `(tactic| (
    apply MovesE.run (t := s.n - 1) (c := $c)
    · simp only [Algo.step, h4, if_true, hr, stepRun, stepRecover, $l,*]; rfl
    · rfl
    · rfl
    · simp [go_pc, h5.symm, ev_thr, put_thr]
    · simp [go_pc, hr, rEnd, ev_thr, put_thr]))

/-- Something can happen. -/
theorem EndInv.moves (hc : Limited conf) (hL : LockInv s) (hI : EndInv conf s)
    (hh : (s.thr 0).pc ≠ .home) : MovesE conf s := by
  have h3 := hI.n3
  have n0 : 0 < s.n := by omega
  have n1 : 1 < s.n := by omega
  have h4 : s.n - 1 < s.n := by omega
  have h5 : s.n - 1 ≠ 0 := by omega
  have h6 : s.n - 1 ≠ 1 := by omega
  have hip := hI.push
  have hmr := hI.mrFree hL
  obtain ⟨op, v, hR, hC, hO⟩ := hI.row
  generalize hr : (s.thr (s.n - 1)).pc = r at *
  by_cases hr3 : ∃ p, r = .c3 p
  · obtain ⟨p, rfl⟩ := hr3
    ero .go using hmr
  have hma := hI.maFree hL (by
    rw [hr]
    cases r <;> first | rfl | exact hO.elim | exact absurd ⟨_, rfl⟩ hr3)
  by_cases hN' : (s.thr 1).pc ≠ .nl0
  · have hno := hI.notif
    generalize hp : (s.thr 1).pc = p at *
    cases p <;> first | exact hno.elim | exact absurd rfl hN' | skip
    · refine MovesE.notif (t := 1) (c := .go) (p := .nl0) ?_ rfl h3 (by rw [hp]; exact Nat.le_of_ble_eq_true rfl)
      simp only [Algo.step, n1, if_true, hp, stepHome, hI.kind1]
    · refine MovesE.notif (t := 1) (c := .go) (p := if conf.notifier then .home else .nl0) ?_ rfl h3 ?_
      · simp only [Algo.step, n1, if_true, hp, stepNotif, hma]
      · rw [hp]; split <;> exact Nat.le_of_ble_eq_true rfl
  have hN : (s.thr 1).pc = .nl0 := by simpa using hN'
  clear hN'
  generalize hp : (s.thr 0).pc = p at *
  by_cases h0 : holdsS p = true
  · cases p <;> first | exact hC.elim | (cases h0; done) | skip
    case it1 e =>
      apply MovesE.client (t := 1) (c := .recv 0)
      · simp only [Algo.step, n1, n0, if_true, hp, hN, stepNotif, notifying]; rfl
      · rfl
      · simp [go_pc, hp, cEnd]
    case it2 => ego .go using hma
  have h0 : holdsS p = false := by simpa using h0
  have hsm : holdsS r = false → s.sm = none := fun h => hI.smFree hL (by rw [hp]; exact h0) (hr ▸ h)
  cases r
  case r12 =>
    have hO : s.status.value = .running := hO
    ero .go using hO
  case r13 => ero .go using hsm rfl
  case r14 =>
    apply MovesE.run (t := 1) (c := .recv (s.n - 1))
    · simp only [Algo.step, n1, h4, if_true, hr, hN, stepNotif, notifying]; rfl
    · rfl
    · rfl
    · simp [go_pc, h5.symm, ev_thr, put_thr]
    · simp [go_pc, hr, rEnd, h6]
  case c0 q =>
    obtain ⟨rfl, _⟩ := hO
    ero .go using hsm rfl
  case c2 q => ero .go using hma
  case c3 q => exact absurd ⟨_, rfl⟩ hr3
  case c4 q =>
    have : s.noSender = true := by
      rw [noSender, decide_eq_true_iff]
      intro j _
      have := hI.other hL (fun p => (sending p).isSome) rfl
        (fun p h => by cases p <;> first | rfl | exact h.elim)
        (by rw [hp]; cases p <;> first | rfl | exact hC.elim) (by rw [hr]; rfl) j
      simpa using this
    ero .default using this
  case c6 =>
    by_cases hcl : s.ack ∈ s.closed
    · ero .go using hcl
    · have hack : ∀ j < s.n, (acking (s.thr j).pc).map (·.1) ≠ some s.ack := by
        intro j _
        have := hI.other hL (fun p => (acking p).isSome) rfl
          (fun p h => by cases p <;> first | rfl | exact h.elim)
          (by rw [hp]; cases p <;> first | rfl | exact hC.elim) (by rw [hr]; rfl) j
        rw [Option.isSome_eq_false_iff, Option.isNone_iff_eq_none] at this
        rw [this]; rintro ⟨⟩
      ero .default using if_pos (And.intro hcl hack)
  case c7 => ero .go using hma
  case c8 => ero .go using hma
  case dead =>
    have hsm := hsm rfl
    cases p <;> first | exact hC.elim | exact absurd rfl hh | (cases h0; done) | skip
    case rdStatus => ego .go using hsm
    case rdCentroids => ego .go using hma
    case rdFigures => ego .go using hma
    case rdConf => ego .go using hma
    case pl2 =>
      cases ht : s.timeout
      all_goals ego .go using ht
    case pl3 => ego .go using hma, hc.1.2.1
    case it0 e =>
      rcases hO with hO | hO
      all_goals ego .go using hsm, hO
    case wa0 c b =>
      rcases hO with hO | hO
      all_goals ego .go using hsm, hO
    case wa1 c b =>
      obtain ⟨rfl, rfl, _⟩ := hC
      have : (!false && !false && !conf.finishing && !conf.timeout && conf.iter == 0 && conf.iterPerData == 0) = false := by
        rcases hc.2 with h | h
        · have : (conf.iter == 0) = false := by simp; omega
          simp [this]
        · have : (conf.iterPerData == 0) = false := by simp; omega
          simp [this]
      ego .go using hma, this
    case wa2 c b =>
      obtain ⟨rfl, rfl, _⟩ := hC
      have : s.status.error.isSome = true ∨ s.status.value = .ready ∨ s.status.value = .idle ∨
          s.status.value = .finished := by
        rcases hO with hO | hO
        · exact .inr (.inl hO)
        · exact .inr (.inr (.inr hO))
      ego .go using hsm, this
    case wa3 => ego .go using hsm
  all_goals exact hO.elim

theorem EndInv.goes (hc : Limited conf) {l : List (Event C)} : ∀ (n : Nat) (s : Algo C), endRank s ≤ n →
    Under conf l s → EndInv conf s → Goes conf l s := by
  intro n
  induction n with
  | zero =>
    intro s hr hU hI
    by_cases hh : (s.thr 0).pc = .home
    · exact Goes.home hU hh
    · obtain ⟨_, _, _, _, _, h⟩ := hI.moves hc hU.inv.ack.lock hh
      omega
  | succ n ih =>
    intro s hr hU hI
    by_cases hh : (s.thr 0).pc = .home
    · exact Goes.home hU hh
    · obtain ⟨t, c, s1, h1, h2, h3⟩ := hI.moves hc hU.inv.ack.lock hh
      have hU1 := hU.step hc h1 h2
      refine (ih s1 (by omega) hU1 (hI.step hc hU.inv.ack.lock (Step.of_step h1) (step_noClient h1) ?_)).step h1
      intro u op hl
      rcases step_calm h1 h2 with h | ⟨e, h, he⟩
      · rw [hl] at h; exact absurd h.symm (by simp)
      · rw [hl] at h
        obtain ⟨rfl, _⟩ := List.cons.inj h
        cases he

/-! ## Waiting for the limit -/

/-- How far the run is from the end of an iteration. -/
def lRank : PC C → Nat
  | .r6 => 6 | .r7 => 5 | .r9 => 4 | .rI => 3 | .rS _ => 2 | .rS' _ => 1
  | _ => 0

theorem lRank_le (p : PC C) : lRank p ≤ 6 := by cases p <;> exact Nat.le_of_ble_eq_true rfl

/-- How far the run is from its limit. -/
def waitRank (conf : Conf) (s : Algo C) : Nat := 10 * (limit conf s - s.iterations) + lRank (runPc s)

/-- The run makes a step, without the end of an iteration. -/
theorem waitRank_run {s1 : Algo C} {p q : PC C} (h3 : 3 ≤ s.n) (hq : runPc s = q)
    (hn : s1.n = s.n) (hd : s1.pushedData = s.pushedData) (hi : s1.iterations = s.iterations)
    (hr : lRank p < lRank q) : waitRank conf (s1.go (s.n - 1) p) < waitRank conf s := by
  have : runPc (s1.go (s.n - 1) p) = p := by
    unfold runPc; rw [go_n, hn, if_pos h3, go_pc, if_pos rfl]
  unfold waitRank limit
  rw [this, hq, go_pushedData, go_iterations, hd, hi]; omega

theorem PreInv.goes [Nonempty C] (hc : Limited conf) {l : List (Event C)} : ∀ (n : Nat) (s : Algo C),
    waitRank conf s < n → Under conf l s → PreInv conf s → (s.thr 0).pc = .wa2 false false → Goes conf l s := by
  intro n
  induction n with
  | zero => intro s h; omega
  | succ n ih =>
    intro s hw hU hI hp
    have hL := hU.inv.ack.lock
    have hmr := hI.use.mrFree hL (by rw [hp]; rintro ⟨⟩)
    obtain ⟨op, d, ph, hR, hC, hO⟩ := hI.use.row
    rw [hp] at hC
    obtain ⟨_, _, _, rfl, rfl⟩ := hC
    obtain ⟨hv, hl, hcl⟩ := hO
    have h3 : 3 ≤ s.n := by
      by_contra h3
      rw [runPc, if_neg h3] at hl; exact hl
    have h4 : s.n - 1 < s.n := by omega
    have h5 : s.n - 1 ≠ 0 := by omega
    have hq : (s.thr (s.n - 1)).pc = runPc s := by rw [runPc, if_pos h3]
    -- what remains once a step is known
    have fin : ∀ (c : Choice C) (s1 : Algo C), s.step conf (s.n - 1) c = some s1 → calm c = true →
        (s1.thr 0).pc = .wa2 false false → waitRank conf s1 < waitRank conf s → Goes conf l s := by
      intro c s1 h1 h2 h6 h7
      have hU1 := hU.step hc h1 h2
      refine Goes.step h1 ?_
      rcases hU1.inv.phase with hp1 | hp1
      · exact ih s1 (by omega) hU1 hp1 h6
      · exact EndInv.goes hc _ s1 (Nat.le_refl _) hU1 hp1
    have hM : (∀ c, runPc s ≠ .rS' c) → s.ma = none := fun h => hI.use.maFree hL (by rw [hp]; rfl) (by
      generalize runPc s = r at *
      cases r <;> first | rfl | exact hl.elim | exact absurd rfl (h _))
    generalize hr : runPc s = r at *
    cases r <;> first | exact hl.elim | skip
    case r6 =>
      refine fin .go (s.go (s.n - 1) .r7) ?_ rfl ?_ ?_
      · simp only [Algo.step, h4, if_true, hq, stepRun, hv]
      · rw [go_pc, if_neg (by omega)]; exact hp
      · exact waitRank_run h3 hr rfl rfl rfl (Nat.le_of_ble_eq_true rfl)
    case r7 =>
      have hma := hM (by rintro c ⟨⟩)
      cases hd : iterDone conf s with
      | true =>
        have h1 : s.step conf (s.n - 1) .go = some (s.go (s.n - 1) .r12) := by
          simp only [Algo.step, h4, if_true, hq, stepRun, hma, hd]
        have hU1 := hU.step hc h1 rfl
        exact Goes.step h1 (EndInv.goes hc _ _ (Nat.le_refl _) hU1
          (hI.finish hc (bounded_reachable hU.inv.bounded) hU.bat h4 hq hma hd))
      | false =>
        refine fin .go (s.go (s.n - 1) .r9) ?_ rfl ?_ ?_
        · have := hc.1.2.2
          simp [Algo.step, h4, hq, stepRun, hma, hd, this]
        · rw [go_pc, if_neg (by omega)]; exact hp
        · exact waitRank_run h3 hr rfl rfl rfl (Nat.le_of_ble_eq_true rfl)
    case r9 =>
      have hns : s.noSender = true := by
        rw [noSender, decide_eq_true_iff]
        intro j _
        have := hI.use.other hL (fun p => (sending p).isSome) rfl
          (fun p h => by cases p <;> first | rfl | exact h.elim) (by rw [hp]; rfl) (by rw [hr]; rfl) j
        simpa using this
      refine fin .default ((s.ev (.iterCall (s.n - 1) s.status s.centroids)).go (s.n - 1) .rI) ?_ rfl ?_ ?_
      · simp only [Algo.step, h4, if_true, hq, stepRun, hns]
      · rw [go_pc, if_neg (by omega)]; exact hp
      · exact waitRank_run h3 hr rfl rfl rfl (Nat.le_of_ble_eq_true rfl)
    case rI =>
      obtain ⟨c⟩ := ‹Nonempty C›
      refine fin (.iterOk c) ((s.ev (.iterOk (s.n - 1) c)).go (s.n - 1) (.rS c)) ?_ rfl ?_ ?_
      · simp only [Algo.step, h4, if_true, hq, stepRun]
      · rw [go_pc, if_neg (by omega)]; exact hp
      · exact waitRank_run h3 hr rfl rfl rfl (Nat.le_of_ble_eq_true rfl)
    case rS c =>
      have hma := hM (by rintro c ⟨⟩)
      refine fin .go ({ s with ma := some (s.n - 1) }.go (s.n - 1) (.rS' c)) ?_ rfl ?_ ?_
      · simp only [Algo.step, h4, if_true, hq, stepRun, hma]
      · rw [go_pc, if_neg (by omega)]; exact hp
      · exact waitRank_run h3 hr rfl rfl rfl (Nat.le_of_ble_eq_true rfl)
    case rS' c =>
      have h1 : s.step conf (s.n - 1) .go = some (({ s with
        iterations := s.iterations + 1
        centroids := some c
        figIter := s.iterations + 1
        figPushed := s.pushedData
        ma := none }.ev (.saved c)).go (s.n - 1) .r6) := by
        simp only [Algo.step, h4, if_true, hq, stepRun, hmr]
      have hU1 := hU.step hc h1 rfl
      have hb := (Bounded.limit hc.2 hU1.inv.bounded).2.2
      refine fin .go _ h1 rfl ?_ ?_
      · rw [go_pc, if_neg (by omega)]; exact hp
      · rw [go_iterations, go_pushedData] at hb
        have hb : s.iterations + 1 ≤ conf.iter + s.pushedData * conf.iterPerData :=
          Nat.le_trans (Nat.le_add_right _ _) hb
        have := lRank_le (runPc (({ s with
          iterations := s.iterations + 1
          centroids := some c
          figIter := s.iterations + 1
          figPushed := s.pushedData
          ma := none }.ev (.saved c)).go (s.n - 1) .r6))
        unfold waitRank limit
        rw [go_pushedData, go_iterations]
        change 10 * (conf.iter + s.pushedData * conf.iterPerData - (s.iterations + 1)) + _ < _
        omega

/-! ## Every call -/

theorem Under.goes [Nonempty C] (hc : Limited conf) {l : List (Event C)} : ∀ (n : Nat) (s : Algo C),
    rank s < n → Under conf l s → Goes conf l s := by
  intro n
  induction n with
  | zero => intro s h; omega
  | succ n ih =>
    intro s hn hU
    by_cases hh : (s.thr 0).pc = .home
    · exact Goes.home hU hh
    rcases hU.inv.phase.symm with hI | hI
    · exact EndInv.goes hc _ s (Nat.le_refl _) hU hI
    have hL := hU.inv.ack.lock
    obtain ⟨op, d, ph, hR, hC, hO⟩ := hI.use.row
    have hwait : ∀ s1, Under conf l s1 → (s1.thr 0).pc = .wa2 false false → Goes conf l s1 := by
      intro s1 hU1 hp
      rcases hU1.inv.phase with h | h
      · exact PreInv.goes hc _ s1 (Nat.lt_succ_self _) hU1 h hp
      · exact EndInv.goes hc _ s1 (Nat.le_refl _) hU1 h
    by_cases h2 : ∃ c b, (s.thr 0).pc = .wa2 c b
    · obtain ⟨c, b, hp⟩ := h2
      rw [hp] at hC
      obtain ⟨rfl, rfl, _⟩ := hC
      exact hwait s hU hp
    by_cases h1 : ∃ c b, (s.thr 0).pc = .wa1 c b
    · obtain ⟨c, b, hp⟩ := h1
      rw [hp] at hC
      obtain ⟨rfl, rfl, _, rfl, rfl⟩ := hC
      obtain ⟨hv, hl, _⟩ := hO
      have h3 : 3 ≤ s.n := by
        by_contra h3
        rw [runPc, if_neg h3] at hl; exact hl
      have h4 : s.n - 1 < s.n := by omega
      have n0 : 0 < s.n := by omega
      have hq : (s.thr (s.n - 1)).pc = runPc s := by rw [runPc, if_pos h3]
      by_cases hS : ∃ c, runPc s = .rS' c
      · obtain ⟨c, hS⟩ := hS
        have hmr := hI.use.mrFree hL (by rw [hp]; rintro ⟨⟩)
        have hm : Moves conf s := by
          rw [hS] at hq
          apply Moves.run (t := s.n - 1) (c := .go) h3
          · simp only [Algo.step, h4, if_true, hq, stepRun, hmr]; rfl
          · rfl
          · rfl
          · rw [go_pc, if_neg (by omega)]; rfl
          · rw [go_pc, if_pos rfl, hq]; exact Nat.le_of_ble_eq_true rfl
        obtain ⟨t, c, s1, i1, i2, i3⟩ := hm
        exact (ih s1 (by omega) (hU.step hc i1 i2)).step i1
      · have hma : s.ma = none := hI.use.maFree hL (by rw [hp]; rfl) (by
          generalize runPc s = r at *
          cases r <;> first | rfl | exact hl.elim | exact absurd ⟨_, rfl⟩ hS)
        have : (!false && !false && !conf.finishing && !conf.timeout && conf.iter == 0 && conf.iterPerData == 0) = false := by
          rcases hc.2 with h | h
          · have : (conf.iter == 0) = false := by simp; omega
            simp [this]
          · have : (conf.iterPerData == 0) = false := by simp; omega
            simp [this]
        have i1 : s.step conf 0 .go = some (s.go 0 (.wa2 false false)) := by
          simp only [Algo.step, n0, if_true, hp, stepWait, hma, this]; rfl
        exact Goes.step i1 (hwait _ (hU.step hc i1 rfl) (by rw [go_pc, if_pos rfl]))
    · have hm : Moves conf s := by
        refine hI.use.moves hc.1 hU.inv.ack hh (fun c b h => absurd ⟨c, b, h⟩ h1) (fun c b h => h2 ⟨c, b, h⟩) ?_
        intro st k hp hk
        exfalso
        rw [hp] at hC
        obtain ⟨hs, _, _⟩ := hC
        have hop : (op = some .pause ∨ op = some .stop) ∧ d = .running := by
          rcases hk with rfl | rfl
          · exact ⟨.inl hs.1, hs.2⟩
          · exact ⟨.inr hs.1, hs.2⟩
        obtain ⟨hop, rfl⟩ := hop
        have key : ∀ o, op = some o → o = .pause ∨ o = .stop → False := by
          rintro o rfl ho
          rcases (rebatching_current hU.bat hR.1).1 with h | h | h
          · exact h hR.2
          · rcases ho with rfl | rfl <;> cases h
          · rcases ho with rfl | rfl <;> cases h
        rcases hop with h | h
        · exact key _ h (.inl rfl)
        · exact key _ h (.inr rfl)
      obtain ⟨t, c, s1, i1, i2, i3⟩ := hm
      exact (ih s1 (by omega) (hU.step hc i1 i2)).step i1

end Algo
end Distclus
