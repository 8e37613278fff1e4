import Verif.Proof.CtrlUse
/-!
# A client which uses the controller alone: the invariant is kept
-/
namespace Distclus
open Ctrl
namespace Algo
open Spec
variable {C : Type}
variable {conf : Conf} {s s' : Algo C} {t u : Nat}
variable {fol : List (Op × Res C) → Option ClustStatus}

set_option linter.unusedTactic false
set_option linter.unusedVariables false
set_option linter.unnecessarySeqFocus false

/-- Program counters inside a call. -/
def clientPc : PC C → Bool
  | .rdStatus | .rdCentroids | .rdFigures | .rdConf
  | .pu0 | .pu1 | .pu2 | .pu3 | .pu4 | .pu5 | .pu6
  | .in0 | .in1 _ | .in2 _ | .in3 _ | .in4 _ | .in5 _ | .in6 _ _ _ | .in7 _ _ _ | .in8 _ _
  | .in9 _ _ | .in10 _ _ | .pl0 | .pl1 | .pl2 | .pl3 | .pa0
  | .it0 _ | .it1 _ | .it2 | .it3 | .sd0 _ _ | .sd1 _ _ | .sd2 _ | .sd3 _ _
  | .wa0 _ _ | .wa1 _ _ | .wa2 _ _ | .wa3 => true
  | _ => false

/-- Program counters of a run. -/
def runnerPc : PC C → Bool
  | .r0 | .r1 | .r2 _ | .r3 _ | .r4 _ | .r5 _ _ | .r6 | .r7 | .r8 | .r9 | .r10 _ | .r11 _ | .rI
  | .rS _ | .rS' _ | .r12 | .r13 | .r14 | .r15 _ | .r16 _
  | .c0 _ | .c1 _ | .c2 _ | .c3 _ | .c4 _ | .c5 _ | .c6 | .c7 | .c8 => true
  | _ => false

theorem ClientOk.pc {a : Nat} {op : Option Op} {d : ClustStatus} {ph : Ph} {p : PC C}
    (h : ClientOk a op d ph p) : p = .home ∨ clientPc p = true := by
  cases p <;> first | exact .inl rfl | exact .inr rfl | exact h.elim

theorem RunOk.pc {a : Nat} {cl : Prop} {v : ClustStatus} {ph : Ph} {p : PC C}
    (h : RunOk a cl v p ph) : p = .dead ∨ runnerPc p = true := by
  rcases ph with d | v' | k | k | _
  · cases d
    case created => exact .inl h.2
    case ready => exact .inl h.2
    case running =>
      obtain ⟨_, h, _⟩ := h
      cases p <;> first | exact .inr rfl | exact h.elim
    case idle => rw [h.2.1]; exact .inr rfl
    case finished => rcases h.2 with h | h <;> rw [h] <;> first | exact .inl rfl | exact .inr rfl
    case initializing => exact h.2.elim
  · exact .inl h.2
  · cases k <;> simp only [RunOk] at h
    · simp [h.2.1, runnerPc]
    · rcases h.2 with h | h <;> simp [h, runnerPc]
    all_goals
      obtain ⟨_, h, _⟩ := h
      cases p <;> first | exact .inr rfl | exact h.elim
  · cases k <;> simp only [RunOk] at h
    all_goals first
      | (obtain ⟨h, _⟩ := h; cases p <;> first | exact .inr rfl | exact h.elim)
      | (cases p <;> first | exact .inr rfl | exact .inl rfl | exact h.elim)
  · rcases h.2.2 with h | h <;> simp [h, runnerPc]

theorem UseInv.isClient (hI : UseInv fol s) {p : PC C} (ht : t < s.n) (hp : (s.thr t).pc = p)
    (h : clientPc p = true) : t = 0 := by
  obtain ⟨op, d, ph, hR, hC, hO⟩ := hI.row
  rcases hI.who ht hp (by rintro rfl; cases h) with ⟨rfl, _⟩ | ⟨_, _, _, hN⟩ | ⟨_, _, hr, _⟩
  · rfl
  · cases p <;> first | exact hN.elim | (cases h; done)
  · rw [hr] at hO
    rcases hO.pc with h' | h'
    · rw [h'] at h; cases h
    · cases p <;> first | (cases h; done) | (cases h'; done)

theorem UseInv.isRun (hI : UseInv fol s) {p : PC C} (ht : t < s.n) (hp : (s.thr t).pc = p)
    (h : runnerPc p = true) : t = s.n - 1 ∧ 3 ≤ s.n ∧ runPc s = p := by
  obtain ⟨op, d, ph, hR, hC, hO⟩ := hI.row
  rcases hI.who ht hp (by rintro rfl; cases h) with ⟨_, h0⟩ | ⟨_, _, _, hN⟩ | ⟨h1, h2, hr, _⟩
  · rw [h0] at hC
    rcases hC.pc with h' | h'
    · rw [h'] at h; cases h
    · cases p <;> first | (cases h; done) | (cases h'; done)
  · cases p <;> first | exact hN.elim | (cases h; done)
  · exact ⟨h1, h2, hr⟩

theorem UseInv.isNotif (hI : UseInv fol s) {p : PC C} (ht : t < s.n) (hp : (s.thr t).pc = p)
    (h : NotifOk p) (h' : p ≠ .home) : t = 1 ∧ 2 ≤ s.n := by
  obtain ⟨op, d, ph, hR, hC, hO⟩ := hI.row
  rcases hI.who ht hp (by rintro rfl; exact h) with ⟨_, h0⟩ | ⟨h1, h2, _, hN⟩ | ⟨h1, h2, hr, _⟩
  · rw [h0] at hC
    rcases hC.pc with h1 | h1
    · exact absurd h1 h'
    · cases p <;> first | exact h.elim | (cases h1; done)
  · exact ⟨h1, h2⟩
  · rw [hr] at hO
    rcases hO.pc with h1 | h1
    · rw [h1] at h; exact h.elim
    · cases p <;> first | exact h.elim | (cases h1; done)

theorem UseInv.noPush (hI : UseInv fol s) {p : PC C} (hp : (s.thr 0).pc = p) (h : p ≠ .pu6) :
    (s.thr 0).inPush = false := by
  cases hb : (s.thr 0).inPush with
  | false => rfl
  | true => exact absurd (hp ▸ hI.push hb) h

/-- An event which is neither a call nor a return. -/
def quietEv : Event C → Bool
  | .call _ _ => false
  | .ret _ _ => false
  | _ => true

theorem Rec.quiet {l : List (Event C)} {op : Option Op} {d : ClustStatus} (h : Rec fol l op d)
    {e : Event C} (he : quietEv e = true) : Rec fol (e :: l) op d := by
  unfold Rec at *
  have : session (e :: l) = session l := by cases e <;> first | rfl | cases he
  rwa [this]

/-- `statusMutex` is free, so no goroutine is inside. -/
theorem LockInv.out (hL : LockInv s) (h : s.sm = none) (j : Nat) : holdsS (s.thr j).pc = false := by
  cases hb : holdsS (s.thr j).pc with
  | false => rfl
  | true => have := hL.hS j hb; rw [h] at this; cases this

/-- While the client holds `statusMutex` the run does not. -/
theorem LockInv.excl (hL : LockInv s) {i j : Nat} (h : holdsS (s.thr i).pc = true) (hij : i ≠ j) :
    holdsS (s.thr j).pc = false := by
  cases hb : holdsS (s.thr j).pc with
  | false => rfl
  | true =>
    have a := hL.hS i h
    have b := hL.hS j hb
    rw [a] at b; cases b; exact absurd rfl hij

/-- A quiet run which does not hold `statusMutex`, Finished: there is none. -/
theorem runPc_free (h : s.sm = none) (hL : LockInv s) : runPc s ≠ .c8 := by
  unfold runPc
  split
  · intro hc
    have := hL.out h (s.n - 1)
    rw [hc] at this; cases this
  · rintro ⟨⟩

theorem UseInv.alive (hI : UseInv fol s) (h3 : 3 ≤ s.n) : s.status.value ≠ .created :=
  fun h => by have := hI.born.1 h; omega

/-- A client about to send does not look at the acknowledgement channel. -/
theorem ClientOk.reack {a a' : Nat} {op : Option Op} {d : ClustStatus} {k : SendFrom} {p : PC C}
    (h : ClientOk a op d (.offer k) p) : ClientOk a' op d (.offer k) p := by
  cases p <;> first | exact h | (obtain ⟨_, _, h⟩ := h; cases h)

/-- `Play` starts a run. -/
theorem UseInv.spawnRun {s1 : Algo C} {d : ClustStatus} (hI : UseInv fol s) (hn : s1.n = s.n)
    (ht : s1.thr = s.thr) (hst : s1.status = s.status) (hsm : s1.sm = none)
    (hR : Rec fol s1.log (some .play) d) (h2 : d = .created ∨ d = .finished ∨ d = .ready)
    (h1 : s.status.value = .ready) (h3 : runPc s = .dead) (hpu : (s.thr 0).inPush = false) :
    UseInv fol ((s1.spawn .run .r0).go 0 (.sd0 (.new .running) .playRun)) := by
  have hn2 : 2 ≤ s.n := by
    have := hI.pos
    have : s.n ≠ 1 := fun h => by have := hI.born.2 h; rw [h1] at this; cases this
    omega
  have e : ∀ j, (((s1.spawn .run .r0).go 0 (.sd0 (.new .running) .playRun)).thr j).pc =
      if j = 0 then .sd0 (.new .running) .playRun else if j = s.n then .r0 else (s.thr j).pc := by
    intro j; rw [go_pc, spawn_pc, ht, hn]
  have e2 : ((s1.spawn .run .r0).go 0 (.sd0 (.new .running) .playRun)).n = s.n + 1 := by
    rw [go_n, spawn_n, hn]
  have e3 : ∀ j, (((s1.spawn .run .r0).go 0 (.sd0 (.new .running) .playRun)).thr j).kind =
      if j = s.n then .run else (s.thr j).kind := by
    intro j; rw [go_kind, spawn_kind, ht, hn]
  refine ⟨?_, ?_, ?_, ?_, ?_, ?_, ⟨some .play, d, .offer .playRun, hR, ?_, ?_⟩, ?_, ?_, ?_, ?_⟩
  · rw [e2]; omega
  · rw [e2]
    intro j a b
    rw [e, if_neg (by omega), if_neg (by omega)]
    by_cases hj : j + 1 = s.n
    · have : j = s.n - 1 := by omega
      subst this
      unfold runPc at h3
      rwa [if_pos (by omega)] at h3
    · exact hI.others j a (by omega)
  · intro _; rw [e, if_neg (by omega), if_neg (by omega)]; exact hI.notif hn2
  · rw [e3, if_neg (by omega)]; exact hI.kind0
  · intro _; rw [e3, if_neg (by omega)]; exact hI.kind1 hn2
  · rw [e2, go_status, spawn_status, hst]
    constructor
    · intro h; rw [h1] at h; cases h
    · intro h; omega
  · rw [e, if_pos rfl]; exact ⟨⟨rfl, h2⟩, rfl, rfl⟩
  · refine ⟨by rw [go_status, spawn_status, hst]; exact h1, .inl ?_⟩
    unfold runPc; rw [e2, if_pos (by omega), e, if_neg (by omega), if_pos (by omega)]
  · rw [go_status, spawn_status, hst]; exact hI.err
  · rw [go_inPush, spawn_inPush, ht, hn, if_neg (by omega), hpu]; rintro ⟨⟩
  · rw [e, if_pos rfl]; rintro ⟨⟩
  · intro j hj; rw [go_sm, spawn_sm, hsm] at hj; cases hj

/-- The goroutine stays in or out of the section of `statusMutex`. -/
macro "keepS" hp:ident : tactic => `(tactic| exact Or.inr (Or.inr ⟨rfl, by
  rw [$hp:ident]; first | exact fun _ => rfl | rintro ⟨⟩⟩))

/-- The call is not `Wait`. -/
macro "nw" : term => `(fun _ => Or.inl (by rintro _ _ ⟨⟩))

/-- The invariant is kept as long as no run reaches its limit. -/
theorem UseInv.step (hc : Tame conf) (hF : Reads conf fol) (hA : AckInv s) (hI : UseInv fol s) (h : Step conf s s')
    (hcl : s'.n = s.n + 1 → (s'.thr s.n).kind ≠ .client) (hP : Mild fol s'.log)
    (hE : ∀ t, t < s.n → (s.thr t).pc = .r7 → s.ma = none → iterDone conf s = true →
      s' ≠ s.go t .r12) : UseInv fol s' := by
  have hL := hA.lock
  obtain ⟨op, d, ph, hR, hC, hO⟩ := hI.row
  cases h
  case client => exact absurd (by rw [spawn_kind, if_pos rfl]) (hcl rfl)
  case call t ht hp op' hk =>
    obtain ⟨⟨rfl, h2, h3⟩, _⟩ := hP
    rw [hp] at hC
    obtain ⟨rfl, rfl⟩ := hC
    refine hI.go0 (op := some op') (d := d) (ph := .quiet d) rfl rfl Iff.rfl hI.err ⟨rfl, hR.2⟩ ?_ hO
      (hI.noPush hp (by rintro ⟨⟩)) (by cases op' <;> rintro ⟨⟩) (.inr (.inr ⟨rfl, by rw [hp]; rintro ⟨⟩⟩))
    cases op' <;> try exact ⟨rfl, rfl⟩
    case stop => exact ⟨rfl, rfl, fun hd => h3 rfl (hd ▸ hR.2), rfl⟩
    case wait c b =>
      obtain ⟨rfl, rfl⟩ := h2 c b rfl
      exact ⟨rfl, rfl, rfl, rfl⟩
  case notifRet t ht hp hk =>
    rcases hI.who ht hp (by rintro ⟨⟩) with ⟨rfl, _⟩ | ⟨rfl, h2, h1, _⟩ | ⟨_, _, hr, _⟩
    · rw [hI.kind0] at hk; cases hk
    · exact hI.go1 h2 trivial rfl rfl rfl rfl rfl rfl rfl rfl (by rw [h1]; rfl)
    · rw [hr] at hO; rcases hO.pc with h | h <;> cases h
  case rdStatus t ht hp hs =>
    obtain rfl := hI.isClient ht hp rfl
    rw [hp] at hC
    obtain ⟨rfl, rfl⟩ := hC
    refine hI.ret0 rfl rfl Iff.rfl hI.err hR ?_ hF nw hO (hI.noPush hp (by rintro ⟨⟩)) (.inl hs)
    simp only [right, decide_eq_true_eq]
    rw [← hO.1, ← hI.err]
  case rdCentroids t ht hp hm =>
    obtain rfl := hI.isClient ht hp rfl
    rw [hp] at hC
    obtain ⟨rfl, rfl⟩ := hC
    exact hI.ret0 rfl rfl Iff.rfl hI.err hR rfl hF nw hO (hI.noPush hp (by rintro ⟨⟩)) (.inr ⟨rfl, by rw [hp]; rfl⟩)
  case rdFigures t ht hp hm =>
    obtain rfl := hI.isClient ht hp rfl
    rw [hp] at hC
    obtain ⟨rfl, rfl⟩ := hC
    exact hI.ret0 rfl rfl Iff.rfl hI.err hR rfl hF nw hO (hI.noPush hp (by rintro ⟨⟩)) (.inr ⟨rfl, by rw [hp]; rfl⟩)
  case rdConf t ht hp hm =>
    obtain rfl := hI.isClient ht hp rfl
    rw [hp] at hC
    obtain ⟨rfl, rfl⟩ := hC
    exact hI.ret0 rfl rfl Iff.rfl hI.err hR rfl hF nw hO (hI.noPush hp (by rintro ⟨⟩)) (.inr ⟨rfl, by rw [hp]; rfl⟩)
  case pu0 t ht hp hs =>
    obtain rfl := hI.isClient ht hp rfl
    rw [hp] at hC
    exact hI.go0 rfl rfl Iff.rfl hI.err hR hC hO (hI.noPush hp (by rintro ⟨⟩)) (by rintro ⟨⟩) (by keepS hp)
  case pu0' t ht hp =>
    obtain rfl := hI.isClient ht hp rfl
    rw [hp] at hC
    exact hI.go0 rfl rfl Iff.rfl hI.err hR hC hO (hI.noPush hp (by rintro ⟨⟩)) (by rintro ⟨⟩) (by keepS hp)
  case pu1 t ht hp =>
    obtain rfl := hI.isClient ht hp rfl
    rw [hp] at hC
    exact hI.go0 (s1 := s.ev _) rfl rfl Iff.rfl hI.err (hR.quiet rfl) hC hO (hI.noPush hp (by rintro ⟨⟩)) (by rintro ⟨⟩) (by keepS hp)
  case pu1Err t ht hp e =>
    obtain rfl := hI.isClient ht hp rfl
    rw [hp] at hC
    obtain ⟨rfl, rfl⟩ := hC
    exact hI.ret0 rfl rfl Iff.rfl hI.err hR rfl hF nw hO (hI.noPush hp (by rintro ⟨⟩)) (.inr ⟨rfl, by rw [hp]; rfl⟩)
  case pu2 t ht hp hm =>
    obtain rfl := hI.isClient ht hp rfl
    rw [hp] at hC
    exact hI.go0 (s1 := { s with ma := some 0 }) rfl rfl Iff.rfl hI.err hR hC hO (hI.noPush hp (by rintro ⟨⟩)) (by rintro ⟨⟩) (by keepS hp)
  case pu3 t ht hp hr =>
    obtain rfl := hI.isClient ht hp rfl
    rw [hp] at hC
    exact hI.go0 (s1 := Algo.ev { s with pushedData := s.pushedData + 1 } .pushed) rfl rfl Iff.rfl hI.err (hR.quiet rfl) hC hO (hI.noPush hp (by rintro ⟨⟩)) (by rintro ⟨⟩) (by keepS hp)
  case pu4 t ht hp hs =>
    obtain rfl := hI.isClient ht hp rfl
    rw [hp] at hC
    have ha : s.autoPlay conf = false := by simp [autoPlay, hc.1]
    refine UseInv.go0 hI rfl rfl Iff.rfl hI.err (hR.quiet rfl) hC hO (hI.noPush hp (by rintro ⟨⟩)) (fun _ => ?_) (by keepS hp)
    simp [ha, ev_newData]
  case pu5 t ht hp hm =>
    obtain rfl := hI.isClient ht hp rfl
    have hw := hI.newData hp
    rw [hp] at hC
    refine hI.same rfl (fun j => ?_) (fun j h0 _ _ => ?_) (fun h2 => ?_) Iff.rfl ⟨op, d, ph, hR, ?_, ?_⟩ hI.err ?_ ?_ ?_
    · dsimp only; split <;> simp [*]
    · dsimp only; rw [if_neg h0]
    · exact hI.notif h2
    · dsimp only; rw [if_pos rfl, if_neg hw]; exact hC
    · rw [runPc_eq (s := s)]
      · exact hO
      · rfl
      · intro h3; dsimp only; rw [if_neg (by omega)]
    · intro _; dsimp only; rw [if_pos rfl, if_neg hw]
    · intro _; exact hw
    · intro j hj
      have := hI.full j hj
      dsimp only
      split
      · subst j; rw [hp] at this; cases this
      · exact this
  case pu6 t ht hp =>
    obtain rfl := hI.isClient ht hp rfl
    rw [hp] at hC
    obtain ⟨rfl, rfl⟩ := hC
    refine hI.same rfl (fun j => ?_) (fun j h0 _ _ => ?_) (fun h2 => ?_) Iff.rfl ⟨none, d, .quiet d, ?_, ?_, ?_⟩ hI.err ?_ ?_ ?_
    · dsimp only; split <;> simp [*]
    · dsimp only; rw [if_neg h0]
    · exact hI.notif h2
    · obtain ⟨h1, h2⟩ := hR
      simp only [Rec, session, h1, true_and]
      exact hF.next h2 rfl nw
    · exact ⟨rfl, rfl⟩
    · rw [runPc_eq (s := s)]
      · exact hO
      · rfl
      · intro h3; dsimp only; rw [if_neg (by omega)]
    · rintro ⟨⟩
    · rintro ⟨⟩
    · intro j hj
      have := hI.full j hj
      dsimp only
      split
      · subst j; rw [hp] at this; cases this
      · exact this
  case in0 t ht hp hs =>
    obtain rfl := hI.isClient ht hp rfl
    have hpu := hI.noPush hp (by rintro ⟨⟩)
    have hf := runPc_free hs hL
    rw [hp] at hC
    obtain ⟨rfl, rfl⟩ := hC
    obtain ⟨h1, h2⟩ := hO
    rw [h1]
    have e : ∀ p : PC C, holdsS p = true → ∀ (ph : Ph), p ≠ .pu5 → ClientOk s.ack (some .init) d ph p →
        RunOk s.ack (s.ack ∈ s.closed) s.status.value (runPc s) ph →
        UseInv fol ({ s with sm := some 0 }.go 0 p) := fun p hh ph h5 a b =>
      hI.go0 (s1 := { s with sm := some 0 }) rfl rfl Iff.rfl hI.err hR a b hpu (fun h => absurd h h5)
        (.inr (.inl ⟨rfl, hh⟩))
    cases d
    case created => exact e _ rfl (.alone .created) (by rintro ⟨⟩) ⟨rfl, .inl rfl, rfl⟩ ⟨h1, h2⟩
    case finished =>
      refine e _ rfl (.alone .finished) (by rintro ⟨⟩) ⟨rfl, rfl, rfl⟩ ⟨h1, ?_⟩
      rcases h2 with h2 | h2
      · exact h2
      · exact absurd h2 hf
    all_goals
      exact e (.in10 .init (some .alreadyCreated)) rfl (.quiet _) (by rintro ⟨⟩)
        (.inr ⟨rfl, rfl, rfl, (by rintro ⟨⟩), (by rintro ⟨⟩), rfl⟩) ⟨h1, h2⟩
  case in1 t ht k hp hm =>
    obtain rfl := hI.isClient ht hp rfl
    rw [hp] at hC
    exact hI.go0 (s1 := { s with ma := some 0 }) rfl rfl Iff.rfl hI.err hR hC hO (hI.noPush hp (by rintro ⟨⟩)) (by rintro ⟨⟩) (by keepS hp)
  case in2 t ht k hp hr =>
    obtain rfl := hI.isClient ht hp rfl
    rw [hp] at hC
    obtain ⟨h1, rfl, rfl⟩ := hC
    exact UseInv.go0 hI (ph := .alone .finished) rfl rfl Iff.rfl hI.err (hR.quiet rfl) ⟨h1, .inr rfl, rfl⟩ hO (hI.noPush hp (by rintro ⟨⟩)) (by rintro ⟨⟩) (by keepS hp)
  case in3Created t ht k hp hv =>
    obtain rfl := hI.isClient ht hp rfl
    have hn := hI.born.1 hv
    have hpu := hI.noPush hp (by rintro ⟨⟩)
    rw [hp] at hC
    obtain ⟨h1, h2, rfl⟩ := hC
    refine ⟨?_, ?_, ?_, ?_, ?_, ?_, ⟨op, d, .alone .initializing, hR.quiet rfl, ?_, ?_⟩, rfl, ?_, ?_, ?_⟩
    · ctrl_proj; omega
    · ctrl_proj; intro j a b; omega
    · intro _; ctrl_proj; rw [if_neg (by omega), if_pos hn.symm]; trivial
    · ctrl_proj; rw [if_neg (by omega)]; exact hI.kind0
    · intro _; ctrl_proj; rw [if_pos hn.symm]
    · ctrl_proj; rw [hn]; simp [OCStatus.new]
    · ctrl_proj; rw [if_pos trivial]; exact ⟨h1, h2, rfl⟩
    · refine ⟨rfl, ?_⟩; unfold runPc; ctrl_proj; rw [if_neg (by rw [hn]; omega)]
    · ctrl_proj; rw [if_neg (by omega), hpu]; rintro ⟨⟩
    · ctrl_proj; rw [if_pos trivial]; rintro ⟨⟩
    · intro j hj
      have h := hI.full j hj
      have := hL.hS 0 (by rw [hp]; rfl)
      have hj' : s.sm = some j := hj
      rw [this] at hj'; cases hj'
      ctrl_proj; rw [if_pos trivial]; rfl
  case in3 t ht k hp hv =>
    obtain rfl := hI.isClient ht hp rfl
    rw [hp] at hC
    obtain ⟨h1, h2, rfl⟩ := hC
    refine hI.go0 (s1 := s.put (.new .initializing)) (ph := .alone .initializing) rfl rfl ⟨?_, fun h => absurd h hv⟩ rfl (hR.quiet rfl) ⟨h1, h2, rfl⟩
      ⟨rfl, hO.2⟩ (hI.noPush hp (by rintro ⟨⟩)) (by rintro ⟨⟩) (by keepS hp)
    rintro ⟨⟩
  case in5Read t ht k hp hm =>
    obtain rfl := hI.isClient ht hp rfl
    rw [hp] at hC
    exact hI.go0 rfl rfl Iff.rfl hI.err hR hC hO (hI.noPush hp (by rintro ⟨⟩)) (by rintro ⟨⟩) (by keepS hp)
  case in5 t ht k hp c e =>
    obtain rfl := hI.isClient ht hp rfl
    rw [hp] at hC
    exact hI.go0 (s1 := s.ev _) rfl rfl Iff.rfl hI.err (hR.quiet rfl) ⟨hP.1, hC⟩ hO (hI.noPush hp (by rintro ⟨⟩)) (by rintro ⟨⟩) (by keepS hp)
  case in6 t ht k c e hp hm =>
    obtain rfl := hI.isClient ht hp rfl
    rw [hp] at hC
    exact hI.go0 (s1 := { s with ma := some 0 }) rfl rfl Iff.rfl hI.err hR hC hO (hI.noPush hp (by rintro ⟨⟩)) (by rintro ⟨⟩) (by keepS hp)
  case in7 t ht k c e hp hr =>
    obtain rfl := hI.isClient ht hp rfl
    rw [hp] at hC
    exact hI.go0 (s1 := { s with centroids := c, ma := none }) rfl rfl Iff.rfl hI.err hR hC hO (hI.noPush hp (by rintro ⟨⟩)) (by rintro ⟨⟩) (by keepS hp)
  case in8 t ht k hp =>
    obtain rfl := hI.isClient ht hp rfl
    rw [hp] at hC
    obtain ⟨_, h1, h2, rfl⟩ := hC
    refine hI.go0 (s1 := s.put (.new .ready)) (ph := .alone .ready) rfl rfl ⟨?_, fun h => ?_⟩ rfl (hR.quiet rfl) ⟨rfl, h1, h2, rfl⟩
      ⟨rfl, hO.2⟩ (hI.noPush hp (by rintro ⟨⟩)) (by rintro ⟨⟩) (by keepS hp)
    · rintro ⟨⟩
    · rw [hO.1] at h; cases h
  case in8Err t ht k e hp =>
    obtain rfl := hI.isClient ht hp rfl
    rw [hp] at hC
    cases hC.1
  case in10 t ht e hp =>
    obtain rfl := hI.isClient ht hp rfl
    have hpu := hI.noPush hp (by rintro ⟨⟩)
    rw [hp] at hC
    rcases hC with ⟨rfl, rfl, h2, rfl⟩ | ⟨rfl, _, rfl, h2, h3, rfl⟩
    · refine hI.ret0 (s1 := { s with sm := none }) (op := .init) rfl rfl Iff.rfl hI.err hR ?_ hF nw ?_ hpu (.inl rfl)
      · rcases h2 with rfl | rfl <;> rfl
      · have : after d .init = .ready := by rcases h2 with rfl | rfl <;> rfl
        rw [this]; exact hO
    · refine hI.ret0 (s1 := { s with sm := none }) (op := .init) rfl rfl Iff.rfl hI.err hR ?_ hF nw ?_ hpu (.inl rfl)
      · cases d <;> first | rfl | exact absurd rfl h2 | exact absurd rfl h3
      · have : after d .init = d := by cases d <;> first | rfl | exact absurd rfl h2 | exact absurd rfl h3
        rw [this]; exact hO
  case in10Err t ht e hp he =>
    obtain rfl := hI.isClient ht hp rfl
    rw [hp] at hC
    rcases hC with ⟨rfl, _⟩ | ⟨rfl, h, _⟩
    · exact absurd rfl he.1
    · cases h
  case in10Play t ht e hp he =>
    obtain rfl := hI.isClient ht hp rfl
    have hpu := hI.noPush hp (by rintro ⟨⟩)
    rw [hp] at hC
    rcases hC with ⟨rfl, h1, h2, rfl⟩ | ⟨rfl, h, _⟩
    · exact hI.go0 (ph := .alone .ready) rfl rfl Iff.rfl hI.err hR ⟨h1, h2.elim .inl (fun h => .inr (.inl h)), rfl⟩ hO hpu (by rintro ⟨⟩) (by keepS hp)
    · cases h
  case pl0Idle t ht hp hs hv =>
    obtain rfl := hI.isClient ht hp rfl
    rw [hp] at hC
    obtain ⟨rfl, rfl⟩ := hC
    obtain ⟨h1, h2⟩ := hO
    obtain rfl := hv.symm.trans h1
    exact hI.go0 (ph := .offer .playIdle) rfl rfl Iff.rfl hI.err hR ⟨⟨rfl, rfl⟩, rfl, rfl⟩ ⟨hv, h2⟩ (hI.noPush hp (by rintro ⟨⟩)) (by rintro ⟨⟩) (by keepS hp)
  case pl0Init t ht hp hs hv =>
    obtain rfl := hI.isClient ht hp rfl
    have hpu := hI.noPush hp (by rintro ⟨⟩)
    have hf := runPc_free hs hL
    rw [hp] at hC
    obtain ⟨rfl, rfl⟩ := hC
    obtain ⟨h1, h2⟩ := hO
    rcases hv with hv | hv
    · obtain rfl := hv.symm.trans h1
      rw [hv]
      refine hI.go0 (s1 := { s with sm := some 0 }) (ph := .alone .finished) rfl rfl Iff.rfl hI.err hR ⟨rfl, rfl, rfl⟩ ⟨hv, ?_⟩ hpu (by rintro ⟨⟩) (.inr (.inl ⟨rfl, rfl⟩))
      rcases h2 with h2 | h2
      · exact h2
      · exact absurd h2 hf
    · obtain rfl := hv.symm.trans h1
      rw [hv]
      exact hI.go0 (s1 := { s with sm := some 0 }) (ph := .alone .created) rfl rfl Iff.rfl hI.err hR ⟨rfl, .inl rfl, rfl⟩ ⟨hv, h2⟩ hpu (by rintro ⟨⟩) (.inr (.inl ⟨rfl, rfl⟩))
  case pl0Ready t ht hp hs hv =>
    obtain rfl := hI.isClient ht hp rfl
    rw [hp] at hC
    obtain ⟨rfl, rfl⟩ := hC
    obtain ⟨h1, h2⟩ := hO
    obtain rfl := hv.symm.trans h1
    exact hI.go0 (s1 := { s with sm := some 0 }) (ph := .alone .ready) rfl rfl Iff.rfl hI.err hR ⟨rfl, .inr (.inr rfl), rfl⟩ ⟨hv, h2⟩ (hI.noPush hp (by rintro ⟨⟩)) (by rintro ⟨⟩) (.inr (.inl ⟨rfl, rfl⟩))
  case pl0Running t ht hp hs hv =>
    obtain rfl := hI.isClient ht hp rfl
    rw [hp] at hC
    obtain ⟨rfl, rfl⟩ := hC
    obtain ⟨h1, h2⟩ := hO
    obtain rfl := hv.symm.trans h1
    exact hI.ret0 rfl rfl Iff.rfl hI.err hR rfl hF nw ⟨hv, h2⟩ (hI.noPush hp (by rintro ⟨⟩)) (.inl hs)
  case pl0Initializing t ht hp hs hv =>
    obtain rfl := hI.isClient ht hp rfl
    rw [hp] at hC
    obtain ⟨rfl, rfl⟩ := hC
    obtain ⟨h1, h2⟩ := hO
    obtain rfl := hv.symm.trans h1
    exact h2.elim
  case pl1 t ht hp =>
    obtain rfl := hI.isClient ht hp rfl
    have hpu := hI.noPush hp (by rintro ⟨⟩)
    rw [hp] at hC
    obtain ⟨rfl, h2, rfl⟩ := hC
    obtain ⟨h1, h3⟩ := hO
    exact hI.spawnRun (s1 := Algo.ev { s with sm := none } (.runStart s.n)) rfl rfl rfl rfl (hR.quiet rfl) h2 h1 h3 hpu
  case pl2 t ht hp hi =>
    obtain rfl := hI.isClient ht hp rfl
    rw [hp] at hC
    exact hI.go0 rfl rfl Iff.rfl hI.err hR hC hO (hI.noPush hp (by rintro ⟨⟩)) (by rintro ⟨⟩) (by keepS hp)
  case pl2Disable t ht hp i hi =>
    obtain rfl := hI.isClient ht hp rfl
    rw [hp] at hC
    exact UseInv.go0 hI rfl rfl Iff.rfl hI.err (hR.quiet rfl) hC hO (hI.noPush hp (by rintro ⟨⟩)) (by rintro ⟨⟩) (by keepS hp)
  case pl3Timeout t ht hp hm h => rw [hc.2.1] at h; cases h
  case pl3 t ht hp hm h =>
    obtain rfl := hI.isClient ht hp rfl
    rw [hp] at hC
    obtain ⟨rfl, h2, rfl⟩ := hC
    refine hI.ret0 rfl rfl Iff.rfl hI.err hR ?_ hF nw ?_ (hI.noPush hp (by rintro ⟨⟩)) (.inr ⟨rfl, by rw [hp]; rfl⟩)
    · rcases h2 with rfl | rfl | rfl <;> rfl
    · have : after d .play = .running := by rcases h2 with rfl | rfl | rfl <;> rfl
      rw [this]; exact hO
  case pa0 t ht hp hs hv =>
    obtain rfl := hI.isClient ht hp rfl
    rw [hp] at hC
    obtain ⟨rfl, rfl⟩ := hC
    obtain ⟨h1, h2⟩ := hO
    obtain rfl := hv.symm.trans h1
    exact hI.go0 (ph := .offer .pause) rfl rfl Iff.rfl hI.err hR ⟨⟨rfl, rfl⟩, rfl, rfl⟩ ⟨hv, h2⟩ (hI.noPush hp (by rintro ⟨⟩)) (by rintro ⟨⟩) (by keepS hp)
  case pa0Err t ht hp hs hv =>
    obtain rfl := hI.isClient ht hp rfl
    rw [hp] at hC
    obtain ⟨rfl, rfl⟩ := hC
    have h1 : d ≠ .running := fun h => hv (hO.1.trans h)
    refine hI.ret0 rfl rfl Iff.rfl hI.err hR ?_ hF nw ?_ (hI.noPush hp (by rintro ⟨⟩)) (.inl hs)
    · cases d <;> first | rfl | exact absurd rfl h1
    · have : after d .pause = d := by cases d <;> first | rfl | exact absurd rfl h1
      rw [this]; exact hO
  case it0Ready t ht e hp hs hv =>
    obtain rfl := hI.isClient ht hp rfl
    rw [hp] at hC
    obtain ⟨rfl, rfl, h3, rfl⟩ := hC
    obtain ⟨h1, h2⟩ := hO
    obtain rfl := hv.symm.trans h1
    refine hI.go0 (s1 := Algo.put { s with sm := some 0 } (.ofError none)) (ph := .alone .finished) rfl rfl ⟨?_, fun h => ?_⟩ rfl (hR.quiet rfl) ⟨rfl, rfl, rfl, rfl⟩ ⟨rfl, h2⟩
      (hI.noPush hp (by rintro ⟨⟩)) (by rintro ⟨⟩) (.inr (.inl ⟨rfl, rfl⟩))
    · rintro ⟨⟩
    · rw [hv] at h; cases h
  case it0 t ht e hp hs hv =>
    obtain rfl := hI.isClient ht hp rfl
    rw [hp] at hC
    obtain ⟨rfl, rfl, h3, rfl⟩ := hC
    obtain ⟨h1, h2⟩ := hO
    rcases hv with hv | hv
    · exact absurd (h1.symm.trans hv) h3
    · obtain rfl := hv.symm.trans h1
      exact hI.go0 (ph := .offer .interrupt) rfl rfl Iff.rfl hI.err hR ⟨⟨rfl, rfl⟩, rfl, rfl⟩ ⟨hv, h2⟩ (hI.noPush hp (by rintro ⟨⟩)) (by rintro ⟨⟩) (by keepS hp)
  case it0Err t ht e hp hs hv =>
    obtain rfl := hI.isClient ht hp rfl
    rw [hp] at hC
    obtain ⟨rfl, rfl, h3, rfl⟩ := hC
    rw [hO.1] at hv
    refine hI.ret0 rfl rfl Iff.rfl hI.err hR ?_ hF nw ?_ (hI.noPush hp (by rintro ⟨⟩)) (.inl hs)
    · cases d <;> first | rfl | exact absurd rfl hv.1 | exact absurd rfl hv.2.1 | exact absurd rfl hv.2.2
    · have : after d .stop = d := by
        cases d <;> first | rfl | exact absurd rfl hv.1 | exact absurd rfl hv.2.1 | exact absurd rfl hv.2.2
      rw [this]; exact hO
  case it2 t ht hp =>
    obtain rfl := hI.isClient ht hp rfl
    rw [hp] at hC
    obtain ⟨rfl, rfl, rfl⟩ := hC
    exact hI.ret0 (s1 := { s with sm := none }) (op := .stop) rfl rfl Iff.rfl hI.err hR rfl hF nw ⟨hO.1, .inl hO.2⟩ (hI.noPush hp (by rintro ⟨⟩)) (.inl rfl)
  case it3 t ht hp =>
    obtain rfl := hI.isClient ht hp rfl
    rw [hp] at hC
    obtain ⟨rfl, rfl, rfl⟩ := hC
    refine hI.ret0 (op := .stop) rfl rfl Iff.rfl hI.err hR ?_ hF nw ⟨hO.1, hO.2.2⟩ (hI.noPush hp (by rintro ⟨⟩)) (.inr ⟨rfl, by rw [hp]; rfl⟩)
    rw [hI.err]; rfl
  case sd0 t ht st k hp =>
    obtain rfl := hI.isClient ht hp rfl
    rw [hp] at hC
    exact hI.go0 rfl rfl Iff.rfl hI.err hR hC hO (hI.noPush hp (by rintro ⟨⟩)) (by rintro ⟨⟩) (by keepS hp)
  case sd2 t ht k hp =>
    obtain rfl := hI.isClient ht hp rfl
    rw [hp] at hC
    exact hI.go0 rfl rfl Iff.rfl hI.err hR ⟨hC.1, rfl, hC.2⟩ hO (hI.noPush hp (by rintro ⟨⟩)) (by rintro ⟨⟩) (by keepS hp)
  case sd3Closed t ht a k hp ha =>
    obtain rfl := hI.isClient ht hp rfl
    rw [hp] at hC
    obtain ⟨h1, rfl, rfl⟩ := hC
    cases k
    case interrupt =>
      obtain ⟨rfl, rfl⟩ := h1
      refine hI.go0 (ph := .ended) rfl rfl Iff.rfl hI.err hR ⟨rfl, rfl, rfl⟩ ?_ (hI.noPush hp (by rintro ⟨⟩)) (by rintro ⟨⟩) (by keepS hp)
      generalize runPc s = r at hO
      cases r <;> simp only [RunOk, Stopping] at hO
      all_goals first
        | exact hO.elim
        | exact ⟨hO.1, ha, .inl rfl⟩
        | exact ⟨hO.1, ha, .inr rfl⟩
        | exact absurd ha hO.2
        | exact absurd ha hO.2.2
    all_goals exact absurd ha hO.2
  case sd3 t ht a k hp j hj i hq ha =>
    obtain rfl := hI.isClient ht hp rfl
    have hpu := hI.noPush hp (by rintro ⟨⟩)
    obtain ⟨rfl, h3, hr⟩ := hI.isRun hj hq rfl
    rw [hp] at hC
    obtain ⟨h1, rfl, rfl⟩ := hC
    rw [hr] at hO
    have hne : (0 : Nat) ≠ s.n - 1 := by omega
    have hh : holdsS (s.thr 0).pc = false := by rw [hp]; rfl
    have hh' : holdsS (s.thr (s.n - 1)).pc = false := by rw [hq]; rfl
    have eret : ∀ (p : PC C) (r : Res C), (s.go (s.n - 1) p).ret 0 r = ((s.go (s.n - 1) p).ev (.ret 0 r)).go 0 .home := by
      intro p r; unfold ret; rw [go_inPush, hpu]; rfl
    cases k
    case playRun =>
      obtain ⟨⟨rfl, _, h4⟩, h5⟩ := hO
      refine hI.both (s' := (s.go (s.n - 1) .r6).go 0 .pl2) (op := op) (d := d) (ph := .quiet .running) (q := .pl2) (p := .r6) h3 rfl (fun j => ?_) ?_ ?_ (fun j a b => ?_) ?_ rfl rfl hR ⟨h1.1, h1.2, rfl⟩
        ⟨h4, trivial, h5⟩ (by rintro ⟨⟩) hh hh'
      · ctrl_proj
      · ctrl_proj; rw [if_pos trivial]
      · ctrl_proj; rw [if_neg hne.symm, if_pos trivial]
      · ctrl_proj; rw [if_neg a, if_neg (by omega)]
      · ctrl_proj; exact hpu
    case playIdle =>
      obtain ⟨⟨rfl, _, h4⟩, h5⟩ := hO
      obtain ⟨rfl, rfl⟩ := h1
      simp only [sent, eret]
      refine hI.both (op := none) (d := .running) (ph := .quiet .running) (q := .home) (p := .r6) h3 rfl (fun j => ?_) ?_ ?_ (fun j a b => ?_) ?_ rfl rfl ?_ ⟨rfl, rfl⟩
        ⟨h4, trivial, h5⟩ (by rintro ⟨⟩) hh hh'
      · ctrl_proj
      · ctrl_proj; rw [if_pos trivial]
      · ctrl_proj; rw [if_neg hne.symm, if_pos trivial]; rfl
      · ctrl_proj; rw [if_neg a, if_neg (by omega)]
      · ctrl_proj; exact hpu
      · obtain ⟨h1, h2⟩ := hR
        refine ⟨?_, ?_⟩ <;> simp only [go_log, ev_log, session, h1]
        exact hF.next h2 rfl nw
    case pause =>
      obtain ⟨⟨rfl, _, h4⟩, h5⟩ := hO
      obtain ⟨rfl, rfl⟩ := h1
      simp only [sent, eret]
      refine hI.both (op := none) (d := .idle) (ph := .quiet .idle) (q := .home) (p := .r1) h3 rfl (fun j => ?_) ?_ ?_ (fun j a b => ?_) ?_ rfl rfl ?_ ⟨rfl, rfl⟩
        ⟨h4, rfl, h5⟩ (by rintro ⟨⟩) hh hh'
      · ctrl_proj
      · ctrl_proj; rw [if_pos trivial]
      · ctrl_proj; rw [if_neg hne.symm, if_pos trivial]; rfl
      · ctrl_proj; rw [if_neg a, if_neg (by omega)]
      · ctrl_proj; exact hpu
      · obtain ⟨h1, h2⟩ := hR
        refine ⟨?_, ?_⟩ <;> simp only [go_log, ev_log, session, h1]
        exact hF.next h2 rfl nw
    case interrupt => exact hO.elim
  case wa0Running t ht c b hp hs hv =>
    obtain rfl := hI.isClient ht hp rfl
    rw [hp] at hC
    obtain ⟨rfl, rfl, rfl, rfl⟩ := hC
    exact hI.go0 rfl rfl Iff.rfl hI.err hR ⟨rfl, rfl, rfl, hO.1.symm.trans hv, rfl⟩ hO (hI.noPush hp (by rintro ⟨⟩)) (by rintro ⟨⟩) (by keepS hp)
  case wa0 t ht c b hp hs e hv hn =>
    obtain rfl := hI.isClient ht hp rfl
    rw [hp] at hC
    obtain ⟨rfl, rfl, rfl, rfl⟩ := hC
    have h1 := hO.1
    rw [h1] at hv hn
    refine hI.ret0 rfl rfl Iff.rfl hI.err hR ?_ hF (fun h => absurd h hn) ?_ (hI.noPush hp (by rintro ⟨⟩)) (.inl hs)
    · subst hv; cases d <;> first | rfl | exact absurd rfl hn
    · have : after d (.wait false false) = d := by cases d <;> rfl
      rw [this]; exact hO
  case wa1Never t ht c b hp hm hn =>
    obtain rfl := hI.isClient ht hp rfl
    rw [hp] at hC
    obtain ⟨rfl, rfl, rfl, rfl, rfl⟩ := hC
    exact hI.ret0 rfl rfl Iff.rfl hI.err hR rfl hF (fun _ => .inr (by simp at hn; exact ⟨hn.1.2, hn.2⟩)) hO (hI.noPush hp (by rintro ⟨⟩)) (.inr ⟨rfl, by rw [hp]; rfl⟩)
  case wa1 t ht c b hp hm hn =>
    obtain rfl := hI.isClient ht hp rfl
    rw [hp] at hC
    exact hI.go0 rfl rfl Iff.rfl hI.err hR hC hO (hI.noPush hp (by rintro ⟨⟩)) (by rintro ⟨⟩) (by keepS hp)
  case wa2Done t ht c b hp hh =>
    obtain rfl := hI.isClient ht hp rfl
    rw [hp] at hC
    obtain ⟨rfl, rfl, rfl, rfl, rfl⟩ := hC
    obtain ⟨-, h⟩ := hh rfl
    rw [hI.err, hO.1] at h
    rcases h with h | h | h | h <;> cases h
  case wa2Again t ht c b hp =>
    obtain rfl := hI.isClient ht hp rfl
    rw [hp] at hC
    exact hI.go0 rfl rfl Iff.rfl hI.err hR hC hO (hI.noPush hp (by rintro ⟨⟩)) (by rintro ⟨⟩) (by keepS hp)
  case wa2Timeout t ht c hp =>
    obtain rfl := hI.isClient ht hp rfl
    rw [hp] at hC
    cases hC.2.1
  case wa3 t ht hp hs => obtain rfl := hI.isClient ht hp rfl; rw [hp] at hC; exact hC.elim
  case r0 t ht hp =>
    obtain ⟨rfl, h3, hr⟩ := hI.isRun ht hp rfl
    rw [hr] at hO
    have hv := hI.alive h3
    have hacks : s.acks ∉ s.closed := fun h => Nat.lt_irrefl _ (hA.closed _ h)
    have hph : ph = .offer .playRun ∧ s.status.value = .ready := by
      rcases ph with (_ | _ | _ | _ | _ | _) | _ | (_ | _ | _ | _) | (_ | _ | _ | _) | _ <;>
        simp [RunOk, Quiet, InLoop, Starting, Pausing, Stopping] at hO ⊢
      exact hO
    obtain ⟨rfl, h1⟩ := hph
    exact hI.goR (s1 := { s with ack := s.acks, acks := s.acks + 1 }) (ph := .offer .playRun) h3 rfl rfl hv hI.err hR
      hC.reack ⟨h1, .inr ⟨rfl, hacks⟩⟩ rfl (by keepS hp)
  case r1 t ht hp j hj st k hq =>
    obtain ⟨rfl, h3, hr⟩ := hI.isRun ht hp rfl
    obtain rfl := hI.isClient hj hq rfl
    rw [hr] at hO
    rw [hq] at hC
    obtain ⟨h1, rfl, rfl⟩ := hC
    refine hI.both (op := op) (d := d) (ph := .wait k) (q := .sd2 k) (p := .r2 (sentSt k)) h3 rfl (fun j => ?_) ?_ ?_ (fun j a b => ?_)
      ?_ rfl rfl hR ⟨h1, rfl⟩ ?_ (by rintro ⟨⟩) (by rw [hq]; rfl) (by rw [hp]; rfl)
    · ctrl_proj
    · ctrl_proj; rw [if_neg (by omega), if_pos trivial]
    · ctrl_proj; rw [if_pos trivial]
    · ctrl_proj; rw [if_neg (by omega), if_neg a]
    · ctrl_proj; exact hI.noPush hq (by rintro ⟨⟩)
    · cases k <;> simp only [RunOk, InLoop, reduceCtorEq, false_or, true_and, false_and, and_false] at hO
      · exact ⟨⟨rfl, .inr hO.1⟩, hO.2⟩
      · exact ⟨⟨rfl, .inl hO.1⟩, hO.2⟩
  case r2 t ht st hp hs =>
    obtain ⟨rfl, h3, hr⟩ := hI.isRun ht hp rfl
    rw [hr] at hO
    have hph : (ph = .wait .playRun ∨ ph = .wait .playIdle) ∧ st = .new .running ∧ s.ack ∉ s.closed := by
      rcases ph with (_ | _ | _ | _ | _ | _) | _ | (_ | _ | _ | _) | (_ | _ | _ | _) | _ <;>
        simp [RunOk, Quiet, InLoop, Starting, Pausing, Stopping] at hO ⊢
      all_goals exact ⟨hO.1.1, hO.2⟩
    obtain ⟨h1, rfl, h2⟩ := hph
    refine hI.goR (s1 := s.put (.new .running)) h3 rfl rfl (by rintro ⟨⟩) rfl (hR.quiet rfl) hC ?_ rfl (by keepS hp)
    rcases h1 with rfl | rfl <;> exact ⟨⟨rfl, rfl⟩, h2⟩
  case r4 t ht i hp =>
    obtain ⟨rfl, h3, hr⟩ := hI.isRun ht hp rfl
    rw [hr] at hO
    refine hI.goR h3 rfl rfl (hI.alive h3) hI.err hR hC ?_ rfl (by keepS hp)
    rcases ph with (_ | _ | _ | _ | _ | _) | _ | (_ | _ | _ | _) | (_ | _ | _ | _) | _ <;>
      simp [RunOk, Quiet, InLoop, Starting, Pausing, Stopping] at hO ⊢ <;> exact hO
  case r5Closed t ht i a hp ha =>
    obtain ⟨rfl, h3, hr⟩ := hI.isRun ht hp rfl
    rw [hr] at hO
    exfalso
    rcases ph with (_ | _ | _ | _ | _ | _) | _ | (_ | _ | _ | _) | (_ | _ | _ | _) | _ <;>
      simp [RunOk, Quiet, InLoop, Starting, Pausing, Stopping] at hO
    all_goals
      obtain ⟨⟨_, rfl, _⟩, h⟩ := hO
      exact h ha
  case r6 t ht hp hv =>
    obtain ⟨rfl, h3, hr⟩ := hI.isRun ht hp rfl
    rw [hr] at hO
    refine hI.goR h3 rfl rfl (hI.alive h3) hI.err hR hC ?_ rfl (by keepS hp)
    rcases ph with (_ | _ | _ | _ | _ | _) | _ | (_ | _ | _ | _) | (_ | _ | _ | _) | _ <;>
      simp [RunOk, Quiet, InLoop, Starting, Pausing, Stopping, hv] at hO ⊢ <;> exact hO
  case r6Exit t ht hp hv =>
    obtain ⟨rfl, h3, hr⟩ := hI.isRun ht hp rfl
    rw [hr] at hO
    refine hI.goR h3 rfl rfl (hI.alive h3) hI.err hR hC ?_ rfl (by keepS hp)
    rcases ph with (_ | _ | _ | _ | _ | _) | _ | (_ | _ | _ | _) | (_ | _ | _ | _) | _ <;>
      simp [RunOk, Quiet, InLoop, Starting, Pausing, Stopping, hv] at hO ⊢ <;> exact hO
  case r7Done t ht hp hm hd =>
    exact absurd rfl (hE t ht hp hm hd)
  case r7 t ht hp hm hd =>
    obtain ⟨rfl, h3, hr⟩ := hI.isRun ht hp rfl
    rw [hr] at hO
    rw [hc.2.2]
    refine hI.goR h3 rfl rfl (hI.alive h3) hI.err hR hC ?_ rfl (by keepS hp)
    rcases ph with (_ | _ | _ | _ | _ | _) | _ | (_ | _ | _ | _) | (_ | _ | _ | _) | _ <;>
      simp [RunOk, Quiet, InLoop, Starting, Pausing, Stopping] at hO ⊢ <;> exact hO
  case r9 t ht hp j hj st k hq =>
    obtain ⟨rfl, h3, hr⟩ := hI.isRun ht hp rfl
    obtain rfl := hI.isClient hj hq rfl
    rw [hr] at hO
    rw [hq] at hC
    obtain ⟨h1, rfl, rfl⟩ := hC
    refine hI.both (op := op) (d := d) (ph := .wait k) (q := .sd2 k) (p := .r10 (sentSt k)) h3 rfl (fun j => ?_) ?_ ?_ (fun j a b => ?_)
      ?_ rfl rfl hR ⟨h1, rfl⟩ ?_ (by rintro ⟨⟩) (by rw [hq]; rfl) (by rw [hp]; rfl)
    · ctrl_proj
    · ctrl_proj; rw [if_neg (by omega), if_pos trivial]
    · ctrl_proj; rw [if_pos trivial]
    · ctrl_proj; rw [if_neg (by omega), if_neg a]
    · ctrl_proj; exact hI.noPush hq (by rintro ⟨⟩)
    · cases k <;> simp only [RunOk, InLoop, reduceCtorEq, true_and, false_and, and_false, or_self] at hO
      · exact ⟨⟨rfl, hO.1⟩, hO.2⟩
      · exact ⟨rfl, hO.1, hO.2⟩
  case r10 t ht st hp hs =>
    obtain ⟨rfl, h3, hr⟩ := hI.isRun ht hp rfl
    rw [hr] at hO
    have hph : ((ph = .wait .pause ∧ st = .new .idle) ∨ (ph = .wait .interrupt ∧ st = .ofError none)) ∧ s.ack ∉ s.closed := by
      rcases ph with (_ | _ | _ | _ | _ | _) | _ | (_ | _ | _ | _) | (_ | _ | _ | _) | _ <;>
        simp [RunOk, Quiet, InLoop, Starting, Pausing, Stopping] at hO ⊢
      · exact ⟨hO.1.1, hO.2⟩
      · exact ⟨hO.1, hO.2.2⟩
    obtain ⟨⟨rfl, rfl⟩ | ⟨rfl, rfl⟩, h2⟩ := hph
    · exact hI.goR (s1 := s.put (.new .idle)) h3 rfl rfl (by rintro ⟨⟩) rfl (hR.quiet rfl) hC ⟨⟨rfl, rfl⟩, h2⟩ rfl (by keepS hp)
    · exact hI.goR (s1 := s.put (.ofError none)) h3 rfl rfl (by rintro ⟨⟩) rfl (hR.quiet rfl) hC ⟨rfl, rfl, h2⟩ rfl (by keepS hp)
  case r9Default t ht hp hn =>
    obtain ⟨rfl, h3, hr⟩ := hI.isRun ht hp rfl
    rw [hr] at hO
    refine hI.goR (s1 := s.ev _) h3 rfl rfl (hI.alive h3) hI.err (hR.quiet rfl) hC ?_ rfl (by keepS hp)
    rcases ph with (_ | _ | _ | _ | _ | _) | _ | (_ | _ | _ | _) | (_ | _ | _ | _) | _ <;>
      simp [RunOk, Quiet, InLoop, Starting, Pausing, Stopping] at hO ⊢ <;> exact hO
  case iterNil t ht hp =>
    obtain ⟨rfl, h3, hr⟩ := hI.isRun ht hp rfl
    rw [hr] at hO
    refine hI.goR (s1 := s.ev _) h3 rfl rfl (hI.alive h3) hI.err (hR.quiet rfl) hC ?_ rfl (by keepS hp)
    rcases ph with (_ | _ | _ | _ | _ | _) | _ | (_ | _ | _ | _) | (_ | _ | _ | _) | _ <;>
      simp [RunOk, Quiet, InLoop, Starting, Pausing, Stopping] at hO ⊢ <;> exact hO
  case iterOk t ht hp c =>
    obtain ⟨rfl, h3, hr⟩ := hI.isRun ht hp rfl
    rw [hr] at hO
    refine hI.goR (s1 := s.ev _) h3 rfl rfl (hI.alive h3) hI.err (hR.quiet rfl) hC ?_ rfl (by keepS hp)
    rcases ph with (_ | _ | _ | _ | _ | _) | _ | (_ | _ | _ | _) | (_ | _ | _ | _) | _ <;>
      simp [RunOk, Quiet, InLoop, Starting, Pausing, Stopping] at hO ⊢ <;> exact hO
  case iterErr t ht hp e => exact hP.1.elim
  case iterPanic t ht hp e => exact hP.1.elim
  case rS t ht c hp hm =>
    obtain ⟨rfl, h3, hr⟩ := hI.isRun ht hp rfl
    rw [hr] at hO
    refine hI.goR (s1 := { s with ma := some (s.n - 1) }) h3 rfl rfl (hI.alive h3) hI.err hR hC ?_ rfl (by keepS hp)
    rcases ph with (_ | _ | _ | _ | _ | _) | _ | (_ | _ | _ | _) | (_ | _ | _ | _) | _ <;>
      simp [RunOk, Quiet, InLoop, Starting, Pausing, Stopping] at hO ⊢ <;> exact hO
  case rS' t ht c hp hm =>
    obtain ⟨rfl, h3, hr⟩ := hI.isRun ht hp rfl
    rw [hr] at hO
    refine UseInv.goR hI h3 rfl rfl (hI.alive h3) hI.err (hR.quiet rfl) hC ?_ rfl (by keepS hp)
    rcases ph with (_ | _ | _ | _ | _ | _) | _ | (_ | _ | _ | _) | (_ | _ | _ | _) | _ <;>
      simp [RunOk, Quiet, InLoop, Starting, Pausing, Stopping, ev_ack, ev_closed, ev_status] at hO ⊢ <;> exact hO
  case r12 t ht hp hv =>
    obtain ⟨rfl, h3, hr⟩ := hI.isRun ht hp rfl
    rw [hr] at hO
    exfalso
    rcases ph with (_ | _ | _ | _ | _ | _) | _ | (_ | _ | _ | _) | (_ | _ | _ | _) | _ <;>
      simp [RunOk, Quiet, InLoop, Starting, Pausing, Stopping, hv] at hO
  case r12Exit t ht hp hv =>
    obtain ⟨rfl, h3, hr⟩ := hI.isRun ht hp rfl
    rw [hr] at hO
    refine hI.goR h3 rfl rfl (hI.alive h3) hI.err hR hC ?_ rfl (by keepS hp)
    rcases ph with (_ | _ | _ | _ | _ | _) | _ | (_ | _ | _ | _) | (_ | _ | _ | _) | _ <;>
      simp [RunOk, Quiet, InLoop, Starting, Pausing, Stopping] at hO ⊢ <;> exact hO
  case c0 t ht hp hs =>
    obtain ⟨rfl, h3, hr⟩ := hI.isRun ht hp rfl
    rw [hr] at hO
    refine hI.goR (s1 := { s with sm := some (s.n - 1) }) h3 rfl rfl (hI.alive h3) hI.err hR hC ?_ rfl (.inr (.inl ⟨rfl, rfl⟩))
    rcases ph with (_ | _ | _ | _ | _ | _) | _ | (_ | _ | _ | _) | (_ | _ | _ | _) | _ <;>
      simp [RunOk, Quiet, InLoop, Starting, Pausing, Stopping] at hO ⊢ <;> exact hO
  case c2 t ht p hp hm =>
    obtain ⟨rfl, h3, hr⟩ := hI.isRun ht hp rfl
    rw [hr] at hO
    refine hI.goR (s1 := { s with ma := some (s.n - 1) }) h3 rfl rfl (hI.alive h3) hI.err hR hC ?_ rfl (by keepS hp)
    rcases ph with (_ | _ | _ | _ | _ | _) | _ | (_ | _ | _ | _) | (_ | _ | _ | _) | _ <;>
      simp [RunOk, Quiet, InLoop, Starting, Pausing, Stopping] at hO ⊢ <;> exact hO
  case c3 t ht p hp hm =>
    obtain ⟨rfl, h3, hr⟩ := hI.isRun ht hp rfl
    rw [hr] at hO
    refine hI.goR (s1 := { s with ma := none }) h3 rfl rfl (hI.alive h3) hI.err hR hC ?_ rfl (by keepS hp)
    rcases ph with (_ | _ | _ | _ | _ | _) | _ | (_ | _ | _ | _) | (_ | _ | _ | _) | _ <;>
      simp [RunOk, Quiet, InLoop, Starting, Pausing, Stopping] at hO ⊢ <;> exact hO
  case c4 t ht hp j hj st k hq =>
    obtain ⟨rfl, h3, hr⟩ := hI.isRun ht hp rfl
    obtain rfl := hI.isClient hj hq rfl
    rw [hr] at hO
    rw [hq] at hC
    obtain ⟨h1, rfl, rfl⟩ := hC
    cases k <;> simp [RunOk, InLoop] at hO
  case c4Panic t ht e hp j hj st k hq =>
    obtain ⟨rfl, h3, hr⟩ := hI.isRun ht hp rfl
    obtain rfl := hI.isClient hj hq rfl
    rw [hr] at hO
    rw [hq] at hC
    obtain ⟨h1, rfl, rfl⟩ := hC
    cases k <;> simp [RunOk, InLoop] at hO
  case c4Default t ht p hp hn =>
    obtain ⟨rfl, h3, hr⟩ := hI.isRun ht hp rfl
    rw [hr] at hO
    refine hI.goR h3 rfl rfl (hI.alive h3) hI.err hR hC ?_ rfl (by keepS hp)
    rcases ph with (_ | _ | _ | _ | _ | _) | _ | (_ | _ | _ | _) | (_ | _ | _ | _) | _ <;>
      simp [RunOk, Quiet, InLoop, Starting, Pausing, Stopping] at hO ⊢ <;> exact hO.2
  case c6Closed t ht hp ha =>
    obtain ⟨rfl, h3, hr⟩ := hI.isRun ht hp rfl
    rw [hr] at hO
    exfalso
    rcases ph with (_ | _ | _ | _ | _ | _) | _ | (_ | _ | _ | _) | (_ | _ | _ | _) | _ <;>
      simp [RunOk, Quiet, InLoop, Starting, Pausing, Stopping, ha] at hO
  case c6 t ht hp j hj i hq ha =>
    obtain ⟨rfl, h3, hr⟩ := hI.isRun ht hp rfl
    obtain ⟨rfl, _, _⟩ := hI.isRun hj hq rfl
    rw [hp] at hq; cases hq
  case c6Default t ht hp ha hn =>
    obtain ⟨rfl, h3, hr⟩ := hI.isRun ht hp rfl
    rw [hr] at hO
    refine hI.goR h3 rfl rfl (hI.alive h3) hI.err hR hC ?_ rfl (by keepS hp)
    rcases ph with (_ | _ | _ | _ | _ | _) | _ | (_ | _ | _ | _) | (_ | _ | _ | _) | _ <;>
      simp [RunOk, Quiet, InLoop, Starting, Pausing, Stopping] at hO ⊢ <;> exact hO
  case c7 t ht hp =>
    obtain ⟨rfl, h3, hr⟩ := hI.isRun ht hp rfl
    rw [hr] at hO
    refine UseInv.goR hI h3 rfl rfl (hI.alive h3) hI.err (hR.quiet rfl) hC ?_ rfl (by keepS hp)
    rcases ph with (_ | _ | _ | _ | _ | _) | _ | (_ | _ | _ | _) | (_ | _ | _ | _) | _ <;>
      simp [RunOk, Quiet, InLoop, Starting, Pausing, Stopping, ev_ack, ev_closed, ev_status] at hO ⊢
    exact hO.1
  case c8 t ht hp =>
    obtain ⟨rfl, h3, hr⟩ := hI.isRun ht hp rfl
    rw [hr] at hO
    refine UseInv.goR hI h3 rfl rfl (hI.alive h3) hI.err (hR.quiet rfl) hC ?_ rfl (.inl rfl)
    rcases ph with (_ | _ | _ | _ | _ | _) | _ | (_ | _ | _ | _) | (_ | _ | _ | _) | _ <;>
      simp [RunOk, Quiet, InLoop, Starting, Pausing, Stopping, ev_ack, ev_closed, ev_status] at hO ⊢ <;> exact hO
  case nl0 t ht hp j hj st p hq =>
    obtain ⟨rfl, h2⟩ := hI.isNotif ht hp trivial (by rintro ⟨⟩)
    have h1 : UseInv fol ((s.ev (.notified st)).go j p) := by
      rcases notifying_some hq with ⟨k, h, rfl, rfl⟩ | ⟨k, h, rfl, rfl⟩ | ⟨k, e, h, rfl, rfl⟩ | ⟨e, h, rfl, rfl⟩ |
        ⟨h, rfl⟩ | ⟨h, hv, rfl⟩ | ⟨h, hv, rfl⟩ | ⟨h, rfl, rfl⟩ | ⟨e, h, rfl, rfl⟩ | ⟨e, h, rfl, rfl⟩ | ⟨h, rfl⟩
      · obtain rfl := hI.isClient hj h rfl
        rw [h] at hC
        exact hI.go0 (s1 := s.ev _) rfl rfl Iff.rfl hI.err (hR.quiet rfl) hC hO (hI.noPush h (by rintro ⟨⟩)) (by rintro ⟨⟩) (by keepS h)
      · obtain rfl := hI.isClient hj h rfl
        rw [h] at hC
        exact hI.go0 (s1 := s.ev _) rfl rfl Iff.rfl hI.err (hR.quiet rfl) (.inl hC) hO (hI.noPush h (by rintro ⟨⟩)) (by rintro ⟨⟩) (by keepS h)
      · obtain rfl := hI.isClient hj h rfl
        rw [h] at hC
        cases hC.1
      · obtain rfl := hI.isClient hj h rfl
        rw [h] at hC
        exact hI.go0 (s1 := s.ev _) rfl rfl Iff.rfl hI.err (hR.quiet rfl) hC.2 hO (hI.noPush h (by rintro ⟨⟩)) (by rintro ⟨⟩) (by keepS h)
      · obtain ⟨rfl, h3, hr⟩ := hI.isRun hj h rfl
        rw [hr] at hO
        refine hI.goR (s1 := s.ev _) h3 rfl rfl (hI.alive h3) hI.err (hR.quiet rfl) hC ?_ rfl (by keepS h)
        rcases ph with (_ | _ | _ | _ | _ | _) | _ | (_ | _ | _ | _) | (_ | _ | _ | _) | _ <;>
          simp [RunOk, Quiet, InLoop, Starting, Pausing, Stopping, ev_ack, ev_closed, ev_status] at hO ⊢ <;> exact ⟨hO.1.2, hO.2⟩
      · obtain ⟨rfl, h3, hr⟩ := hI.isRun hj h rfl
        rw [hr] at hO
        refine hI.goR (s1 := s.ev _) h3 rfl rfl (hI.alive h3) hI.err (hR.quiet rfl) hC ?_ rfl (by keepS h)
        rcases ph with (_ | _ | _ | _ | _ | _) | _ | (_ | _ | _ | _) | (_ | _ | _ | _) | _ <;>
          simp [RunOk, Quiet, InLoop, Starting, Pausing, Stopping, ev_ack, ev_closed, ev_status] at hO ⊢
        · exact ⟨hO.1.2, hO.2⟩
        · rw [hO.1] at hv; cases hv
      · obtain ⟨rfl, h3, hr⟩ := hI.isRun hj h rfl
        rw [hr] at hO
        refine hI.goR (s1 := s.ev _) h3 rfl rfl (hI.alive h3) hI.err (hR.quiet rfl) hC ?_ rfl (by keepS h)
        rcases ph with (_ | _ | _ | _ | _ | _) | _ | (_ | _ | _ | _) | (_ | _ | _ | _) | _ <;>
          simp [RunOk, Quiet, InLoop, Starting, Pausing, Stopping, ev_ack, ev_closed, ev_status] at hO ⊢
        · rw [hO.1.1] at hv; exact absurd rfl hv
        · exact hO.2
      all_goals
        obtain ⟨rfl, h3, hr⟩ := hI.isRun hj h rfl
        rw [hr] at hO
        exfalso
        rcases ph with (_ | _ | _ | _ | _ | _) | _ | (_ | _ | _ | _) | (_ | _ | _ | _) | _ <;>
          simp [RunOk, Quiet, InLoop, Starting, Pausing, Stopping] at hO
    have hj1 : j ≠ 1 := by rintro rfl; rw [hp] at hq; cases hq
    refine h1.go1 h2 trivial rfl rfl rfl rfl rfl rfl rfl rfl ?_
    rw [go_pc, if_neg hj1.symm]
    show holdsS (s.thr 1).pc = false
    rw [hp]; rfl
  case nl1 t ht st hp hm =>
    obtain ⟨rfl, h2⟩ := hI.isNotif ht hp trivial (by rintro ⟨⟩)
    refine hI.go1 h2 ?_ rfl rfl rfl rfl rfl rfl rfl rfl (by rw [hp]; rfl)
    split <;> trivial
  case ti0 t ht hp hd =>
    rcases hI.who ht hp (by rintro ⟨⟩) with ⟨_, h0⟩ | ⟨_, _, _, hN⟩ | ⟨_, _, hr, _⟩
    · rw [h0] at hC; exact hC.elim
    · exact hN.elim
    · rw [hr] at hO; rcases hO.pc with h | h <;> cases h
  case ti0Fire t ht hp hd =>
    rcases hI.who ht hp (by rintro ⟨⟩) with ⟨_, h0⟩ | ⟨_, _, _, hN⟩ | ⟨_, _, hr, _⟩
    · rw [h0] at hC; exact hC.elim
    · exact hN.elim
    · rw [hr] at hO; rcases hO.pc with h | h <;> cases h
  all_goals
    obtain ⟨_, _, hr⟩ := hI.isRun (by assumption) (by assumption) rfl
    rw [hr] at hO
    exfalso
    rcases ph with (_ | _ | _ | _ | _ | _) | _ | (_ | _ | _ | _) | (_ | _ | _ | _) | _ <;>
      simp [RunOk, Quiet, InLoop, Starting, Pausing, Stopping] at hO

end Algo
end Distclus
