import Verif.Proof.CtrlBlock
import Verif.Spec.CtrlTrace
/-!
# C59 - C63, C74 - C79: races and dead ends of the controller

Each claim examined is refuted twice over: by a theorem which says, for every reachable state of a
certain shape and every continuation, that calls never return, and by an execution which reaches such
a state.
-/
namespace Distclus
open Ctrl Spec Algo Trace

variable {C : Type} {conf : Conf} {s : Algo C}

/-! ## C59: a failed Play -/

/-- **C59 (claim examined).** When `Play` returns an initialisation error, the status lock stays
locked: in every continuation, every call of `Status`, `Init`, `Play`, `Pause`, `Stop` or `Wait` is
blocked at its first action, and never returns. -/
theorem C59_failed_play (h : Reachable conf s) {s1 : Algo C} {t : Nat} {e : Err}
    (hp : (s.thr t).pc = .in10 .play (some e)) (he : e ≠ .alreadyCreated)
    (hn : s.next conf (.act t .go) = some s1) :
    ((s.thr t).inPush = false → s1.log = .ret t (.err (some e)) :: s.log) ∧
    ∀ as s', exec conf s1 as = some s' → ∀ u op, statusOp op = true → (s'.thr u).pc = entry op →
      (∀ c, s'.next conf (.act u c) = none) ∧ NeverReturns conf s' u := by
  have ht : t < s.n := h.lock.lt (by rw [hp]; rintro ⟨⟩)
  have hs1 : s1 = s.ret t (.err (some e)) := by
    simp only [next, step, ht, if_true, hp, stepInit] at hn
    rw [if_pos ⟨by simp, by simpa using he⟩] at hn
    exact (Option.some.inj hn).symm
  have hsm : s.sm = some t := h.lock.hS t (by rw [hp]; rfl)
  have hl : Lost t s1 := by
    refine ⟨h.lock.step (Step.of_next hn), ?_, ?_⟩
    · rw [hs1, ret_sm, hsm]
    · rw [hs1, ret_pc, if_pos rfl]; split <;> rfl
  refine ⟨fun hi => by rw [hs1, ret_log, if_neg (by simp [hi])], fun as s' hx u op hop hu => ?_⟩
  have hl' : Lost t s' := exec_induction (P := Lost t) (fun _ _ h hs => h.step hs) as s1 s' hl hx
  have hneed : needsS (s'.thr u).pc = true := by rw [hu]; exact needsS_entry hop
  refine ⟨fun c => ?_, hl'.never hneed⟩
  have hu' : u < s'.n := hl'.lock.lt (by rw [hu]; cases op <;> rintro ⟨⟩)
  have hs' : ¬ s'.sm = none := by rw [hl'.sm]; rintro ⟨⟩
  cases op <;> simp only [statusOp, reduceCtorEq] at hop <;> cases c <;>
    simp only [next, step, hu', if_true, hu, entry, stepRead, stepInit, stepPlay, stepPause,
      stepInterrupt, stepWait, hs', if_false]

/-- The initialisation fails in a `Play` on a new algorithm. -/
def failPlay : List (Act Nat) :=
  [.client, call 0 .play, g 0, g 0, recv 1 0, .act 0 (.initRet none (some (.other 3))), g 0, g 0, g 0,
   g 1, recv 1 0]

/-- The hypotheses are met; then a call of `Status` is blocked. -/
example : ((exec plain (new : Algo Nat) failPlay).map fun s => (s.thr 0).pc) =
      some (.in10 .play (some (.other 3))) ∧
    ((exec plain (new : Algo Nat) (failPlay ++ [g 0, call 0 .status])).map fun s =>
      ((s.thr 0).pc, s.status, s.sm, rets 0 s.log)) =
      some (.rdStatus, ⟨.finished, some (.other 3)⟩, some 0, [.err (some (.other 3))]) := by
  decide +kernel

/-! ## C60: Pause racing with the end of a run -/

/-- **C60, C74.** An algorithm whose status is Idle without a run remains so in every continuation,
and every `Play` or `Stop` called on it never returns. -/
theorem C60_orphan (h : Reachable conf s) (hO : Orphan s) (as : List (Act C)) {s' : Algo C}
    (hx : exec conf s as = some s') :
    Orphan s' ∧ ∀ u op, op = .play ∨ op = .stop → (s'.thr u).pc = entry op →
      NeverReturns conf s' u := by
  have := exec_induction (conf := conf) (P := fun s => LockInv s ∧ Orphan s)
    (fun a b ⟨h1, h2⟩ hs => ⟨h1.step hs, orphan_step h1 h2 hs⟩) as s s' ⟨h.lock, hO⟩ hx
  refine ⟨this.2, fun u op hop hu => orphan_never this.1 this.2 ?_⟩
  rw [hu]
  rcases hop with rfl | rfl <;> rfl

/-- The run has made its only iteration and is about to end when the client calls `Pause`. -/
def pauseEnd : List (Act Nat) :=
  init ++ play ++ iterate 6 ++ [g 2, g 2, call 0 .pause, g 0, g 0, g 2, g 2, recv 1 2, g 1, g 2, g 2, g 2,
    recv 2 0, recv 1 2, g 1, .act 2 .default, g 2, g 2, g 0, g 0]

/-- **C60 (claim examined).** A `Pause` which overlaps the natural end of a run can return the error
"not running" and leave the status Idle without a run; nobody else is there and the locks are free. -/
theorem C60_pause_at_end : ∃ (conf : Conf) (s : Algo Nat), Reachable conf s ∧ Orphan s ∧
    rets 0 s.log = [.err (some .notRunning), .err none, .err none] ∧
    s.sm = none ∧ s.ma = none ∧ s.mr = [] ∧
    (List.range s.n).map (fun j => (s.thr j).pc) = [.home, .nl0, .dead] := by
  obtain ⟨s, hr, hs⟩ := Algo.reach (conf := ⟨1, 0, 0, false, false, false⟩) pauseEnd
    (fun s => decide ((s.status.value = .idle ∧ ∀ j, j < s.n → activity (s.thr j).pc = false) ∧
      rets 0 s.log = [.err (some .notRunning), .err none, .err none] ∧
      s.sm = none ∧ s.ma = none ∧ s.mr = [] ∧
      (List.range s.n).map (fun j => (s.thr j).pc) = [.home, .nl0, .dead])) (by decide +kernel)
  have hs := of_decide_eq_true hs
  exact ⟨_, s, hr, orphan_iff hr.lock hs.1.1 hs.1.2, hs.2⟩

/-! ## C74: two Pauses -/

/-- Two clients pause the same run. -/
def twoPauses : List (Act Nat) :=
  init ++ play ++ [.client, call 0 .pause, g 0, g 0, call 3 .pause, g 3, g 3, g 2, g 2, recv 2 0, g 2,
    recv 1 2, g 1, g 0, g 2, recv 0 2, recv 2 3, g 2, recv 1 2, g 1, g 3, g 2, recv 3 2, g 2, g 2, g 2,
    g 2, g 2, .act 2 .default, .act 2 .default, g 2, g 2]

/-- **C74 (claim examined).** Two overlapping `Pause` calls can both succeed and end the run, leaving
the status Idle without a run: the algorithm can then neither be resumed nor stopped
(`C60_orphan`). -/
theorem C74_two_pauses : ∃ (conf : Conf) (s : Algo Nat), Reachable conf s ∧ Orphan s ∧
    rets 0 s.log = [.err none, .err none, .err none] ∧ rets 3 s.log = [.err none] ∧
    s.sm = none ∧ s.ma = none ∧ s.mr = [] ∧
    (List.range s.n).map (fun j => (s.thr j).pc) = [.home, .nl0, .dead, .home] := by
  obtain ⟨s, hr, hs⟩ := Algo.reach (conf := plain) twoPauses
    (fun s => decide ((s.status.value = .idle ∧ ∀ j, j < s.n → activity (s.thr j).pc = false) ∧
      rets 0 s.log = [.err none, .err none, .err none] ∧ rets 3 s.log = [.err none] ∧
      s.sm = none ∧ s.ma = none ∧ s.mr = [] ∧
      (List.range s.n).map (fun j => (s.thr j).pc) = [.home, .nl0, .dead, .home])) (by decide +kernel)
  have hs := of_decide_eq_true hs
  exact ⟨_, s, hr, orphan_iff hr.lock hs.1.1 hs.1.2, hs.2⟩

/-! ## C61: Push racing with the end of a run -/

/-- **C61.** When a `Push` counts its datum (with the model lock) while the end of a run, holding the
status lock, is about to take the model lock, both are blocked forever, and the status lock with them:
no call of `Push`, `Status`, `Init`, `Play`, `Pause`, `Stop` or `Wait` waiting for it returns. -/
theorem C61_push_recover (h : Reachable conf s) {t r : Nat} {p : Option Err}
    (ht : (s.thr t).pc = .pu4) (hr : (s.thr r).pc = .c2 p) :
    NeverReturns conf s t ∧
    ∀ as s', exec conf s as = some s' → (s'.thr t).pc = .pu4 ∧ (s'.thr r).pc = .c2 p ∧
      ∀ u op, statusOp op = true → (s'.thr u).pc = entry op → NeverReturns conf s' u := by
  have h0 : ABBA t r s := ⟨h.lock, ht, by rw [hr]; rfl, by rw [hr]; rfl⟩
  have inv : ∀ a b : Algo C, (ABBA t r a ∧ (a.thr r).pc = .c2 p) → Step conf a b →
      (ABBA t r b ∧ (b.thr r).pc = .c2 p) := fun a b h hs =>
    ⟨(h.1.step hs).1, (h.1.step hs).2.trans h.2⟩
  refine ⟨NeverReturns.of_inv ⟨h0, hr⟩ inv (fun a h => by rw [h.1.push]; rintro ⟨⟩), ?_⟩
  intro as s' hx
  have h' := exec_induction (P := fun a => ABBA t r a ∧ (a.thr r).pc = .c2 p) inv as s s' ⟨h0, hr⟩ hx
  refine ⟨h'.1.push, h'.2, fun u op hop hu => ?_⟩
  refine NeverReturns.of_inv
    (P := fun a => (ABBA t r a ∧ (a.thr r).pc = .c2 p) ∧ (a.thr u).pc = entry op) ⟨h', hu⟩ ?_ ?_
  · intro a b ⟨h1, h2⟩ hs
    refine ⟨inv a b h1 hs, ?_⟩
    rw [hs.needsS h1.1.lock (by rw [h1.1.lock.hS r h1.1.runS]; rintro ⟨⟩)
      (by rw [h2]; exact needsS_entry hop), h2]
  · intro a h; rw [h.2]; exact needsS_not_home (needsS_entry hop)

/-- The run ends while the client pushes. -/
def pushEnd : List (Act Nat) :=
  init ++ play ++ iterate 6 ++ [g 2, g 2, g 2, g 2, recv 1 2, g 1, g 2, call 0 .push, .act 0 .default,
    .act 0 (.pushRet none), g 0, g 0]

/-- **C61 (claim examined).** `Push` can fail to return: the state of `C61_push_recover` is reached. -/
theorem C61_witness : ∃ (conf : Conf) (s : Algo Nat), Reachable conf s ∧
    (s.thr 0).pc = .pu4 ∧ (s.thr 2).pc = .c2 none ∧ NeverReturns conf s 0 := by
  obtain ⟨s, hr, hs⟩ := Algo.reach (conf := ⟨1, 0, 0, false, false, false⟩) pushEnd
    (fun s => decide ((s.thr 0).pc = .pu4 ∧ (s.thr 2).pc = .c2 none)) (by decide +kernel)
  have hs := of_decide_eq_true hs
  exact ⟨_, s, hr, hs.1, hs.2, (C61_push_recover hr hs.1 hs.2).1⟩

/-! ## C62: concurrent Play -/

/-- Two clients play a Ready algorithm. -/
def twoPlays : List (Act Nat) :=
  init ++ [.client, call 0 .play, g 0, g 0, call 2 .play, g 2, g 2, g 3, g 4, g 0, g 2, recv 3 0,
    recv 4 2, g 3, recv 1 3, g 1, g 4, recv 1 4, g 1, g 3, g 4, g 0, g 2, recv 0 3, recv 2 4, g 0, g 0,
    g 2, g 2, g 3, g 3, .act 3 .default, g 4, g 4, .act 4 .default]

/-- **C62 (claim examined).** Two overlapping `Play` calls on a Ready algorithm can both succeed and
start two runs, which are then both inside `Iterate` of the same implementation. -/
theorem C62_two_runs : ∃ (conf : Conf) (s : Algo Nat), Reachable conf s ∧
    rets 0 s.log = [.err none, .err none] ∧ rets 2 s.log = [.err none] ∧
    (s.thr 3).pc = .rI ∧ (s.thr 4).pc = .rI := by
  obtain ⟨s, hr, hs⟩ := Algo.reach (conf := plain) twoPlays
    (fun s => decide (rets 0 s.log = [.err none, .err none] ∧ rets 2 s.log = [.err none] ∧
      (s.thr 3).pc = .rI ∧ (s.thr 4).pc = .rI)) (by decide +kernel)
  exact ⟨_, s, hr, of_decide_eq_true hs⟩

/-! ## C63: a notifier which queries the algorithm -/

/-- **C63.** When a goroutine hands a status over to the notification loop while it holds the status
lock (`init`, `Stop` on Ready, the end of a run) and the notifier is calling `Status` or another
method which takes the status lock, both are blocked forever, and so is every other such call. -/
theorem C63_notifier (h : Reachable conf s) {t i : Nat} {op : Op}
    (hh : (∃ k, (s.thr t).pc = .in4 k) ∨ (∃ k e, (s.thr t).pc = .in9 k e) ∨
      (∃ e, (s.thr t).pc = .it1 e) ∨ (∃ p, (s.thr t).pc = .c1 p) ∨ (∃ st, (s.thr t).pc = .c5 st))
    (hk : (s.thr i).kind = .notifier) (hop : statusOp op = true) (hi : (s.thr i).pc = entry op) :
    NeverReturns conf s t ∧ NeverReturns conf s i ∧
    ∀ as s', exec conf s as = some s' → (s'.thr t).pc = (s.thr t).pc ∧ (s'.thr i).pc = (s.thr i).pc ∧
      ∀ u op', statusOp op' = true → (s'.thr u).pc = entry op' → NeverReturns conf s' u := by
  have h0 : CallBack t i s := by
    refine ⟨h.lock, h.st.2, h.notif, ?_, ?_, h.lock.lt ?_, hk, ?_⟩
    · rcases hh with ⟨_, e⟩ | ⟨_, _, e⟩ | ⟨_, e⟩ | ⟨_, e⟩ | ⟨_, e⟩ <;> rw [e] <;> rfl
    · rcases hh with ⟨_, e⟩ | ⟨_, x, e⟩ | ⟨_, e⟩ | ⟨_, e⟩ | ⟨_, e⟩ <;> rw [e] <;> first
        | rfl
        | (cases x <;> rfl)
    · rw [hi]; cases op <;> rintro ⟨⟩
    · rw [hi]; exact needsS_entry hop
  have hne : (s.thr t).pc ≠ .home := fun e => by have := h0.holds; rw [e] at this; cases this
  have inv : ∀ a b : Algo C, (CallBack t i a ∧ (a.thr t).pc = (s.thr t).pc ∧
      (a.thr i).pc = (s.thr i).pc) → Step conf a b →
      (CallBack t i b ∧ (b.thr t).pc = (s.thr t).pc ∧ (b.thr i).pc = (s.thr i).pc) :=
    fun a b h hs => ⟨(h.1.step hs).1, (h.1.step hs).2.1.trans h.2.1, (h.1.step hs).2.2.trans h.2.2⟩
  refine ⟨NeverReturns.of_inv ⟨h0, rfl, rfl⟩ inv (fun a h => by rw [h.2.1]; exact hne),
    NeverReturns.of_inv ⟨h0, rfl, rfl⟩ inv (fun a h => needsS_not_home h.1.needs), ?_⟩
  intro as s' hx
  have h' := exec_induction (P := fun a => CallBack t i a ∧ (a.thr t).pc = (s.thr t).pc ∧
      (a.thr i).pc = (s.thr i).pc) inv as s s' ⟨h0, rfl, rfl⟩ hx
  refine ⟨h'.2.1, h'.2.2, fun u op' hop' hu => ?_⟩
  refine NeverReturns.of_inv
    (P := fun a => CallBack t i a ∧ (a.thr u).pc = entry op') ⟨h'.1, hu⟩ ?_ ?_
  · intro a b ⟨h1, h2⟩ hs
    refine ⟨(h1.step hs).1, ?_⟩
    rw [hs.needsS h1.lock (by rw [h1.lock.hS t h1.holds]; rintro ⟨⟩)
      (by rw [h2]; exact needsS_entry hop'), h2]
  · intro a h; rw [h.2]; exact needsS_not_home (needsS_entry hop')

/-- The notifier calls `Status()` when it is told Initializing. -/
def notifierStatus : List (Act Nat) :=
  [.client, call 0 .init, g 0, g 0, recv 1 0, g 1, call 1 .status, .act 0 (.initRet (some 5) none), g 0,
   g 0, g 0]

/-- **C63 (claim examined).** A notifier which calls `Status()` can block the initialisation for
ever: `Init` does not return. -/
theorem C63_witness : ∃ (conf : Conf) (s : Algo Nat), Reachable conf s ∧
    (s.thr 0).pc = .in9 .init none ∧ (s.thr 1).kind = .notifier ∧ (s.thr 1).pc = .rdStatus ∧
    NeverReturns conf s 0 ∧ NeverReturns conf s 1 := by
  obtain ⟨s, hr, hs⟩ := Algo.reach (conf := ⟨0, 0, 0, false, false, true⟩) notifierStatus
    (fun s => decide ((s.thr 0).pc = .in9 .init none ∧ (s.thr 1).kind = .notifier ∧
      (s.thr 1).pc = .rdStatus)) (by decide +kernel)
  have hs := of_decide_eq_true hs
  have := C63_notifier hr (op := .status) (.inr (.inl ⟨_, _, hs.1⟩)) hs.2.1 rfl hs.2.2
  exact ⟨_, s, hr, hs.1, hs.2.1, hs.2.2, this.1, this.2.1⟩

/-! ## C75: two Plays on Idle -/

/-- Two clients resume a paused run. -/
def twoResumes : List (Act Nat) :=
  init ++ play ++ pause ++ [.client, call 0 .play, g 0, g 0, call 3 .play, g 3, g 3, recv 2 0, g 2,
    recv 1 2, g 1, g 0, g 2, recv 0 2, g 2, g 2, recv 2 3, g 2, recv 1 2, g 1, g 3]

/-- The run is at `p` in its loop, and goroutine 3 waits for an acknowledgement. -/
structure Waiting (p : PC Nat) (m : Option Nat) (k : Nat) (s : Algo Nat) : Prop where
  n : s.n = 4
  p0 : (s.thr 0).pc = .home
  p1 : (s.thr 1).pc = .nl0
  p2 : (s.thr 2).pc = p
  p3 : (s.thr 3).pc = .sd3 1 .playIdle
  status : s.status.value = .running
  ma : s.ma = m
  mr : s.mr = []
  closed : s.closed = []
  iterations : s.iterations = k
  rets : rets 3 s.log = []

theorem Waiting.stuck {s : Algo Nat} {m : Option Nat} {k : Nat} (h : Waiting .r6 m k s) (c : Choice Nat) :
    s.next plain (.act 3 c) = none := by
  obtain ⟨hn, h0, h1, h2, h3, hst, hma, hmr, hcl, -, -⟩ := h
  cases c <;> simp only [next, step, hn, h3, stepSend, hcl, show (3 < 4) = True from by simp, if_true]
  case go => simp
  case recv j =>
    by_cases hj : j < 4
    · have : j = 0 ∨ j = 1 ∨ j = 2 ∨ j = 3 := by omega
      rcases this with rfl | rfl | rfl | rfl <;> simp [acking, h0, h1, h2, h3]
    · split <;> simp [hj]

theorem Waiting.go {s s1 : Algo Nat} {p p' : PC Nat} {m m' : Option Nat} {k k' : Nat}
    (h : Waiting p m k s) (ht : s1.thr = s.thr) (hn : s1.n = s.n) (hst : s1.status = s.status)
    (hma : s1.ma = m') (hmr : s1.mr = s.mr) (hcl : s1.closed = s.closed) (hi : s1.iterations = k')
    (hl : Spec.rets 3 s1.log = Spec.rets 3 s.log) : Waiting p' m' k' (s1.go 2 p') := by
  refine ⟨hn.trans h.n, ?_, ?_, ?_, ?_, hst ▸ h.status, hma, hmr.trans h.mr, hcl.trans h.closed, hi,
    hl.trans h.rets⟩
  · rw [go_pc, if_neg (by decide), ht, h.p0]
  · rw [go_pc, if_neg (by decide), ht, h.p1]
  · rw [go_pc, if_pos rfl]
  · rw [go_pc, if_neg (by decide), ht, h.p3]

theorem Waiting.iterate {s : Algo Nat} {k : Nat} (h : Waiting .r6 none k s) :
    ∃ s', exec plain s (iterate 6) = some s' ∧ Waiting .r6 none (k + 1) s' := by
  have h2 : ∀ {s : Algo Nat} {p m k}, Waiting p m k s → (2 < s.n) = True := by
    intro s p m k h; rw [h.n]; decide
  have e1 : ∃ s1, s.next plain (g 2) = some s1 ∧ Waiting .r7 none k s1 :=
    ⟨_, by simp only [next, step, h2 h, if_true, h.p2, stepRun, h.status],
      h.go rfl rfl rfl h.ma rfl rfl h.iterations rfl⟩
  obtain ⟨s1, e1, w1⟩ := e1
  have e2 : ∃ s2, s1.next plain (g 2) = some s2 ∧ Waiting .r9 none k s2 :=
    ⟨_, by
      simp only [next, step, h2 w1, if_true, w1.p2, stepRun, w1.ma,
        show iterDone plain s1 = false by simp [iterDone, plain]]
      simp [plain], w1.go rfl rfl rfl w1.ma rfl rfl w1.iterations rfl⟩
  obtain ⟨s2, e2, w2⟩ := e2
  have hns : s2.noSender = true := by
    simp only [noSender, decide_eq_true_eq, w2.n]
    intro j hj
    have : j = 0 ∨ j = 1 ∨ j = 2 ∨ j = 3 := by omega
    rcases this with rfl | rfl | rfl | rfl <;> simp [sending, w2.p0, w2.p1, w2.p2, w2.p3]
  have e3 : ∃ s3, s2.next plain (.act 2 .default) = some s3 ∧ Waiting .rI none k s3 :=
    ⟨(s2.ev (.iterCall 2 s2.status s2.centroids)).go 2 .rI, by simp only [next, step, h2 w2, if_true, w2.p2, stepRun, hns],
      w2.go rfl rfl rfl w2.ma rfl rfl w2.iterations rfl⟩
  obtain ⟨s3, e3, w3⟩ := e3
  have e4 : ∃ s4, s3.next plain (.act 2 (.iterOk 6)) = some s4 ∧ Waiting (.rS 6) none k s4 :=
    ⟨(s3.ev (.iterOk 2 6)).go 2 (.rS 6), by simp only [next, step, h2 w3, if_true, w3.p2, stepRun],
      w3.go rfl rfl rfl w3.ma rfl rfl w3.iterations rfl⟩
  obtain ⟨s4, e4, w4⟩ := e4
  have e5 : ∃ s5, s4.next plain (g 2) = some s5 ∧ Waiting (.rS' 6) (some 2) k s5 :=
    ⟨{ s4 with ma := some 2 }.go 2 (.rS' 6), by simp only [next, step, h2 w4, if_true, w4.p2, stepRun, w4.ma],
      w4.go (s1 := { s4 with ma := some 2 }) rfl rfl rfl rfl rfl rfl w4.iterations rfl⟩
  obtain ⟨s5, e5, w5⟩ := e5
  have e6 : ∃ s6, s5.next plain (g 2) = some s6 ∧ Waiting .r6 none (k + 1) s6 :=
    ⟨_, by simp only [next, step, h2 w5, if_true, w5.p2, stepRun, w5.mr],
      w5.go (s1 := { s5 with
        iterations := s5.iterations + 1
        centroids := some 6
        figIter := s5.iterations + 1
        figPushed := s5.pushedData
        ma := none }.ev (.saved 6)) rfl rfl rfl rfl rfl rfl (by rw [ev_iterations, w5.iterations]) rfl⟩
  obtain ⟨s6, e6, w6⟩ := e6
  exact ⟨s6, by simp only [Trace.iterate, exec, e1, e2, e3, e4, e5, e6], w6⟩

/-- **C75 (claim examined).** When two `Play` calls overlap on an Idle algorithm, both commands are
received but one may not be acknowledged: there is a reachable state in which the second call cannot
move, and from which the run can make any number of iterations while it still cannot. -/
theorem C75_two_resumes : ∃ s : Algo Nat, Reachable plain s ∧ rets 3 s.log = [] ∧
    (s.thr 3).pc = .sd3 1 .playIdle ∧
    ∀ k, ∃ as s', exec plain s as = some s' ∧ s'.iterations = s.iterations + k ∧
      rets 3 s'.log = [] ∧ ∀ c, s'.next plain (.act 3 c) = none := by
  obtain ⟨s, hr, hs⟩ := Algo.reach (conf := plain) twoResumes
    (fun s => decide (rets 3 s.log = [] ∧ s.n = 4 ∧ (s.thr 0).pc = .home ∧ (s.thr 1).pc = .nl0 ∧
      (s.thr 2).pc = .r6 ∧ (s.thr 3).pc = .sd3 1 .playIdle ∧ s.status.value = .running ∧ s.ma = none ∧
      s.mr = [] ∧ s.closed = [])) (by decide +kernel)
  obtain ⟨h1, h2, h3, h4, h5, h6, h7, h8, h9, h10⟩ := of_decide_eq_true hs
  refine ⟨s, hr, h1, h6, fun k => ?_⟩
  have : ∃ as s', exec plain s as = some s' ∧ Waiting .r6 none (s.iterations + k) s' := by
    induction k with
    | zero => exact ⟨[], s, rfl, ⟨h2, h3, h4, h5, h6, h7, h8, h9, h10, rfl, h1⟩⟩
    | succ k ih =>
      obtain ⟨as, s', e1, e2⟩ := ih
      obtain ⟨s'', f1, f2⟩ := e2.iterate
      refine ⟨as ++ Trace.iterate 6, s'', ?_, f2⟩
      rw [exec_append, e1]; exact f1
  obtain ⟨as, s', e1, e2⟩ := this
  exact ⟨as, s', e1, e2.iterations, e2.rets, e2.stuck⟩

/-! ## C76: a Stop which is overtaken -/

/-- A client stops a Ready algorithm while another one is playing it. -/
def stopLost : List (Act Nat) :=
  init ++ [.client, call 0 .play, g 0, g 0, call 2 .stop, g 2, recv 1 2, g 1, g 2, g 3, g 0, recv 3 0,
    g 3, recv 1 3, g 1, g 3, g 0, recv 0 3, g 0, g 0]

/-- **C76 (claim examined).** A `Stop` can succeed and the algorithm run afterwards although nobody
calls `Play` after the `Stop`: the statuses assigned are Finished by the `Stop`, which then returns nil,
then Running by the `Play` which was called before it. -/
theorem C76_stop_overtaken : ∃ s : Algo Nat, Reachable plain s ∧ s.status = ⟨.running, none⟩ ∧
    (s.thr 3).pc = .r6 ∧
    (s.log.filterMap (fun
      | .call t op => some (Sum.inl (t, op))
      | .ret t (.err e) => some (Sum.inr (Sum.inl (t, e)))
      | .set st => some (Sum.inr (Sum.inr st.value))
      | _ => none)).reverse.drop 4 =
      [.inl (0, .play), .inl (2, .stop), .inr (.inr .finished), .inr (.inl (2, none)),
       .inr (.inr .running), .inr (.inl (0, none))] := by
  obtain ⟨s, hr, hs⟩ := Algo.reach (conf := plain) stopLost
    (fun s => decide (s.status = ⟨.running, none⟩ ∧ (s.thr 3).pc = .r6 ∧
    (s.log.filterMap (fun
      | .call t op => some (Sum.inl (t, op))
      | .ret t (.err e) => some (Sum.inr (Sum.inl (t, e)))
      | .set st => some (Sum.inr (Sum.inr st.value))
      | _ => none)).reverse.drop 4 =
      [.inl (0, .play), .inl (2, .stop), .inr (.inr .finished), .inr (.inl (2, none)),
       .inr (.inr .running), .inr (.inl (0, none))])) (by decide +kernel)
  exact ⟨s, hr, of_decide_eq_true hs⟩

/-! ## C77, C78: the automatic Play of Push -/

/-- **C77.** When the automatic `Play` of a `Push`, which holds the model lock for reading,
finds the algorithm Finished, it re-initialises it and waits for the model lock itself holds: it never
returns, and neither does any other call which takes the status lock. -/
theorem C77_push_reinit (h : Reachable conf s) {t : Nat} (hp : (s.thr t).pc = .in2 .play)
    (hi : (s.thr t).inPush = true) :
    NeverReturns conf s t ∧
    ∀ as s', exec conf s as = some s' → ∀ u op, statusOp op = true → (s'.thr u).pc = entry op →
      NeverReturns conf s' u := by
  have h0 : SelfLock t t s := ⟨h.lock, List.count_pos_iff.1 (by rw [h.lock.hR t, if_pos hi]; decide), by rw [hp]; rfl, .inl rfl⟩
  have inv : ∀ a b : Algo C, (SelfLock t t a ∧ (a.thr t).pc = .in2 .play) → Step conf a b →
      (SelfLock t t b ∧ (b.thr t).pc = .in2 .play) := fun a b h hs =>
    ⟨(h.1.step hs).1, (h.1.step hs).2.1.trans h.2⟩
  refine ⟨NeverReturns.of_inv ⟨h0, hp⟩ inv (fun a h => by rw [h.2]; rintro ⟨⟩), ?_⟩
  intro as s' hx u op hop hu
  have h' := exec_induction (P := fun a => SelfLock t t a ∧ (a.thr t).pc = .in2 .play) inv as s s'
    ⟨h0, hp⟩ hx
  refine NeverReturns.of_inv
    (P := fun a => (SelfLock t t a ∧ (a.thr t).pc = .in2 .play) ∧ (a.thr u).pc = entry op) ⟨h', hu⟩ ?_ ?_
  · intro a b ⟨h1, h2⟩ hs
    refine ⟨inv a b h1 hs, ?_⟩
    rw [hs.needsS h1.1.lock (by rw [h1.1.lock.hS t (by rw [h1.2]; rfl)]; rintro ⟨⟩)
      (by rw [h2]; exact needsS_entry hop), h2]
  · intro a h; rw [h.2]; exact needsS_not_home (needsS_entry hop)

/-- One push up to its decision. -/
def pushOne (t : Nat) : List (Act Nat) :=
  [call t .push, g t, .act t (.pushRet none), g t, g t, g t]

/-- The algorithm is stopped between the decision of a `Push` and its automatic `Play`. -/
def pushStop : List (Act Nat) :=
  init ++ pushOne 0 ++ [g 0, g 0, .client] ++ pushOne 0 ++
    [call 2 .stop, g 2, recv 1 2, g 1, g 2, g 0, g 0, g 0]

/-- **C77 (claim examined).** A `Push` overlapping a `Stop` can block for ever. -/
theorem C77_witness : ∃ (conf : Conf) (s : Algo Nat), Reachable conf s ∧
    rets 2 s.log = [.err none] ∧ (s.thr 0).pc = .in2 .play ∧ NeverReturns conf s 0 := by
  obtain ⟨s, hr, hs⟩ := Algo.reach (conf := ⟨0, 0, 1, false, false, false⟩) pushStop
    (fun s => decide (rets 2 s.log = [.err none] ∧ (s.thr 0).pc = .in2 .play ∧
      (s.thr 0).inPush = true)) (by decide +kernel)
  have hs := of_decide_eq_true hs
  exact ⟨_, s, hr, hs.1, hs.2.1, (C77_push_reinit hr hs.2.1 hs.2.2).1⟩

/-- **C78.** When the automatic `Play` of a `Push`, which holds the model lock for reading, is about to
read the configuration while another goroutine waits to write the model (another `Push`, or the end of
an iteration), both are blocked for ever, and with them everything which needs the model. -/
theorem C78_push_writer (h : Reachable conf s) {t w : Nat} (hp : (s.thr t).pc = .pl3)
    (hi : (s.thr t).inPush = true) (hw : (s.thr w).pc = .pu3 ∨ ∃ c, (s.thr w).pc = .rS' c) :
    NeverReturns conf s t ∧ NeverReturns conf s w ∧
    ∀ as s', exec conf s as = some s' → (s'.thr t).pc = .pl3 ∧ (s'.thr w).pc = (s.thr w).pc ∧
      ∀ u op, op = .centroids ∨ op = .figures ∨ op = .conf → (s'.thr u).pc = entry op →
        NeverReturns conf s' u := by
  have h0 : SelfLock t w s := by
    refine ⟨h.lock, List.count_pos_iff.1 (by rw [h.lock.hR t, if_pos hi]; decide), ?_, .inr (by rw [hp]; rfl)⟩
    rcases hw with hw | ⟨c, hw⟩ <;> rw [hw] <;> rfl
  have hwm : holdsM (s.thr w).pc = true := by rcases hw with hw | ⟨c, hw⟩ <;> rw [hw] <;> rfl
  have hwh : (s.thr w).pc ≠ .home := by rcases hw with hw | ⟨c, hw⟩ <;> rw [hw] <;> rintro ⟨⟩
  have inv : ∀ a b : Algo C, (SelfLock t w a ∧ (a.thr t).pc = .pl3 ∧ (a.thr w).pc = (s.thr w).pc) →
      Step conf a b → (SelfLock t w b ∧ (b.thr t).pc = .pl3 ∧ (b.thr w).pc = (s.thr w).pc) :=
    fun a b h hs => ⟨(h.1.step hs).1, (h.1.step hs).2.1.trans h.2.1, (h.1.step hs).2.2.trans h.2.2⟩
  refine ⟨NeverReturns.of_inv ⟨h0, hp, rfl⟩ inv (fun a h => by rw [h.2.1]; rintro ⟨⟩),
    NeverReturns.of_inv ⟨h0, hp, rfl⟩ inv (fun a h => by rw [h.2.2]; exact hwh), ?_⟩
  intro as s' hx
  have h' := exec_induction (P := fun a => SelfLock t w a ∧ (a.thr t).pc = .pl3 ∧
      (a.thr w).pc = (s.thr w).pc) inv as s s' ⟨h0, hp, rfl⟩ hx
  refine ⟨h'.2.1, h'.2.2, fun u op hop hu => ?_⟩
  have hneed : needsM (entry op : PC C) = true := by rcases hop with rfl | rfl | rfl <;> rfl
  refine NeverReturns.of_inv (P := fun a => (SelfLock t w a ∧ (a.thr t).pc = .pl3 ∧
      (a.thr w).pc = (s.thr w).pc) ∧ (a.thr u).pc = entry op) ⟨h', hu⟩ ?_ ?_
  · intro a b ⟨h1, h2⟩ hs
    refine ⟨inv a b h1 hs, ?_⟩
    rw [hs.needsM h1.1.lock (by rw [(h1.1.lock.hM w).1 (by rw [h1.2.2]; exact hwm)]; rintro ⟨⟩)
      (by rw [h2]; exact hneed), h2]
  · intro a h; rw [h.2]; rcases hop with rfl | rfl | rfl <;> rintro ⟨⟩

/-- A second `Push` comes while the first one plays. -/
def pushPush : List (Act Nat) :=
  init ++ pushOne 0 ++ [g 0, g 0, .client] ++ pushOne 0 ++ [g 0, g 0, g 0, g 3, g 0, recv 3 0, g 3,
    recv 1 3, g 1, g 3, g 0, recv 0 3, g 0, call 2 .push, g 2, .act 2 (.pushRet none), g 2]

/-- **C78 (claim examined).** Two overlapping `Push` calls can block each other for ever. -/
theorem C78_witness : ∃ (conf : Conf) (s : Algo Nat), Reachable conf s ∧
    (s.thr 0).pc = .pl3 ∧ (s.thr 2).pc = .pu3 ∧ NeverReturns conf s 0 ∧ NeverReturns conf s 2 := by
  obtain ⟨s, hr, hs⟩ := Algo.reach (conf := ⟨0, 0, 1, false, false, false⟩) pushPush
    (fun s => decide ((s.thr 0).pc = .pl3 ∧ (s.thr 2).pc = .pu3 ∧ (s.thr 0).inPush = true))
    (by decide +kernel)
  have hs := of_decide_eq_true hs
  have := C78_push_writer hr hs.1 hs.2.2 (.inl hs.2.1)
  exact ⟨_, s, hr, hs.1, hs.2.1, this.1, this.2.1⟩

/-! ## C79: Play racing with the end of a run -/

/-- The client plays again while the first run ends. -/
def playEnd : List (Act Nat) :=
  init ++ play ++ iterate 6 ++ [g 2, g 2, g 2, g 2, recv 1 2, g 1, call 0 .play, g 0, g 0, g 3, g 0,
    recv 3 0, g 2, g 2, g 2, .act 2 .default, .act 2 .default, g 2, g 2, g 0, g 0, g 0, g 0, g 3,
    recv 1 3, g 1, g 3, g 3, g 3, recv 1 3, g 1]

/-- **C79 (claim examined).** A `Play` which overlaps the end of the previous run can return nil and
yet its run die of a send on a closed channel: the status is Finished with that error, though the
implementation neither failed nor was stopped. -/
theorem C79_play_at_end : ∃ (conf : Conf) (s : Algo Nat), Reachable conf s ∧
    rets 0 s.log = [.err none, .err none, .err none] ∧
    s.status = ⟨.finished, some sendOnClosed⟩ ∧
    (s.log.filterMap fun | .call _ op => some op | _ => none) = [.play, .play, .init] ∧
    s.log.all (fun | .iterErr _ _ => false | .iterPanic _ _ => false | _ => true) = true := by
  obtain ⟨s, hr, hs⟩ := Algo.reach (conf := ⟨1, 0, 0, false, false, false⟩) playEnd
    (fun s => decide (rets 0 s.log = [.err none, .err none, .err none] ∧
    s.status = ⟨.finished, some sendOnClosed⟩ ∧
    (s.log.filterMap fun | .call _ op => some op | _ => none) = [.play, .play, .init] ∧
    s.log.all (fun | .iterErr _ _ => false | .iterPanic _ _ => false | _ => true) = true))
    (by decide +kernel)
  exact ⟨_, s, hr, of_decide_eq_true hs⟩

end Distclus
