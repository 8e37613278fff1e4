import Verif.Proof.CtrlPc
/-!
# The status of the controller
-/
namespace Distclus
open Ctrl
namespace Algo
variable {C : Type}

set_option linter.unusedSimpArgs false
set_option linter.unusedVariables false

/-- The statuses sent by clients and time-outs. -/
def Cmd (st : OCStatus) : Prop := st = .new .running ∨ st = .new .idle ∨ ∃ e, st = .ofError e

/-- The status sent by each sender. -/
def MsgOf : SendFrom → OCStatus → Prop
  | .playIdle, st => st = .new .running
  | .playRun, st => st = .new .running
  | .pause, st => st = .new .idle
  | .interrupt, st => ∃ e, st = .ofError e

theorem MsgOf.cmd {k : SendFrom} {st : OCStatus} (h : MsgOf k st) : Cmd st := by
  cases k
  · exact .inl h
  · exact .inl h
  · exact .inr (.inl h)
  · exact .inr (.inr h)

/-- What each program counter knows of the value of the status. -/
def StQ (v : ClustStatus) : PC C → Prop
  | .sd0 st k | .sd1 st k => MsgOf k st
  | .in1 _ | .in2 _ => v = .finished
  | .in3 _ => v = .finished ∨ v = .created
  | .in4 _ | .in5 _ | .in6 _ _ _ | .in7 _ _ _ | .in8 _ _ => v = .initializing
  | .in9 _ e | .in10 _ e => v ≠ .created ∧ v ≠ .initializing ∧ (e = none → v = .ready)
  | .pl1 => v ≠ .created ∧ v ≠ .initializing
  | .r2 st | .r3 st | .r10 st | .r11 st | .c5 st => v ≠ .created ∧ Cmd st
  | .r0 | .r1 | .r4 _ | .r5 _ _ | .r6 | .r7 | .r8 | .r9 | .rI | .rS _ | .rS' _ | .r12 | .r13 | .r14
  | .r15 _ | .r16 _ | .c0 _ | .c1 _ | .c2 _ | .c3 _ | .c4 _ | .c6 | .c7 | .c8 => v ≠ .created
  | _ => True

theorem StQ.put {v v' : ClustStatus} {p : PC C} (h : StQ v p) (hS : holdsS p = false)
    (hv : v' ≠ .created) : StQ v' p := by
  cases p <;> simp_all [StQ, holdsS]

/-- The program counters of `init` while the status is Initializing. -/
def InMid : PC C → Prop
  | .in4 _ | .in5 _ | .in6 _ _ _ | .in7 _ _ _ | .in8 _ _ => True
  | _ => False

theorem InMid.holdsS {p : PC C} (h : InMid p) : holdsS p = true := by
  cases p <;> simp_all [InMid, Algo.holdsS]

/-- The invariant on the status. -/
structure StInv (s : Algo C) : Prop where
  err : s.status.error ≠ none → s.status.value = .finished
  pc : AllPc (StQ s.status.value) s
  mid : s.status.value = .initializing → ExPc InMid s

theorem StInv.init : StInv (new : Algo C) := by
  refine ⟨?_, ?_, ?_⟩
  · intro h; exact absurd rfl h
  · intro j; trivial
  · intro h; cases h

theorem Cmd.coh {st : OCStatus} (h : Cmd st) : st.error ≠ none → st.value = .finished := by
  rcases h with rfl | rfl | ⟨e, rfl⟩
  · intro h; exact absurd rfl h
  · intro h; exact absurd rfl h
  · intro _; rfl

theorem Cmd.ne {st : OCStatus} (h : Cmd st) : st.value ≠ .created ∧ st.value ≠ .initializing := by
  rcases h with rfl | rfl | ⟨e, rfl⟩ <;> exact ⟨by rintro ⟨⟩, by rintro ⟨⟩⟩

/-- With the lock free, no goroutine is in a section. -/
theorem LockInv.freeS {s : Algo C} (hL : LockInv s) (h : s.sm = none) (j : Nat) :
    holdsS (s.thr j).pc = false := by
  by_contra hc
  have := hL.hS j (by simpa using hc)
  rw [h] at this; cases this

/-- The other goroutines are not in a section. -/
theorem LockInv.otherS {s : Algo C} (hL : LockInv s) {t : Nat} (ht : holdsS (s.thr t).pc = true)
    (j : Nat) (hj : j ≠ t) : holdsS (s.thr j).pc = false := by
  by_contra hc
  have h1 := hL.hS j (by simpa using hc)
  have h2 := hL.hS t ht
  rw [h1] at h2
  exact hj (by simpa using h2)

theorem StInv.notMid {s : Algo C} (hI : StInv s) (hL : LockInv s) (h : s.sm = none) :
    s.status.value ≠ .initializing := by
  intro hv
  obtain ⟨j, hj⟩ := hI.mid hv
  have := hL.freeS h j
  rw [hj.holdsS] at this; cases this

theorem StInv.butS {s : Algo C} (hI : StInv s) {t : Nat} {v : ClustStatus}
    (h : ∀ j, j ≠ t → holdsS (s.thr j).pc = false) (hv : v ≠ .created) : AllBut t (StQ v) s :=
  fun j hj => (hI.pc j).put (h j hj) hv

theorem ExPc.live {P : PC C → Prop} {s : Algo C} (hL : LockInv s) (hP : ¬ P .dead) :
    ¬ P (s.thr s.n).pc := by
  rw [hL.unborn s.n (Nat.le_refl _)]; exact hP

/-- The parts of the invariant, for the actions which do not set the status. -/
theorem StInv.keep {s s' : Algo C} (hI : StInv s) (hst : s'.status = s.status)
    (h1 : AllPc (StQ s.status.value) s') (h2 : ExPc InMid s → ExPc InMid s') : StInv s' :=
  ⟨by rw [hst]; exact hI.err, by rw [hst]; exact h1, by rw [hst]; exact fun h => h2 (hI.mid h)⟩

theorem StInv.set {s' : Algo C} {st : OCStatus} (hst : s'.status = st)
    (hc : st.error ≠ none → st.value = .finished)
    (h1 : AllPc (StQ st.value) s') (h2 : st.value ≠ .initializing) : StInv s' :=
  ⟨by rw [hst]; exact hc, by rw [hst]; exact h1, by rw [hst]; exact fun h => absurd h h2⟩

theorem StInv.step {conf : Conf} {s s' : Algo C} (hL : LockInv s) (hI : StInv s)
    (h : Step conf s s') : StInv s' := by
  have hpc := hI.pc
  cases h
  case in3Created t ht k hp hv =>
    have hb := hI.butS (v := .initializing) (hL.otherS (t := t) (by rw [hp]; rfl)) (by simp)
    refine ⟨fun h => absurd rfl h, ?_, fun _ => ⟨t, ?_⟩⟩
    · exact AllBut.go' (AllBut.put (AllBut.spawn (AllBut.congr hb rfl) trivial)) rfl
    · rw [go_pc, if_pos rfl]; trivial
  case in3 t ht k hp hv =>
    have hb := hI.butS (v := .initializing) (hL.otherS (t := t) (by rw [hp]; rfl)) (by simp)
    refine ⟨fun h => absurd rfl h, ?_, fun _ => ⟨t, ?_⟩⟩
    · exact AllBut.go' (AllBut.put hb) rfl
    · rw [go_pc, if_pos rfl]; trivial
  case in8 t ht k hp =>
    refine StInv.set (st := .new .ready) rfl (fun h => absurd rfl h) ?_ (by simp [OCStatus.new])
    exact AllBut.go' (AllBut.put (hI.butS (hL.otherS (t := t) (by rw [hp]; rfl))
      (by simp [OCStatus.new]))) (by simp [StQ, OCStatus.new])
  case in8Err t ht k e hp =>
    refine StInv.set (st := .ofError (some e)) rfl (fun _ => rfl) ?_ (by simp [OCStatus.ofError])
    exact AllBut.go' (AllBut.put (hI.butS (hL.otherS (t := t) (by rw [hp]; rfl))
      (by simp [OCStatus.ofError]))) (by simp [StQ, OCStatus.ofError])
  case it0Ready t ht e hp hs hv =>
    refine StInv.set (st := .ofError e) rfl (fun _ => rfl) ?_ (by simp [OCStatus.ofError])
    exact AllBut.go' (AllBut.put (AllBut.congr (hI.butS (fun j _ => hL.freeS hs j)
      (by simp [OCStatus.ofError])) rfl)) trivial
  case r2 t ht st hp hs =>
    have hq := hpc t; rw [hp] at hq
    have hc : Cmd st := hq.2
    refine StInv.set (st := st) rfl hc.coh ?_ hc.ne.2
    exact AllBut.go' (AllBut.put (hI.butS (fun j _ => hL.freeS hs j) hc.ne.1)) ⟨hc.ne.1, hc⟩
  case r10 t ht st hp hs =>
    have hq := hpc t; rw [hp] at hq
    have hc : Cmd st := hq.2
    refine StInv.set (st := st) rfl hc.coh ?_ hc.ne.2
    exact AllBut.go' (AllBut.put (hI.butS (fun j _ => hL.freeS hs j) hc.ne.1)) ⟨hc.ne.1, hc⟩
  case r13 t ht hp hs =>
    refine StInv.set (st := .new .ready) rfl (fun h => absurd rfl h) ?_ (by simp [OCStatus.new])
    exact AllBut.go' (AllBut.put (hI.butS (fun j _ => hL.freeS hs j) (by simp [OCStatus.new])))
      (by simp [StQ, OCStatus.new])
  case r15 t ht e hp hs =>
    refine StInv.set (st := .ofError (some e)) rfl (fun _ => rfl) ?_ (by simp [OCStatus.ofError])
    exact AllBut.go' (AllBut.put (hI.butS (fun j _ => hL.freeS hs j) (by simp [OCStatus.ofError])))
      (by simp [StQ, OCStatus.ofError])
  case c0Panic t ht e hp hs =>
    refine StInv.set (st := .ofError (some e)) rfl (fun _ => rfl) ?_ (by simp [OCStatus.ofError])
    exact AllBut.go' (AllBut.put (AllBut.congr (hI.butS (fun j _ => hL.freeS hs j)
      (by simp [OCStatus.ofError])) rfl)) (by simp [StQ, OCStatus.ofError])
  case c4 t ht hp j hj st k hq =>
    have hm := hpc j; rw [hq] at hm
    have hc : Cmd st := MsgOf.cmd hm
    refine StInv.set (st := st) rfl hc.coh ?_ hc.ne.2
    exact AllBut.go' (AllBut.put (AllBut.go (hI.butS (hL.otherS (t := t) (by rw [hp]; rfl)) hc.ne.1)
      trivial)) ⟨hc.ne.1, hc⟩
  case nl0 t ht hp j hj st p hq =>
    have hm := hpc j
    refine hI.keep rfl ?_ ?_
    · all_pc hpc
      · rcases notifying_some hq with ⟨k, h, _, rfl⟩ | ⟨k, h, _, rfl⟩ | ⟨k, _, h, _, rfl⟩ |
          ⟨k, h, _, rfl⟩ | ⟨h, rfl⟩ | ⟨h, _, rfl⟩ | ⟨h, _, rfl⟩ | ⟨h, _, rfl⟩ | ⟨_, h, _, rfl⟩ |
          ⟨_, h, _, rfl⟩ | ⟨h, rfl⟩ <;> rw [h] at hm <;> simp_all [StQ]
      · trivial
    · intro h
      refine ExPc.go (ExPc.go h ?_) ?_
      · rcases notifying_some hq with ⟨k, h, _, rfl⟩ | ⟨k, h, _, rfl⟩ | ⟨k, _, h, _, rfl⟩ |
          ⟨k, h, _, rfl⟩ | ⟨h, rfl⟩ | ⟨h, _, rfl⟩ | ⟨h, _, rfl⟩ | ⟨h, _, rfl⟩ | ⟨_, h, _, rfl⟩ |
          ⟨_, h, _, rfl⟩ | ⟨h, rfl⟩ <;> rw [ev_thr, h] <;> simp [InMid]
      · have hjt : t ≠ j := by rintro rfl; rw [hp] at hq; cases hq
        rw [go_pc, if_neg hjt, ev_thr, hp]; simp [InMid]
  case pu5 t ht hp hm =>
    refine hI.keep rfl ?_ ?_
    · intro j
      dsimp only
      split
      · split <;> trivial
      · exact hpc j
    · rintro ⟨j, hj⟩
      refine ⟨j, ?_⟩
      dsimp only
      split
      · rename_i h; subst h; rw [hp] at hj; exact hj.elim
      · exact hj
  case pu6 t ht hp =>
    refine hI.keep rfl ?_ ?_
    · intro j
      dsimp only
      split
      · trivial
      · exact hpc j
    · rintro ⟨j, hj⟩
      refine ⟨j, ?_⟩
      dsimp only
      split
      · rename_i h; subst h; rw [hp] at hj; exact hj.elim
      · exact hj
  case in0 t ht hp hs =>
    have := hI.notMid hL hs
    refine hI.keep rfl ?_ ?_
    · all_pc hpc
      revert this
      cases s.status.value <;> simp [beginPc, StQ]
    · intro h; exact (h.congr rfl).go (by simp [hp, InMid])
  case pl0Init t ht hp hs hv =>
    have := hI.notMid hL hs
    refine hI.keep rfl ?_ ?_
    · all_pc hpc
      revert this
      cases s.status.value <;> simp [beginPc, StQ]
    · intro h; exact (h.congr rfl).go (by simp [hp, InMid])
  case call t ht hp op hk =>
    refine hI.keep rfl ?_ ?_
    · all_pc hpc
      cases op <;> trivial
    · intro h; exact (h.congr rfl).go (by simp [ev_thr, hp, InMid])
  case client =>
    exact hI.keep rfl (hpc.spawn trivial) (fun h => h.spawn (ExPc.live hL (by simp [InMid])))
  case pl1 t ht hp =>
    have hu := ExPc.live (P := InMid) hL (by simp [InMid])
    have hq := hpc t; rw [hp] at hq
    refine hI.keep rfl ?_ ?_
    · all_pc hpc
      · exact hq.1
      · rfl
    · intro h
      refine ExPc.go (ExPc.spawn (h.congr rfl) (hu)) ?_
      rw [spawn_pc, if_neg (by exact Nat.ne_of_lt ht), ev_thr, hp]; simp [InMid]
  case pl3Timeout t ht hp hm hc =>
    have hu := ExPc.live (P := InMid) hL (by simp [InMid])
    refine hI.keep (by rw [ret_status]; rfl) ?_ ?_
    · all_pc hpc <;> trivial
    · intro h
      refine ExPc.ret (ExPc.spawn (h.congr rfl) (hu)) ?_
      rw [spawn_pc, if_neg (by exact Nat.ne_of_lt ht), hp]; simp [InMid]
  case sd3 t ht a k hp j hj i hq ha =>
    have hjt : t ≠ j := by rintro rfl; rw [hp] at hq; cases hq
    have hm := hpc j; rw [hq] at hm
    refine hI.keep (by rw [sent_status]; rfl) ?_ ?_
    · all_pc hpc <;> first | trivial | (split <;> exact hm)
    · intro h
      refine ExPc.sent (ExPc.go h (by simp [hq, InMid])) ?_
      rw [go_pc, if_neg hjt, hp]; simp [InMid]
  case c6 t ht hp j hj i hq ha =>
    have hjt : t ≠ j := by rintro rfl; rw [hp] at hq; cases hq
    have hm := hpc j; rw [hq] at hm
    refine hI.keep rfl ?_ ?_
    · all_pc hpc <;> first | exact hm | (split <;> exact hm)
    · intro h
      refine ExPc.go (ExPc.go h (by simp [hq, InMid])) ?_
      rw [go_pc, if_neg hjt, hp]; simp [InMid]
  case r1 t ht hp j hj st k hq =>
    have hjt : t ≠ j := by rintro rfl; rw [hp] at hq; cases hq
    have hm := hpc j; rw [hq] at hm
    have hm' := hpc t; rw [hp] at hm'
    refine hI.keep rfl ?_ ?_
    · all_pc hpc
      · trivial
      · exact ⟨hm', MsgOf.cmd hm⟩
    · intro h
      refine ExPc.go (ExPc.go h (by simp [hq, InMid])) ?_
      rw [go_pc, if_neg hjt, hp]; simp [InMid]
  case r9 t ht hp j hj st k hq =>
    have hjt : t ≠ j := by rintro rfl; rw [hp] at hq; cases hq
    have hm := hpc j; rw [hq] at hm
    have hm' := hpc t; rw [hp] at hm'
    refine hI.keep rfl ?_ ?_
    · all_pc hpc
      · trivial
      · exact ⟨hm', MsgOf.cmd hm⟩
    · intro h
      refine ExPc.go (ExPc.go h (by simp [hq, InMid])) ?_
      rw [go_pc, if_neg hjt, hp]; simp [InMid]
  case c4Panic t ht e hp j hj st k hq =>
    have hjt : t ≠ j := by rintro rfl; rw [hp] at hq; cases hq
    have hm := hpc j; rw [hq] at hm
    have hm' := hpc t; rw [hp] at hm'
    refine hI.keep rfl ?_ ?_
    · all_pc hpc
      · trivial
      · exact hm'
    · intro h
      refine ExPc.go (ExPc.go h (by simp [hq, InMid])) ?_
      rw [go_pc, if_neg hjt, hp]; simp [InMid]
  case nl1 t ht st hp hm =>
    refine hI.keep rfl ?_ ?_
    · all_pc hpc
      split <;> trivial
    · intro h; exact h.go (by simp [hp, InMid])
  case r7 t ht hp hm hd =>
    have hm' := hpc t; rw [hp] at hm'
    refine hI.keep rfl ?_ ?_
    · all_pc hpc
      split <;> exact hm'
    · intro h; exact h.go (by simp [hp, InMid])
  all_goals
    have hp := ‹(s.thr _).pc = _›
    have hq := hp ▸ hpc _
    first
    | (refine hI.keep rfl ?_ ?_
       · all_pc hpc
         all_goals first | trivial | exact hq | exact ⟨_, rfl⟩ | simp_all [StQ, MsgOf]
       · intro h; exact (h.congr rfl).go (by simp [ev_thr, hp, InMid]))
    | (refine hI.keep (by first | rw [ret_status] | rw [sent_status]) ?_ ?_
       · all_pc hpc <;> trivial
       · intro h
         first
         | exact ExPc.ret (h.congr rfl) (by simp [hp, InMid])
         | exact ExPc.sent (h.congr rfl) (by simp [hp, InMid]))

theorem Reachable.st {conf : Conf} {s : Algo C} (h : Reachable conf s) : LockInv s ∧ StInv s :=
  Reachable.induction (P := fun s => LockInv s ∧ StInv s) ⟨LockInv.init, StInv.init⟩
    (fun _ _ h hs => ⟨h.1.step hs, h.2.step h.1 hs⟩) h

end Algo
end Distclus
