import Verif.Proof.CtrlEdge
/-!
# Situations from which the controller does not come back
-/
namespace Distclus
open Ctrl Spec
namespace Algo
variable {C : Type}

set_option linter.unusedVariables false

section
variable {conf : Conf} {s s' : Algo C} {t u : Nat}

theorem holdsS_back : holdsS (back s u) = false := by unfold back; split <;> rfl
theorem holdsS_sentPc {k : SendFrom} : holdsS (sentPc s u k) = false := by
  cases k <;> first | exact holdsS_back | rfl
theorem activity_back : activity (back s u) = false := by unfold back; split <;> rfl
theorem activity_sentPc {k : SendFrom} : activity (sentPc s u k) = false := by
  cases k <;> first | exact activity_back | rfl

/-- A call which never returns, from an invariant. -/
theorem NeverReturns.of_inv {P : Algo C → Prop} (hP : P s)
    (hstep : ∀ s s', P s → Step conf s s' → P s') (hpc : ∀ s, P s → (s.thr u).pc ≠ .home) :
    NeverReturns conf s u := by
  refine ⟨hpc s hP, fun as s' he => ?_⟩
  have := exec_induction (conf := conf) (P := fun x => P x ∧ rets u x.log = rets u s.log)
    (fun a b ⟨h1, h2⟩ hs => ⟨hstep a b h1 hs, by
      rcases hs.retsFact u with e | e
      · rw [e, h2]
      · exact absurd e (hpc b (hstep a b h1 hs))⟩) as s s' ⟨hP, rfl⟩ he
  exact ⟨hpc s' this.1, this.2⟩

/-- A section of the status lock is entered only when the lock is free. -/
theorem Edge.holdsS {p p' : PC C} (h : Edge conf s u p p') (hp : Algo.holdsS p' = true) :
    Algo.holdsS p = true ∨ s.sm = none := by
  cases h
  case sd3Closed | sd3 => rw [holdsS_sentPc] at hp; cases hp
  case call op hk => cases op <;> cases hp
  case pu5 => split at hp <;> cases hp
  case r5 => split at hp <;> cases hp
  case r7 => split at hp <;> cases hp
  case r11 => split at hp <;> cases hp
  case nl1 => split at hp <;> cases hp
  all_goals first
    | exact .inl rfl
    | exact .inr ‹_›
    | cases hp
    | (rw [holdsS_back] at hp; cases hp)

/-- The status lock is held by a goroutine which has left its section. -/
structure Lost (t : Nat) (s : Algo C) : Prop where
  lock : LockInv s
  sm : s.sm = some t
  pc : holdsS (s.thr t).pc = false

theorem Lost.step (h : Lost t s) (hs : Step conf s s') : Lost t s' := by
  have hsm : s'.sm = some t := by
    rcases hs.smFact with e | ⟨e, -⟩ | ⟨-, u, hu⟩
    · rw [e, h.sm]
    · rw [h.sm] at e; cases e
    · have : holdsS (s.thr u).pc = true := by
        rcases hu with ⟨e, hu⟩ | hu | hu | hu <;> rw [hu] <;> rfl
      have hu := h.lock.hS u this
      rw [h.sm] at hu; cases hu
      rw [h.pc] at this; cases this
  refine ⟨h.lock.step hs, hsm, ?_⟩
  rcases hs.edge h.lock t with e | e
  · dsimp only at e; rw [e]; exact h.pc
  · by_contra hc
    rcases e.holdsS (by simpa using hc) with h1 | h1
    · rw [h.pc] at h1; cases h1
    · rw [h.sm] at h1; cases h1

/-- The program counters whose next action takes, or needs, the status lock. -/
def needsS : PC C → Bool
  | .rdStatus | .in0 | .pl0 | .pa0 | .it0 _ | .wa0 _ _ | .wa3 | .pu4 => true
  | _ => false

theorem needsS_entry {op : Op} (h : statusOp op = true) : needsS (entry op : PC C) = true := by
  cases op <;> first | rfl | cases h

theorem needsS_not_home {p : PC C} (h : needsS p = true) : p ≠ .home := by rintro rfl; cases h

/-- A goroutine which needs the status lock does not move while it is held. -/
theorem Edge.needsS {p p' : PC C} (h : Edge conf s u p p') (hp : Algo.needsS p = true) :
    s.sm = none := by
  cases h <;> first | assumption | cases hp

theorem Step.needsS (h : Step conf s s') (hL : LockInv s) (hs : s.sm ≠ none)
    (hp : Algo.needsS (s.thr u).pc = true) : (s'.thr u).pc = (s.thr u).pc := by
  rcases h.edge hL u with e | e
  · exact e
  · exact absurd (e.needsS hp) hs

theorem Lost.never (h : Lost t s) (hp : Algo.needsS (s.thr u).pc = true) : NeverReturns conf s u :=
  NeverReturns.of_inv (P := fun s => Lost t s ∧ Algo.needsS (s.thr u).pc = true) ⟨h, hp⟩
    (fun a b ⟨h1, h2⟩ hs => ⟨h1.step hs, by
      rw [hs.needsS h1.lock (by rw [h1.sm]; rintro ⟨⟩) h2]; exact h2⟩)
    (fun a h => needsS_not_home h.2)

/-- No goroutine starts a run, or sets the status, when there is no activity and the status is
Idle. -/
theorem Edge.activity {p p' : PC C} (h : Edge conf s u p p') (hO : Orphan s)
    (hp : Spec.activity p = false) : Spec.activity p' = false := by
  cases h
  case sd3Closed | sd3 => exact activity_sentPc
  case call op hk => cases op <;> rfl
  case pu5 => split <;> rfl
  case nl1 => split <;> rfl
  case bornRun hu t h => have := hO.2 t; rw [h] at this; cases this
  case in0 hs => rw [hO.1]; rfl
  case pl0Init hs hv => rw [hO.1] at hv; rcases hv with hv | hv <;> cases hv
  case pl0Ready hs hv => rw [hO.1] at hv; cases hv
  case it0Ready e hs hv => rw [hO.1] at hv; cases hv
  all_goals first
    | rfl
    | exact activity_back
    | cases hp

theorem orphan_step (hL : LockInv s) (h : Orphan s) (hs : Step conf s s') : Orphan s' := by
  refine ⟨?_, fun j => ?_⟩
  · have key : ∀ j p, (s.thr j).pc = p → Spec.activity p = false := fun j p hj => hj ▸ h.2 j
    rcases hs.log with ⟨-, e⟩ | ⟨e, -, h1, h2⟩
    · rw [e, h.1]
    · cases e
      case set st =>
        exfalso
        rcases h2.2 with ⟨t, k, h, -⟩ | ⟨t, k, h, -⟩ | ⟨t, k, e, h, -⟩ | ⟨-, hv, -⟩ | ⟨-, t, h | h⟩ |
          ⟨-, t, h, -⟩ | ⟨-, t, e, h | h, -⟩ | ⟨t, j, k, h, -⟩
        all_goals first
          | (have := key _ _ h; cases this)
          | (rw [‹Orphan s›.1] at hv; cases hv)
      all_goals rw [h1 rfl, h.1]
  · rcases hs.edge hL j with e | e
    · dsimp only at e; rw [e]; exact h.2 j
    · exact e.activity h (h.2 j)

/-- The program counters of a `Play` or a `Stop` on an abandoned algorithm. -/
def waitsRun : PC C → Bool
  | .pl0 | .it0 _ | .sd0 _ _ | .sd1 _ _ => true
  | _ => false

theorem Edge.waitsRun {p p' : PC C} (h : Edge conf s u p p') (hO : Orphan s)
    (hp : Algo.waitsRun p = true) : Algo.waitsRun p' = true := by
  cases h
  case pl0Init hs hv => rw [hO.1] at hv; rcases hv with hv | hv <;> cases hv
  case pl0Ready hs hv => rw [hO.1] at hv; cases hv
  case pl0Running hs hv => rw [hO.1] at hv; rcases hv with hv | hv <;> cases hv
  case it0Ready e hs hv => rw [hO.1] at hv; cases hv
  case it0Err e hs hv => exact absurd hO.1 hv.2.1
  case sd1 st k j hj =>
    exfalso
    rcases hj with hj | hj | ⟨q, hj⟩ <;> (have := hO.2 j; rw [hj] at this; cases this)
  all_goals first
    | rfl
    | cases hp

theorem orphan_never (hL : LockInv s) (h : Orphan s) (hp : Algo.waitsRun (s.thr u).pc = true) :
    NeverReturns conf s u :=
  NeverReturns.of_inv
    (P := fun s => LockInv s ∧ Orphan s ∧ Algo.waitsRun (s.thr u).pc = true) ⟨hL, h, hp⟩
    (fun a b ⟨h1, h2, h3⟩ hs => ⟨h1.step hs, orphan_step h1 h2 hs, by
      rcases hs.edge h1 u with e | e
      · dsimp only at e; rw [e]; exact h3
      · exact e.waitsRun h2 h3⟩)
    (fun a h e => by rw [e] at h; cases h.2.2)

/-- Beyond the last goroutine there is nothing. -/
theorem orphan_iff (hL : LockInv s) (h : s.status.value = .idle)
    (ha : ∀ j, j < s.n → Spec.activity (s.thr j).pc = false) : Orphan s :=
  ⟨h, fun j => by
    by_cases hj : j < s.n
    · exact ha j hj
    · rw [hL.unborn j (by omega)]; rfl⟩

/-- The program counters whose next action needs the model lock without writers. -/
def needsM : PC C → Bool
  | .rdCentroids | .rdFigures | .rdConf | .pu2 | .pu5 | .in1 _ | .in6 _ _ _ | .pl3 | .wa1 _ _ | .r7
  | .rS _ | .c2 _ | .nl1 _ => true
  | _ => false

theorem Edge.needsM {p p' : PC C} (h : Edge conf s u p p') (hp : Algo.needsM p = true) :
    s.ma = none := by
  cases h <;> first | assumption | cases hp

theorem Step.needsM (h : Step conf s s') (hL : LockInv s) (hs : s.ma ≠ none)
    (hp : Algo.needsM (s.thr u).pc = true) : (s'.thr u).pc = (s.thr u).pc := by
  rcases h.edge hL u with e | e
  · exact e
  · exact absurd (e.needsM hp) hs

/-- The program counters of a writer waiting for the readers of the model lock. -/
def needsW : PC C → Bool
  | .pu3 | .in2 _ | .in7 _ _ _ | .rS' _ | .c3 _ => true
  | _ => false

theorem Edge.needsW {p p' : PC C} (h : Edge conf s u p p') (hp : Algo.needsW p = true) :
    s.mr = [] := by
  cases h <;> first | assumption | cases hp

theorem Step.needsW (h : Step conf s s') (hL : LockInv s) (hs : s.mr ≠ [])
    (hp : Algo.needsW (s.thr u).pc = true) : (s'.thr u).pc = (s.thr u).pc := by
  rcases h.edge hL u with e | e
  · exact e
  · exact absurd (e.needsW hp) hs

/-- Goroutine `t` holds the model lock and waits for the status lock, goroutine `r` holds the status
lock and waits for the model lock. -/
structure ABBA (t r : Nat) (s : Algo C) : Prop where
  lock : LockInv s
  push : (s.thr t).pc = .pu4
  runM : needsM (s.thr r).pc = true
  runS : holdsS (s.thr r).pc = true

theorem ABBA.step {r : Nat} (h : ABBA t r s) (hs : Step conf s s') :
    ABBA t r s' ∧ (s'.thr r).pc = (s.thr r).pc := by
  have hma : s.ma = some t := (h.lock.hM t).1 (by rw [h.push]; rfl)
  have hsm : s.sm = some r := h.lock.hS r h.runS
  have e1 := hs.needsS (u := t) h.lock (by rw [hsm]; rintro ⟨⟩) (by rw [h.push]; rfl)
  have e2 := hs.needsM h.lock (by rw [hma]; rintro ⟨⟩) h.runM
  exact ⟨⟨h.lock.step hs, e1.trans h.push, e2 ▸ h.runM, e2 ▸ h.runS⟩, e2⟩

/-- Goroutine `t` is inside the `Play` of its `Push`, holding the model lock for reading, and waits
for the model lock, which writer `w` (maybe itself) waits for. -/
structure SelfLock (t w : Nat) (s : Algo C) : Prop where
  lock : LockInv s
  mr : t ∈ s.mr
  writer : needsW (s.thr w).pc = true
  wait : w = t ∨ needsM (s.thr t).pc = true

theorem SelfLock.step {w : Nat} (h : SelfLock t w s) (hs : Step conf s s') :
    SelfLock t w s' ∧ (s'.thr t).pc = (s.thr t).pc ∧ (s'.thr w).pc = (s.thr w).pc := by
  have hne : s.mr ≠ [] := fun e => by have := h.mr; rw [e] at this; cases this
  have hma : s.ma = some w := (h.lock.hM w).1 (by
    have := h.writer; revert this; cases (s.thr w).pc <;> intro h <;> first | rfl | cases h)
  have e1 := hs.needsW h.lock hne h.writer
  have e2 : (s'.thr t).pc = (s.thr t).pc := by
    rcases h.wait with rfl | hw
    · exact e1
    · exact hs.needsM h.lock (by rw [hma]; rintro ⟨⟩) hw
  refine ⟨⟨h.lock.step hs, hs.keepsR h.mr ?_, e1 ▸ h.writer, ?_⟩, e2, e1⟩
  · intro e
    rcases h.wait with rfl | hw
    · have := h.writer; rw [e] at this; cases this
    · rw [e] at hw; cases hw
  · exact h.wait.imp id (fun hw => e2 ▸ hw)

/-- The notification loop: there is at most one, started when the status leaves Created. -/
structure NotifInv (s : Algo C) : Prop where
  one : ∀ i j, i < s.n → j < s.n → (s.thr i).kind = .notifier → (s.thr j).kind = .notifier → i = j
  created : ∀ i, i < s.n → (s.thr i).kind = .notifier → s.status.value ≠ .created
  loop : ∀ i, (s.thr i).pc = .nl0 ∨ (∃ st, (s.thr i).pc = .nl1 st) → (s.thr i).kind = .notifier

theorem NotifInv.init : NotifInv (new : Algo C) := by
  refine ⟨fun i j h => absurd h (by simp [new]), fun i h => absurd h (by simp [new]), ?_⟩
  intro i h
  rcases h with h | ⟨st, h⟩ <;> cases h

theorem Step.created (hs : Step conf s s') (hL : LockInv s) (hS : StInv s)
    (h : s.status.value ≠ .created) : s'.status.value ≠ .created := by
  rcases hs.log with ⟨-, e⟩ | ⟨e, -, h1, h2⟩
  · rw [e]; exact h
  · cases e
    case set st => rw [h2.1]; exact (h2.2.succ hL hS).notCreated
    all_goals rw [h1 rfl]; exact h

theorem NotifInv.step (h : NotifInv s) (hL : LockInv s) (hS : StInv s) (hs : Step conf s s') :
    NotifInv s' := by
  have hn := hs.nFact
  have old : ∀ i, i < s'.n → (s'.thr i).kind = .notifier →
      (i < s.n ∧ (s.thr i).kind = .notifier) ∨
      (i = s.n ∧ s.status.value = .created ∧ s'.status.value ≠ .created) := by
    intro i hi hk
    rcases hs.kindFact i with ⟨h1, h2⟩ | ⟨h1, h2⟩
    · left
      refine ⟨?_, h2 ▸ hk⟩
      omega
    · rcases h2 with ⟨h2, -⟩ | ⟨-, h2, h3⟩
      · exact absurd hk h2
      · exact .inr ⟨h1, h2, h3⟩
  refine ⟨fun i j hi hj hki hkj => ?_, fun i hi hk => ?_, fun i hp => ?_⟩
  · rcases old i hi hki with ⟨a1, a2⟩ | ⟨a1, a2, -⟩ <;> rcases old j hj hkj with ⟨b1, b2⟩ | ⟨b1, b2, -⟩
    · exact h.one i j a1 b1 a2 b2
    · exact absurd b2 (h.created i a1 a2)
    · exact absurd a2 (h.created j b1 b2)
    · rw [a1, b1]
  · rcases old i hi hk with ⟨a1, a2⟩ | ⟨a1, a2, a3⟩
    · exact hs.created hL hS (h.created i a1 a2)
    · exact a3
  · have hL' := hL.step hs
    have hlt : i < s'.n := hL'.lt (by rcases hp with hp | ⟨st, hp⟩ <;> rw [hp] <;> rintro ⟨⟩)
    have same : (s.thr i).kind = .notifier → i < s.n → (s'.thr i).kind = .notifier := by
      intro hk hi
      rcases hs.kindFact i with ⟨-, h2⟩ | ⟨h1, -⟩
      · rw [h2, hk]
      · omega
    rcases hs.edge hL i with e | e
    · dsimp only at e
      rw [e] at hp
      exact same (h.loop i hp) (hL.lt (by rcases hp with hp | ⟨st, hp⟩ <;> rw [hp] <;> rintro ⟨⟩))
    · have hi : ∀ p, (s.thr i).pc = p → p ≠ .dead → i < s.n := fun p h1 h2 => hL.lt (h1 ▸ h2)
      have key : ∀ p, (s.thr i).pc = p → (p = .nl0 ∨ (∃ st, p = .nl1 st) ∨
          (p = .home ∧ (s.thr i).kind = .notifier) ∨ (p = .dead ∧ i = s.n)) := by
        intro p h0
        rw [h0] at e
        dsimp only at e
        generalize hq : (s'.thr i).pc = q at e
        rw [hq] at hp
        clear h0
        generalize hy : q = y at e
        cases e
        case call op hk => subst hy; cases op <;> (rcases hp with hp | ⟨st, hp⟩ <;> cases hp)
        case notifRet hk => exact .inr (.inr (.inl ⟨rfl, hk⟩))
        case nl0 => exact .inl rfl
        case nl1 => exact .inr (.inl ⟨_, rfl⟩)
        case bornNotif hu _ _ _ _ => exact .inr (.inr (.inr ⟨rfl, hu⟩))
        case in0 => subst hy; unfold beginPc at hp; split at hp <;> (rcases hp with hp | ⟨st, hp⟩ <;> cases hp)
        case pl0Init => subst hy; unfold beginPc at hp; split at hp <;> (rcases hp with hp | ⟨st, hp⟩ <;> cases hp)
        case pu5 => subst hy; split at hp <;> (rcases hp with hp | ⟨st, hp⟩ <;> cases hp)
        case r5 => subst hy; split at hp <;> (rcases hp with hp | ⟨st, hp⟩ <;> cases hp)
        case r7 => subst hy; split at hp <;> (rcases hp with hp | ⟨st, hp⟩ <;> cases hp)
        case r11 => subst hy; split at hp <;> (rcases hp with hp | ⟨st, hp⟩ <;> cases hp)
        case sd3Closed a k _ =>
          subst hy; cases k <;> simp only [sentPc, back] at hp <;> (try split at hp) <;>
            (rcases hp with hp | ⟨st, hp⟩ <;> cases hp)
        case sd3 a k _ _ _ _ =>
          subst hy; cases k <;> simp only [sentPc, back] at hp <;> (try split at hp) <;>
            (rcases hp with hp | ⟨st, hp⟩ <;> cases hp)
        all_goals
          subst hy
          first
          | (rcases hp with hp | ⟨st, hp⟩ <;> cases hp)
          | (unfold back at hp; split at hp <;> (rcases hp with hp | ⟨st, hp⟩ <;> cases hp))
      rcases key _ rfl with h1 | h1 | ⟨h1, h2⟩ | ⟨h1, h2⟩
      · exact same (h.loop i (.inl h1)) (hi _ h1 (by rintro ⟨⟩))
      · exact same (h.loop i (.inr h1)) (by obtain ⟨st, h1⟩ := h1; exact hi _ h1 (by rintro ⟨⟩))
      · exact same h2 (hi _ h1 (by rintro ⟨⟩))
      · rcases hs.kindFact i with ⟨h3, -⟩ | ⟨-, h3⟩
        · omega
        · rcases h3 with ⟨-, h3⟩ | ⟨h3, -⟩
          · rcases hp with hp | ⟨st, hp⟩
            · exact absurd hp h3
            · rw [h1] at e
              dsimp only at e
              rw [hp] at e
              cases e
          · exact h3

theorem Reachable.notif (h : Reachable conf s) : NotifInv s := by
  have : LockInv s ∧ StInv s ∧ NotifInv s := h.induction (P := fun s => LockInv s ∧ StInv s ∧ NotifInv s)
    ⟨LockInv.init, StInv.init, NotifInv.init⟩
    (fun a b ⟨h1, h2, h3⟩ hs => ⟨h1.step hs, h2.step h1 hs, h3.step h1 h2 hs⟩)
  exact this.2.2

/-- A status is handed over to the notification loop, and to nobody else. -/
theorem Edge.notif {p p' : PC C} (h : Edge conf s u p p') (hp : (Algo.notifying p).isSome = true) :
    ∃ j, (s.thr j).pc = .nl0 := by
  cases h <;> first | exact ⟨_, ‹_›⟩ | cases hp

/-- Goroutine `t` holds the status lock and hands a status over to the notification loop `i`, which is
inside the notifier and needs the status lock. -/
structure CallBack (t i : Nat) (s : Algo C) : Prop where
  lock : LockInv s
  st : StInv s
  notif : NotifInv s
  holds : holdsS (s.thr t).pc = true
  hands : (notifying (s.thr t).pc).isSome = true
  born : i < s.n
  kind : (s.thr i).kind = .notifier
  needs : needsS (s.thr i).pc = true

theorem CallBack.step {i : Nat} (h : CallBack t i s) (hs : Step conf s s') :
    CallBack t i s' ∧ (s'.thr t).pc = (s.thr t).pc ∧ (s'.thr i).pc = (s.thr i).pc := by
  have hsm := h.lock.hS t h.holds
  have e1 := hs.needsS h.lock (by rw [hsm]; rintro ⟨⟩) h.needs
  have e2 : (s'.thr t).pc = (s.thr t).pc := by
    rcases hs.edge h.lock t with e | e
    · exact e
    · obtain ⟨j, hj⟩ := e.notif h.hands
      have : j = i := h.notif.one j i (h.lock.lt (by rw [hj]; rintro ⟨⟩)) h.born
        (h.notif.loop j (.inl hj)) h.kind
      subst this
      have := h.needs; rw [hj] at this; cases this
  refine ⟨⟨h.lock.step hs, h.st.step h.lock hs, h.notif.step h.lock h.st hs, e2 ▸ h.holds, e2 ▸ h.hands,
    ?_, ?_, e1 ▸ h.needs⟩, e2, e1⟩
  · have := hs.nFact; have := h.born; omega
  · rcases hs.kindFact i with ⟨-, h2⟩ | ⟨h1, -⟩
    · rw [h2]; exact h.kind
    · have := h.born; omega

end
end Algo
end Distclus
