import Verif.Proof.CtrlUseProg
import Verif.Proof.CtrlIter
import Verif.Spec.CtrlBatch
/-!
# Playing until the limit: after the limit is reached
-/
namespace Distclus
open Ctrl
namespace Algo
open Spec
variable {C : Type}
variable {conf : Conf} {s s' : Algo C} {t u : Nat}

set_option linter.unusedTactic false
set_option linter.unusedVariables false
set_option linter.unnecessarySeqFocus false
set_option linter.unreachableTactic false

/-- The status `st` fits the documented one, `v`, when the run has reached its limit. -/
def Agree (st : ClustStatus) : ClustStatus → Prop
  | .running => st = .running ∨ st = .ready
  | .ready => st = .ready
  | .finished => st = .finished
  | _ => False

/-- Where the client may be. -/
def ClientEnd (op : Option Op) (v st : ClustStatus) : PC C → Prop
  | .home => op = none ∧ Agree st v
  | .rdStatus => op = some .status ∧ Agree st v
  | .rdCentroids => op = some .centroids ∧ Agree st v
  | .rdFigures => op = some .figures ∧ Agree st v
  | .rdConf => op = some .conf ∧ Agree st v
  | .pl2 | .pl3 => op = some .play ∧ (v = .created ∨ v = .finished ∨ v = .ready) ∧
      (st = .running ∨ st = .ready)
  | .wa0 c b => c = false ∧ b = false ∧ op = some (.wait false false) ∧ Agree st v
  | .wa1 c b | .wa2 c b =>
    c = false ∧ b = false ∧ op = some (.wait false false) ∧ v = .running ∧ Agree st v
  | .wa3 => op = some (.wait false false) ∧ v = .running ∧ st = .ready
  | .it0 e => e = none ∧ op = some .stop ∧ v ≠ .running ∧ Agree st v
  | .it1 e => e = none ∧ op = some .stop ∧ v = .ready ∧ st = .finished
  | .it2 => op = some .stop ∧ v = .ready ∧ st = .finished
  | _ => False

/-- Where the run may be. -/
def RunEnd (st : ClustStatus) : PC C → Prop
  | .r12 | .r13 => st = .running
  | .r14 | .c6 | .c7 | .c8 | .dead => st = .ready ∨ st = .finished
  | .c0 p | .c2 p | .c3 p | .c4 p => p = none ∧ (st = .ready ∨ st = .finished)
  | _ => False

/-- What the record says. -/
structure RecL (l : List (Event C)) (op : Option Op) (v : ClustStatus) : Prop where
  cur : (session l).1 = op
  fol : followsL (session l).2 = some v
  plays : op ≠ some .play → played (session l).2 = true

/-- The invariant after the limit. -/
structure EndInv (conf : Conf) (s : Algo C) : Prop where
  n3 : 3 ≤ s.n
  others : ∀ j, 2 ≤ j → j + 1 < s.n → (s.thr j).pc = .dead
  notif : NotifOk (s.thr 1).pc
  kind0 : (s.thr 0).kind = .client
  kind1 : (s.thr 1).kind = .notifier
  row : ∃ op v, RecL s.log op v ∧ ClientEnd op v s.status.value (s.thr 0).pc ∧
    RunEnd s.status.value (s.thr (s.n - 1)).pc
  err : s.status.error = none
  push : (s.thr 0).inPush = false
  full : ∀ j, s.sm = some j → holdsS (s.thr j).pc = true
  done : limit conf s ≤ s.iterations
  live : (s.thr (s.n - 1)).pc ≠ .dead → busy s.log = true

theorem EndInv.who (hI : EndInv conf s) {p : PC C} (ht : t < s.n) (hp : (s.thr t).pc = p) (hd : p ≠ .dead) :
    (t = 0 ∧ (s.thr 0).pc = p) ∨ (t = 1 ∧ (s.thr 1).pc = p ∧ NotifOk p) ∨
    (t = s.n - 1 ∧ (s.thr (s.n - 1)).pc = p) := by
  by_cases h0 : t = 0
  · subst h0; exact .inl ⟨rfl, hp⟩
  by_cases h1 : t = 1
  · subst h1; exact .inr (.inl ⟨rfl, hp, hp ▸ hI.notif⟩)
  by_cases h2 : t = s.n - 1
  · subst h2; exact .inr (.inr ⟨rfl, hp⟩)
  · exact absurd (hI.others t (by omega) (by omega)) (hp ▸ hd)

theorem ClientEnd.pc {op : Option Op} {v st : ClustStatus} {p : PC C} (h : ClientEnd op v st p) :
    p = .home ∨ clientPc p = true := by
  cases p <;> first | exact .inl rfl | exact .inr rfl | exact h.elim

theorem RunEnd.pc {st : ClustStatus} {p : PC C} (h : RunEnd st p) : p = .dead ∨ runnerPc p = true := by
  cases p <;> first | exact .inl rfl | exact .inr rfl | exact h.elim

theorem EndInv.isClient (hI : EndInv conf s) {p : PC C} (ht : t < s.n) (hp : (s.thr t).pc = p)
    (h : clientPc p = true) : t = 0 := by
  obtain ⟨op, v, _, hC, hO⟩ := hI.row
  rcases hI.who ht hp (by rintro rfl; cases h) with ⟨rfl, _⟩ | ⟨_, _, hN⟩ | ⟨_, hr⟩
  · rfl
  · cases p <;> first | exact hN.elim | (cases h; done)
  · rw [hr] at hO
    rcases hO.pc with h' | h'
    · rw [h'] at h; cases h
    · cases p <;> first | (cases h; done) | (cases h'; done)

theorem EndInv.isRun (hI : EndInv conf s) {p : PC C} (ht : t < s.n) (hp : (s.thr t).pc = p)
    (h : runnerPc p = true) : t = s.n - 1 := by
  obtain ⟨op, v, _, hC, hO⟩ := hI.row
  rcases hI.who ht hp (by rintro rfl; cases h) with ⟨_, h0⟩ | ⟨_, _, hN⟩ | ⟨h1, hr⟩
  · rw [h0] at hC
    rcases hC.pc with h' | h'
    · rw [h'] at h; cases h
    · cases p <;> first | (cases h; done) | (cases h'; done)
  · cases p <;> first | exact hN.elim | (cases h; done)
  · exact h1

theorem EndInv.isNotif (hI : EndInv conf s) {p : PC C} (ht : t < s.n) (hp : (s.thr t).pc = p)
    (h : NotifOk p) (h' : p ≠ .home) : t = 1 := by
  obtain ⟨op, v, _, hC, hO⟩ := hI.row
  rcases hI.who ht hp (by rintro rfl; exact h) with ⟨_, h0⟩ | ⟨h1, _, hN⟩ | ⟨h1, hr⟩
  · rw [h0] at hC
    rcases hC.pc with h1 | h1
    · exact absurd h1 h'
    · cases p <;> first | exact h.elim | (cases h1; done)
  · exact h1
  · rw [hr] at hO
    rcases hO.pc with h1 | h1
    · rw [h1] at h; exact h.elim
    · cases p <;> first | exact h.elim | (cases h1; done)

/-- A call which is over. -/
theorem RecL.ret {l : List (Event C)} {op : Op} {v : ClustStatus} (h : RecL l (some op) v) {r : Res C}
    (hr : rightL v op r = true) : RecL (.ret 0 r :: l) none (afterL v op) := by
  obtain ⟨h1, h2, h3⟩ := h
  refine ⟨?_, ?_, ?_⟩
  · simp only [session, h1]
  · simp only [session, h1, followsL, h2, hr, if_true]
  · intro _
    simp only [session, h1, played, List.any_cons, Bool.or_eq_true, decide_eq_true_eq]
    by_cases he : op = .play
    · exact .inl he
    · exact .inr (h3 (by rintro ⟨⟩; exact he rfl))

theorem RecL.quiet {l : List (Event C)} {op : Option Op} {v : ClustStatus} (h : RecL l op v)
    {e : Event C} (he : quietEv e = true) : RecL (e :: l) op v := by
  have : session (e :: l) = session l := by cases e <;> first | rfl | cases he
  exact ⟨this ▸ h.1, this ▸ h.2, this ▸ h.3⟩

/-- The client moves. -/
theorem EndInv.go0 {s1 : Algo C} {p : PC C} (hI : EndInv conf s) (hn : s1.n = s.n) (ht : s1.thr = s.thr)
    (err : s1.status.error = none) {op : Option Op} {v : ClustStatus} (hR : RecL s1.log op v)
    (hC : ClientEnd op v s1.status.value p) (hO : RunEnd s1.status.value (s.thr (s.n - 1)).pc)
    (hd : s1.pushedData = s.pushedData) (hi : s1.iterations = s.iterations)
    (full : s1.sm = none ∨ (s1.sm = some 0 ∧ holdsS p = true) ∨
      (s1.sm = s.sm ∧ (holdsS (s.thr 0).pc = true → holdsS p = true)))
    (hb : busy s.log = true → busy s1.log = true := by exact id) : EndInv conf (s1.go 0 p) := by
  have h3 := hI.n3
  refine ⟨?_, ?_, ?_, ?_, ?_, ⟨op, v, hR, ?_, ?_⟩, err, ?_, ?_, ?_, ?_⟩
  · rw [go_n, hn]; exact h3
  · intro j a b
    rw [go_n, hn] at b
    rw [go_pc, if_neg (by omega), ht]; exact hI.others j a b
  · rw [go_pc, if_neg (by omega), ht]; exact hI.notif
  · rw [go_kind, ht]; exact hI.kind0
  · rw [go_kind, ht]; exact hI.kind1
  · rw [go_pc, if_pos rfl]; exact hC
  · rw [go_n, hn, go_pc, if_neg (by omega), ht]; exact hO
  · rw [go_inPush, ht]; exact hI.push
  · intro j hj
    rw [go_sm] at hj
    rw [go_pc, ht]
    rcases full with h | ⟨h, h'⟩ | ⟨h, h'⟩
    · rw [h] at hj; cases hj
    · rw [h] at hj; cases hj; rw [if_pos rfl]; exact h'
    · have := hI.full j (h ▸ hj)
      split
      · subst j; exact h' this
      · exact this
  · unfold limit; rw [go_pushedData, go_iterations, hd, hi]; exact hI.done
  · rw [go_n, hn, go_pc, if_neg (by omega), ht]; exact fun h => hb (hI.live h)

/-- The client returns. -/
theorem EndInv.ret0 {s1 : Algo C} {r : Res C} (hI : EndInv conf s) (hn : s1.n = s.n) (ht : s1.thr = s.thr)
    (err : s1.status.error = none) {op : Op} {v : ClustStatus} (hR : RecL s1.log (some op) v)
    (hr : rightL v op r = true) (ha : Agree s1.status.value (afterL v op))
    (hO : RunEnd s1.status.value (s.thr (s.n - 1)).pc)
    (hd : s1.pushedData = s.pushedData) (hi : s1.iterations = s.iterations)
    (full : s1.sm = none ∨ (s1.sm = s.sm ∧ holdsS (s.thr 0).pc = false))
    (hb : busy s.log = true → busy s1.log = true := by exact id) : EndInv conf (s1.ret 0 r) := by
  have e : s1.ret 0 r = (s1.ev (.ret 0 r)).go 0 .home := by
    unfold ret; rw [ht, if_neg (by rw [hI.push]; rintro ⟨⟩)]
  rw [e]
  refine hI.go0 (s1 := s1.ev (.ret 0 r)) hn ht err (hR.ret hr) ⟨rfl, ha⟩ hO hd hi ?_ hb
  rcases full with h | ⟨h, h'⟩
  · exact .inl h
  · exact .inr (.inr ⟨h, by rw [h']; rintro ⟨⟩⟩)

/-- The run moves. -/
theorem EndInv.goR {s1 : Algo C} {p q : PC C} (hI : EndInv conf s) (hq : (s.thr (s.n - 1)).pc = q) (hn : s1.n = s.n) (ht : s1.thr = s.thr)
    (err : s1.status.error = none) {op : Option Op} {v : ClustStatus} (hR : RecL s1.log op v)
    (hC : ClientEnd op v s1.status.value (s.thr 0).pc) (hO : RunEnd s1.status.value p)
    (hd : s1.pushedData = s.pushedData) (hi : s1.iterations = s.iterations)
    (full : s1.sm = none ∨ (s1.sm = some (s.n - 1) ∧ holdsS p = true) ∨
      (s1.sm = s.sm ∧ (holdsS (s.thr (s.n - 1)).pc = true → holdsS p = true)))
    (hb : p = .dead ∨ (busy s.log = true → busy s1.log = true) := by exact .inr id)
    (hqd : q ≠ .dead := by rintro ⟨⟩) : EndInv conf (s1.go (s.n - 1) p) := by
  have h3 := hI.n3
  refine ⟨?_, ?_, ?_, ?_, ?_, ⟨op, v, hR, ?_, ?_⟩, err, ?_, ?_, ?_, ?_⟩
  · rw [go_n, hn]; exact h3
  · intro j a b
    rw [go_n, hn] at b
    rw [go_pc, if_neg (by omega), ht]; exact hI.others j a b
  · rw [go_pc, if_neg (by omega), ht]; exact hI.notif
  · rw [go_kind, ht]; exact hI.kind0
  · rw [go_kind, ht]; exact hI.kind1
  · rw [go_pc, if_neg (by omega), ht]; exact hC
  · rw [go_n, hn, go_pc, if_pos rfl]; exact hO
  · rw [go_inPush, ht]; exact hI.push
  · intro j hj
    rw [go_sm] at hj
    rw [go_pc, ht]
    rcases full with h | ⟨h, h'⟩ | ⟨h, h'⟩
    · rw [h] at hj; cases hj
    · rw [h] at hj; cases hj; rw [if_pos rfl]; exact h'
    · have := hI.full j (h ▸ hj)
      split
      · subst j; exact h' this
      · exact this
  · unfold limit; rw [go_pushedData, go_iterations, hd, hi]; exact hI.done
  · rw [go_n, hn, go_pc, if_pos rfl]
    intro h
    rcases hb with hb | hb
    · exact absurd hb h
    · exact hb (hI.live (hq ▸ hqd))

/-- The notification loop moves. -/
theorem EndInv.go1 {p : PC C} (hI : EndInv conf s) (hp : NotifOk p)
    (h8 : holdsS (s.thr 1).pc = false) : EndInv conf (s.go 1 p) := by
  have h3 := hI.n3
  obtain ⟨op, v, hR, hC, hO⟩ := hI.row
  refine ⟨h3, ?_, ?_, ?_, ?_, ⟨op, v, hR, ?_, ?_⟩, hI.err, ?_, ?_, hI.done, ?_⟩
  · intro j a b
    rw [go_n] at b
    rw [go_pc, if_neg (by omega)]; exact hI.others j a b
  · rw [go_pc, if_pos rfl]; exact hp
  · rw [go_kind]; exact hI.kind0
  · rw [go_kind]; exact hI.kind1
  · rw [go_pc, if_neg (by omega)]; exact hC
  · rw [go_n, go_pc, if_neg (by omega)]; exact hO
  · rw [go_inPush]; exact hI.push
  · intro j hj
    have := hI.full j hj
    rw [go_pc]
    split
    · subst j; rw [h8] at this; cases this
    · exact this
  · rw [go_n, go_pc, if_neg (by omega)]; exact hI.live

/-- No client is where it may not be. -/
theorem EndInv.badC (hI : EndInv conf s) {p : PC C} (ht : t < s.n) (hp : (s.thr t).pc = p)
    (h : clientPc p = true) (hb : ∀ op v st, ¬ ClientEnd op v st p) : False := by
  obtain rfl := hI.isClient ht hp h
  obtain ⟨op, v, _, hC, _⟩ := hI.row
  rw [hp] at hC; exact hb _ _ _ hC

/-- No run is where it may not be. -/
theorem EndInv.badR (hI : EndInv conf s) {p : PC C} (ht : t < s.n) (hp : (s.thr t).pc = p)
    (h : runnerPc p = true) (hb : ∀ st, ¬ RunEnd st p) : False := by
  obtain rfl := hI.isRun ht hp h
  obtain ⟨op, v, _, _, hO⟩ := hI.row
  rw [hp] at hO; exact hb _ hO

theorem batching_allowed : ∀ {l : List (Event C)}, Batching l → ∀ {op : Op}, (session l).1 = some op →
    allowed (session l).2 op ∧ ∀ c d, op = .wait c d → c = false ∧ d = false := by
  intro l
  induction l with
  | nil => intro _ op h; cases h
  | cons e l ih =>
    rintro ⟨h1, h2⟩ op h
    have ih := @ih h2
    cases e
    case call t o =>
      obtain ⟨rfl, h3, h4⟩ := h1
      simp only [session, Option.some.injEq] at h ⊢
      subst h
      exact ⟨h4, h3⟩
    case ret t r =>
      cases t with
      | succ t => exact ih h
      | zero =>
        simp only [session] at h ⊢
        split at h <;> cases h
    all_goals exact ih h

set_option hygiene false in
/-- The client goes on. -/
macro "eCl" : tactic => `(tactic| (
  obtain rfl := hI.isClient ht hp rfl
  rw [hp] at hC))

set_option hygiene false in
/-- The run goes on. -/
macro "eRun" : tactic => `(tactic| (
  obtain rfl := hI.isRun ht hp rfl
  rw [hp] at hO))

theorem ClientEnd.ready {op : Option Op} {v : ClustStatus} {p : PC C}
    (h : ClientEnd op v .running p) : ClientEnd op v .ready p := by
  have : ∀ {v}, Agree .running v → v = .running := by intro v h; cases v <;> first | rfl | exact h.elim | (cases h; done)
  cases p <;> first
    | exact h.elim
    | (obtain ⟨h1, h2⟩ := h; obtain rfl := this h2; exact ⟨h1, .inr rfl⟩)
    | (obtain ⟨h1, h2, h3⟩ := h; exact ⟨h1, h2, .inr rfl⟩)
    | (obtain ⟨h1, h2, h3, h4⟩ := h; obtain rfl := this h4; exact ⟨h1, h2, h3, .inr rfl⟩)
    | (obtain ⟨h1, h2, h3, h4, h5⟩ := h; obtain rfl := this h5; exact ⟨h1, h2, h3, h4, .inr rfl⟩)
    | (obtain ⟨h1, h2, h3⟩ := h; cases h3; done)
    | (obtain ⟨h1, h2, h3, h4⟩ := h; cases h4; done)
    | (obtain ⟨h1, h2, h3, h4⟩ := h; exact absurd (this h4) h3)

theorem EndInv.step (hc : Limited conf) (hL : LockInv s) (hI : EndInv conf s) (h : Step conf s s')
    (hcl : s'.n = s.n + 1 → (s'.thr s.n).kind ≠ .client) (hP : ∀ t op, s'.log = .call t op :: s.log → t = 0 ∧ (reader op = true ∨ op = .wait false false ∨
      (op = .stop ∧ followsL (session s.log).2 ≠ some .running))) : EndInv conf s' := by
  have h3 := hI.n3
  obtain ⟨op, v, hR, hC, hO⟩ := hI.row
  cases h
  case client => exact absurd (by rw [spawn_kind, if_pos rfl]) (hcl rfl)
  case call t ht hp op' hk =>
    obtain ⟨rfl, h3⟩ := hP _ _ rfl
    rw [hp] at hC
    obtain ⟨rfl, ha⟩ := hC
    have hpl := hR.plays (by rintro ⟨⟩)
    have hR' : RecL (.call 0 op' :: s.log) (some op') v := ⟨rfl, hR.fol, fun _ => hpl⟩
    refine hI.go0 (s1 := s.ev (.call 0 op')) rfl rfl hI.err hR' ?_ hO rfl rfl (.inr (.inr ⟨rfl, by rw [hp]; rintro ⟨⟩⟩)) ?_
    · rcases h3 with h3 | rfl | ⟨rfl, h3⟩
      · cases op' <;> first | (cases h3; done) | exact ⟨rfl, ha⟩
      · exact ⟨rfl, rfl, rfl, ha⟩
      · exact ⟨rfl, rfl, fun hv => h3 (hv ▸ hR.fol), ha⟩
    · rcases h3 with h3 | rfl | ⟨rfl, h3⟩
      · cases op' <;> first | (cases h3; done) | exact id
      · exact id
      · exact id
  case notifRet t ht hp hk =>
    rcases hI.who ht hp (by rintro ⟨⟩) with ⟨rfl, _⟩ | ⟨rfl, h1, _⟩ | ⟨_, hr⟩
    · rw [hI.kind0] at hk; cases hk
    · exact hI.go1 trivial (by rw [h1]; rfl)
    · rw [hr] at hO; exact hO.elim
  case rdStatus t ht hp hs =>
    eCl
    obtain ⟨rfl, ha⟩ := hC
    refine hI.ret0 rfl rfl hI.err hR ?_ ?_ hO rfl rfl (.inl hs)
    · have : s.status = ⟨s.status.value, none⟩ := by rw [← hI.err]
      rw [this]
      generalize s.status.value = x at ha
      cases v <;> first | exact ha.elim | skip
      · subst ha; rfl
      · rcases ha with rfl | rfl <;> rfl
      · subst ha; rfl
    · cases v <;> exact ha
  case rdCentroids t ht hp hm =>
    eCl
    obtain ⟨rfl, ha⟩ := hC
    refine hI.ret0 rfl rfl hI.err hR ?_ ?_ hO rfl rfl (.inr ⟨rfl, by rw [hp]; rfl⟩)
    · cases v <;> rfl
    · cases v <;> exact ha
  case rdFigures t ht hp hm =>
    eCl
    obtain ⟨rfl, ha⟩ := hC
    refine hI.ret0 rfl rfl hI.err hR ?_ ?_ hO rfl rfl (.inr ⟨rfl, by rw [hp]; rfl⟩)
    · cases v <;> rfl
    · cases v <;> exact ha
  case rdConf t ht hp hm =>
    eCl
    obtain ⟨rfl, ha⟩ := hC
    refine hI.ret0 rfl rfl hI.err hR ?_ ?_ hO rfl rfl (.inr ⟨rfl, by rw [hp]; rfl⟩)
    · cases v <;> rfl
    · cases v <;> exact ha
  case pl2 t ht hp hi =>
    eCl
    exact hI.go0 rfl rfl hI.err hR hC hO rfl rfl (by keepS hp)
  case pl2Disable t ht hp i hi =>
    eCl
    exact hI.go0 (s1 := Algo.ev { s with disabled := i :: s.disabled } (.disabled i)) rfl rfl hI.err
      (hR.quiet rfl) hC hO rfl rfl (by keepS hp)
  case pl3Timeout t ht hp hm h => rw [hc.1.2.1] at h; cases h
  case pl3 t ht hp hm h =>
    eCl
    obtain ⟨rfl, h2, h4⟩ := hC
    refine hI.ret0 rfl rfl hI.err hR ?_ ?_ hO rfl rfl (.inr ⟨rfl, by rw [hp]; rfl⟩)
    · rcases h2 with rfl | rfl | rfl <;> rfl
    · rcases h2 with rfl | rfl | rfl <;> exact h4
  case it0Ready t ht e hp hs hv =>
    eCl
    obtain ⟨rfl, rfl, h2, ha⟩ := hC
    obtain rfl : v = .ready := by
      rw [hv] at ha
      cases v <;> first | rfl | exact ha.elim | exact absurd rfl h2 | (cases ha; done)
    refine hI.go0 (s1 := Algo.put { s with sm := some 0 } (.ofError none)) rfl rfl rfl (hR.quiet rfl) ⟨rfl, rfl, rfl, rfl⟩ ?_
      rfl rfl (.inr (.inl ⟨rfl, rfl⟩))
    generalize (s.thr (s.n - 1)).pc = r at hO
    rw [hv] at hO
    cases r <;> first | exact hO.elim | exact .inr rfl | exact ⟨hO.1, .inr rfl⟩ | (cases hO; done)
  case it0 t ht e hp hs hv =>
    eCl
    exfalso
    obtain ⟨rfl, rfl, h2, ha⟩ := hC
    cases v <;> first | exact ha.elim | exact h2 rfl | (rw [ha] at hv; rcases hv with h | h <;> cases h)
  case it0Err t ht e hp hs hv =>
    eCl
    obtain ⟨rfl, rfl, h2, ha⟩ := hC
    obtain rfl : v = .finished := by
      cases v <;> first | rfl | exact ha.elim | exact absurd rfl h2 | exact absurd ha hv.1
    exact hI.ret0 rfl rfl hI.err hR rfl ha hO rfl rfl (.inl hs)
  case it2 t ht hp =>
    eCl
    obtain ⟨rfl, rfl, ha⟩ := hC
    exact hI.ret0 (s1 := { s with sm := none }) rfl rfl hI.err hR rfl ha hO rfl rfl (.inl rfl)
  case wa0Running t ht c d hp hs hv =>
    eCl
    obtain ⟨rfl, rfl, rfl, ha⟩ := hC
    obtain rfl : v = .running := by
      rw [hv] at ha
      cases v <;> first | rfl | exact ha.elim | (cases ha; done)
    exact hI.go0 rfl rfl hI.err hR ⟨rfl, rfl, rfl, rfl, ha⟩ hO rfl rfl (by keepS hp)
  case wa0 t ht c d hp hs e hv hn =>
    eCl
    obtain ⟨rfl, rfl, rfl, ha⟩ := hC
    refine hI.ret0 rfl rfl hI.err hR ?_ ?_ hO rfl rfl (.inl hs)
    · cases v <;> first | exact ha.elim | skip
      · rw [ha] at hv; subst hv; rfl
      · rcases ha with ha | ha
        · exact absurd ha hn
        · rw [ha] at hv; subst hv; rfl
      · rw [ha] at hv; subst hv; rfl
    · cases v <;> first | exact ha.elim | skip
      · exact ha
      · rcases ha with ha | ha
        · exact absurd ha hn
        · exact ha
      · exact ha
  case wa1Never t ht c d hp hm hn =>
    eCl
    exfalso
    rcases hc.2 with h | h <;> simp at hn <;> omega
  case wa1 t ht c d hp hm hn =>
    eCl
    exact hI.go0 rfl rfl hI.err hR hC hO rfl rfl (by keepS hp)
  case wa2Done t ht c d hp hh =>
    eCl
    obtain ⟨rfl, rfl, rfl, rfl, ha⟩ := hC
    obtain ⟨-, h⟩ := hh rfl
    have hv : s.status.value = .ready := by
      rcases ha with ha | ha
      · rw [hI.err, ha] at h; rcases h with h | h | h | h <;> cases h
      · exact ha
    exact hI.go0 rfl rfl hI.err hR ⟨rfl, rfl, hv⟩ hO rfl rfl (by keepS hp)
  case wa2Again t ht c d hp =>
    eCl
    exact hI.go0 rfl rfl hI.err hR hC hO rfl rfl (by keepS hp)
  case wa2Timeout t ht c hp =>
    eCl
    cases hC.2.1
  case wa3 t ht hp hs =>
    eCl
    obtain ⟨rfl, rfl, ha⟩ := hC
    exact hI.ret0 rfl rfl hI.err hR (by rw [hI.err]; rfl) ha hO rfl rfl (.inl hs)
  case r12 t ht hp hv =>
    eRun
    exact hI.goR hp rfl rfl hI.err hR hC hO rfl rfl (by keepS hp)
  case r12Exit t ht hp hv =>
    eRun
    exact absurd hO hv
  case r13 t ht hp hs =>
    eRun
    have hO : s.status.value = .running := hO
    rw [hO] at hC
    exact hI.goR hp (s1 := s.put (.new .ready)) rfl rfl rfl (hR.quiet rfl) hC.ready (.inl rfl) rfl rfl (by keepS hp)
  case c0 t ht hp hs =>
    eRun
    exact hI.goR hp (s1 := { s with sm := some (s.n - 1) }) rfl rfl hI.err hR hC hO rfl rfl (.inr (.inl ⟨rfl, rfl⟩))
  case c0Panic t ht e hp hs => eRun; cases hO.1
  case c2 t ht p hp hm =>
    eRun
    exact hI.goR hp (s1 := { s with ma := some (s.n - 1) }) rfl rfl hI.err hR hC hO rfl rfl (by keepS hp)
  case c3 t ht p hp hr =>
    eRun
    exact hI.goR hp (s1 := { s with ma := none }) rfl rfl hI.err hR hC hO rfl rfl (by keepS hp)
  case c4 t ht hp j hj st k hq => exact (hI.badC hj hq rfl fun _ _ _ h => h).elim
  case c4Panic t ht e hp j hj st k hq => exact (hI.badC hj hq rfl fun _ _ _ h => h).elim
  case c4Default t ht p hp hn =>
    eRun
    exact hI.goR hp rfl rfl hI.err hR hC hO.2 rfl rfl (by keepS hp)
  case c6Closed t ht hp ha =>
    eRun
    exact hI.goR hp rfl rfl hI.err hR hC hO rfl rfl (by keepS hp)
  case c6 t ht hp j hj i hq ha => exact (hI.badR hj hq rfl fun _ h => h).elim
  case c6Default t ht hp ha hn =>
    eRun
    exact hI.goR hp rfl rfl hI.err hR hC hO rfl rfl (by keepS hp)
  case c7 t ht hp =>
    eRun
    exact hI.goR hp (s1 := Algo.ev { s with closed := s.ack :: s.closed } (.closed s.ack)) rfl rfl hI.err (hR.quiet rfl) hC hO
      rfl rfl (by keepS hp)
  case c8 t ht hp =>
    eRun
    exact hI.goR hp (s1 := Algo.ev { s with sm := none } (.runEnd (s.n - 1))) rfl rfl hI.err (hR.quiet rfl) hC hO
      rfl rfl (.inl rfl) (.inl rfl)
  case nl0 t ht hp j hj st p hq =>
    obtain rfl := hI.isNotif ht hp trivial (by rintro ⟨⟩)
    have h1 : EndInv conf ((s.ev (.notified st)).go j p) := by
      rcases notifying_some hq with ⟨k, h, rfl, rfl⟩ | ⟨k, h, rfl, rfl⟩ | ⟨k, e, h, rfl, rfl⟩ | ⟨e, h, rfl, rfl⟩ |
        ⟨h, rfl⟩ | ⟨h, hv, rfl⟩ | ⟨h, hv, rfl⟩ | ⟨h, rfl, rfl⟩ | ⟨e, h, rfl, rfl⟩ | ⟨e, h, rfl, rfl⟩ | ⟨h, rfl⟩
      case inr.inr.inr.inl =>
        obtain rfl := hI.isClient hj h rfl
        rw [h] at hC
        exact hI.go0 (s1 := s.ev _) rfl rfl hI.err (hR.quiet rfl) hC.2 hO rfl rfl (by keepS h)
      case inr.inr.inr.inr.inr.inr.inr.inl =>
        obtain rfl := hI.isRun hj h rfl
        rw [h] at hO
        exact hI.goR h (s1 := s.ev _) rfl rfl hI.err (hR.quiet rfl) hC ⟨rfl, hO⟩ rfl rfl (by keepS h)
      all_goals first
        | exact (hI.badC hj h rfl fun _ _ _ h => h).elim
        | exact (hI.badR hj h rfl fun _ h => h).elim
    have hj1 : j ≠ 1 := by rintro rfl; rw [hp] at hq; cases hq
    refine h1.go1 trivial ?_
    rw [go_pc, if_neg hj1.symm]
    show holdsS (s.thr 1).pc = false
    rw [hp]; rfl
  case nl1 t ht st hp hm =>
    obtain rfl := hI.isNotif ht hp trivial (by rintro ⟨⟩)
    exact hI.go1 (by split <;> trivial) (by rw [hp]; rfl)
  case pu0 t ht hp hs => exact (hI.badC ht hp rfl fun _ _ _ h => h).elim
  case pu0' t ht hp => exact (hI.badC ht hp rfl fun _ _ _ h => h).elim
  case pu1 t ht hp => exact (hI.badC ht hp rfl fun _ _ _ h => h).elim
  case pu1Err t ht hp e => exact (hI.badC ht hp rfl fun _ _ _ h => h).elim
  case pu2 t ht hp hm => exact (hI.badC ht hp rfl fun _ _ _ h => h).elim
  case pu3 t ht hp hr => exact (hI.badC ht hp rfl fun _ _ _ h => h).elim
  case pu4 t ht hp hs => exact (hI.badC ht hp rfl fun _ _ _ h => h).elim
  case pu5 t ht hp hm => exact (hI.badC ht hp rfl fun _ _ _ h => h).elim
  case pu6 t ht hp => exact (hI.badC ht hp rfl fun _ _ _ h => h).elim
  case in0 t ht hp hs => exact (hI.badC ht hp rfl fun _ _ _ h => h).elim
  case in1 t ht k hp hm => exact (hI.badC ht hp rfl fun _ _ _ h => h).elim
  case in2 t ht k hp hr => exact (hI.badC ht hp rfl fun _ _ _ h => h).elim
  case in3Created t ht k hp hv => exact (hI.badC ht hp rfl fun _ _ _ h => h).elim
  case in3 t ht k hp hv => exact (hI.badC ht hp rfl fun _ _ _ h => h).elim
  case in5Read t ht k hp hm => exact (hI.badC ht hp rfl fun _ _ _ h => h).elim
  case in5 t ht k hp c e => exact (hI.badC ht hp rfl fun _ _ _ h => h).elim
  case in6 t ht k c e hp hm => exact (hI.badC ht hp rfl fun _ _ _ h => h).elim
  case in7 t ht k c e hp hr => exact (hI.badC ht hp rfl fun _ _ _ h => h).elim
  case in8 t ht k hp => exact (hI.badC ht hp rfl fun _ _ _ h => h).elim
  case in8Err t ht k e hp => exact (hI.badC ht hp rfl fun _ _ _ h => h).elim
  case in10 t ht e hp => exact (hI.badC ht hp rfl fun _ _ _ h => h).elim
  case in10Err t ht e hp he => exact (hI.badC ht hp rfl fun _ _ _ h => h).elim
  case in10Play t ht e hp he => exact (hI.badC ht hp rfl fun _ _ _ h => h).elim
  case pl0Idle t ht hp hs hv => exact (hI.badC ht hp rfl fun _ _ _ h => h).elim
  case pl0Init t ht hp hs hv => exact (hI.badC ht hp rfl fun _ _ _ h => h).elim
  case pl0Ready t ht hp hs hv => exact (hI.badC ht hp rfl fun _ _ _ h => h).elim
  case pl0Running t ht hp hs hv => exact (hI.badC ht hp rfl fun _ _ _ h => h).elim
  case pl0Initializing t ht hp hs hv => exact (hI.badC ht hp rfl fun _ _ _ h => h).elim
  case pl1 t ht hp => exact (hI.badC ht hp rfl fun _ _ _ h => h).elim
  case pa0 t ht hp hs hv => exact (hI.badC ht hp rfl fun _ _ _ h => h).elim
  case pa0Err t ht hp hs hv => exact (hI.badC ht hp rfl fun _ _ _ h => h).elim
  case it3 t ht hp => exact (hI.badC ht hp rfl fun _ _ _ h => h).elim
  case sd0 t ht st k hp => exact (hI.badC ht hp rfl fun _ _ _ h => h).elim
  case sd2 t ht k hp => exact (hI.badC ht hp rfl fun _ _ _ h => h).elim
  case sd3Closed t ht a k hp ha => exact (hI.badC ht hp rfl fun _ _ _ h => h).elim
  case sd3 t ht a k hp j hj i hq ha => exact (hI.badC ht hp rfl fun _ _ _ h => h).elim
  case r0 t ht hp => exact (hI.badR ht hp rfl fun _ h => h).elim
  case r1 t ht hp j hj st k hq => exact (hI.badR ht hp rfl fun _ h => h).elim
  case r2 t ht st hp hs => exact (hI.badR ht hp rfl fun _ h => h).elim
  case r4 t ht i hp => exact (hI.badR ht hp rfl fun _ h => h).elim
  case r5Closed t ht i a hp ha => exact (hI.badR ht hp rfl fun _ h => h).elim
  case r6 t ht hp hv => exact (hI.badR ht hp rfl fun _ h => h).elim
  case r6Exit t ht hp hv => exact (hI.badR ht hp rfl fun _ h => h).elim
  case r7Done t ht hp hm hd => exact (hI.badR ht hp rfl fun _ h => h).elim
  case r7 t ht hp hm hd => exact (hI.badR ht hp rfl fun _ h => h).elim
  case r8Done t ht hp => exact (hI.badR ht hp rfl fun _ h => h).elim
  case r8 t ht hp => exact (hI.badR ht hp rfl fun _ h => h).elim
  case r9 t ht hp j hj st k hq => exact (hI.badR ht hp rfl fun _ h => h).elim
  case r10 t ht st hp hs => exact (hI.badR ht hp rfl fun _ h => h).elim
  case r9Default t ht hp hn => exact (hI.badR ht hp rfl fun _ h => h).elim
  case iterNil t ht hp => exact (hI.badR ht hp rfl fun _ h => h).elim
  case iterOk t ht hp c => exact (hI.badR ht hp rfl fun _ h => h).elim
  case iterErr t ht hp e => exact (hI.badR ht hp rfl fun _ h => h).elim
  case iterPanic t ht hp e => exact (hI.badR ht hp rfl fun _ h => h).elim
  case rS t ht c hp hm => exact (hI.badR ht hp rfl fun _ h => h).elim
  case rS' t ht c hp hr => exact (hI.badR ht hp rfl fun _ h => h).elim
  case r15 t ht e hp hs => exact (hI.badR ht hp rfl fun _ h => h).elim
  case ti0 t ht hp hd =>
    rcases hI.who ht hp (by rintro ⟨⟩) with ⟨rfl, h⟩ | ⟨rfl, _, h⟩ | ⟨_, hr⟩
    · rw [h] at hC; exact hC.elim
    · exact h.elim
    · rw [hr] at hO; exact hO.elim
  case ti0Fire t ht hp hd =>
    rcases hI.who ht hp (by rintro ⟨⟩) with ⟨rfl, h⟩ | ⟨rfl, _, h⟩ | ⟨_, hr⟩
    · rw [h] at hC; exact hC.elim
    · exact h.elim
    · rw [hr] at hO; exact hO.elim

end Algo
end Distclus
