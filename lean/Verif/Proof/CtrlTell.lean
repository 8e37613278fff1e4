import Verif.Proof.CtrlHistory
import Verif.Spec.CtrlTell
/-!
# What the result of a call says: the invariants
-/
namespace Distclus
open Ctrl Spec
namespace Algo
variable {C : Type}

set_option linter.unusedVariables false

/-- The call in progress at each program counter, `b` saying that it is inside `Push`. -/
def Fits (o : Option Op) : PC C → Bool → Prop
  | .rdStatus, _ => o = some .status
  | .rdCentroids, _ => o = some .centroids
  | .rdFigures, _ => o = some .figures
  | .rdConf, _ => o = some .conf
  | .pu0, _ | .pu1, _ | .pu2, _ | .pu3, _ | .pu4, _ | .pu5, _ | .pu6, _ => o = some .push
  | .in0, _ => o = some .init
  | .in1 .init, _ | .in2 .init, _ | .in3 .init, _ | .in4 .init, _ | .in5 .init, _ | .in6 .init _ _, _
  | .in7 .init _ _, _ | .in8 .init _, _ | .in9 .init _, _ | .in10 .init _, _ => o = some .init
  | .in1 .play, b | .in2 .play, b | .in3 .play, b | .in4 .play, b | .in5 .play, b | .in6 .play _ _, b
  | .in7 .play _ _, b | .in8 .play _, b | .in9 .play _, b | .in10 .play _, b
  | .pl0, b | .pl1, b | .pl2, b | .pl3, b
  | .sd0 _ .playIdle, b | .sd1 _ .playIdle, b | .sd2 .playIdle, b | .sd3 _ .playIdle, b
  | .sd0 _ .playRun, b | .sd1 _ .playRun, b | .sd2 .playRun, b | .sd3 _ .playRun, b =>
    o = some (if b then .push else .play)
  | .pa0, _ | .sd0 _ .pause, _ | .sd1 _ .pause, _ | .sd2 .pause, _ | .sd3 _ .pause, _ => o = some .pause
  | .it0 e, _ | .it1 e, _ => (o = some .stop ∧ e = none) ∨ o = none
  | .it2, _ | .it3, _ | .sd0 _ .interrupt, _ | .sd1 _ .interrupt, _ | .sd2 .interrupt, _
  | .sd3 _ .interrupt, _ => o = some .stop ∨ o = none
  | .wa0 c d, _ | .wa1 c d, _ | .wa2 c d, _ => o = some (.wait c d)
  | .wa3, _ => ∃ c d, o = some (.wait c d)
  | _, _ => o = none

/-- What a goroutine knows of the record since its call. -/
def Fact (t : Nat) (l : List (Event C)) : PC C → Prop
  | .in6 _ _ e | .in7 _ _ e | .in8 _ e => During t (initReturns e) l
  | .in9 _ e => Initialised t l e
  | .in10 .init e => (e = some .alreadyCreated ∧ (current l).value ≠ .created ∧ (current l).value ≠ .finished) ∨
      Initialised t l e
  | .in10 .play e => Initialised t l e
  | .sd0 _ .playIdle | .sd1 _ .playIdle | .sd2 .playIdle | .sd3 _ .playIdle => During t (showing .idle) l
  | .sd0 _ .playRun | .sd1 _ .playRun | .sd2 .playRun | .sd3 _ .playRun | .pl2 | .pl3 => During t starting l
  | .sd0 _ .pause | .sd1 _ .pause | .sd2 .pause | .sd3 _ .pause => During t (showing .running) l
  | .sd0 _ .interrupt | .sd1 _ .interrupt | .sd2 .interrupt | .sd3 _ .interrupt | .it3 =>
    During t showingAlive l
  | .it1 e => During t showingAlive l ∧ current l = .ofError e
  | .it2 => During t showingAlive l ∧ (pending t l = some .stop → (current l).error = none)
  | .wa1 _ _ | .wa2 _ _ => During t (showing .running) l
  | .wa3 => During t (showing .running) l ∧ ∃ c d, pending t l = some (.wait c d) ∧
      (c = false → During t showingEnd l)
  | _ => True

/-- Both. -/
def Say (t : Nat) (l : List (Event C)) (p : PC C) (b : Bool) : Prop :=
  Fits (pending t l) p b ∧ Fact t l p

/-- The goroutine whose call or result is recorded. -/
def owner : Event C → Option Nat
  | .call t _ => some t
  | .ret t _ => some t
  | _ => none

theorem pending_cons {t : Nat} {e : Event C} {l : List (Event C)} (h : owner e ≠ some t) :
    pending t (e :: l) = pending t l := by
  cases e <;> first
    | rfl
    | (rename_i u _; simp only [owner, ne_eq, Option.some.injEq] at h; simp only [pending, if_neg h])

theorem callBy_of {t : Nat} {e : Event C} (h : owner e ≠ some t) : callBy t e = false := by
  cases e <;> first
    | rfl
    | (rename_i u _; simp only [owner, ne_eq, Option.some.injEq] at h; simp only [callBy, h, decide_false])

theorem _root_.Distclus.Spec.During.cons {t : Nat} {P : List (Event C) → Prop} {e : Event C} {l : List (Event C)} (h : During t P l)
    (he : owner e ≠ some t) : During t P (e :: l) := .inr ⟨callBy_of he, h⟩

theorem _root_.Distclus.Spec.Initialised.cons {t : Nat} {r : Option Err} {e : Event C} {l : List (Event C)} (h : Initialised t l r)
    (he : owner e ≠ some t) (hs : isSet e = false) : Initialised t (e :: l) r :=
  ⟨h.1.cons he, by rw [current_cons hs]; exact h.2⟩

theorem Say.cons {t : Nat} {l : List (Event C)} {p : PC C} {b : Bool} {e : Event C} (h : Say t l p b)
    (he : owner e ≠ some t) (hs : isSet e = true → holdsS p = false) : Say t (e :: l) p b := by
  refine ⟨by rw [pending_cons he]; exact h.1, ?_⟩
  have h2 := h.2
  cases hS : isSet e with
  | true =>
    replace hs := hs hS
    cases p <;> first
      | trivial
      | (cases hs; done)
      | exact During.cons h2 he
      | exact ⟨h2.1.cons he, by rw [pending_cons he]; obtain ⟨c, d, h3, h4⟩ := h2.2; exact ⟨c, d, h3, fun h => (h4 h).cons he⟩⟩
      | (rename_i k; cases k <;> exact During.cons h2 he)
  | false =>
    cases p
    case in9 => exact h2.cons he hS
    case in10 k e' =>
      cases k
      · exact h2.imp (fun h => by rw [current_cons hS]; exact h) (fun h => h.cons he hS)
      · exact h2.cons he hS
    case it1 => exact ⟨h2.1.cons he, by rw [current_cons hS]; exact h2.2⟩
    case it2 => exact ⟨h2.1.cons he, by rw [current_cons hS, pending_cons he]; exact h2.2⟩
    case wa3 =>
      exact ⟨h2.1.cons he, by
        rw [pending_cons he]; obtain ⟨c, d, h3, h4⟩ := h2.2; exact ⟨c, d, h3, fun h => (h4 h).cons he⟩⟩
    all_goals first
      | trivial
      | exact During.cons h2 he
      | (rename_i k; cases k <;> exact During.cons h2 he)

/-- Every goroutine. -/
def SayInv (s : Algo C) : Prop := ∀ t, Say t s.log (s.thr t).pc (s.thr t).inPush

/-- The record is the same, or has one more event, of no other goroutine than `t`. -/
def LogOk (t : Nat) (s s' : Algo C) : Prop :=
  s'.log = s.log ∨ ∃ e, s'.log = e :: s.log ∧ (∀ j, j ≠ t → owner e ≠ some j) ∧
    (isSet e = true → ∀ j, j ≠ t → holdsS (s.thr j).pc = false)

theorem SayInv.other {s s' : Algo C} (hI : SayInv s) {t j : Nat} (hl : LogOk t s s') (hj : j ≠ t) :
    Say j s'.log (s.thr j).pc (s.thr j).inPush := by
  rcases hl with e | ⟨e, hl, h1, h2⟩
  · rw [e]; exact hI j
  · rw [hl]; exact (hI j).cons (h1 j hj) (fun h => h2 h j hj)

theorem SayInv.move {s s' : Algo C} (hI : SayInv s) {t : Nat} (hl : LogOk t s s')
    (ht : ∀ j, j ≠ t → (s'.thr j).pc = (s.thr j).pc ∧ (s'.thr j).inPush = (s.thr j).inPush)
    (h : Say t s'.log (s'.thr t).pc (s'.thr t).inPush) : SayInv s' := by
  intro j
  by_cases hj : j = t
  · subst hj; exact h
  · rw [(ht j hj).1, (ht j hj).2]; exact hI.other hl hj

theorem SayInv.go {s s1 : Algo C} (hI : SayInv s) {t : Nat} {p0 p : PC C} (hthr : s1.thr = s.thr)
    (hl : LogOk t s s1) (h0 : (s.thr t).pc = p0)
    (h : Say t s.log p0 (s.thr t).inPush → Say t s1.log p (s.thr t).inPush) : SayInv (s1.go t p) := by
  refine hI.move (t := t) hl (fun j hj => ?_) ?_
  · rw [go_pc, if_neg hj, go_inPush, hthr]; exact ⟨rfl, rfl⟩
  · rw [go_pc, if_pos rfl, go_inPush, hthr]
    have := hI t
    rw [h0] at this
    exact h this

theorem fits_push {o : Option Op} {p : PC C} (h : Fits o p true) (hp : inPlay p = true) : o = some .push := by
  cases p <;> first
    | (cases hp; done)
    | exact h
    | (rename_i k; cases k <;> first | (cases hp; done) | exact h)
    | (rename_i k _; cases k <;> first | (cases hp; done) | exact h)
    | (rename_i k _ _; cases k <;> first | (cases hp; done) | exact h)

/-- A call which returns. -/
theorem SayInv.ret {s s1 : Algo C} (hI : SayInv s) {t : Nat} {r : Res C}
    (hP : (s.thr t).inPush = true → inPlay (s.thr t).pc = true) (hthr : s1.thr = s.thr)
    (hl : s1.log = s.log) : SayInv (s1.ret t r) := by
  by_cases hi : (s.thr t).inPush = true
  · have hr : s1.ret t r = s1.go t .pu6 := by unfold Algo.ret; rw [hthr, if_pos hi]
    rw [hr]
    refine hI.move (t := t) (.inl hl) (fun j hj => ?_) ?_
    · rw [go_pc, if_neg hj, go_inPush, hthr]; exact ⟨rfl, rfl⟩
    · rw [go_pc, if_pos rfl]
      refine ⟨?_, trivial⟩
      have h1 := (hI t).1
      rw [hi] at h1
      rw [go_log, hl]
      exact fits_push h1 (hP hi)
  · have hr : s1.ret t r = (s1.ev (.ret t r)).go t .home := by unfold Algo.ret; rw [hthr, if_neg hi]
    rw [hr]
    refine hI.move (t := t) (.inr ⟨.ret t r, by rw [go_log, ev_log, hl], fun j hj h => hj ?_, fun h => by cases h⟩)
      (fun j hj => ?_) ?_
    · injection h with h; exact h.symm
    · rw [go_pc, if_neg hj, go_inPush, ev_thr, hthr]; exact ⟨rfl, rfl⟩
    · rw [go_pc, if_pos rfl]
      exact ⟨by rw [go_log, ev_log]; simp only [Fits, pending, if_true], trivial⟩

theorem SayInv.sent {s s1 : Algo C} (hI : SayInv s) {t a : Nat} {k : SendFrom} {ok : Bool}
    (hP : (s.thr t).inPush = true → inPlay (s.thr t).pc = true) (hthr : s1.thr = s.thr)
    (hl : s1.log = s.log) (hp : (s.thr t).pc = .sd3 a k) : SayInv (s1.sent t ok k) := by
  cases k
  · exact hI.ret hP hthr hl
  · exact hI.go hthr (.inl hl) hp (fun h => by rw [hl]; exact h)
  · exact hI.ret hP hthr hl
  · exact hI.go hthr (.inl hl) hp (fun h => by rw [hl]; exact h)

theorem SayInv.ev {s s1 : Algo C} (hI : SayInv s) {e : Event C} (hthr : s1.thr = s.thr) (hl : s1.log = e :: s.log)
    (h1 : owner e = none) (h2 : isSet e = false) : SayInv s1 := by
  intro t
  rw [hthr, hl]
  exact (hI t).cons (by rw [h1]; exact fun h => nomatch h) (by rw [h2]; exact fun h => nomatch h)

theorem SayInv.spawn {s s1 : Algo C} (hI : SayInv s) {k : Kind} {p : PC C} (hthr : s1.thr = s.thr)
    (hl : s1.log = s.log) (hn : s1.n = s.n) (hd : (s.thr s.n).pc = .dead)
    (h : pending s.n s.log = none → Say s.n s.log p false) : SayInv (s1.spawn k p) := by
  intro t
  rw [spawn_pc, spawn_inPush, spawn_log, hthr, hl, hn]
  by_cases ht : t = s.n
  · rw [if_pos ht, if_pos ht]; subst ht
    have := (hI s.n).1
    rw [hd] at this
    exact h this
  · rw [if_neg ht, if_neg ht]; exact hI t

theorem _root_.Distclus.Spec.During.now {t : Nat} {P : List (Event C) → Prop} {l : List (Event C)} (h : P l)
    (hl : (current l).value ≠ .created) : During t P l := by
  cases l with
  | nil => exact absurd rfl hl
  | cons e l => exact .inl h

theorem logOk_set {s s1 : Algo C} {t : Nat} {st : OCStatus} (h : s1.log = .set st :: s.log)
    (hS : ∀ j, j ≠ t → holdsS (s.thr j).pc = false) : LogOk t s s1 :=
  .inr ⟨_, h, fun _ _ h => (by cases h), fun _ => hS⟩

theorem logOk_ev {s s1 : Algo C} {t : Nat} {e : Event C} (h : s1.log = e :: s.log) (h1 : owner e = none)
    (h2 : isSet e = false) : LogOk t s s1 :=
  .inr ⟨_, h, fun _ _ h => (by rw [h1] at h; cases h), fun h => by rw [h2] at h; cases h⟩

/-- Two goroutines move: `j` to the end of its send, `t`. -/
theorem SayInv.sd1 {s : Algo C} (hI : SayInv s) {j : Nat} {st : OCStatus} {k : SendFrom}
    (hq : (s.thr j).pc = .sd1 st k) : SayInv (s.go j (.sd2 k)) :=
  hI.go rfl (.inl rfl) hq (fun h => by cases k <;> exact h)

theorem go_pc_ne {s : Algo C} {t j : Nat} {p p0 q : PC C} (hp : (s.thr t).pc = p0) (hq : (s.thr j).pc = q)
    (h : p0 ≠ q) : ((s.go j p).thr t).pc = p0 := by
  rw [go_pc, if_neg, hp]
  rintro rfl
  exact h (hp.symm.trans hq)

theorem Say.notified {t : Nat} {l : List (Event C)} {q p : PC C} {b : Bool} {st : OCStatus} (h : Say t l q b)
    (hq : notifying q = some (st, p)) : Say t l p b := by
  cases q <;> first | (cases hq; done) | skip
  case in9 k e =>
    cases e <;> cases hq <;> cases k <;> first | exact h | exact ⟨h.1, .inr h.2⟩
  case it1 e =>
    cases hq
    refine ⟨h.1.imp (fun h => h.1) id, h.2.1, fun h0 => ?_⟩
    rcases h.1 with ⟨-, rfl⟩ | h1
    · rw [h.2.2]; rfl
    · rw [h1] at h0; cases h0
  case in4 k => cases hq; cases k <;> exact h
  case r11 st' => cases hq; split <;> exact h
  all_goals cases hq; exact h

theorem SayInv.step {conf : Conf} {s s' : Algo C} (hI : SayInv s) (hH : HistInv s) (h : Step conf s s') :
    SayInv s' := by
  have hL := hH.lock
  have hcur := hH.cur
  have hP : ∀ t, (s.thr t).inPush = true → inPlay (s.thr t).pc = true := fun t h => hL.push t h
  have hd : ∀ u, u = s.n → (s.thr u).pc = .dead := fun u hu => hL.unborn u (by omega)
  have hnow : ∀ t (P : List (Event C) → Prop), P s.log → s.status.value ≠ .created → During t P s.log :=
    fun t P h h1 => .now h (by rw [hcur]; exact h1)
  cases h
  case client => exact hI.spawn rfl rfl rfl (hd _ rfl) (fun h => ⟨h, trivial⟩)
  case call t ht hp op hk =>
    refine hI.go rfl (.inr ⟨_, rfl, fun j hj h => hj ?_, fun h => by cases h⟩) hp (fun h => ?_)
    · injection h with h; exact h.symm
    · have hb : pending t ((s.ev (.call t op)).log) = some op := by
        rw [ev_log]; simp only [pending, if_true]
      refine ⟨?_, ?_⟩
      · rw [hb]; cases op
        case stop => exact .inl ⟨rfl, rfl⟩
        case play =>
          have : (s.thr t).inPush = false := by
            by_contra hc
            have := hP t (by simpa using hc)
            rw [hp] at this; cases this
          rw [this]; rfl
        all_goals rfl
      · cases op <;> trivial
  case pu5 t ht hp hm =>
    have h0 := hI t
    rw [hp] at h0
    refine hI.move (t := t) (.inl rfl) (fun j hj => ?_) ?_
    · dsimp only; rw [if_neg hj]; exact ⟨rfl, rfl⟩
    · dsimp only; rw [if_pos rfl]
      split
      · exact ⟨h0.1, trivial⟩
      · exact ⟨h0.1, trivial⟩
  case pu6 t ht hp =>
    refine hI.move (t := t) (.inr ⟨_, rfl, fun j hj h => hj ?_, fun h => by cases h⟩) (fun j hj => ?_) ?_
    · injection h with h; exact h.symm
    · dsimp only; rw [if_neg hj]; exact ⟨rfl, rfl⟩
    · dsimp only; rw [if_pos rfl]
      exact ⟨by simp only [Fits, pending, if_true], trivial⟩
  case in0 t ht hp hs =>
    refine hI.go rfl (.inl rfl) hp (fun h => ?_)
    cases hv : s.status.value
    case created => exact h
    case finished => exact h
    all_goals
      refine ⟨h.1, .inl ⟨rfl, ?_, ?_⟩⟩ <;>
      · show (current s.log).value ≠ _
        rw [hcur, hv]; decide
  case in3Created t ht k hp hv =>
    refine SayInv.go (s := (({ s with notif := true } : Algo C).spawn .notifier .nl0)) (p0 := .in3 k)
      (hI.spawn rfl rfl rfl (hd _ rfl) (fun h => ⟨h, trivial⟩)) rfl (logOk_set rfl fun j hj => ?_) ?_ ?_
    · rw [spawn_pc]; split
      · rfl
      · exact hL.otherS (t := t) (by rw [hp]; rfl) j hj
    · rw [spawn_pc, if_neg]
      · exact hp
      · exact fun h => by have : t = s.n := h; omega
    · intro h; cases k <;> exact h
  case in3 t ht k hp hv =>
    exact hI.go rfl (logOk_set rfl (hL.otherS (t := t) (by rw [hp]; rfl))) hp (fun h => by cases k <;> exact h)
  case in5 t ht k hp c e =>
    refine hI.go rfl (logOk_ev rfl rfl rfl) hp (fun h => ⟨?_, .inl ⟨c, rfl⟩⟩)
    cases k <;> exact h.1
  case in8 t ht k hp =>
    refine hI.go rfl (logOk_set rfl (hL.otherS (t := t) (by rw [hp]; rfl))) hp (fun h => ⟨?_, ?_, rfl⟩)
    · cases k <;> exact h.1
    · exact During.cons (e := .set _) h.2 (fun h => nomatch h)
  case in8Err t ht k e hp =>
    refine hI.go rfl (logOk_set rfl (hL.otherS (t := t) (by rw [hp]; rfl))) hp (fun h => ⟨?_, ?_, rfl⟩)
    · cases k <;> exact h.1
    · exact During.cons (e := .set _) h.2 (fun h => nomatch h)
  case pl0Idle t ht hp hs hv =>
    exact hI.go rfl (.inl rfl) hp (fun h => ⟨h.1, hnow t _ (by rw [showing, hcur]; exact hv) (by rw [hv]; decide)⟩)
  case pl0Init t ht hp hs hv =>
    refine hI.go rfl (.inl rfl) hp (fun h => ?_)
    rcases hv with hv | hv <;> rw [hv] <;> exact h
  case pl1 t ht hp =>
    have h1 : SayInv (({ s with sm := none } : Algo C).ev (.runStart s.n)) := hI.ev rfl rfl rfl rfl
    have h2 := h1.spawn (s1 := ({ s with sm := none } : Algo C).ev (.runStart s.n)) (k := .run) (p := .r0)
      rfl rfl rfl (hd _ rfl) (fun h => ⟨h, trivial⟩)
    refine h2.go (p0 := .pl1) rfl (.inl rfl) ?_ (fun h => ⟨h.1, .inl ⟨_, rfl⟩⟩)
    rw [spawn_pc, if_neg]
    · exact hp
    · exact fun h => by have : t = s.n := h; omega
  case pl2Disable t ht hp i hi =>
    exact hI.go rfl (logOk_ev rfl rfl rfl) hp (fun h => h.cons (fun h => nomatch h) (fun h => nomatch h))
  case pl3Timeout t ht hp hm hc =>
    have hne : t ≠ s.n := by omega
    have h1 := hI.spawn (s1 := { s with timeout := some s.n }) (k := .timer) (p := .ti0) rfl rfl rfl (hd _ rfl)
      (fun h => ⟨h, trivial⟩)
    refine h1.ret (fun h => ?_) rfl rfl
    rw [spawn_inPush, if_neg hne] at h
    rw [spawn_pc, if_neg hne]
    exact hP t h
  case pa0 t ht hp hs hv =>
    exact hI.go rfl (.inl rfl) hp (fun h => ⟨h.1, hnow t _ (by rw [showing, hcur]; exact hv) (by rw [hv]; decide)⟩)
  case it0Ready t ht e hp hs hv =>
    refine hI.go rfl (logOk_set rfl (fun j _ => hL.freeS hs j)) hp (fun h => ⟨h.1, ?_, rfl⟩)
    exact During.cons (e := .set _) (hnow t _ (.inl (by rw [hcur]; exact hv)) (by rw [hv]; decide))
      (fun h => nomatch h)
  case it0 t ht e hp hs hv =>
    refine hI.go rfl (.inl rfl) hp (fun h => ⟨h.1.imp (fun h => h.1) id, hnow t _ ?_ ?_⟩)
    · rcases hv with hv | hv
      · exact .inr (.inr (by rw [hcur]; exact hv))
      · exact .inr (.inl (by rw [hcur]; exact hv))
    · rcases hv with hv | hv <;> rw [hv] <;> decide
  case sd3Closed t ht a k hp ha => exact hI.sent (hP t) rfl rfl hp
  case sd3 t ht a k hp j hj i hq ha =>
    have h1 : SayInv (s.go j (if i then .r1 else .r6)) :=
      hI.go rfl (.inl rfl) hq (fun h => by cases i <;> exact h)
    have h2 := go_pc_ne (p := if i then .r1 else .r6) hp hq (fun h => nomatch h)
    refine h1.sent (fun h => ?_) rfl rfl h2
    rw [h2, ← hp]
    rw [go_inPush] at h
    exact hP t h
  case wa0Running t ht c d hp hs hv =>
    exact hI.go rfl (.inl rfl) hp (fun h => ⟨h.1, hnow t _ (by rw [showing, hcur]; exact hv) (by rw [hv]; decide)⟩)
  case wa2Done t ht c d hp hc =>
    refine hI.go rfl (.inl rfl) hp (fun h => ⟨⟨c, d, h.1⟩, h.2, c, d, h.1, fun h0 => ?_⟩)
    have hv : s.status.value = .ready ∨ s.status.value = .idle ∨ s.status.value = .finished := by
      rcases (hc h0).2 with h1 | h1
      · exact .inr (.inr (hH.st.err (by intro h2; rw [h2] at h1; cases h1)))
      · exact h1
    refine hnow t _ (by unfold showingEnd; rw [hcur]; exact hv) ?_
    rcases hv with hv | hv | hv <;> rw [hv] <;> decide
  case r1 t ht hp j hj st k hq =>
    exact (hI.sd1 hq).go rfl (.inl rfl) (go_pc_ne hp hq (fun h => nomatch h)) (fun h => h)
  case r9 t ht hp j hj st k hq =>
    exact (hI.sd1 hq).go rfl (.inl rfl) (go_pc_ne hp hq (fun h => nomatch h)) (fun h => h)
  case c4Panic t ht e hp j hj st k hq =>
    exact (hI.sd1 hq).go rfl (.inl rfl) (go_pc_ne hp hq (fun h => nomatch h)) (fun h => h)
  case c4 t ht hp j hj st k hq =>
    refine (hI.sd1 hq).go rfl (logOk_set rfl fun i hi => ?_) (go_pc_ne hp hq (fun h => nomatch h)) (fun h => h)
    rw [go_pc]; split
    · rfl
    · exact hL.otherS (t := t) (by rw [hp]; rfl) i hi
  case c6 t ht hp j hj i hq ha =>
    have h1 : SayInv (s.go j (if i then .r1 else .r6)) :=
      hI.go rfl (.inl rfl) hq (fun h => by cases i <;> exact h)
    exact h1.go rfl (.inl rfl) (go_pc_ne hp hq (fun h => nomatch h)) (fun h => h)
  case nl0 t ht hp j hj st p hq =>
    have h1 : SayInv ((s.ev (.notified st)).go j p) := by
      refine hI.go rfl (logOk_ev rfl rfl rfl) rfl (fun h => ?_)
      have h := h.cons (e := .notified st) (fun h => nomatch h) (fun h => nomatch h)
      exact h.notified hq
    refine h1.go rfl (.inl rfl) (p0 := .nl0) ?_ (fun h => h)
    rw [go_pc, if_neg]
    · exact hp
    · rintro rfl; rw [hp] at hq; cases hq
  case ti0Fire t ht hp hd =>
    exact hI.go rfl (logOk_ev rfl rfl rfl) hp (fun h => ⟨.inr h.1, trivial⟩)
  case in1 t ht k hp hm => exact hI.go rfl (.inl rfl) hp (fun h => by cases k <;> exact h)
  case in2 t ht k hp hr => exact hI.go rfl (logOk_ev rfl rfl rfl) hp (fun h => by cases k <;> exact h)
  case in6 t ht k c e hp hm => exact hI.go rfl (.inl rfl) hp (fun h => by cases k <;> exact h)
  case in7 t ht k c e hp hr => exact hI.go rfl (.inl rfl) hp (fun h => by cases k <;> exact h)
  case in10Play t ht e hp he => exact hI.go rfl (.inl rfl) hp (fun h => ⟨h.1, trivial⟩)
  case sd0 t ht st k hp => exact hI.go rfl (.inl rfl) hp (fun h => by cases k <;> exact h)
  case sd2 t ht k hp => exact hI.go rfl (.inl rfl) hp (fun h => by cases k <;> exact h)
  all_goals first
    | exact hI.go rfl (.inl rfl) ‹_› (by intro h; exact h)
    | exact hI.ret (hP _) rfl rfl
    | exact hI.go rfl (logOk_ev rfl rfl rfl) ‹_› (by intro h; exact h)
    | exact hI.go rfl (logOk_set rfl (fun j _ => hL.freeS ‹_› j)) ‹_› (by intro h; exact h)
    | exact hI.go rfl (.inl rfl) ‹_› (by intro h; split <;> exact h)

/-! ## The results -/

theorem _root_.Distclus.Spec.Told.cons {conf : Conf} {e : Event C} {l : List (Event C)} (h : Told conf l)
    (he : ∀ t r, e ≠ .ret t (.err r)) : Told conf (e :: l) := by
  cases e <;> first | exact h | skip
  rename_i t r
  cases r <;> first | exact h | skip
  exact absurd rfl (he _ _)

theorem _root_.Distclus.Spec.Told.ret {conf : Conf} {s s1 : Algo C} {t : Nat} {r : Option Err} (h : Told conf s.log)
    (hl : s1.log = s.log) (hthr : s1.thr = s.thr)
    (hr : (s.thr t).inPush = false → ∀ op, pending t s.log = some op → Tells conf t s.log op r) :
    Told conf (s1.ret t (.err r)).log := by
  rw [ret_log, hthr, hl]
  split
  · exact h
  · rename_i hi
    exact ⟨hr (by simpa using hi), h⟩

theorem _root_.Distclus.Spec.Told.retOther {conf : Conf} {s s1 : Algo C} {t : Nat} {r : Res C} (h : Told conf s.log)
    (hl : s1.log = s.log) (he : ∀ e, r ≠ .err e) : Told conf (s1.ret t r).log := by
  rw [ret_log, hl]
  split
  · exact h
  · exact h.cons (fun t' r' h => by injection h with _ h; exact he _ h)

theorem _root_.Distclus.Spec.Told.sent {conf : Conf} {s s1 : Algo C} {t a : Nat} {k : SendFrom} {ok : Bool} (h : Told conf s.log)
    (hl : s1.log = s.log) (hp : (s1.thr t).pc = .sd3 a k) (hS : Say t s.log (s1.thr t).pc (s1.thr t).inPush) :
    Told conf (s1.sent t ok k).log := by
  rw [hp] at hS
  cases k
  · refine Told.ret (s := { s1 with log := s.log }) h hl rfl (fun hi op ho => ?_)
    have h1 := hS.1
    rw [show (s1.thr t).inPush = false from hi, ho] at h1
    injection h1 with h1; subst h1
    exact .inl hS.2
  · rw [Algo.sent, go_log, hl]; exact h
  · refine Told.ret (s := { s1 with log := s.log }) h hl rfl (fun hi op ho => ?_)
    have h1 := hS.1
    rw [ho] at h1
    injection h1 with h1; subst h1
    cases ok
    · rfl
    · exact hS.2
  · rw [Algo.sent, go_log, hl]; exact h

theorem _root_.Distclus.Spec.Told.step {conf : Conf} {s s' : Algo C} (hT : Told conf s.log) (hI : SayInv s) (hH : HistInv s)
    (h : Step conf s s') : Told conf s'.log := by
  have hL := hH.lock
  have hcur := hH.cur
  have hst : s.status.error = none ∨ ∃ e, s.status = ⟨.finished, some e⟩ := by
    have := hH.st.err
    generalize s.status = st at this
    obtain ⟨v, e⟩ := st
    cases e with
    | none => exact .inl rfl
    | some e => exact .inr ⟨e, by rw [show v = _ from this (fun h => nomatch h)]⟩
  have op' : ∀ {t : Nat} {p : PC C} {o op : Op}, (s.thr t).pc = p → (Say t s.log p (s.thr t).inPush →
      pending t s.log = some o) → pending t s.log = some op → op = o := fun {t} {_ _ _} hp h1 h2 => by
    have := hI t
    rw [hp] at this
    rw [h1 this] at h2
    injection h2 with h2
    exact h2.symm
  have fact : ∀ {t : Nat} {p : PC C}, (s.thr t).pc = p → Fact t s.log p := fun {t} {_} hp => by
    have := (hI t).2; rw [hp] at this; exact this
  cases h
  case pu1Err t ht hp e =>
    refine hT.ret rfl rfl (fun _ op ho => ?_)
    cases op' hp (fun h => h.1) ho; trivial
  case pu6 t ht hp =>
    refine ⟨fun op ho => ?_, hT⟩
    cases op' hp (fun h => h.1) ho; trivial
  case in10 t ht e hp =>
    refine hT.ret rfl rfl (fun _ op ho => ?_)
    cases op' hp (fun h => h.1) ho; exact fact hp
  case in10Err t ht e hp he =>
    refine hT.ret rfl rfl (fun hi op ho => ?_)
    have h1 := (hI t).1
    rw [hp, hi, ho] at h1
    injection h1 with h1; subst h1
    cases e with
    | none => exact absurd rfl he.1
    | some e => exact .inr (fact hp)
  case pl0Running t ht hp hs hv =>
    refine hT.ret rfl rfl (fun hi op ho => ?_)
    have h1 := (hI t).1
    rw [hp, hi, ho] at h1
    injection h1 with h1; subst h1
    exact .inl ⟨rfl, by rw [hcur]; exact hv⟩
  case pl0Initializing t ht hp hs hv => exact absurd hv (hH.st.notMid hL hs)
  case pl3Timeout t ht hp hm hc =>
    have hne : t ≠ s.n := by omega
    have h1 : Told conf (({ s with timeout := some s.n } : Algo C).spawn .timer .ti0).log := hT
    refine h1.ret rfl rfl (fun hi op ho => ?_)
    rw [spawn_inPush, if_neg hne] at hi
    have h1 := (hI t).1
    rw [hp, show (s.thr t).inPush = false from hi, show pending t s.log = _ from ho] at h1
    injection h1 with h1; subst h1
    exact .inr (fact hp)
  case pl3 t ht hp hm hc =>
    refine hT.ret rfl rfl (fun hi op ho => ?_)
    have h1 := (hI t).1
    rw [hp, hi, ho] at h1
    injection h1 with h1; subst h1
    exact .inr (fact hp)
  case pa0Err t ht hp hs hv =>
    refine hT.ret rfl rfl (fun hi op ho => ?_)
    cases op' hp (fun h => h.1) ho; rfl
  case it0Err t ht e hp hs hv =>
    refine hT.ret rfl rfl (fun hi op ho => ?_)
    have h1 := (hI t).1
    rw [hp, ho] at h1
    rcases h1 with ⟨h1, -⟩ | h1
    · injection h1 with h1; subst h1
      refine .inl ⟨rfl, ?_⟩
      have := hH.st.notMid hL hs
      rw [hcur]
      cases hx : s.status.value <;> simp_all
    · cases h1
  case it2 t ht hp =>
    refine hT.ret rfl rfl (fun hi op ho => ?_)
    have h1 := (hI t).1
    have h2 := fact hp
    rw [hp, ho] at h1
    rcases h1 with h1 | h1
    · injection h1 with h1; subst h1
      exact ⟨h2.2 ho, h2.1⟩
    · cases h1
  case it3 t ht hp =>
    refine hT.ret rfl rfl (fun hi op ho => ?_)
    have h1 := (hI t).1
    have h2 := fact hp
    rw [hp, ho] at h1
    rcases h1 with h1 | h1
    · injection h1 with h1; subst h1
      rcases hst with h3 | ⟨e, h3⟩
      · rw [h3]; exact ⟨by rw [hcur]; exact h3, h2⟩
      · rw [h3]; exact .inr ⟨by rw [hcur]; exact h3, h2⟩
    · cases h1
  case sd3Closed t ht a k hp ha => exact Told.sent hT rfl hp (hI t)
  case sd3 t ht a k hp j hj i hq ha =>
    have h2 := go_pc_ne (p := if i then .r1 else .r6) hp hq (fun h => nomatch h)
    refine Told.sent (s := s) hT rfl h2 ?_
    rw [h2, go_inPush, ← hp]
    exact hI t
  case wa0 t ht c d hp hs e hv hn =>
    refine hT.ret rfl rfl (fun hi op ho => ?_)
    cases op' hp (fun h => h.1) ho
    have := hH.st.notMid hL hs
    cases hx : s.status.value <;> rw [hx] at hv <;> subst hv
    · exact .inr (.inl ⟨rfl, by rw [hcur]; exact hx⟩)
    · exact absurd hx this
    · exact .inl (.inl (by rw [hcur]; exact hx))
    · exact absurd hx hn
    · exact .inl ⟨rfl, by rw [hcur]; exact hx⟩
    · exact .inl (.inr (by rw [hcur]; exact hx))
  case wa1Never t ht c d hp hm hn =>
    refine hT.ret rfl rfl (fun hi op ho => ?_)
    cases op' hp (fun h => h.1) ho
    refine .inr (.inr ⟨fact hp, .inl ⟨rfl, ?_⟩⟩)
    simpa [and_assoc] using hn
  case wa2Timeout t ht c hp =>
    refine hT.ret rfl rfl (fun hi op ho => ?_)
    cases op' hp (fun h => h.1) ho
    exact .inr (.inr ⟨fact hp, .inr (.inl ⟨rfl, rfl⟩)⟩)
  case wa3 t ht hp hs =>
    refine hT.ret rfl rfl (fun hi op ho => ?_)
    obtain ⟨h1, c, d, h2, h3⟩ := fact hp
    rw [ho] at h2
    injection h2 with h2; subst h2
    rcases hst with h4 | ⟨e, h4⟩
    · rw [h4]; exact .inr ⟨by rw [hcur]; exact h4, h1, h3⟩
    · rw [h4]; exact .inr (.inr ⟨h1, .inr (.inr (by rw [hcur]; exact h4))⟩)
  all_goals first
    | exact hT
    | exact hT.retOther rfl (fun _ h => nomatch h)

theorem Reachable.told {conf : Conf} {s : Algo C} (h : Reachable conf s) : Told conf s.log := by
  have : HistInv s ∧ SayInv s ∧ Told conf s.log :=
    h.induction (P := fun s => HistInv s ∧ SayInv s ∧ Told conf s.log)
      ⟨HistInv.init, fun _ => ⟨rfl, trivial⟩, trivial⟩
      (fun _ _ hI hs => ⟨hI.1.step hs, hI.2.1.step hI.1 hs, Told.step hI.2.2 hI.2.1 hI.1 hs⟩)
  exact this.2.2

theorem told_past {conf : Conf} {l1 l2 : List (Event C)} {t : Nat} {r : Option Err} {op : Op}
    (h : Told conf (l1 ++ .ret t (.err r) :: l2)) (hp : pending t l2 = some op) : Tells conf t l2 op r := by
  induction l1 with
  | nil => exact h.1 op hp
  | cons e l ih =>
    cases e <;> first | exact ih h | skip
    rename_i t' r'
    cases r' <;> first | exact ih h | exact ih h.2

theorem Reachable.tells {conf : Conf} {s : Algo C} {l1 l2 : List (Event C)} {t : Nat} {r : Option Err} {op : Op}
    (h : Reachable conf s) (hl : s.log = l1 ++ .ret t (.err r) :: l2) (hp : pending t l2 = some op) :
    Tells conf t l2 op r := told_past (l1 := l1) (by rw [← hl]; exact h.told) hp

end Algo
end Distclus
