import Verif.Proof.CtrlSerial
import Verif.Spec.CtrlPlan
/-!
# The implementation gets the calls of the plan
-/
namespace Distclus
open Ctrl
namespace Algo
open Spec
variable {C E σ : Type}
variable {conf : Conf} {s s' s1 : Algo C} {t u : Nat} {p : PC C}

set_option linter.unusedTactic false
set_option linter.unusedVariables false
set_option linter.unnecessarySeqFocus false
set_option linter.unreachableTactic false

/-- What the client has had the implementation do in its current call. -/
inductive Mark where
  | out
  | pushed
  | counted
  | begun
  | inited
  | armed
  | run
  deriving DecidableEq

def mark : PC C → Mark
  | .pu2 | .pu3 => .pushed
  | .pu4 | .pu5 | .pu6 => .counted
  | .in3 _ | .in4 _ | .in5 _ => .begun
  | .in6 _ _ none | .in7 _ _ none | .in8 _ none | .in9 _ none | .in10 _ none => .inited
  | .pl1 => .armed
  | .sd0 _ .playRun | .sd1 _ .playRun | .sd2 .playRun | .sd3 _ .playRun | .pl2 | .pl3 => .run
  | _ => .out

/-- The events which are neither calls of the implementation nor results. -/
def dullEv : Event C → Bool
  | .ret _ _ | .implPushed | .initRet _ _ | .iterOk _ _ | .pushed | .reset | .runStart _ => false
  | _ => true

theorem tags_dull {e : Event C} {l : List (Event C)} (h : dullEv e = true) : tags (e :: l) = tags l := by
  cases e <;> first | rfl | cases h

theorem session_dull {e : Event C} {l : List (Event C)} (h : dullEv e = true) :
    (session (e :: l)).2 = (session l).2 := by
  cases e <;> first | rfl | (cases h; done) | skip
  rename_i t op
  cases t <;> rfl

/-- Where a call returns. -/
def RetAt (s : Algo C) (r : Res C) : PC C → Prop
  | .rdStatus | .rdCentroids | .rdFigures | .rdConf => True
  | .pu1 => ∃ e, r = .err (some e)
  | .pu6 => r = .err none
  | .in10 .init _ => True
  | .in10 .play e => e ≠ none
  | .pl0 => s.status.value = .running ∨ s.status.value = .initializing
  | .pl3 | .pa0 | .it0 _ | .it2 | .it3 | .wa0 _ _ | .wa1 _ _ | .wa2 _ _ | .wa3 => True
  | .sd3 _ k => k = .playIdle ∨ k = .pause
  | _ => False

def SameMark (s s' : Algo C) : Prop := ∀ u, mark (s'.thr u).pc = mark (s.thr u).pc

theorem SameMark.congr (h : s'.thr = s.thr) : SameMark s s' := fun u => by rw [h]

theorem SameMark.go (h : SameMark s s1) (hp : mark p = mark (s.thr t).pc) : SameMark s (s1.go t p) := by
  intro u
  rw [go_pc]
  by_cases hc : u = t
  · rw [if_pos hc, hc]; exact hp
  · rw [if_neg hc]; exact h u

theorem SameMark.spawn {k : Kind} (h : SameMark s s1) (hn : s1.n = s.n) (hL : LockInv s)
    (hp : mark p = .out) : SameMark s (s1.spawn k p) := by
  intro u
  rw [spawn_pc]
  by_cases hc : u = s1.n
  · rw [if_pos hc, hp, hL.unborn u (by omega)]; rfl
  · rw [if_neg hc]; exact h u

/-- An action with respect to the plan. -/
inductive MarkStep (s s' : Algo C) : Prop
  | still (hl : s'.log = s.log ∨ ∃ e, s'.log = e :: s.log ∧ dullEv e = true) (hd : s'.pushedData = s.pushedData)
      (hm : SameMark s s')
  | push (u : Nat) (hu : u < s.n) (h0 : (s.thr u).pc = .pu1) (h1 : (s'.thr u).pc = .pu2)
      (hl : s'.log = .implPushed :: s.log) (hd : s'.pushedData = s.pushedData)
  | count (u : Nat) (hu : u < s.n) (h0 : (s.thr u).pc = .pu3) (h1 : (s'.thr u).pc = .pu4)
      (hl : s'.log = .pushed :: s.log) (hd : s'.pushedData = s.pushedData + 1)
  | start (u : Nat) (hu : u < s.n) (k : InitFrom) (h0 : (s.thr u).pc = .in0 ∨ (s.thr u).pc = .pl0)
      (h1 : (s'.thr u).pc = .in3 k) (hv : s.status.value = .created)
      (hl : s'.log = s.log) (hd : s'.pushedData = s.pushedData)
  | reset (u : Nat) (hu : u < s.n) (k : InitFrom) (h0 : (s.thr u).pc = .in2 k) (h1 : (s'.thr u).pc = .in3 k)
      (hl : s'.log = .reset :: s.log) (hd : s'.pushedData = 0)
  | init (u : Nat) (hu : u < s.n) (k : InitFrom) (c : Option C) (e : Option Err) (h0 : (s.thr u).pc = .in5 k)
      (h1 : (s'.thr u).pc = .in6 k c e) (hl : s'.log = .initRet c e :: s.log) (hd : s'.pushedData = s.pushedData)
  | arm (u : Nat) (hu : u < s.n) (h0 : (∃ e, (s.thr u).pc = .in10 .play e) ∨
        ((s.thr u).pc = .pl0 ∧ s.status.value = .ready))
      (h1 : (s'.thr u).pc = .pl1) (hl : s'.log = s.log) (hd : s'.pushedData = s.pushedData)
  | run (u : Nat) (hu : u < s.n) (h0 : (s.thr u).pc = .pl1) (h1 : (s'.thr u).pc = .sd0 (.new .running) .playRun)
      (hl : s'.log = .runStart s.n :: s.log) (hd : s'.pushedData = s.pushedData)
  | iter (u : Nat) (hu : u < s.n) (c : C) (h0 : (s.thr u).pc = .rI) (h1 : (s'.thr u).pc = .rS c)
      (hl : s'.log = .iterOk u c :: s.log) (hd : s'.pushedData = s.pushedData) (hm : SameMark s s')
  | ret (u : Nat) (hu : u < s.n) (r : Res C) (h0 : RetAt s r (s.thr u).pc) (h1 : (s'.thr u).pc = .home)
      (hv : ∀ v, v ≠ u → mark (s'.thr v).pc = mark (s.thr v).pc)
      (hl : s'.log = .ret u r :: s.log) (hd : s'.pushedData = s.pushedData)
  | auto (u : Nat) (hu : u < s.n) (h0 : (s.thr u).pc = .pu5) (hn : s.newData = 0)
  | odd (u : Nat) (hu : u < s.n) (h0 : (s.thr u).pc ≠ .pu6) (hi : (s.thr u).inPush = true)
      (hv : ∀ v, v ≠ u → mark (s'.thr v).pc = mark (s.thr v).pc)
      (hl : s'.log = s.log) (hd : s'.pushedData = s.pushedData)

theorem MarkStep.ofRet {r : Res C} (ht : t < s.n) (hl : s1.log = s.log) (hd : s1.pushedData = s.pushedData)
    (hs : SameMark s s1) (hi : (s1.thr t).inPush = (s.thr t).inPush) (h6 : (s.thr t).pc ≠ .pu6)
    (hp : RetAt s r (s.thr t).pc) :
    MarkStep s (s1.ret t r) := by
  have hv : ∀ v, v ≠ t → mark ((s1.ret t r).thr v).pc = mark (s.thr v).pc := by
    intro v hv; rw [ret_pc, if_neg hv]; exact hs v
  by_cases h : (s.thr t).inPush = true
  · exact .odd t ht h6 h hv (by rw [ret_log, hi, if_pos h, hl]) (by rw [ret_pushedData, hd])
  · refine .ret t ht r hp ?_ hv (by rw [ret_log, hi, if_neg h, hl]) (by rw [ret_pushedData, hd])
    rw [ret_pc, if_pos rfl, hi, if_neg h]

theorem MarkStep.ofSent {ok : Bool} {k : SendFrom} {a : Nat} (ht : t < s.n) (hl : s1.log = s.log)
    (hd : s1.pushedData = s.pushedData) (hs : SameMark s s1) (hi : (s1.thr t).inPush = (s.thr t).inPush)
    (hp : (s.thr t).pc = .sd3 a k) : MarkStep s (s1.sent t ok k) := by
  cases k
  · exact .ofRet ht hl hd hs hi (by rw [hp]; rintro ⟨⟩) (by rw [hp]; exact .inl rfl)
  · exact .still (.inl hl) hd (hs.go (by rw [hp]; rfl))
  · exact .ofRet ht hl hd hs hi (by rw [hp]; rintro ⟨⟩) (by rw [hp]; exact .inr rfl)
  · exact .still (.inl hl) hd (hs.go (by rw [hp]; rfl))

theorem mark_entry (op : Op) : mark (entry op : PC C) = .out := by cases op <;> rfl

theorem mark_notifying {st : OCStatus} {q : PC C} (h : notifying p = some (st, q)) : mark q = mark p := by
  cases p <;> simp only [notifying, reduceCtorEq] at h
  case in9 k e => cases e <;> simp only [Option.some.injEq, Prod.mk.injEq] at h <;> rw [← h.2] <;> rfl
  case r11 st => 
    simp only [Option.some.injEq, Prod.mk.injEq] at h
    rw [← h.2]; split <;> rfl
  all_goals
    simp only [Option.some.injEq, Prod.mk.injEq] at h
    rw [← h.2]; rfl

theorem mark_ite {c : Prop} [Decidable c] {p q : PC C} {x : Mark} (h : mark p = x)
    (h' : mark q = x) : mark (if c then p else q) = x := by split <;> assumption

theorem MarkStep.begin {k : InitFrom} (ht : t < s.n) (hp : (s.thr t).pc = .in0 ∨ (s.thr t).pc = .pl0) :
    MarkStep s ({ s with sm := some t }.go t (beginPc s.status.value k)) := by
  have hm : mark (s.thr t).pc = .out := by rcases hp with h | h <;> rw [h] <;> rfl
  cases hv : s.status.value
  case created =>
    exact .start t ht k hp (by rw [go_pc, if_pos rfl]; rfl) hv rfl rfl
  all_goals exact .still (.inl rfl) rfl (SameMark.go (SameMark.congr rfl) hm.symm)

theorem Step.mark (h : Step conf s s') (hL : LockInv s) : MarkStep s s' := by
  cases h
  case client => exact .still (.inl rfl) rfl ((SameMark.congr rfl).spawn rfl hL rfl)
  case in0 t ht hp hs => exact .begin ht (.inl hp)
  case pl0Init t ht hp hs hv => exact .begin ht (.inr hp)
  case pu1 t ht hp => exact .push t ht hp (by rw [go_pc, if_pos rfl]) rfl rfl
  case pu3 t ht hp hr => exact .count t ht hp (by rw [go_pc, if_pos rfl]) rfl rfl
  case in2 t ht k hp hr => exact .reset t ht k hp (by rw [go_pc, if_pos rfl]) rfl rfl
  case in5 t ht k hp c e => exact .init t ht k c e hp (by rw [go_pc, if_pos rfl]) rfl rfl
  case in10Play t ht e hp he => exact .arm t ht (.inl ⟨e, hp⟩) (by rw [go_pc, if_pos rfl]) rfl rfl
  case pl0Ready t ht hp hs hv => exact .arm t ht (.inr ⟨hp, hv⟩) (by rw [go_pc, if_pos rfl]) rfl rfl
  case pl1 t ht hp => exact .run t ht hp (by rw [go_pc, if_pos rfl]) rfl rfl
  case iterOk t ht hp c =>
    exact .iter t ht c hp (by rw [go_pc, if_pos rfl]) rfl rfl (SameMark.go (SameMark.congr rfl) (by rw [hp]; rfl))
  case pu5 t ht hp hm =>
    by_cases hn : s.newData = 0
    · exact .auto t ht hp hn
    · refine .still (.inl rfl) rfl fun u => ?_
      show Algo.mark (if u = t then _ else s.thr u).pc = _
      by_cases hc : u = t
      · rw [if_pos hc, if_neg hn, hc, hp]; rfl
      · rw [if_neg hc]
  case pu6 t ht hp =>
    refine .ret t ht _ (by rw [hp]; exact rfl) ?_ (fun v hv => ?_) rfl rfl
    · show (if t = t then _ else s.thr t).pc = _
      rw [if_pos rfl]
    · show Algo.mark (if v = t then _ else s.thr v).pc = _
      rw [if_neg hv]
  case in3Created t ht k hp hv =>
    refine .still (.inr ⟨_, rfl, rfl⟩) rfl (SameMark.go ?_ (by rw [hp]; rfl))
    intro u
    exact (SameMark.congr (s := s) (s' := { s with notif := true }) rfl).spawn (k := .notifier) (p := .nl0) rfl hL rfl u
  case pl3Timeout t ht hp hm hc =>
    refine .ofRet ht rfl rfl ?_ ?_ (by rw [hp]; rintro ⟨⟩) (by rw [hp]; trivial)
    · exact (SameMark.congr (s := s) (s' := { s with timeout := some s.n }) rfl).spawn rfl hL rfl
    · rw [spawn_inPush, if_neg (show t ≠ s.n by omega)]
  case nl0 t ht hp j hj st p hq =>
    exact .still (.inr ⟨_, rfl, rfl⟩) rfl (SameMark.go (SameMark.go (SameMark.congr rfl)
      (mark_notifying hq)) (by rw [hp]; rfl))
  case sd3 t ht a k hp j hj i hq ha =>
    have hne : t ≠ j := by rintro rfl; rw [hp] at hq; cases hq
    refine .ofSent ht rfl rfl (SameMark.go (SameMark.congr rfl) (by rw [hq]; cases i <;> rfl)) ?_ hp
    rw [go_inPush]
  case c6 t ht hp j hj i hq ha =>
    exact .still (.inl rfl) rfl (SameMark.go (SameMark.go (SameMark.congr rfl)
      (by rw [hq]; cases i <;> rfl)) (by rw [hp]; rfl))
  case r1 t ht hp j hj st k hq =>
    exact .still (.inl rfl) rfl (SameMark.go (SameMark.go (SameMark.congr rfl)
      (by rw [hq]; cases k <;> rfl)) (by rw [hp]; rfl))
  case r9 t ht hp j hj st k hq =>
    exact .still (.inl rfl) rfl (SameMark.go (SameMark.go (SameMark.congr rfl)
      (by rw [hq]; cases k <;> rfl)) (by rw [hp]; rfl))
  case c4Panic t ht e hp j hj st k hq =>
    exact .still (.inl rfl) rfl (SameMark.go (SameMark.go (SameMark.congr rfl)
      (by rw [hq]; cases k <;> rfl)) (by rw [hp]; rfl))
  case c4 t ht hp j hj st k hq =>
    refine .still (.inr ⟨_, rfl, rfl⟩) rfl (SameMark.go ?_ (by rw [hp]; rfl))
    intro u
    exact SameMark.go (SameMark.congr rfl) (by rw [hq]; cases k <;> rfl) u
  case call t ht hp op hk =>
    exact .still (.inr ⟨_, rfl, rfl⟩) rfl (SameMark.go (SameMark.congr rfl) (by rw [hp, mark_entry]; rfl))
  case r7 t ht hp hm hd =>
    exact .still (.inl rfl) rfl (SameMark.go (SameMark.congr rfl) (by rw [hp]; exact mark_ite rfl rfl))
  case nl1 t ht st hp hm =>
    exact .still (.inl rfl) rfl (SameMark.go (SameMark.congr rfl) (by rw [hp]; exact mark_ite rfl rfl))
  case sd0 t ht st k hp => exact .still (.inl rfl) rfl (SameMark.go (SameMark.congr rfl) (by rw [hp]; cases k <;> rfl))
  case sd2 t ht k hp => exact .still (.inl rfl) rfl (SameMark.go (SameMark.congr rfl) (by rw [hp]; cases k <;> rfl))
  case in6 t ht k c e hp hm =>
    exact .still (.inl rfl) rfl (SameMark.go (SameMark.congr rfl) (by rw [hp]; cases e <;> rfl))
  case in7 t ht k c e hp hm =>
    exact .still (.inl rfl) rfl (SameMark.go (SameMark.congr rfl) (by rw [hp]; cases e <;> rfl))
  case in10Err t ht e hp he => exact .ofRet ht rfl rfl (SameMark.congr rfl) rfl (by rw [hp]; rintro ⟨⟩) (by rw [hp]; exact he.1)
  case pl0Running t ht hp hs hv =>
    exact .ofRet ht rfl rfl (SameMark.congr rfl) rfl (by rw [hp]; rintro ⟨⟩) (by rw [hp]; exact .inl hv)
  case pl0Initializing t ht hp hs hv =>
    exact .ofRet ht rfl rfl (SameMark.congr rfl) rfl (by rw [hp]; rintro ⟨⟩) (by rw [hp]; exact .inr hv)
  case pu1Err t ht hp e => exact .ofRet ht rfl rfl (SameMark.congr rfl) rfl (by rw [hp]; rintro ⟨⟩) (by rw [hp]; exact ⟨e, rfl⟩)
  case sd3Closed t ht a k hp ha => exact .ofSent ht rfl rfl (SameMark.congr rfl) rfl hp
  all_goals first
    | (with_reducible refine MarkStep.ofRet ?_ ?_ ?_ (SameMark.congr ?_) ?_ ?_ ?_) <;>
        first | assumption | rfl | (simp only [*]; rintro ⟨⟩; done) | (simp only [*]; trivial)
    | (refine MarkStep.still ?_ rfl (SameMark.go (SameMark.congr ?_) ?_)) <;>
        first | rfl | exact .inl rfl | exact .inr ⟨_, rfl, rfl⟩ | (simp only [*]; done) | (simp only [*]; rfl)

/-! ## The invariant -/

/-- The plan, with what the current call has already had the implementation do. -/
def planAt (conf : Conf) (d : ClustStatus) (p : Plan) : Mark → Plan
  | .out => p
  | .pushed => ⟨(p.push d).tags, p.pushed⟩
  | .counted => p.push d
  | .begun => ⟨p.tags, (p.init d).pushed⟩
  | .inited => p.init d
  | .armed => if d = .ready then p else p.init d
  | .run => (if d = .ready then p else p.init d).run conf

/-- The calls of the implementation and the iterations which are missing are those of the plan. -/
structure PlanOk (conf : Conf) (s : Algo C) (q : Plan) (m : Nat) : Prop where
  pushed : q.pushed = s.pushedData
  tags : q.tags = List.replicate m .iter ++ tags s.log
  live : m ≠ 0 → runPc s ≠ .dead
  full : runPc s ≠ .dead → itersSince q.tags = limit conf s

def PlanInv (conf : Conf) (s : Algo C) : Prop := ∃ d m, followsL (session s.log).2 = some d ∧
  PlanOk conf s (planAt conf d (plan conf (session s.log).2) (mark (s.thr 0).pc)) m

theorem itersSince_replicate (m : Nat) (l : List Tag) :
    itersSince (List.replicate m .iter ++ l) = m + itersSince l := by
  induction m with
  | zero => simp
  | succ m ih => rw [List.replicate_succ, List.cons_append, itersSince, ih]; omega

theorem itersSince_tags : ∀ l : List (Event C), itersSince (tags l) = doneSince l := by
  intro l
  induction l with
  | nil => rfl
  | cons e l ih => cases e <;> first | exact ih | rfl | exact congrArg (· + 1) ih

theorem SerInv.since {d : Desk C} (h : SerInv s d) : itersSince (tags s.log) = d.count := by
  rw [itersSince_tags, (Serial.desk h.log).2]

theorem RunsInv.rest_le (hc : Limited conf) (hI : RunsInv conf s) {d : Desk C} (h : SerInv s d)
    (ho : ∀ u, cell (s.thr u).pc = .out) : itersSince (tags s.log) ≤ limit conf s := by
  rw [h.since, (h.rest ho).2]
  have := (Bounded.limit hc.2 hI.bounded).2.2
  unfold limit
  omega

theorem RunsInv.save_le (hc : Limited conf) (hI : RunsInv conf s) {d : Desk C} (h : SerInv s d) {c : C}
    (ht : t < s.n) (hp : (s.thr t).pc = .rS c) : itersSince (tags s.log) ≤ limit conf s := by
  rw [h.since, (h.sav t c (by rw [hp]; rfl)).2]
  have h1 := (Bounded.limit hc.2 hI.bounded).2.2
  have h2 := tot_pos (f := fIter) ht
  rw [hp] at h2
  have h2 : 1 ≤ tot fIter s := h2
  unfold limit
  omega

theorem EndInv.over (hL : LockInv s) (hI : EndInv conf s) {d : Desk C} (h : SerInv s d) :
    limit conf s ≤ itersSince (tags s.log) := by
  rw [h.since, (h.rest fun u => inside_iff.1 (hI.outside hL u)).2]
  exact hI.done

theorem EndInv.missing (hL : LockInv s) (hI : EndInv conf s) {d : Desk C} (h : SerInv s d) {q : Plan} {m : Nat}
    (hK : PlanOk conf s q m) : m = 0 := by
  by_contra hm
  have h1 := hK.full (hK.live hm)
  rw [hK.tags, itersSince_replicate] at h1
  have := hI.over hL h
  omega

/-- A run begins where `Play` starts it. -/
theorem RunsInv.born (hc : Limited conf) (hI : RunsInv conf s) (h : Step conf s s')
    (hcl : s'.n = s.n + 1 → (s'.thr s.n).kind ≠ .client) (h0 : runPc s = .dead) (h1 : runPc s' ≠ .dead) :
    (s.thr 0).pc = .pl1 ∧ (s'.thr 0).pc = .sd0 (.new .running) .playRun := by
  have hn : s'.n = s.n → False := by
    intro hn
    by_cases h3 : 3 ≤ s.n
    · rw [runPc, hn, if_pos h3] at h1
      rw [runPc, if_pos h3] at h0
      rcases h.edge hI.ack.lock (s.n - 1) with e | e
      · dsimp only at e; exact h1 (e.trans h0)
      · dsimp only at e; rw [h0] at e
        generalize (s'.thr (s.n - 1)).pc = q at e
        cases e <;> omega
    · rw [runPc, hn, if_neg h3] at h1; exact h1 rfl
  have hzero : ∀ t, t < s.n → clientPc (s.thr t).pc = true → t = 0 := by
    intro t ht hp
    rcases hI.phase with hI | hI
    · exact hI.use.isClient ht rfl hp
    · exact hI.isClient ht rfl hp
  rcases h.grow with hg | ⟨hg, ⟨t, ht, hp, hq⟩ | ⟨t, k, ht, hp, hv⟩ | h' | h'⟩
  · exact (hn hg).elim
  · obtain rfl := hzero t ht (by rw [hp]; rfl)
    exact ⟨hp, hq hp⟩
  · obtain rfl := hzero t ht (by rw [hp]; rfl)
    exfalso
    rcases hI.phase with hI | hI
    · have := hI.use.born.1 hv
      rw [runPc, hg, this, if_neg (by omega)] at h1; exact h1 rfl
    · obtain ⟨op, v, _, hC, _⟩ := hI.row
      rw [hp] at hC; exact hC
  · rw [hc.1.2.1] at h'; cases h'
  · exact absurd h' (hcl hg)

/-- Nothing happens to the plan. -/
theorem PlanOk.keep (hc : Limited conf) (hI : RunsInv conf s) {D : Desk C} (hS : SerInv s D) (h : Step conf s s')
    (hcl : s'.n = s.n + 1 → (s'.thr s.n).kind ≠ .client) (hP : Rebatching s.log) {q : Plan} {m : Nat}
    (hK : PlanOk conf s q m) (hl : Spec.tags s'.log = Spec.tags s.log) (hd : s'.pushedData = s.pushedData)
    (hm : (s.thr 0).pc = .pl1 → (s'.thr 0).pc ≠ .sd0 (.new .running) .playRun) : PlanOk conf s' q m := by
  refine ⟨hK.pushed.trans hd.symm, by rw [hl]; exact hK.tags, fun h0 => ?_, fun h1 => ?_⟩
  · rcases hI.phase with hp | hp
    · exact (hp.alive hc.1 hI.ack.lock hP h hcl).1 (hK.live h0)
    · exact absurd (hp.missing hI.ack.lock hS hK) h0
  · unfold limit
    rw [hd]
    refine hK.full fun h0 => ?_
    obtain ⟨h2, h3⟩ := hI.born hc h hcl h0 h1
    exact hm h2 h3

theorem plan_retOk {a : Nat} {op : Op} {d : ClustStatus} {ph : Ph} {pc : PC C} {r : Res C} {l : List (Op × Res C)}
    {cl : Prop} {rp : PC C}
    (hl : followsL l = some d) (hC : ClientOk a (some op) d ph pc) (hO : RunOk a cl s.status.value rp ph)
    (hr : RetAt s r pc) : plan conf ((op, r) :: l) = planAt conf d (plan conf l) (mark pc) := by
  have hs : ∀ k, sendOk (some op) d k → k = .playIdle ∨ k = .pause →
      plan conf ((op, r) :: l) = plan conf l := by
    rintro k hk (rfl | rfl)
    · obtain ⟨h1, rfl⟩ := hk; cases h1; simp only [plan, hl]
    · obtain ⟨h1, rfl⟩ := hk; cases h1; simp only [plan]
  cases pc <;> first | exact hr.elim | skip
  case pu1 =>
    obtain ⟨h1, rfl⟩ := hC; cases h1
    obtain ⟨e, rfl⟩ := hr
    simp only [plan, hl, mark, planAt]
  case pu6 =>
    obtain ⟨h1, rfl⟩ := hC; cases h1
    have hr : r = .err none := hr
    subst hr
    simp only [plan, hl, mark, planAt]
  case in10 k e =>
    rcases hC with ⟨rfl, h1, h2, _⟩ | ⟨rfl, rfl, h1, h2, h3, _⟩
    · cases k
      · cases h1
        rcases h2 with rfl | rfl <;> simp only [plan, hl, mark, planAt, opOf]
      · exact absurd rfl hr
    · cases h1
      cases d <;> first | exact absurd rfl h2 | exact absurd rfl h3 | simp only [plan, hl, mark, planAt]
  case pl0 =>
    obtain ⟨h1, rfl⟩ := hC; cases h1
    have h2 : s.status.value = d := hO.1
    have hr : s.status.value = .running ∨ s.status.value = .initializing := hr
    rw [h2] at hr
    rcases hr with rfl | rfl <;> simp only [plan, hl, mark, planAt]
  case pl3 =>
    obtain ⟨h1, h2, _⟩ := hC; cases h1
    rcases h2 with rfl | rfl | rfl <;> simp [plan, hl, mark, planAt]
  case sd3 x k =>
    rw [hs k hC.1 hr]
    rcases hr with rfl | rfl
    all_goals rfl
  all_goals first
    | exact hC.elim
    | (obtain ⟨h1, _⟩ := hC; cases h1; simp only [plan, mark, planAt]; done)
    | (obtain ⟨_, h1, _⟩ := hC; cases h1; simp only [plan, mark, planAt]; done)
    | (obtain ⟨_, _, h1, _⟩ := hC; cases h1; simp only [plan, mark, planAt]; done)

theorem plan_retEnd {st : ClustStatus} {op : Op} {d : ClustStatus} {pc : PC C} {r : Res C}
    {l : List (Op × Res C)} (hl : followsL l = some d) (hC : ClientEnd (some op) d st pc)
    (hr : RetAt s r pc) : plan conf ((op, r) :: l) = planAt conf d (plan conf l) (mark pc) := by
  cases pc <;> first | exact hr.elim | exact hC.elim | skip
  case pl3 =>
    obtain ⟨h1, h2, _⟩ := hC; cases h1
    rcases h2 with rfl | rfl | rfl <;> simp [plan, hl, mark, planAt]
  all_goals first
    | exact hC.elim
    | (obtain ⟨h1, _⟩ := hC; cases h1; simp only [plan, mark, planAt]; done)
    | (obtain ⟨_, h1, _⟩ := hC; cases h1; simp only [plan, mark, planAt]; done)
    | (obtain ⟨_, _, h1, _⟩ := hC; cases h1; simp only [plan, mark, planAt]; done)

/-- Where the client changes the implementation there is no run. -/
theorem PreInv.deadPush (hI : PreInv conf s) (hP : Rebatching s.log) (hm : (session s.log).1 = some .push) :
    runPc s = .dead := by
  obtain ⟨op, d, ph, ⟨h1, h2⟩, hC, hO⟩ := hI.use.row
  have hlast := hI.last
  have hcalm := (rebatching_calm hP).2
  have hcur := (rebatching_current hP hm).1
  rw [h1] at hm
  subst hm
  rw [h2] at hcur hcalm
  have hd : d ≠ .running := by
    rcases hcur with h | h | h
    · exact fun h' => h (h' ▸ rfl)
    · cases h
    · cases h
  have hi : d ≠ .idle := fun h' => hcalm (h' ▸ rfl)
  have hph : ph = .quiet d := by
    generalize (s.thr 0).pc = p at hC
    cases p <;> simp only [ClientOk] at hC
    all_goals first
      | exact hC.2
      | (cases hC.1; done)
      | (cases hC.2.1; done)
      | (cases hC.2.2.1; done)
      | (rename_i k; cases k <;> first | (cases hC.1; done) | (cases hC.1.1; done) | (cases hC.2.1; done))
      | (rename_i k _; cases k <;> first | (cases hC.1; done) | (cases hC.1.1; done) | (cases hC.2.1; done) | (rcases hC with hC | hC <;> first | (cases hC.2.1; done) | (cases hC.2.2.1; done)))
      | (rename_i k _ _; cases k <;> first | (cases hC.1; done) | (cases hC.2.1; done))
      | (rename_i _ k; cases k <;> first | (cases hC.1; done) | (cases hC.1.1; done) | (cases hC.2.1; done))
  subst hph
  obtain ⟨_, hO⟩ := hO
  cases d <;> first | exact absurd rfl hd | exact absurd rfl hi | exact hO | exact hO.elim | exact hO.resolve_right hlast

theorem tags_keep (hl : s'.log = s.log ∨ ∃ e, s'.log = e :: s.log ∧ dullEv e = true) :
    Spec.tags s'.log = Spec.tags s.log ∧ (session s'.log).2 = (session s.log).2 := by
  rcases hl with hl | ⟨e, hl, he⟩
  · rw [hl]; exact ⟨rfl, rfl⟩
  · rw [hl]; exact ⟨tags_dull he, session_dull he⟩

theorem PlanInv.step (hc : Limited conf) (hI : RunsInv conf s) (hI' : RunsInv conf s') {D D' : Desk C}
    (hS : SerInv s D) (hS' : SerInv s' D') (h : Step conf s s') (hist : current s.log = s.status)
    (hcl : s'.n = s.n + 1 → (s'.thr s.n).kind ≠ .client) (hP' : Rebatching s'.log) (hK : PlanInv conf s) :
    PlanInv conf s' := by
  have hP := rebatching_tail h hP'
  obtain ⟨d, m, hf, hK⟩ := hK
  have hzero : ∀ t, t < s.n → clientPc (s.thr t).pc = true → t = 0 := by
    intro t ht hp
    rcases hI.phase with hI | hI
    · exact hI.use.isClient ht rfl hp
    · exact hI.isClient ht rfl hp
  have hnoend : ∀ {p : PC C}, (s.thr 0).pc = p → (∀ op v st, ¬ ClientEnd op v st p) → PreInv conf s := by
    intro p hp hn
    rcases hI.phase with hI | hI
    · exact hI
    · obtain ⟨op, v, _, hC, _⟩ := hI.row
      rw [hp] at hC; exact absurd hC (hn _ _ _)
  have hborn : (s.thr 0).pc ≠ .pl1 → runPc s = .dead → runPc s' = .dead := by
    intro h1 h0
    by_contra h2
    exact h1 (hI.born hc h hcl h0 h2).1
  cases h.mark hI.ack.lock with
  | still hl hd hm =>
    obtain ⟨h1, h2⟩ := tags_keep hl
    refine ⟨d, m, by rw [h2]; exact hf, ?_⟩
    rw [h2, hm 0]
    exact hK.keep hc hI hS h hcl hP h1 hd fun h0 h3 => by have := hm 0; rw [h0, h3] at this; cases this
  | iter u hu c h0 h1 hl hd hm =>
    have h2 : (session s'.log).2 = (session s.log).2 := by rw [hl]; rfl
    have h3 : Spec.tags s'.log = .iter :: Spec.tags s.log := by rw [hl]; rfl
    have hne : (s.thr 0).pc = .pl1 → (s'.thr 0).pc ≠ .sd0 (.new .running) .playRun := fun h0 h3 => by
      have := hm 0; rw [h0, h3] at this; cases this
    have hrun : runPc s ≠ .dead := by
      rcases hI.phase with hI | hI
      · rw [(hI.use.isRun hu h0 rfl).2.2]; rintro ⟨⟩
      · obtain ⟨_, _, _, _, hO⟩ := hI.row
        rw [← hI.isRun hu h0 rfl, h0] at hO; exact hO.elim
    have hle := hI'.save_le hc hS' (by rcases h.grow with g | ⟨g, _⟩ <;> omega) h1
    have hfull := hK.full hrun
    have hlim : limit conf s' = limit conf s := by unfold limit; rw [hd]
    have hm1 : 1 ≤ m := by
      rw [hK.tags, itersSince_replicate] at hfull
      rw [h3, hlim] at hle
      have : itersSince (.iter :: Spec.tags s.log) = itersSince (Spec.tags s.log) + 1 := rfl
      omega
    refine ⟨d, m - 1, by rw [h2]; exact hf, ?_⟩
    rw [h2, hm 0]
    refine ⟨hK.pushed.trans hd.symm, ?_, fun hx => ?_, fun _ => by rw [hlim]; exact hfull⟩
    · rw [h3, hK.tags]
      obtain ⟨k, rfl⟩ : ∃ k, m = k + 1 := ⟨m - 1, by omega⟩
      rw [Nat.add_sub_cancel, List.replicate_succ', List.append_assoc]; rfl
    · rcases hI.phase with hp | hp
      · exact (hp.alive hc.1 hI.ack.lock hP h hcl).1 hrun
      · exact absurd (hp.missing hI.ack.lock hS hK) (by omega)
  | auto u hu h0 hn =>
    exfalso
    obtain rfl := hzero u hu (by rw [h0]; rfl)
    exact (hnoend h0 (fun _ _ _ h => h)).use.newData h0 hn
  | odd u hu h0 hi hv hl hd =>
    obtain ⟨h1, h2⟩ := tags_keep (s := s) (s' := s') (.inl hl)
    by_cases h3 : u = 0
    · subst h3
      exfalso
      rcases hI.phase with hp | hp
      · exact h0 (hp.use.push hi)
      · rw [hp.push] at hi; cases hi
    · refine ⟨d, m, by rw [h2]; exact hf, ?_⟩
      rw [h2, hv 0 (fun h => h3 h.symm)]
      exact hK.keep hc hI hS h hcl hP h1 hd fun h0 h4 => by
        have := hv 0 (fun h => h3 h.symm); rw [h0, h4] at this; cases this
  | ret u hu r h0 h1 hv hl hd =>
    have ht : Spec.tags s'.log = Spec.tags s.log := by rw [hl]; rfl
    by_cases h3 : u = 0
    · subst h3
      have hne : (s.thr 0).pc = .pl1 → (s'.thr 0).pc ≠ .sd0 (.new .running) .playRun := fun _ h => by
        rw [h1] at h; cases h
      obtain ⟨op, ho, hpl⟩ : ∃ op, (session s.log).1 = some op ∧
          plan conf ((op, r) :: (session s.log).2) =
            planAt conf d (plan conf (session s.log).2) (mark (s.thr 0).pc) := by
        rcases hI.phase with hp | hp
        · obtain ⟨op, d', ph, ⟨g1, g2⟩, hC, hO⟩ := hp.use.row
          rw [hf] at g2; cases g2
          cases op with
          | none =>
            exfalso
            generalize (s.thr 0).pc = p at hC h0
            cases p <;> first | exact h0.elim | exact hC.elim | skip
            all_goals first
              | (cases hC.1; done) | (cases hC.2.1; done) | (cases hC.2.2.1; done)
              | (rename_i k _; cases k <;> (rcases hC with hC | hC <;> first | (cases hC.2.1; done) | (cases hC.2.2.1; done)))
              | (rename_i _ k; cases k <;> cases hC.1.1; done)
          | some op => exact ⟨op, g1, plan_retOk hf hC hO h0⟩
        · obtain ⟨op, d', hR, hC, _⟩ := hp.row
          have g2 := hR.fol
          rw [hf] at g2; cases g2
          cases op with
          | none =>
            exfalso
            generalize (s.thr 0).pc = p at hC h0
            cases p <;> first | exact h0.elim | exact hC.elim | skip
            all_goals first
              | (cases hC.1; done) | (cases hC.2.1; done) | (cases hC.2.2.1; done)
          | some op => exact ⟨op, hR.cur, plan_retEnd hf hC h0⟩
      have hs : (session s'.log).2 = (op, r) :: (session s.log).2 := by rw [hl]; simp only [session, ho]
      obtain ⟨d', hf'⟩ : ∃ d', followsL (session s'.log).2 = some d' := by
        rcases hI'.phase with hp | hp
        · obtain ⟨_, d', _, g, _⟩ := hp.use.row; exact ⟨d', g.2⟩
        · obtain ⟨_, d', g, _⟩ := hp.row; exact ⟨d', g.fol⟩
      refine ⟨d', m, hf', ?_⟩
      rw [hs, h1]
      have := hK.keep hc hI hS h hcl hP ht hd hne
      rw [← hpl] at this
      exact this
    · have h2 : session s'.log = session s.log := by
        rw [hl]; cases u <;> first | rfl | exact absurd rfl h3
      refine ⟨d, m, by rw [h2]; exact hf, ?_⟩
      rw [h2, hv 0 (fun h => h3 h.symm)]
      exact hK.keep hc hI hS h hcl hP ht hd fun h0 h4 => by
        have := hv 0 (fun h => h3 h.symm); rw [h0, h4] at this; cases this
  | push u hu h0 h1 hl hd =>
    obtain rfl := hzero u hu (by rw [h0]; rfl)
    have hp := hnoend h0 (fun _ _ _ h => h)
    obtain ⟨op, d', ph, ⟨g1, g2⟩, hC, hO⟩ := hp.use.row
    rw [hf] at g2; cases g2
    rw [h0] at hC
    obtain ⟨rfl, rfl⟩ := hC
    have hdead := hp.deadPush hP g1
    have hdead' := hborn (by rw [h0]; rintro ⟨⟩) hdead
    have hm : m = 0 := by by_contra hm; exact hK.live hm hdead
    have h2 : (session s'.log).2 = (session s.log).2 := by rw [hl]; rfl
    have h3 : s.status = OCStatus.new d := by
      have e1 : s.status.value = d := hO.1
      have e2 := hp.use.err
      cases hst : s.status with
      | mk v e => rw [hst] at e1 e2; subst e1 e2; rfl
    subst hm
    have k1 := hK.pushed
    have k2 := hK.tags
    rw [h0] at k1 k2
    refine ⟨d, 0, by rw [h2]; exact hf, ?_⟩
    rw [h2, h1]
    refine ⟨k1.trans hd.symm, ?_, fun h => absurd rfl h, fun h => absurd hdead' h⟩
    rw [hl]
    show _ = Tag.push (current s.log).alive :: Spec.tags s.log
    rw [hist, h3]
    exact congrArg _ k2
  | count u hu h0 h1 hl hd =>
    obtain rfl := hzero u hu (by rw [h0]; rfl)
    have hp := hnoend h0 (fun _ _ _ h => h)
    obtain ⟨op, d', ph, ⟨g1, g2⟩, hC, hO⟩ := hp.use.row
    rw [hf] at g2; cases g2
    rw [h0] at hC
    obtain ⟨rfl, rfl⟩ := hC
    have hdead := hp.deadPush hP g1
    have hdead' := hborn (by rw [h0]; rintro ⟨⟩) hdead
    have hm : m = 0 := by by_contra hm; exact hK.live hm hdead
    have h2 : (session s'.log).2 = (session s.log).2 := by rw [hl]; rfl
    subst hm
    have k1 := hK.pushed
    have k2 := hK.tags
    rw [h0] at k1 k2
    refine ⟨d, 0, by rw [h2]; exact hf, ?_⟩
    rw [h2, h1]
    refine ⟨?_, ?_, fun h => absurd rfl h, fun h => absurd hdead' h⟩
    · rw [hd, ← k1]; rfl
    · rw [hl]; exact k2
  | start u hu k h0 h1 hv hl hd =>
    obtain rfl := hzero u hu (by rcases h0 with h | h <;> rw [h] <;> rfl)
    obtain ⟨h3, h2⟩ := tags_keep (s := s) (s' := s') (.inl hl)
    have hp : PreInv conf s := by
      rcases h0 with h | h
      · exact hnoend h (fun _ _ _ h => h)
      · exact hnoend h (fun _ _ _ h => h)
    have hdc : d = .created := by
      obtain ⟨op, d', ph, ⟨g1, g2⟩, hC, hO⟩ := hp.use.row
      rw [hf] at g2; cases g2
      have hph : ph = .quiet d := by rcases h0 with h | h <;> (rw [h] at hC; exact hC.2)
      subst hph
      exact hO.1.symm.trans hv
    subst hdc
    have := hK.keep hc hI hS h hcl hP h3 hd fun h' => by rcases h0 with h | h <;> (rw [h] at h'; cases h')
    refine ⟨.created, m, by rw [h2]; exact hf, ?_⟩
    rw [h2, h1]
    have e : mark (s.thr 0).pc = .out := by rcases h0 with h | h <;> rw [h] <;> rfl
    rw [e] at this
    exact this
  | reset u hu k h0 h1 hl hd =>
    obtain rfl := hzero u hu (by rw [h0]; rfl)
    have hp := hnoend h0 (fun _ _ _ h => h)
    obtain ⟨op, d', ph, ⟨g1, g2⟩, hC, hO⟩ := hp.use.row
    rw [hf] at g2; cases g2
    rw [h0] at hC
    obtain ⟨_, rfl, rfl⟩ := hC
    have hdead := hO.2
    have hdead' := hborn (by rw [h0]; rintro ⟨⟩) hdead
    have hm : m = 0 := by by_contra hm; exact hK.live hm hdead
    have h2 : (session s'.log).2 = (session s.log).2 := by rw [hl]; rfl
    subst hm
    have k2 := hK.tags
    rw [h0] at k2
    refine ⟨.finished, 0, by rw [h2]; exact hf, ?_⟩
    rw [h2, h1]
    refine ⟨?_, ?_, fun h => absurd rfl h, fun h => absurd hdead' h⟩
    · rw [hd]; rfl
    · rw [hl]; exact k2
  | init u hu k c e h0 h1 hl hd =>
    obtain rfl := hzero u hu (by rw [h0]; rfl)
    have hp := hnoend h0 (fun _ _ _ h => h)
    obtain ⟨op, d', ph, ⟨g1, g2⟩, hC, hO⟩ := hp.use.row
    rw [hf] at g2; cases g2
    rw [h0] at hC
    obtain ⟨_, _, rfl⟩ := hC
    have hdead := hO.2
    have hdead' := hborn (by rw [h0]; rintro ⟨⟩) hdead
    have hm : m = 0 := by by_contra hm; exact hK.live hm hdead
    have h2 : (session s'.log).2 = (session s.log).2 := by rw [hl]; rfl
    have he : e = none := by rw [hl] at hP'; exact hP'.1
    subst hm he
    have k1 := hK.pushed
    have k2 := hK.tags
    rw [h0] at k1 k2
    refine ⟨d, 0, by rw [h2]; exact hf, ?_⟩
    rw [h2, h1]
    refine ⟨k1.trans hd.symm, ?_, fun h => absurd rfl h, fun h => absurd hdead' h⟩
    rw [hl]
    exact congrArg (Tag.init :: ·) k2
  | arm u hu h0 h1 hl hd =>
    obtain rfl := hzero u hu (by rcases h0 with ⟨e, h⟩ | ⟨h, _⟩ <;> rw [h] <;> rfl)
    obtain ⟨h3, h2⟩ := tags_keep (s := s) (s' := s') (.inl hl)
    have hp : PreInv conf s := by
      rcases h0 with ⟨e, h⟩ | ⟨h, _⟩
      · exact hnoend h (fun _ _ _ h => h)
      · exact hnoend h (fun _ _ _ h => h)
    have := hK.keep hc hI hS h hcl hP h3 hd fun _ h => by rw [h1] at h; cases h
    refine ⟨d, m, by rw [h2]; exact hf, ?_⟩
    rw [h2, h1]
    obtain ⟨op, d', ph, ⟨g1, g2⟩, hC, hO⟩ := hp.use.row
    rw [hf] at g2; cases g2
    rcases h0 with ⟨e, h0⟩ | ⟨h0, hv⟩
    · rw [h0] at hC this
      rcases hC with ⟨rfl, _, hd', _⟩ | ⟨_, hk, _⟩
      · rcases hd' with rfl | rfl <;> exact this
      · cases hk
    · rw [h0] at hC this
      obtain ⟨_, rfl⟩ := hC
      have hd' : s.status.value = d := hO.1
      rw [hv] at hd'
      subst hd'
      exact this
  | run u hu h0 h1 hl hd =>
    obtain rfl := hzero u hu (by rw [h0]; rfl)
    have hp := hnoend h0 (fun _ _ _ h => h)
    obtain ⟨op, d', ph, ⟨g1, g2⟩, hC, hO⟩ := hp.use.row
    rw [hf] at g2; cases g2
    rw [h0] at hC
    obtain ⟨_, _, rfl⟩ := hC
    have hdead := hO.2
    have hm : m = 0 := by by_contra hm; exact hK.live hm hdead
    have h2 : (session s'.log).2 = (session s.log).2 := by rw [hl]; rfl
    have h3 : Spec.tags s'.log = Spec.tags s.log := by rw [hl]; rfl
    subst hm
    have k1 := hK.pushed
    have k2 := hK.tags
    rw [h0] at k1 k2
    have ho : ∀ u, cell (s.thr u).pc = .out := by
      intro u
      rw [← inside_iff]
      cases hi : inside (s.thr u).pc with
      | false => rfl
      | true =>
        have hne : (s.thr u).pc ≠ .dead := by intro h'; rw [h'] at hi; cases hi
        rcases hp.use.who (hI.ack.lock.lt hne) rfl hne with ⟨rfl, _⟩ | ⟨rfl, _, _, hN⟩ | ⟨_, _, g3, _⟩
        · rw [h0] at hi; cases hi
        · generalize (s.thr 1).pc = p at hN hi
          cases p <;> first | (cases hi; done) | exact hN.elim
        · exact absurd (g3.symm.trans hdead) hne
    have hle := hI.rest_le hc hS ho
    have hlim : limit conf s' = limit conf s := by unfold limit; rw [hd]
    refine ⟨d, conf.iter + (planAt conf d (plan conf (session s.log).2) .armed).pushed * conf.iterPerData -
      itersSince (planAt conf d (plan conf (session s.log).2) .armed).tags, by rw [h2]; exact hf, ?_⟩
    rw [h2, h1]
    refine ⟨k1.trans hd.symm, by rw [h3]; exact congrArg (_ ++ ·) k2, fun _ => ?_, fun _ => ?_⟩
    · rcases hI'.phase with hp' | hp'
      · obtain ⟨op', d', ph', _, hC', hO'⟩ := hp'.use.row
        rw [h1] at hC'
        obtain ⟨_, _, rfl⟩ := hC'
        rcases hO'.2 with g | ⟨g, _⟩ <;> (rw [g]; rintro ⟨⟩)
      · obtain ⟨_, _, _, hC', _⟩ := hp'.row
        rw [h1] at hC'; exact hC'.elim
    · show itersSince (List.replicate _ _ ++ _) = _
      rw [itersSince_replicate, hlim]
      have e1 : itersSince (planAt conf d (plan conf (session s.log).2) .armed).tags ≤ limit conf s := by
        show itersSince (planAt conf d (plan conf (session s.log).2) (mark (.pl1 : PC C))).tags ≤ limit conf s
        rw [k2]; exact hle
      have e2 : (planAt conf d (plan conf (session s.log).2) .armed).pushed = s.pushedData := k1
      have e3 : limit conf s = conf.iter + s.pushedData * conf.iterPerData := rfl
      rw [← e2] at e3
      simp only [planAt] at e1 e3
      omega

theorem PlanInv.start : PlanInv conf ((new : Algo C).spawn .client .home) := by
  refine ⟨.created, 0, rfl, rfl, rfl, fun h => absurd rfl h, fun h => absurd rfl h⟩

theorem exec_plan (hc : Limited conf) : ∀ (as : List (Act C)) (s : Algo C), .client ∉ as →
    Reachable conf s → (Rebatching s.log → RunsInv conf s ∧ Solo conf s ∧ PlanInv conf s) → exec conf s as = some s' →
    Rebatching s'.log → RunsInv conf s' ∧ Solo conf s' ∧ PlanInv conf s' := by
  intro as
  induction as with
  | nil => intro s _ _ hI he; cases he; exact hI
  | cons a as ih =>
    intro s hn hR hI he
    cases a with
    | client => exact absurd List.mem_cons_self hn
    | act t c =>
      simp only [exec, next] at he
      cases hs : s.step conf t c with
      | none => rw [hs] at he; cases he
      | some s1 =>
        rw [hs] at he
        refine ih s1 (fun h => hn (List.mem_cons_of_mem _ h)) (hR.next (a := .act t c) hs) (fun hP => ?_) he
        have hst := Step.of_step hs
        obtain ⟨h1, h2, h3⟩ := hI (rebatching_tail hst hP)
        have h4 := h1.step hc hs hP
        have h5 : Solo conf s1 := .next (.act t c) h2 hs h4.alone
        obtain ⟨D, hS⟩ := h2.serInv
        obtain ⟨D', hS'⟩ := h5.serInv
        exact ⟨h4, h5, h3.step hc h1 h4 hS hS' hst hR.hist.cur (step_noClient hs) hP⟩

theorem PlanInv.of_oneClient (hc : Limited conf) (h : OneClient conf s) (hP : Rebatching s.log) :
    RunsInv conf s ∧ Solo conf s ∧ PlanInv conf s := by
  obtain ⟨as, hn, he⟩ := h
  exact exec_plan hc as _ hn ⟨[.client], rfl⟩ (fun _ => ⟨.start, .start, .start⟩) he hP

/-! ## The machine -/

theorem Driven.after {M : Machine σ E C} {σ0 : σ} {es : Nat → E} : ∀ {l : List (Event C)} {st : σ × Nat} {d : Desk C},
    Driven M σ0 es l st → Serial l d →
    M.after σ0 es (tags l) = some (st.1, d.cur, st.2) ∧ ∀ r, d.busy = some r → given r l = some d.cur := by
  intro l
  induction l with
  | nil => intro st d h1 h2; cases h1; cases h2; exact ⟨rfl, fun r h => by cases h⟩
  | cons e l ih =>
    intro st' d' h1 h2
    obtain ⟨st, h1, hn⟩ := h1
    obtain ⟨d, h2, hd⟩ := h2
    obtain ⟨i1, i2⟩ := ih h1 h2
    cases e
    case implPushed =>
      cases hd
      obtain ⟨k1, k2⟩ := hn
      exact ⟨by simp only [tags, Machine.after, i1, Option.bind_some, k1, Option.map_some, k2], i2⟩
    case initRet c e =>
      obtain ⟨_, rfl⟩ := hd
      obtain ⟨x, k1, rfl, _, k2⟩ := hn
      exact ⟨by simp only [tags, Machine.after, i1, Option.bind_some, k1, Option.map_some, k2], fun r h => by cases h⟩
    case iterCall r s' c =>
      obtain ⟨_, rfl, rfl⟩ := hd
      cases hn
      exact ⟨i1, fun r h => by cases h; simp [given]⟩
    case iterOk r c =>
      obtain ⟨hb, rfl⟩ := hd
      obtain ⟨c0, k0, k1, k2⟩ := hn
      have := i2 r hb
      rw [k0, Option.some.injEq] at this
      exact ⟨by simp only [tags, Machine.after, i1, ← this, Option.bind_some, k1, Option.map_some, k2],
        fun r h => by cases h⟩
    case iterNil => exact hn.elim
    case iterErr => exact hn.elim
    case iterPanic => exact hn.elim
    all_goals
      cases hd
      cases hn
      exact ⟨i1, i2⟩

/-! ## Reading changes nothing -/

theorem plan_deeds : ∀ {l : List (Op × Res C)} {v : ClustStatus}, followsL l = some v →
    followsL (deeds l) = some v ∧ plan conf (deeds l) = plan conf l := by
  intro l
  induction l with
  | nil => intro v h; exact ⟨h, rfl⟩
  | cons x l ih =>
    obtain ⟨op, r⟩ := x
    intro v h
    cases hl : followsL l with
    | none => simp only [followsL, hl] at h; cases h
    | some w =>
      obtain ⟨i1, i2⟩ := ih hl
      have h' := h
      simp only [followsL, hl] at h'
      by_cases hr : reader op = true
      · have e : deeds ((op, r) :: l) = deeds l := by simp [deeds, hr]
        rw [e, i1, i2]
        have : afterL w op = w ∧ plan conf ((op, r) :: l) = plan conf l := by
          cases op <;> first | (cases hr; done) | skip
          all_goals
            refine ⟨?_, by simp only [plan]⟩
            cases w <;> rfl
        rw [this.1] at h'
        split at h'
        · exact ⟨h', this.2.symm⟩
        · cases h'
      · have e : deeds ((op, r) :: l) = (op, r) :: deeds l := by simp [deeds, hr]
        rw [e]
        exact ⟨by simp only [followsL, i1]; exact h', by simp only [plan, i1, i2, hl]⟩

end Algo
end Distclus
