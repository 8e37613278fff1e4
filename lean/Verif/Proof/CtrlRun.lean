import Verif.Proof.CtrlEdge
import Verif.Spec.CtrlRun
/-!
# Runs, acknowledgement channels and time-outs: invariants
-/
namespace Distclus
open Ctrl Spec
namespace Algo
variable {C : Type}

set_option linter.unusedVariables false
set_option linter.unusedSimpArgs false

section
variable {conf : Conf} {s s' : Algo C} {t u : Nat}

/-! ## The acknowledgement channels -/

/-- The channels and the record of their closing are unchanged. -/
structure AckSame (s s' : Algo C) : Prop where
  ack : s'.ack = s.ack
  acks : s'.acks = s.acks
  closed : s'.closed = s.closed
  log : closedChans s'.log = closedChans s.log

theorem AckSame.ret {s1 : Algo C} {r : Res C} (h : AckSame s s1) : AckSame s (s1.ret t r) :=
  ⟨by rw [ret_ack, h.ack], by rw [ret_acks, h.acks], by rw [ret_closed, h.closed], by
    rw [ret_log]; split
    · exact h.log
    · exact h.log⟩

theorem AckSame.sent {s1 : Algo C} {ok : Bool} {k : SendFrom} (h : AckSame s s1) :
    AckSame s (s1.sent t ok k) := by
  cases k
  · exact h.ret
  · exact ⟨h.1, h.2, h.3, h.4⟩
  · exact h.ret
  · exact ⟨h.1, h.2, h.3, h.4⟩

/-- How an action changes the channels. -/
theorem Step.ackFact (h : Step conf s s') :
    AckSame s s' ∨
    (s'.ack = s.acks ∧ s'.acks = s.acks + 1 ∧ s'.closed = s.closed ∧
      closedChans s'.log = closedChans s.log) ∨
    (s'.ack = s.ack ∧ s'.acks = s.acks ∧ s'.closed = s.ack :: s.closed ∧
      closedChans s'.log = s.ack :: closedChans s.log ∧ ∃ t, (s.thr t).pc = .c7 ∧
        ∀ u, (s'.thr u).pc ≠ .c7 ∨ (u ≠ t ∧ (s.thr u).pc = .c7)) := by
  cases h
  case r0 => exact .inr (.inl ⟨rfl, rfl, rfl, rfl⟩)
  case c7 t ht hp =>
    refine .inr (.inr ⟨rfl, rfl, rfl, rfl, t, hp, fun u => ?_⟩)
    by_cases hu : u = t
    · left; rw [go_pc, if_pos hu]; rintro ⟨⟩
    · by_cases h7 : (s.thr u).pc = .c7
      · exact .inr ⟨hu, h7⟩
      · left; rw [go_pc, if_neg hu]; exact h7
  all_goals first
    | (with_reducible refine .inl (AckSame.ret ?_)) <;> exact ⟨rfl, rfl, rfl, rfl⟩
    | (with_reducible refine .inl (AckSame.sent ?_)) <;> exact ⟨rfl, rfl, rfl, rfl⟩
    | exact .inl ⟨rfl, rfl, rfl, rfl⟩

/-- The channels are numbered in order of creation, and closed at most once. -/
structure AckInv (s : Algo C) : Prop where
  lock : LockInv s
  ack : s.ack < s.acks
  closed : ∀ a ∈ s.closed, a < s.acks
  nodup : s.closed.Nodup
  log : closedChans s.log = s.closed
  c7 : ∀ t, (s.thr t).pc = .c7 → s.ack ∉ s.closed

theorem AckInv.init : AckInv (new : Algo C) :=
  ⟨LockInv.init, Nat.zero_lt_one, (fun _ h => by cases h), List.Pairwise.nil, rfl,
    (fun _ h => by cases h)⟩

theorem Edge.toC7 {p : PC C} (h : Edge conf s u p .c7) : s.ack ∉ s.closed := by
  generalize hq : (PC.c7 : PC C) = q at h
  cases h
  case c6Default ha => exact ha
  case call op _ => cases op <;> cases hq
  case sd3Closed a k _ => cases k <;> simp only [sentPc, back] at hq <;> (try split at hq) <;> cases hq
  case sd3 a k _ _ _ _ => cases k <;> simp only [sentPc, back] at hq <;> (try split at hq) <;> cases hq
  case in0 => unfold beginPc at hq; split at hq <;> cases hq
  case pl0Init => unfold beginPc at hq; split at hq <;> cases hq
  all_goals first
    | cases hq
    | (simp only [back] at hq; split at hq <;> cases hq)
    | (split at hq <;> cases hq)

theorem AckInv.step (hI : AckInv s) (h : Step conf s s') : AckInv s' := by
  have hL := hI.lock.step h
  rcases h.ackFact with e | ⟨e1, e2, e3, e4⟩ | ⟨e1, e2, e3, e4, t, ht, e5⟩
  · refine ⟨hL, by rw [e.1, e.2]; exact hI.ack, by rw [e.2, e.3]; exact hI.closed,
      by rw [e.3]; exact hI.nodup, by rw [e.4, e.3]; exact hI.log, fun t h7 => ?_⟩
    rw [e.1, e.3]
    rcases h.edge hI.lock t with e | e <;> dsimp only at e
    · exact hI.c7 t (e ▸ h7)
    · rw [h7] at e; exact e.toC7
  · refine ⟨hL, by omega, by rw [e2, e3]; exact fun a h => Nat.lt_succ_of_lt (hI.closed a h),
      by rw [e3]; exact hI.nodup, by rw [e4, e3]; exact hI.log, fun t _ => ?_⟩
    rw [e1, e3]
    intro h; exact Nat.lt_irrefl _ (hI.closed _ h)
  · have hno := hI.c7 t ht
    refine ⟨hL, by rw [e1, e2]; exact hI.ack, ?_, ?_, by rw [e3, e4, hI.log], ?_⟩
    · rw [e2, e3]
      intro a ha
      rcases List.mem_cons.1 ha with rfl | ha
      · exact hI.ack
      · exact hI.closed a ha
    · rw [e3]; exact List.nodup_cons.2 ⟨hno, hI.nodup⟩
    · intro u hu
      rcases e5 u with h | ⟨h1, h2⟩
      · exact absurd hu h
      · have a := hI.lock.hS t (by rw [ht]; rfl)
        have b := hI.lock.hS u (by rw [h2]; rfl)
        rw [a] at b; cases b; exact absurd rfl h1

theorem Reachable.ack (h : Reachable conf s) : AckInv s :=
  Reachable.induction AckInv.init (fun _ _ hI hs => hI.step hs) h

/-! ## The limit of iterations -/

/-- Runs between the test of the limits and the record of the iteration. -/
def fIter : PC C → Nat
  | .r8 | .r9 | .rI | .rS _ | .rS' _ => 1
  | _ => 0

/-- Runs at the test of the limits. -/
def fTest : PC C → Nat
  | .r7 => 1
  | _ => 0

/-- Initialisations about to reset the counters. -/
def fReset : PC C → Nat
  | .in2 _ => 1
  | _ => 0

theorem tot_add (f g : PC C → Nat) : tot (fun p => f p + g p) s = tot f s + tot g s := by
  unfold tot
  generalize List.range s.n = l
  induction l with
  | nil => rfl
  | cons a l ih => simp only [List.map_cons, List.sum_cons, ih]; omega

theorem tot_waiting (P : PC C → Bool) : tot (fun p => if P p then 1 else 0) s = waiting P s := by
  unfold tot waiting
  generalize List.range s.n = l
  induction l with
  | nil => rfl
  | cons a l ih =>
    simp only [List.map_cons, List.sum_cons, ih, List.countP_cons]
    omega

theorem waiting_looping : waiting looping s = tot fIter s + tot fTest s + tot fReset s := by
  rw [← tot_waiting, ← tot_add, ← tot_add]
  congr 1; funext p; cases p <;> rfl

theorem totLe_one {s1 : Algo C} {f : PC C → Nat} {p p0 : PC C} (hn : s1.n = s.n)
    (ho : ∀ j, j ≠ t → (s1.thr j).pc = (s.thr j).pc) (ht : t < s.n) (hp : (s.thr t).pc = p0)
    (hp' : (s1.thr t).pc = p) (hf : f p ≤ f p0) : tot f s1 ≤ tot f s := by
  have := sum_range_update s.n t (fun j => f (s.thr j).pc) (fun j => f (s1.thr j).pc) ht
    (fun j hj => by rw [ho j hj])
  simp only [hp, hp'] at this
  unfold tot
  rw [hn]
  omega

theorem totLe_go {s1 : Algo C} {f : PC C → Nat} {p p0 : PC C} (h1 : s1.thr = s.thr) (h2 : s1.n = s.n)
    (ht : t < s.n) (hp : (s.thr t).pc = p0) (hf : f p ≤ f p0) : tot f (s1.go t p) ≤ tot f s :=
  totLe_one (t := t) h2 (fun j hj => by rw [go_pc, if_neg hj, h1]) ht hp (by rw [go_pc, if_pos rfl]) hf

theorem totLe_ret {s1 : Algo C} {f : PC C → Nat} {r : Res C} (h1 : s1.thr = s.thr)
    (h2 : s1.n = s.n) (ht : t < s.n) (hz : f .home = 0) (hz' : f .pu6 = 0) :
    tot f (s1.ret t r) ≤ tot f s := by
  refine totLe_one (t := t) (p := if (s1.thr t).inPush then .pu6 else .home) (by rw [ret_n, h2])
    (fun j hj => by rw [ret_pc, if_neg hj, h1]) ht rfl (by rw [ret_pc, if_pos rfl]) ?_
  split
  · rw [hz']; exact Nat.zero_le _
  · rw [hz]; exact Nat.zero_le _

theorem totLe_sent {s1 : Algo C} {ok : Bool} {k : SendFrom} (h1 : s1.thr = s.thr) (h2 : s1.n = s.n)
    (ht : t < s.n) : tot fIter (s1.sent t ok k) ≤ tot fIter s := by
  cases k
  · exact totLe_ret h1 h2 ht rfl rfl
  · exact totLe_go h1 h2 ht rfl (Nat.zero_le _)
  · exact totLe_ret h1 h2 ht rfl rfl
  · exact totLe_go h1 h2 ht rfl (Nat.zero_le _)

theorem tot_go_eq {s1 : Algo C} {f : PC C → Nat} {p p0 : PC C} (h1 : s1.thr = s.thr)
    (h2 : s1.n = s.n) (ht : t < s.n) (hp : (s.thr t).pc = p0) :
    tot f (s1.go t p) + f p0 = tot f s + f p := by
  have := tot_go (f := f) (s := s1) (t := t) (p := p) (by rw [h2]; exact ht)
  rw [h1, hp, tot_congr h1 h2] at this
  exact this

theorem fIter_notifying {p q : PC C} {st : OCStatus} (h : notifying p = some (st, q)) :
    fIter q = 0 := by
  unfold notifying at h
  split at h <;> cases h <;> first | rfl | (split <;> rfl)

/-- No action lets more runs through, except the test of the limits. -/
theorem Step.totIter (h : Step conf s s') :
    (tot fIter s' ≤ tot fIter s ∧ s'.iterations ≤ s.iterations) ∨
    (tot fIter s' = tot fIter s + 1 ∧ ∃ t, t < s.n ∧ (s.thr t).pc = .r7 ∧ iterDone conf s = false ∧
      s'.iterations = s.iterations ∧ s'.pushedData = s.pushedData) ∨
    (tot fIter s' + 1 = tot fIter s ∧ s'.iterations = s.iterations + 1 ∧
      s'.pushedData = s.pushedData) := by
  have two : ∀ {s2 : Algo C} {t j : Nat} {p q : PC C}, t ≠ j → j < s.n → t < s.n → s2.thr = (s.go j q).thr →
      s2.n = s.n → fIter q = 0 → fIter p = 0 → tot fIter (s2.go t p) ≤ tot fIter s := by
    intro s2 t j p q htj hj ht h1 h2 hq hp
    have a : tot fIter (s.go j q) ≤ tot fIter s :=
      totLe_go (s1 := s) rfl rfl hj rfl (by rw [hq]; exact Nat.zero_le _)
    have b : tot fIter (s2.go t p) ≤ tot fIter (s.go j q) :=
      totLe_go h1 h2 (by rw [go_n]; exact ht) rfl (by rw [hp]; exact Nat.zero_le _)
    omega
  cases h
  case client => left; rw [tot_spawn]; exact ⟨Nat.le_refl _, Nat.le_refl _⟩
  case r7 t ht hp hm hd =>
    refine .inr (.inl ⟨?_, t, ht, hp, hd, rfl, rfl⟩)
    have := tot_go_eq (f := fIter) (s1 := s) (p := if conf.finishing then PC.r8 else .r9) rfl rfl ht hp
    have e : fIter (if conf.finishing then PC.r8 else .r9 : PC C) = 1 := by split <;> rfl
    rw [e] at this
    exact this
  case rS' t ht c hp hr =>
    exact .inr (.inr ⟨tot_go_eq (f := fIter) (p := .r6) (p0 := .rS' c) rfl rfl ht hp, rfl, rfl⟩)
  all_goals
    left
    refine ⟨?_, by first
      | exact Nat.le_refl _
      | exact Nat.le_of_eq (ret_iterations ..)
      | exact Nat.le_of_eq (sent_iterations ..)
      | exact Nat.zero_le _⟩
  case in3Created t ht k hp hv =>
    refine Nat.le_trans (totLe_go (s := ({ s with notif := true } : Algo C).spawn .notifier .nl0) (p0 := .in3 k)
      rfl rfl (Nat.lt_succ_of_lt ht) ?_ (Nat.zero_le _)) ?_
    · rw [spawn_pc, if_neg (by exact Nat.ne_of_lt ht)]; exact hp
    · rw [tot_spawn]; exact Nat.le_refl _
  case pl1 t ht hp =>
    refine Nat.le_trans (totLe_go (s := (({ s with sm := none } : Algo C).ev (.runStart s.n)).spawn .run .r0)
      (p0 := .pl1) rfl rfl (Nat.lt_succ_of_lt ht) ?_ (Nat.zero_le _)) ?_
    · rw [spawn_pc, if_neg (by exact Nat.ne_of_lt ht)]; exact hp
    · rw [tot_spawn]; exact Nat.le_refl _
  case pl3Timeout t ht hp hm hc =>
    refine Nat.le_trans (totLe_ret (s := ({ s with timeout := some s.n } : Algo C).spawn .timer .ti0)
      rfl rfl (Nat.lt_succ_of_lt ht) rfl rfl) ?_
    rw [tot_spawn]; exact Nat.le_refl _
  case pu5 t ht hp hm =>
    refine totLe_one (t := t) (p := if s.newData = 0 then .pl0 else .pu6) rfl ?_ ht hp ?_ ?_
    · intro j hj; simp only [if_neg hj]
    · simp only [if_true]; split <;> rfl
    · split <;> exact Nat.zero_le _
  case pu6 t ht hp =>
    refine totLe_one (t := t) (p := .home) rfl ?_ ht hp ?_ (Nat.zero_le _)
    · intro j hj; simp only [if_neg hj]
    · simp only [if_true]
  case call t ht hp op hk =>
    exact totLe_go (s1 := s.ev _) rfl rfl ht hp (by cases op <;> exact Nat.zero_le _)
  case in0 t ht hp hs =>
    exact totLe_go rfl rfl ht hp (by cases s.status.value <;> exact Nat.zero_le _)
  case pl0Init t ht hp hs hv =>
    exact totLe_go rfl rfl ht hp (by cases s.status.value <;> exact Nat.zero_le _)
  case nl1 t ht st hp hm =>
    exact totLe_go (s1 := s) rfl rfl ht hp (by split <;> exact Nat.zero_le _)
  case nl0 t ht hp j hj st p hq =>
    exact two (by rintro rfl; rw [hp] at hq; cases hq) hj ht rfl rfl (fIter_notifying hq) rfl
  case sd3 t ht a k hp j hj i hq ha =>
    have a : tot fIter (s.go j (if i then .r1 else .r6)) ≤ tot fIter s :=
      totLe_go (s1 := s) rfl rfl hj hq (by cases i <;> exact Nat.zero_le _)
    exact Nat.le_trans (totLe_sent rfl rfl ht) a
  case c6 t ht hp j hj i hq ha =>
    exact two (by rintro rfl; rw [hp] at hq; cases hq) hj ht rfl rfl (by cases i <;> rfl) rfl
  case r1 t ht hp j hj st k hq =>
    exact two (by rintro rfl; rw [hp] at hq; cases hq) hj ht rfl rfl rfl rfl
  case r9 t ht hp j hj st k hq =>
    exact two (by rintro rfl; rw [hp] at hq; cases hq) hj ht rfl rfl rfl rfl
  case c4 t ht hp j hj st k hq =>
    exact two (by rintro rfl; rw [hp] at hq; cases hq) hj ht rfl rfl rfl rfl
  case c4Panic t ht e hp j hj st k hq =>
    exact two (by rintro rfl; rw [hp] at hq; cases hq) hj ht rfl rfl rfl rfl
  all_goals first
    | (with_reducible refine totLe_ret ?_ ?_ ‹_› ?_ ?_) <;> rfl
    | (with_reducible refine totLe_sent ?_ ?_ ‹_›) <;> rfl
    | (with_reducible refine totLe_go ?_ ?_ ‹_› ‹_› ?_) <;> first
        | rfl | exact Nat.le_refl _ | exact Nat.zero_le _

/-- How an action changes what the limit is about. -/
theorem Step.iterFact (h : Step conf s s') :
    (s'.iterations = s.iterations ∧ s.pushedData ≤ s'.pushedData ∧ tot fIter s' ≤ tot fIter s) ∨
    (s'.iterations = s.iterations ∧ s'.pushedData = s.pushedData ∧ tot fIter s' = tot fIter s + 1 ∧
      iterDone conf s = false ∧ ∃ t, t < s.n ∧ (s.thr t).pc = .r7) ∨
    (s'.iterations = s.iterations + 1 ∧ s'.pushedData = s.pushedData ∧
      tot fIter s' + 1 = tot fIter s) ∨
    (s'.iterations = 0 ∧ tot fIter s' ≤ tot fIter s ∧ ∃ t k, t < s.n ∧ (s.thr t).pc = .in2 k) := by
  rcases h.totIter with ⟨e, e'⟩ | ⟨e, t, ht, hp, hd, h1, h2⟩ | ⟨h1, h2, h3⟩
  · rcases h.data with ⟨x, hx, hxe, hf⟩ | ⟨-, hs⟩
    · cases x <;> try cases hxe
      · have := hf.1; omega
      · exact .inl ⟨hf.1, by rw [hf.2.1]; exact Nat.le_succ _, e⟩
      · exact .inl ⟨hf.1, Nat.le_of_eq hf.2.1.symm, e⟩
      · obtain ⟨h1, h2, -, -, -, t, k, ht, hp⟩ := hf
        exact .inr (.inr (.inr ⟨h1, e, t, k, ht, hp⟩))
    · exact .inl ⟨hs.1, Nat.le_of_eq hs.2.symm, e⟩
  · exact .inr (.inl ⟨h1, h2, e, hd, t, ht, hp⟩)
  · exact .inr (.inr (.inl ⟨h2, h3, h1⟩))

/-- The limit, with the iterations under way. -/
theorem Bounded.limit {m : Nat} (hc : 0 < conf.iter ∨ 0 < conf.iterPerData) (h : Bounded conf m s) :
    Reachable conf s ∧ waiting looping s ≤ m ∧
    s.iterations + tot fIter s ≤ conf.iter + s.pushedData * conf.iterPerData + (m - 1) := by
  induction h with
  | new => exact ⟨⟨[], rfl⟩, Nat.zero_le _, Nat.zero_le _⟩
  | next a h hn hb ih =>
    rename_i s s'
    obtain ⟨hR, hm, hI⟩ := ih
    refine ⟨hR.next hn, hb, ?_⟩
    rcases (Step.of_next hn).iterFact with ⟨h1, h2, h3⟩ | ⟨h1, h2, h3, hd, t, ht, hp⟩ |
        ⟨h1, h2, h3⟩ | ⟨h1, h3, t, k, ht, hp⟩
    · have := Nat.mul_le_mul_right conf.iterPerData h2
      omega
    · have hcnt := hR.count
      have h7 : 1 ≤ tot fTest s := by
        have := tot_pos (f := fTest) ht; rw [hp] at this; exact this
      rw [waiting_looping] at hm
      have hlt : s.figIter < conf.iter + s.figPushed * conf.iterPerData := by
        unfold iterDone at hd
        rw [Bool.and_eq_false_iff] at hd
        rcases hd with hd | hd
        · exact absurd hc (of_decide_eq_false hd)
        · exact Nat.lt_of_not_le (of_decide_eq_false hd)
      rw [hcnt.fi] at hlt
      have hle : s.figPushed ≤ s.pushedData := by have := hcnt.fp; omega
      have := Nat.mul_le_mul_right conf.iterPerData hle
      rw [h1, h2, h3]
      omega
    · rw [h1, h2]; omega
    · have h2' : 1 ≤ tot fReset s := by
        have := tot_pos (f := fReset) ht; rw [hp] at this; exact this
      rw [waiting_looping] at hm
      rw [h1]
      omega

end
end Algo
end Distclus
