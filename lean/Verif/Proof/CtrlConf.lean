import Verif.Spec.CtrlConf
import Verif.Proof.CtrlSource
import Verif.Proof.CtrlFair
import Verif.Proof.CtrlTell
/-!
# The configuration changed while the algorithm works: proofs
-/
namespace Distclus
open Ctrl Spec Algo
variable {C : Type}

set_option linter.unusedSimpArgs false
set_option linter.unusedTactic false
set_option linter.unusedVariables false
set_option linter.unnecessarySeqFocus false
set_option linter.unreachableTactic false

namespace Tuned
variable {s s' : Tuned C} {t u : Nat}

theorem step_some {c : Choice C} (h : s.step t c = some s') :
    s.algo.step (s.used t) t c = some s'.algo ∧ s'.conf = s.conf ∧
    s'.taken = fun j => if j = t ∧ (s.algo.thr t).pc matches .r0 then s.conf else s.taken j := by
  unfold step at h
  split at h
  · cases h
  · cases h; exact ⟨by assumption, rfl, rfl⟩

/-- A property of the algorithm kept by all actions under all configurations is never lost. -/
theorem induction {P : Algo C → Prop} (h0 : P Algo.new) (hs : ∀ conf s s', P s → Step conf s s' → P s')
    {conf : Conf} {s : Tuned C} (h : Reachable conf s) : P s.algo := by
  obtain ⟨as, h⟩ := h
  have key : ∀ (as : List (Act C)) (s s' : Tuned C), P s.algo → s.exec as = some s' → P s'.algo := by
    intro as
    induction as with
    | nil => intro s s' hp he; cases he; exact hp
    | cons a as ih =>
      intro s s' hp he
      simp only [exec] at he
      split at he
      · cases he
      · rename_i s1 hn
        refine ih _ _ ?_ he
        cases a with
        | act t c => exact hs _ _ _ hp (Step.of_step (step_some hn).1)
        | client => cases hn; exact hs conf _ _ hp (Step.of_next (a := .client) rfl)
        | set conf => cases hn; exact hp
  exact key as _ _ h0 h

theorem Reachable.next {conf : Conf} {a : Act C} (h : Reachable conf s) (hn : s.next a = some s') :
    Reachable conf s' := by
  obtain ⟨as, h⟩ := h
  refine ⟨as ++ [a], ?_⟩
  have key : ∀ (as : List (Act C)) (s0 : Tuned C), s0.exec as = some s → s0.exec (as ++ [a]) = some s' := by
    intro as
    induction as with
    | nil => intro s0 he; cases he; simp only [List.nil_append, exec, hn]
    | cons b as ih =>
      intro s0 he
      simp only [exec, List.cons_append] at he ⊢
      split at he
      · cases he
      · exact ih _ he
  exact key as _ h

end Tuned

namespace Algo
variable {conf : Conf} {s s' : Algo C} {t u : Nat}

theorem some_ne {α : Type} {x : Option α} {a : α} (h : x = some a) : x ≠ none := by rw [h]; rintro ⟨⟩

set_option maxHeartbeats 1000000 in
/-- A goroutine which no other can meet is only moved by itself. -/
theorem step_still {c : Choice C} {q : PC C} (hq1 : sending q = none) (hq2 : notifying q = none)
    (hq3 : acking q = none) (h : s.step conf t c = some s') (hu : u ≠ t) (hp : (s.thr u).pc = q)
    (hn : u < s.n) : (s'.thr u).pc = q := by
  have hn' : u ≠ s.n := Nat.ne_of_lt hn
  have hgo : ∀ (s1 : Algo C) (p : PC C), (s1.thr u).pc = q → ((s1.go t p).thr u).pc = q := by
    intro s1 p h; rw [go_pc, if_neg hu, h]
  have hret : ∀ (s1 : Algo C) (r : Res C), (s1.thr u).pc = q → ((s1.ret t r).thr u).pc = q := by
    intro s1 p h; rw [ret_pc, if_neg hu, h]
  have hsent : ∀ (s1 : Algo C) (ok : Bool) (k : SendFrom), (s1.thr u).pc = q →
      ((s1.sent t ok k).thr u).pc = q := by
    intro s1 p k h; rw [sent_pc_ne hu, h]
  have hsp : ∀ (s1 : Algo C) (k : Kind) (p : PC C), s1.n = s.n → (s1.thr u).pc = q →
      ((s1.spawn k p).thr u).pc = q := by
    intro s1 k p e h; rw [spawn_pc, if_neg (by rw [e]; exact hn'), h]
  have hto : ∀ (s1 : Algo C) (j : Nat) (p : PC C), (s1.thr u).pc = q →
      (sending (s.thr j).pc ≠ none ∨ notifying (s.thr j).pc ≠ none ∨ acking (s.thr j).pc ≠ none) →
      ((s1.go j p).thr u).pc = q := by
    intro s1 j p h hj
    rw [go_pc, if_neg, h]
    rintro rfl
    rw [hp] at hj
    rcases hj with h | h | h
    · exact h hq1
    · exact h hq2
    · exact h hq3
  refine step_elim h ?_ ?_ ?_ ?_ ?_ ?_ ?_ ?_ ?_ ?_ ?_ ?_ ?_
  · intro _ h
    cases c <;> simp only [stepHome, reduceCtorEq] at h <;> split at h <;> cases h <;> exact hgo _ _ hp
  · intro h
    generalize (s.thr t).pc = p at h
    cases p <;> simp only [stepRead, reduceCtorEq] at h <;> split at h <;> cases h <;> exact hret _ _ hp
  · intro h
    generalize (s.thr t).pc = p at h
    cases p <;> cases c <;> simp only [stepPush, reduceCtorEq] at h <;> (try split at h) <;> cases h <;>
      first
        | exact hgo _ _ hp
        | exact hret _ _ hp
        | (dsimp only; rw [if_neg hu]; exact hp)
  · intro h
    generalize (s.thr t).pc = p at h
    cases p <;> cases c <;> dsimp only [stepInit, reduceCtorEq] at h <;> (repeat' split at h) <;> cases h <;>
      first
        | exact hgo _ _ hp
        | exact hret _ _ hp
        | (refine hgo _ _ ?_; split; · exact hsp _ _ _ rfl hp
           · exact hp)
        | exact hgo _ _ (hsp _ _ _ rfl hp)
  · intro h
    generalize (s.thr t).pc = p at h
    cases p <;> cases c <;> simp only [stepPlay, reduceCtorEq] at h <;> (repeat' split at h) <;> cases h <;>
      first
        | exact hgo _ _ hp
        | exact hret _ _ hp
        | exact hgo _ _ (hsp _ _ _ rfl hp)
        | exact hret _ _ (hsp _ _ _ rfl hp)
  · intro h
    generalize (s.thr t).pc = p at h
    cases p <;> cases c <;> simp only [stepPause, reduceCtorEq] at h <;> (repeat' split at h) <;> cases h <;>
      first
        | exact hgo _ _ hp
        | exact hret _ _ hp
  · intro h
    generalize (s.thr t).pc = p at h
    cases p <;> cases c <;> simp only [stepInterrupt, reduceCtorEq] at h <;> (repeat' split at h) <;> cases h <;>
      first
        | exact hgo _ _ hp
        | exact hret _ _ hp
  · intro h
    generalize (s.thr t).pc = p at h
    cases p <;> cases c <;> simp only [stepSend, reduceCtorEq] at h <;> (repeat' split at h) <;> cases h <;>
      first
        | exact hgo _ _ hp
        | exact hsent _ _ _ hp
        | exact hsent _ _ _ (hto _ _ _ hp (.inr (.inr (some_ne ‹_›))))
  · intro h
    generalize (s.thr t).pc = p at h
    cases p <;> cases c <;> (try cases ‹Bool›) <;> (try cases ‹Bool›) <;> (try cases ‹Bool›) <;>
      simp only [stepWait, reduceCtorEq] at h <;> (repeat' split at h) <;> (try cases h) <;>
      first
        | contradiction
        | exact hgo _ _ hp
        | exact hret _ _ hp
  · intro h
    generalize (s.thr t).pc = p at h
    cases p <;> cases c <;> simp only [stepRun, reduceCtorEq] at h <;> (repeat' split at h) <;> cases h <;>
      first
        | exact hgo _ _ hp
        | exact hgo _ _ (hto _ _ _ hp (.inl (some_ne ‹_›)))
  · intro h
    generalize (s.thr t).pc = p at h
    cases p <;> cases c <;> simp only [stepRecover, reduceCtorEq] at h <;> (repeat' split at h) <;> cases h <;>
      first
        | exact hgo _ _ hp
        | exact hgo _ _ (hto _ _ _ hp (.inl (some_ne ‹_›)))
        | exact hgo _ _ (hto _ _ _ hp (.inr (.inr (some_ne ‹_›))))
  · intro h
    generalize (s.thr t).pc = p at h
    cases p <;> cases c <;> simp only [stepNotif, reduceCtorEq] at h <;> (repeat' split at h) <;> cases h <;>
      first
        | exact hgo _ _ hp
        | exact hgo _ _ (hto _ _ _ hp (.inr (.inl (some_ne ‹_›))))
  · intro h
    generalize (s.thr t).pc = p at h
    cases p <;> cases c <;> simp only [stepTimer, reduceCtorEq] at h <;> (repeat' split at h) <;> cases h <;>
      exact hgo _ _ hp

/-- A run at the test of its limits is only moved by itself. -/
theorem step_r7 {c : Choice C} (h : s.step conf t c = some s') (hu : u ≠ t) (hp : (s.thr u).pc = .r7)
    (hn : u < s.n) : (s'.thr u).pc = .r7 := step_still rfl rfl rfl h hu hp hn

end Algo

/-! ## The limit a run works with -/

namespace Tuned
variable {s s' : Tuned C} {conf : Conf}

/-- The number of iterations the finishing condition of run `t` allows. -/
def allowed (s : Tuned C) (t : Nat) : Nat := (s.taken t).iter + s.algo.pushedData * (s.taken t).iterPerData

/-- A run which has passed the test of its limit has an iteration left. -/
def LimitInv (s : Tuned C) : Prop :=
  ∀ u, u < s.algo.n → fIter (s.algo.thr u).pc = 1 → Limits (s.taken u) → s.algo.iterations < allowed s u

theorem fIter_from {p q : PC C} {s : Algo C} {u : Nat} (h : Edge conf s u p q) (hq : fIter q = 1) :
    fIter p = 1 ∨ p = .r7 := by
  cases h
  case call op _ => cases op <;> cases hq
  case sd3Closed a k _ => cases k <;> simp only [sentPc, back] at hq <;> (try split at hq) <;> cases hq
  case sd3 a k _ _ _ _ => cases k <;> simp only [sentPc, back] at hq <;> (try split at hq) <;> cases hq
  case in0 => unfold beginPc at hq; split at hq <;> cases hq
  case pl0Init => unfold beginPc at hq; split at hq <;> cases hq
  all_goals first
    | cases hq; done
    | exact .inl rfl
    | exact .inr rfl
    | (simp only [back] at hq; split at hq <;> cases hq; done)
    | (split at hq <;> cases hq; done)
    | skip

theorem r0_from {p : PC C} {s : Algo C} {u : Nat} (h : Edge conf s u p .r0) : u = s.n := by
  generalize hq : (PC.r0 : PC C) = q at h
  cases h
  case bornRun hu _ _ => exact hu
  case call op _ => cases op <;> cases hq
  case sd3Closed a k _ => cases k <;> simp only [sentPc, back] at hq <;> (try split at hq) <;> cases hq
  case sd3 a k _ _ _ _ => cases k <;> simp only [sentPc, back] at hq <;> (try split at hq) <;> cases hq
  case in0 => unfold beginPc at hq; split at hq <;> cases hq
  case pl0Init => unfold beginPc at hq; split at hq <;> cases hq
  all_goals first
    | cases hq; done
    | (simp only [back] at hq; split at hq <;> cases hq; done)
    | (split at hq <;> cases hq; done)

theorem core (h : Reachable conf s) : CountCore s.algo :=
  induction CountCore.init (fun _ _ _ hI hs => hI.step hs) h

theorem LimitInv.next (hR : Reachable conf s) (hI : LimitInv s) {a : Act C} (hn : s.next a = some s')
    (h1 : waiting looping s.algo ≤ 1) (h1' : waiting looping s'.algo ≤ 1) : LimitInv s' := by
  have hc := core hR
  have hL := hc.hist.lock
  cases a with
  | set c => cases hn; exact hI
  | client =>
    cases hn
    intro u hu hf hl
    simp only [spawn_pc] at hf
    split at hf
    · cases hf
    · exact hI u (hL.lt (by intro hd; rw [hd] at hf; cases hf)) hf hl
  | act t c =>
    obtain ⟨hs, hconf, htk⟩ := step_some hn
    have hst := Step.of_step hs
    rw [waiting_looping] at h1 h1'
    intro u hu hf hl
    have hpos' : 1 ≤ tot fIter s'.algo := by
      have := tot_pos (f := fIter) hu; rw [hf] at this; exact this
    have hold : fIter (s.algo.thr u).pc = 1 ∨ (s.algo.thr u).pc = .r7 := by
      rcases hst.edge hL u with e | e <;> dsimp only at e
      · left; rw [← e]; exact hf
      · exact fIter_from e hf
    have hun : u < s.algo.n := hL.lt (by
      intro hd; rw [hd] at hold; rcases hold with h | h <;> cases h)
    have htu : s'.taken u = s.taken u := by
      rw [htk]
      dsimp only
      rw [if_neg]
      rintro ⟨rfl, h0⟩
      generalize (s.algo.thr u).pc = p at h0 hold
      cases p <;> first | cases h0; done | (rcases hold with h | h <;> cases h)
    rw [htu] at hl
    have hall : (s.taken u).iter + s.algo.pushedData * (s.taken u).iterPerData = allowed s u := rfl
    have hall' : allowed s' u = (s.taken u).iter + s'.algo.pushedData * (s.taken u).iterPerData := by
      unfold allowed; rw [htu]
    rcases hold with hold | hold
    · have hpos : 1 ≤ tot fIter s.algo := by
        have := tot_pos (f := fIter) hun; rw [hold] at this; exact this
      have hlt := hI u hun hold hl
      rcases hst.iterFact with ⟨e1, e2, e3⟩ | ⟨-, -, -, -, v, hv, hp⟩ | ⟨e1, e2, e3⟩ | ⟨-, -, v, k, hv, hp⟩
      · have := Nat.mul_le_mul_right (s.taken u).iterPerData e2
        omega
      · have := tot_pos (f := fTest) hv; rw [hp] at this; simp only [fTest] at this; omega
      · omega
      · have := tot_pos (f := fReset) hv; rw [hp] at this; simp only [fReset] at this; omega
    · have hpos : 1 ≤ tot fTest s.algo := by
        have := tot_pos (f := fTest) hun; rw [hold] at this; exact this
      have htu' : u = t := by
        by_contra hne
        have := step_r7 hs hne hold hun
        rw [this] at hf; cases hf
      subst htu'
      have hused : s.used u = s.taken u := by unfold used; rw [hold]; rfl
      rw [hused] at hst
      rcases hst.iterFact with ⟨e1, e2, e3⟩ | ⟨e1, e2, e3, hd, -⟩ | ⟨e1, e2, e3⟩ | ⟨-, -, v, k, hv, hp⟩
      · omega
      · have hlt : s.algo.figIter < (s.taken u).iter + s.algo.figPushed * (s.taken u).iterPerData := by
          unfold iterDone at hd
          rw [Bool.and_eq_false_iff] at hd
          rcases hd with hd | hd
          · exact absurd (show 0 < _ ∨ 0 < _ from hl) (of_decide_eq_false hd)
          · exact Nat.lt_of_not_le (of_decide_eq_false hd)
        rw [hc.fi] at hlt
        have hle : s.algo.figPushed ≤ s.algo.pushedData := by have := hc.fp; omega
        have := Nat.mul_le_mul_right (s.taken u).iterPerData hle
        rw [hall', e1, e2]
        omega
      · omega
      · have := tot_pos (f := fReset) hv; rw [hp] at this; simp only [fReset] at this; omega

theorem Lone.reachable {s0 : Tuned C} (h : Lone s0 s) (hR : Reachable conf s0) : Reachable conf s := by
  induction h with
  | refl => exact hR
  | next a _ hn _ ih => exact ih.next hn

theorem Lone.limit {s0 : Tuned C} (h : Lone s0 s) (hR : Reachable conf s0) (h1 : waiting looping s0.algo ≤ 1)
    (hI : LimitInv s0) : waiting looping s.algo ≤ 1 ∧ LimitInv s := by
  induction h with
  | refl => exact ⟨h1, hI⟩
  | next a h hn hb ih => exact ⟨hb, ih.2.next (Lone.reachable h hR) hn ih.1 hb⟩

/-- What a run has read does not change any more. -/
theorem taken_next (hR : Reachable conf s) {a : Act C} (hn : s.next a = some s') {t : Nat} (ht : t < s.algo.n)
    (hp : (s.algo.thr t).pc ≠ .r0) :
    t < s'.algo.n ∧ (s'.algo.thr t).pc ≠ .r0 ∧ s'.taken t = s.taken t := by
  have hL := (core hR).hist.lock
  have move : ∀ c s1, Step c s.algo s1 → t < s1.n ∧ (s1.thr t).pc ≠ .r0 := by
    intro c s1 hs
    refine ⟨by rcases hs.nFact with e | e <;> omega, fun h0 => ?_⟩
    rcases hs.edge hL t with e | e <;> dsimp only at e
    · exact hp (e ▸ h0)
    · rw [h0] at e
      exact absurd (r0_from e) (Nat.ne_of_lt ht)
  cases a with
  | set c => cases hn; exact ⟨ht, hp, rfl⟩
  | client =>
    cases hn
    obtain ⟨a, b⟩ := move s.conf _ (Step.of_next (a := .client) rfl)
    exact ⟨a, b, rfl⟩
  | act u c =>
    obtain ⟨hs, -, htk⟩ := step_some hn
    obtain ⟨a, b⟩ := move _ _ (Step.of_step hs)
    refine ⟨a, b, ?_⟩
    rw [htk]
    dsimp only
    rw [if_neg]
    rintro ⟨rfl, h0⟩
    generalize (s.algo.thr t).pc = p at h0 hp
    cases p <;> first | cases h0; done | exact hp rfl

theorem Lone.taken {s0 : Tuned C} (h : Lone s0 s) (hR : Reachable conf s0) {t : Nat} (ht : t < s0.algo.n)
    (hp : (s0.algo.thr t).pc ≠ .r0) :
    t < s.algo.n ∧ (s.algo.thr t).pc ≠ .r0 ∧ s.taken t = s0.taken t := by
  induction h with
  | refl => exact ⟨ht, hp, rfl⟩
  | next a h hn hb ih =>
    obtain ⟨a, b, c⟩ := ih
    obtain ⟨a', b', c'⟩ := taken_next (Lone.reachable h hR) hn a b
    exact ⟨a', b', c'.trans c⟩

end Tuned
end Distclus
