import Verif.Proof.CtrlLog
import Verif.Spec.Ctrl
/-!
# The history of the status
-/
namespace Distclus
open Ctrl Spec
namespace Algo
variable {C : Type}

theorem HistoryOk.cons {e : Event C} {l : List (Event C)} (h : HistoryOk l) (he : isSet e = false) :
    HistoryOk (e :: l) := by
  cases e <;> first | exact h | cases he

theorem current_cons {e : Event C} {l : List (Event C)} (he : isSet e = false) :
    current (e :: l) = current l := by
  cases e <;> first | rfl | cases he

/-- The status an action assigns may follow the present one. -/
theorem SetFact.succ {s : Algo C} {st : OCStatus} (hL : LockInv s) (hI : StInv s)
    (h : SetFact s st) : StatusSucc s.status st := by
  have hmid : (∀ t, InMid (s.thr t).pc → False) → s.status.value ≠ .initializing := fun h hv => by
    obtain ⟨j, hj⟩ := hI.mid hv; exact h j hj
  have hfree : s.sm = none → s.status.value ≠ .initializing := fun h => hI.notMid hL h
  have hcmd : Cmd st → s.status.value ≠ .created → s.status.value ≠ .initializing →
      StatusSucc s.status st := fun h1 h2 h3 =>
    ⟨h1.ne.1, h1.coh, fun h => absurd h h2, fun h => absurd h h3, fun h => absurd h h1.ne.2⟩
  rcases h with ⟨t, k, hp, rfl⟩ | ⟨t, k, hp, rfl⟩ | ⟨t, k, e, hp, rfl⟩ | ⟨hs, hv, t, e, hp, rfl⟩ |
    ⟨hs, t, hp⟩ | ⟨hs, t, hp, rfl⟩ | ⟨hs, t, e, hp, rfl⟩ | ⟨t, j, k, hp, hq⟩
  · have hv := hI.pc t
    rw [hp] at hv
    have hv : s.status.value = .finished ∨ s.status.value = .created := hv
    refine ⟨by rintro ⟨⟩, fun h => absurd rfl h, fun _ => rfl, fun h => ?_, fun _ => hv.symm⟩
    rw [h] at hv; rcases hv with h | h <;> cases h
  · have hv := hI.pc t
    rw [hp] at hv
    have hv : s.status.value = .initializing := hv
    exact ⟨by rintro ⟨⟩, fun h => absurd rfl h, fun h => (by rw [hv] at h; cases h), fun _ => .inl rfl,
      fun h => by cases h⟩
  · have hv := hI.pc t
    rw [hp] at hv
    have hv : s.status.value = .initializing := hv
    exact ⟨by rintro ⟨⟩, fun _ => rfl, fun h => (by rw [hv] at h; cases h),
      fun _ => .inr ⟨rfl, by rintro ⟨⟩⟩, fun h => by cases h⟩
  · exact hcmd (.inr (.inr ⟨e, rfl⟩)) (by rw [hv]; rintro ⟨⟩) (by rw [hv]; rintro ⟨⟩)
  · have hv := hI.pc t
    have : s.status.value ≠ .created ∧ Cmd st := by
      rcases hp with hp | hp <;> (rw [hp] at hv; exact hv)
    exact hcmd this.2 this.1 (hfree hs)
  · have hv := hI.pc t
    rw [hp] at hv
    exact ⟨by rintro ⟨⟩, fun h => absurd rfl h, fun h => absurd h hv, fun h => absurd h (hfree hs),
      fun h => by cases h⟩
  · have hv := hI.pc t
    have : s.status.value ≠ .created := by
      rcases hp with hp | hp <;> (rw [hp] at hv; exact hv)
    exact hcmd (.inr (.inr ⟨_, rfl⟩)) this (hfree hs)
  · have hv := hI.pc t
    rw [hp] at hv
    have hm := hI.pc j
    rw [hq] at hm
    refine hcmd (MsgOf.cmd hm) hv (hmid ?_)
    intro i hi
    by_cases hit : i = t
    · subst hit; rw [hp] at hi; exact hi
    · have := hL.otherS (t := t) (by rw [hp]; rfl) i hit
      rw [hi.holdsS] at this; cases this

/-- The record of the status. -/
structure HistInv (s : Algo C) : Prop where
  lock : LockInv s
  st : StInv s
  cur : current s.log = s.status
  hist : HistoryOk s.log
  obs : ObservedOk s.log

theorem HistInv.init : HistInv (new : Algo C) :=
  ⟨LockInv.init, StInv.init, rfl, trivial, trivial⟩

theorem HistInv.step {conf : Conf} {s s' : Algo C} (hI : HistInv s) (h : Step conf s s') :
    HistInv s' := by
  refine ⟨hI.lock.step h, hI.st.step hI.lock h, ?_, ?_, ?_⟩
  · rcases h.log with ⟨h1, h2⟩ | ⟨e, h1, h2, h3⟩
    · rw [h1, h2]; exact hI.cur
    · cases he : isSet e
      · rw [h1, h2 he, current_cons he]; exact hI.cur
      · cases e <;> try cases he
        rw [h1, h3.1]; rfl
  · rcases h.log with ⟨h1, h2⟩ | ⟨e, h1, h2, h3⟩
    · rw [h1]; exact hI.hist
    · rw [h1]
      cases he : isSet e
      · exact HistoryOk.cons hI.hist he
      · cases e <;> try cases he
        refine ⟨?_, hI.hist⟩
        rw [hI.cur]
        exact h3.2.succ hI.lock hI.st
  · rcases h.log with ⟨h1, h2⟩ | ⟨e, h1, h2, h3⟩
    · rw [h1]; exact hI.obs
    · rw [h1]
      cases e <;> first | exact hI.obs | skip
      rename_i t r
      cases r <;> first | exact hI.obs | skip
      obtain ⟨-, rfl, hs⟩ := h3
      exact ⟨hI.cur.symm, hI.st.err, hI.st.notMid hI.lock hs, hI.obs⟩

theorem Reachable.hist {conf : Conf} {s : Algo C} (h : Reachable conf s) : HistInv s :=
  Reachable.induction HistInv.init (fun _ _ => HistInv.step) h

end Algo
end Distclus
