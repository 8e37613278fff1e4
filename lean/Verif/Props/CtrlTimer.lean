import Verif.Proof.CtrlTimer
import Verif.Props.CtrlRun
/-!
# C68: with one client only the last time-out interrupts
-/
namespace Distclus
open Ctrl Spec Algo Trace

variable {C : Type} {conf : Conf} {s : Algo C}

/-- **C68.** When one goroutine uses the controller and there is no notifier, a time-out which sleeps and was
not disabled is the last one started: each `Play` disables the time-out of the previous one. -/
theorem C68_last (hn : conf.notifier = false) (h : OneClient conf s) {i j : Nat} (hi : (s.thr i).pc = .ti0)
    (hd : i ∉ s.disabled) (hj : j < s.n) (hk : (s.thr j).kind = .timer) : j ≤ i := by
  have hA := OneClient.armed hn h
  rcases hA.stored i hi with h1 | h1
  · exact absurd h1 hd
  · exact hA.last i j h1 hj hk

/-- **C68.** Hence a time-out which interrupts is, at that moment, the last one started. -/
theorem C68_interrupts (hn : conf.notifier = false) (h : OneClient conf s) {l1 l2 : List (Event C)} {i : Nat}
    (hl : s.log = l1 ++ .fired i :: l2) :
    ∃ s0 : Algo C, OneClient conf s0 ∧ s0.log = l2 ∧ i < s0.n ∧ (s0.thr i).kind = .timer ∧
      ∀ j, j < s0.n → (s0.thr j).kind = .timer → j ≤ i := by
  obtain ⟨s0, s1, h0, h1, hst, h2⟩ := OneClient.past h hl
  have key : (s0.thr i).pc = .ti0 ∧ i ∉ s0.disabled := by
    rcases hst.log with ⟨e, _⟩ | ⟨e, h3, h4⟩
    · rw [h2, h1] at e
      exact absurd e (List.cons_ne_self _ _)
    · rw [h2, h1] at h3
      cases h3
      exact ⟨h4.2.1, h4.2.2.1⟩
  have hA := OneClient.armed hn h0
  have hs : s0.timeout = some i := (hA.stored i key.1).resolve_left key.2
  refine ⟨s0, h0, h1, hA.born i hs, hA.kind i (hA.born i hs) key.1,
    fun j hj hk => C68_last hn h0 key.1 key.2 hj hk⟩

/-- After a second `Play` the first time-out, goroutine 3, is disabled, and the second one, goroutine 5, is not. -/
example : ∃ s : Algo Nat, OneClient timed s ∧ (s.thr 3).pc = .ti0 ∧ 3 ∈ s.disabled ∧ (s.thr 5).pc = .ti0 ∧
    5 ∉ s.disabled ∧ (s.thr 3).kind = .timer := by
  have key : ((exec timed (new : Algo Nat) (.client :: (replay ++ [call 0 .play, g 0, g 0, g 4, g 0, recv 4 0, g 4,
    recv 1 4, g 1, g 0, g 4, recv 0 4, g 0, g 0]).tail)).any fun s => decide ((s.thr 3).pc = .ti0 ∧ 3 ∈ s.disabled ∧
      (s.thr 5).pc = .ti0 ∧ 5 ∉ s.disabled ∧ (s.thr 3).kind = .timer)) = true := by decide +kernel
  cases he : exec timed (new : Algo Nat) (.client :: (replay ++ [call 0 .play, g 0, g 0, g 4, g 0, recv 4 0, g 4,
    recv 1 4, g 1, g 0, g 4, recv 0 4, g 0, g 0]).tail) with
  | none => rw [he] at key; cases key
  | some s =>
    rw [he] at key
    exact ⟨s, ⟨_, by decide, he⟩, of_decide_eq_true key⟩

end Distclus
