import Verif.Props.CtrlSeq
import Verif.Props.CtrlBatch
/-!
# C91: a second `Batch` can hang
-/
namespace Distclus
open Ctrl Algo Spec Trace

/-- The client is in the loop of `Wait`, the new run waits for its first command, the others do nothing. -/
structure Hung {C : Type} (s : Algo C) : Prop where
  n : s.n = 4
  p0 : (s.thr 0).pc = .wa2 false false
  p1 : (s.thr 1).pc = .nl0
  p2 : (s.thr 2).pc = .dead
  p3 : (s.thr 3).pc = .r1
  status : s.status = ⟨.running, none⟩

/-- Nothing but a further client changes it: the only step is one more look at the status by `Wait`. -/
theorem Hung.next {C : Type} {conf : Conf} {s s' : Algo C} {a : Act C} (h : Hung s) (ha : a ≠ .client)
    (hs : s.next conf a = some s') : s' = s.go 0 (.wa2 false false) := by
  obtain ⟨hn, h0, h1, h2, h3, hv⟩ := h
  cases a with
  | client => exact absurd rfl ha
  | act t c =>
    simp only [Algo.next, step] at hs
    split at hs
    · rename_i ht
      have : t = 0 ∨ t = 1 ∨ t = 2 ∨ t = 3 := by omega
      have hj : ∀ j, j < s.n → j = 0 ∨ j = 1 ∨ j = 2 ∨ j = 3 := by intro j hj; omega
      rcases this with rfl | rfl | rfl | rfl
      · rw [h0] at hs
        cases c <;> simp [stepWait, hv] at hs
        exact hs.2.symm
      · rw [h1] at hs
        cases c <;> simp only [stepNotif] at hs <;> first | (cases hs; done) | skip
        rename_i j
        by_cases hj' : j < s.n
        · rcases hj j hj' with rfl | rfl | rfl | rfl <;> simp [notifying, h0, h1, h2, h3] at hs
        · simp only [hj', if_false] at hs; split at hs <;> cases hs
      · rw [h2] at hs
        cases c <;> simp at hs
      · rw [h3] at hs
        cases c <;> simp only [stepRun] at hs <;> first | (cases hs; done) | skip
        rename_i j
        by_cases hj' : j < s.n
        · rcases hj j hj' with rfl | rfl | rfl | rfl <;> simp [sending, h0, h1, h2, h3] at hs
        · simp only [hj', if_false] at hs; split at hs <;> cases hs
    · cases hs

theorem Hung.go {C : Type} {s : Algo C} (h : Hung s) : Hung (s.go 0 (.wa2 false false)) := by
  obtain ⟨hn, h0, h1, h2, h3, hv⟩ := h
  refine ⟨hn, ?_, ?_, ?_, ?_, hv⟩ <;> rw [go_pc] <;> simp [h1, h2, h3]

theorem Hung.exec {C : Type} {conf : Conf} {as : List (Act C)} : ∀ {s s' : Algo C}, Hung s → Act.client ∉ as →
    Algo.exec conf s as = some s' → Hung s' ∧ s'.log = s.log := by
  induction as with
  | nil => intro s s' h _ he; cases he; exact ⟨h, rfl⟩
  | cons a as ih =>
    intro s s' h hn he
    simp only [Algo.exec] at he
    cases hs : s.next conf a with
    | none => rw [hs] at he; cases he
    | some s1 =>
      rw [hs] at he
      have e := h.next (by rintro rfl; exact hn List.mem_cons_self) hs
      subst e
      have := ih h.go (fun h => hn (List.mem_cons_of_mem _ h)) he
      exact ⟨this.1, this.2⟩

/-- The client has called `Batch` and is about to call it again; the first run has set Ready and is in
its deferred `recover`. -/
def batchOnce : List (Act Nat) :=
  [.client, call 0 .stop, g 0, call 0 .play, g 0, g 0, recv 1 0, g 1, .act 0 (.initRet (some 5) none), g 0, g 0,
    g 0, recv 1 0, g 1, g 0, g 0, g 2, g 0, recv 2 0, g 2, recv 1 2, g 1, g 0, g 2, recv 0 2, g 0, g 0] ++
  iterate 6 ++ [g 2, g 2, g 2, g 2, recv 1 2, g 1] ++
  [call 0 (.wait false false), g 0, call 0 .stop, g 0, recv 1 0, g 1, g 0]

/-- The second `Batch`: its command Running is consumed by the first run. -/
def batchTwice : List (Act Nat) :=
  batchOnce ++ [call 0 .stop, g 0] ++ replayFinished [g 2, g 2, g 2, recv 2 0, recv 1 2, g 1, .act 2 .default,
    g 2, g 2, g 0, g 0, g 0, g 0] ++ [call 0 (.wait false false), g 0, g 0]

/-- **C91 (claim examined).** A single client, with a limit of one iteration, calls `Batch` (Stop, Play,
Wait, Stop) and then `Batch` again: the first one succeeds, and the second one can hang for ever in its
`Wait`, with the status Running and a run which never iterates. Only another goroutine could end it. -/
theorem C91_second_batch : ∃ s : Algo Nat, OneClient ⟨1, 0, 0, false, false, false⟩ s ∧
    session s.log = (some (.wait false false), [(.play, .err none), (.stop, .err (some .notAlive)), (.stop, .err none),
      (.wait false false, .err none), (.play, .err none), (.stop, .err (some .notAlive))]) ∧
    (∀ as s', Act.client ∉ as → exec ⟨1, 0, 0, false, false, false⟩ s as = some s' →
      s'.log = s.log ∧ s'.status.value = .running ∧ s'.n = 4) := by
  have key : (exec ⟨1, 0, 0, false, false, false⟩ (new : Algo Nat) batchTwice).any (fun s : Algo Nat =>
    decide (session s.log = (some (.wait false false), [(.play, .err none), (.stop, .err (some .notAlive)), (.stop, .err none),
      (.wait false false, .err none), (.play, .err none), (.stop, .err (some .notAlive))]) ∧ s.n = 4 ∧
      (s.thr 0).pc = .wa2 false false ∧ (s.thr 1).pc = .nl0 ∧ (s.thr 2).pc = .dead ∧ (s.thr 3).pc = .r1 ∧
      s.status = ⟨.running, none⟩)) = true := by decide +kernel
  cases he : exec ⟨1, 0, 0, false, false, false⟩ (new : Algo Nat) batchTwice with
  | none => rw [he] at key; cases key
  | some s =>
    rw [he] at key
    obtain ⟨a, b, c, d, e, f, i⟩ := of_decide_eq_true key
    refine ⟨s, ⟨batchTwice.tail, by decide, he⟩, a, fun as s' hn hx => ?_⟩
    have := Hung.exec ⟨b, c, d, e, f, i⟩ hn hx
    exact ⟨this.2, by rw [this.1.status], this.1.n⟩

end Distclus
