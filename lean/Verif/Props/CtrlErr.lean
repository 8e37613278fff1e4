import Verif.Proof.CtrlBlame
import Verif.Props.CtrlTell
import Verif.Props.CtrlLate
/-!
# C157: where the errors returned by the calls come from
-/
namespace Distclus
open Ctrl Algo Spec Trace

section
variable {C : Type} {conf : Conf} {s : Algo C} {l1 l2 : List (Event C)} {t : Nat} {op : Op} {e : Err}

/-- **C157.** In every execution, whatever the clients do: an error returned by `Init`, `Play`, `Pause`, `Stop` or `Wait`
is a documented error of this call, or has been caused before the return by a panic, a time-out or the implementation. -/
theorem C157_returned (h : Reachable conf s) (hl : s.log = l1 ++ .ret t (.err (some e)) :: l2)
    (hp : pending t l2 = some op) (ho : op ∈ [.init, .play, .pause, .stop] ∨ ∃ c d, op = .wait c d) :
    Usual op e ∨ Blamed l2 e := by
  have ht := h.tells hl hp
  have hb : current l2 = ⟨.finished, some e⟩ → Blamed l2 e := fun hc =>
    h.blamed.2 (l1 ++ [.ret t (.err (some e))]) l2 e (by rw [hl]; simp) (by rw [hc])
  rcases ho with ho | ⟨c, d, rfl⟩
  · simp only [List.mem_cons, List.not_mem_nil, or_false] at ho
    rcases ho with rfl | rfl | rfl | rfl
    · rcases ht with ⟨h1, -⟩ | ⟨-, h2⟩
      · exact .inl (Option.some.inj h1)
      · exact .inr (hb h2)
    · rcases ht with ⟨h1, -⟩ | ⟨-, h2⟩
      · exact .inl h1
      · exact .inr (hb h2)
    · exact .inl ht
    · rcases ht with ⟨h1, -⟩ | ⟨h2, -⟩
      · exact .inl h1
      · exact .inr (hb h2)
  · rcases ht with ⟨h1, -⟩ | ⟨h1, -⟩ | ⟨-, ⟨h1, h2, h3, -⟩ | h1 | h1⟩
    · exact .inl (.inl h1)
    · exact .inl (.inr (.inl h1))
    · exact .inl (.inr (.inr (.inl ⟨h1, h2, h3⟩)))
    · exact .inl (.inr (.inr (.inr h1)))
    · exact .inr (hb h1)

/-- **C157 (faultless).** Without a time-out in the configuration, and with an implementation without fault, the only
error which is not documented, in the status or as the result of a call, is the panic of a run which sends on a closed
channel. -/
theorem C157_faultless (h : Reachable conf s) (hf : Faultless s.log) (hc : conf.timeout = false) :
    (∀ e, s.status.error = some e → e = sendOnClosed ∧ ∃ a, .closed a ∈ s.log) ∧
    ∀ l1 l2 t op e, s.log = l1 ++ .ret t (.err (some e)) :: l2 → pending t l2 = some op →
      (op ∈ [.init, .play, .pause, .stop] ∨ ∃ c d, op = .wait c d) →
      Usual op e ∨ e = sendOnClosed ∧ ∃ a, .closed a ∈ s.log := by
  have key : ∀ l1 l2 e, s.log = l1 ++ l2 → Blamed l2 e → e = sendOnClosed ∧ ∃ a, .closed a ∈ s.log := by
    intro l1 l2 e hl hb
    have hm : ∀ x, x ∈ l2 → x ∈ s.log := fun x hx => by rw [hl]; exact List.mem_append_right _ hx
    rcases hb with ⟨h1, a, ha⟩ | ⟨-, i, hi⟩ | ⟨c, hx⟩ | ⟨r, hx⟩ | ⟨r, hx⟩
    · exact ⟨h1, a, hm _ ha⟩
    · rw [h.timerConf.2 ⟨i, hm _ hi⟩] at hc; cases hc
    · exact absurd (hm _ hx) (hf.1 c e)
    · exact absurd (hm _ hx) (hf.2.1 r e)
    · exact absurd (hm _ hx) (hf.2.2 r e)
  refine ⟨fun e he => key [] s.log e rfl (h.blamed.1.1 e he), fun l1 l2 t op e hl hp ho => ?_⟩
  rcases C157_returned h hl hp ho with h1 | h1
  · exact .inl h1
  · exact .inr (key (l1 ++ [.ret t (.err (some e))]) l2 e (by rw [hl]; simp) h1)

end

/-- After `earlyStop` (C113) the second run obeys the command and acknowledges it on a closed channel. -/
def brokenStop : List (Act Nat) := earlyStop ++ [g 3, recv 1 3, g 1, g 3, g 3, g 3]

/-- No fault, as a test. -/
theorem faultless_of_test {l : List (Event Nat)} (h : l.all (fun x => match x with
    | .initRet _ (some _) => false | .iterErr _ _ => false | .iterPanic _ _ => false | _ => true) = true) :
    Faultless l := by
  rw [List.all_eq_true] at h
  exact ⟨fun c e hx => (nomatch h _ hx), fun r e hx => (nomatch h _ hx), fun r e hx => (nomatch h _ hx)⟩

/-- **C157 (claim examined: with an implementation which never fails and no time-out the status has no error).** One
client alone, `Batch`, then `Play` and `Stop` which are successful: the algorithm is Finished with the panic of its own run. -/
theorem C157_broken : ∃ s : Algo Nat, OneClient ⟨1, 0, 0, false, false, false⟩ s ∧ Faultless s.log ∧
    s.status = ⟨.finished, some sendOnClosed⟩ ∧
    (session s.log).2.take 2 = [(.stop, .err none), (.play, .err none)] := by
  have key : (exec ⟨1, 0, 0, false, false, false⟩ (new : Algo Nat) brokenStop).any (fun s : Algo Nat =>
    s.log.all (fun x => match x with
      | .initRet _ (some _) => false | .iterErr _ _ => false | .iterPanic _ _ => false | _ => true) &&
    decide (s.status = ⟨.finished, some sendOnClosed⟩ ∧
      (session s.log).2.take 2 = [(.stop, .err none), (.play, .err none)])) = true := by decide +kernel
  cases he : exec ⟨1, 0, 0, false, false, false⟩ (new : Algo Nat) brokenStop with
  | none => rw [he] at key; cases key
  | some s =>
    rw [he] at key
    obtain ⟨h1, h2⟩ := (Bool.and_eq_true _ _).mp key
    exact ⟨s, ⟨brokenStop.tail, by decide, he⟩, faultless_of_test h1, of_decide_eq_true h2⟩

/-- The hypotheses of `C157_returned` are met, the error being that of the time-out (`C156_wait`). -/
example : ∃ (s : Algo Nat) (l1 l2 : List (Event Nat)), Reachable twoTimed s ∧
    s.log = l1 ++ .ret 0 (.err (some .timeout)) :: l2 ∧ pending 0 l2 = some (.wait false false) :=
  lastTold (bothDone ++ wakes ++ [g 0]) _ _ _ (by decide +kernel)

/-- Here it is not a documented error of this call. -/
example : ¬ Usual (.wait false false) .timeout := by rintro (h | h | ⟨h, -⟩ | ⟨-, h⟩) <;> cases h

end Distclus
