import Verif.Proof.CtrlPanic
import Verif.Spec.CtrlTrace
/-!
# C96: a panic of the implementation during `Init`
-/
namespace Distclus
open Ctrl Algo Spec Trace

variable {C : Type} {conf : Conf} {s s1 s' : Algo C}

/-- Every call which takes the status lock blocks, for ever and whatever happens. -/
def Dead (conf : Conf) (s : Algo C) : Prop :=
  ∀ as s', exec conf s as = some s' → ∀ u op, statusOp op = true → (s'.thr u).pc = entry op →
    (∀ c, s'.next conf (.act u c) = none) ∧ NeverReturns conf s' u

theorem Algo.Lost.dead {t : Nat} (h : Lost t s) : Dead conf s := fun as s' hx _ _ hop hu =>
  (exec_induction (P := Lost t) (fun _ _ h hs => h.step hs) as s s' h hx).blocked hop hu

/-- **C96 (claim examined).** When the implementation panics during the initialisation made by a `Play`, and
the caller recovers, the status lock stays locked: in every continuation, every call of `Status`, `Init`,
`Play`, `Pause`, `Stop` or `Wait` is blocked at its first action, and never returns. -/
theorem C96_play (h : Reachable conf s) {t : Nat} (hp : (s.thr t).pc = .in5 .play)
    (hi : s.initPanic t = some s1) : (s1.thr t).pc = .home ∧ Dead conf s1 := by
  obtain ⟨k, hk, rfl⟩ := initPanic_elim hi
  rw [hp] at hk; cases hk
  exact ⟨by simp, Lost.dead (t := t) ⟨initPanic_lock h.lock hi, h.lock.hS t (by rw [hp]; rfl), by simp [holdsS]⟩⟩

/-- **C96 (claim examined).** When the implementation panics during the first initialisation, made by `Init`,
and the caller recovers, the algorithm is for ever Initializing: whatever is called later, the status does not
change, no initialisation, no run and no iteration takes place. -/
theorem C96_init (h : Reachable conf s) (hf : ∀ c e, .initRet c e ∉ s.log) {t : Nat}
    (hp : (s.thr t).pc = .in5 .init) (hi : s.initPanic t = some s1) {as : List (Act C)}
    (hx : exec conf s1 as = some s') : s'.status = .new .initializing ∧
    ∃ l, s'.log = l ++ s.log ∧ (∀ st, .set st ∉ l) ∧ (∀ c e, .initRet c e ∉ l) ∧ (∀ r, .runStart r ∉ l) ∧
      (∀ r st c, .iterCall r st c ∉ l) := by
  have hlog : s1.log = s.log := by obtain ⟨k, hk, rfl⟩ := initPanic_elim hi; rfl
  obtain ⟨h', l, hl, hq⟩ := (halted_of_panic h hf hp hi).exec hx
  exact ⟨h'.st, l, hlog ▸ hl, (fun st hm => by cases hq _ hm), (fun c e hm => by cases hq _ hm),
    (fun r hm => by cases hq _ hm), (fun r st c hm => by cases hq _ hm)⟩

/-- **C96 (claim examined).** The caller of `Init` gets control back, with the status lock free. -/
theorem C96_released {t : Nat} (hp : (s.thr t).pc = .in5 .init) :
    ∃ s1, s.initPanic t = some s1 ∧ (s1.thr t).pc = .home ∧ s1.sm = none ∧ s1.status = s.status := by
  simp [initPanic, hp]

/-- **C96 (claim examined).** After such a panic, a further `Init` answers `ErrAlreadyCreated`. -/
theorem C96_again (h : Reachable conf s) (hf : ∀ c e, .initRet c e ∉ s.log) {t : Nat}
    (hp : (s.thr t).pc = .in5 .init) (hi : s.initPanic t = some s1) {as : List (Act C)}
    (hx : exec conf s1 as = some s') {u : Nat} (hu : (s'.thr u).pc = entry .init) (hs : s'.sm = none) :
    ∃ s2, exec conf s' [.act u .go, .act u .go] = some s2 ∧ s2.log = .ret u (.err (some .alreadyCreated)) :: s'.log := by
  obtain ⟨h', -⟩ := (halted_of_panic h hf hp hi).exec hx
  have hn : u < s'.n := h'.lock.lt (by rw [hu]; rintro ⟨⟩)
  have hb : (s'.thr u).inPush = false := by
    by_contra hc
    have := h'.lock.push u (by simpa using hc)
    rw [hu] at this; cases this
  simp [exec, next, step, hn, hu, entry, stepInit, hs, h'.st, beginPc, go, OCStatus.new, Algo.ret, hb, ev]

/-- **C96 (claim examined).** After such a panic, the next `Play` returns `nil`, as if it had started a run,
and keeps the status lock: from then on everything blocks. -/
theorem C96_next_play (h : Reachable conf s) (hf : ∀ c e, .initRet c e ∉ s.log) {t : Nat}
    (hp : (s.thr t).pc = .in5 .init) (hi : s.initPanic t = some s1) {as : List (Act C)}
    (hx : exec conf s1 as = some s') {u : Nat} (hu : (s'.thr u).pc = entry .play) (hs : s'.sm = none) :
    ∃ s2, s'.next conf (.act u .go) = some s2 ∧
      ((s'.thr u).inPush = false → s2.log = .ret u (.err none) :: s'.log) ∧ Dead conf s2 := by
  obtain ⟨h', -⟩ := (halted_of_panic h hf hp hi).exec hx
  have hn : u < s'.n := h'.lock.lt (by rw [hu]; rintro ⟨⟩)
  have hnx : s'.next conf (.act u .go) = some ({ s' with sm := some u }.ret u (.err none)) := by
    simp [next, step, hn, hu, entry, stepPlay, hs, h'.st, OCStatus.new]
  refine ⟨_, hnx, fun hb => by rw [ret_log, if_neg (by simp [hb])], Lost.dead (t := u) ?_⟩
  refine ⟨h'.lock.step (Step.of_next hnx), by rw [ret_sm], ?_⟩
  rw [ret_pc, if_pos rfl]; split <;> rfl

namespace Panics

/-- The state of an algorithm after `as`, a panic of the `Init` called by goroutine 0, and `bs`. -/
def after (as bs : List (Act Nat)) : Option (Algo Nat) := do
  let s ← exec plain new as
  let s1 ← s.initPanic 0
  exec plain s1 bs

/-- A client calls `Init`, or `Play`, up to the call of the implementation. -/
def upTo (op : Op) : List (Act Nat) := [.client, call 0 op, g 0, g 0, recv 1 0]

/-- The hypotheses of the theorems are met. -/
example : ((exec plain new (upTo .play)).map fun s => ((s.thr 0).pc, s.log.any fun
      | .initRet _ _ => true
      | _ => false)) = some (.in5 .play, false) ∧
    ((exec plain new (upTo .init)).map fun s => ((s.thr 0).pc, s.log.any fun
      | .initRet _ _ => true
      | _ => false)) = some (.in5 .init, false) := by decide +kernel

/-- The panic in a `Play`, then a `Status` which blocks. -/
example : ((after (upTo .play) [call 0 .status]).map fun s =>
    ((s.thr 0).pc, s.sm, (s.next plain (g 0)).isNone)) = some (.rdStatus, some 0, true) := by
  decide +kernel

/-- The panic in `Init`, then `Status`, `Init`, `Play` and a `Status` which blocks. -/
example : ((after (upTo .init) [call 0 .status, g 0, call 0 .init, g 0, g 0, call 0 .play, g 0,
    call 0 .status]).map fun s => ((s.thr 0).pc, s.sm, rets 0 s.log, (s.next plain (g 0)).isNone)) =
    some (.rdStatus, some 0, [.err none, .err (some .alreadyCreated), .status (.new .initializing)], true) := by
  decide +kernel

end Panics

end Distclus
