import Verif.Model.Ctrl
/-!
# Projections of the state changes of the controller
-/
namespace Distclus
open Ctrl
namespace Algo
variable {C : Type}

section proj
variable (s : Algo C) (t j : Nat) (p : PC C) (e : Event C) (st : OCStatus) (k : Kind) (r : Res C)
  (ok : Bool) (i : InitFrom) (q : SendFrom)

theorem go_pc : ((s.go t p).thr j).pc = if j = t then p else (s.thr j).pc := by
  unfold go; dsimp only; split <;> simp_all
theorem go_inPush : ((s.go t p).thr j).inPush = (s.thr j).inPush := by
  unfold go; dsimp only; split <;> simp_all
theorem go_kind : ((s.go t p).thr j).kind = (s.thr j).kind := by
  unfold go; dsimp only; split <;> simp_all
theorem spawn_pc : ((s.spawn k p).thr j).pc = if j = s.n then p else (s.thr j).pc := by
  unfold spawn; dsimp only; split <;> simp_all
theorem spawn_inPush : ((s.spawn k p).thr j).inPush = if j = s.n then false else (s.thr j).inPush := by
  unfold spawn; dsimp only; split <;> simp_all
theorem spawn_kind : ((s.spawn k p).thr j).kind = if j = s.n then k else (s.thr j).kind := by
  unfold spawn; dsimp only; split <;> simp_all
end proj

section frame
variable (s : Algo C) (t : Nat) (p : PC C) (e : Event C) (st : OCStatus) (k : Kind)

theorem go_status : (s.go t p).status = s.status := rfl
theorem spawn_status : (s.spawn k p).status = s.status := rfl
theorem ev_status : (s.ev e).status = s.status := rfl
theorem put_status : (s.put st).status = st := rfl
theorem go_sm : (s.go t p).sm = s.sm := rfl
theorem spawn_sm : (s.spawn k p).sm = s.sm := rfl
theorem ev_sm : (s.ev e).sm = s.sm := rfl
theorem put_sm : (s.put st).sm = s.sm := rfl
theorem go_ma : (s.go t p).ma = s.ma := rfl
theorem spawn_ma : (s.spawn k p).ma = s.ma := rfl
theorem ev_ma : (s.ev e).ma = s.ma := rfl
theorem put_ma : (s.put st).ma = s.ma := rfl
theorem go_mr : (s.go t p).mr = s.mr := rfl
theorem spawn_mr : (s.spawn k p).mr = s.mr := rfl
theorem ev_mr : (s.ev e).mr = s.mr := rfl
theorem put_mr : (s.put st).mr = s.mr := rfl
theorem go_notif : (s.go t p).notif = s.notif := rfl
theorem spawn_notif : (s.spawn k p).notif = s.notif := rfl
theorem ev_notif : (s.ev e).notif = s.notif := rfl
theorem put_notif : (s.put st).notif = s.notif := rfl
theorem go_ack : (s.go t p).ack = s.ack := rfl
theorem spawn_ack : (s.spawn k p).ack = s.ack := rfl
theorem ev_ack : (s.ev e).ack = s.ack := rfl
theorem put_ack : (s.put st).ack = s.ack := rfl
theorem go_acks : (s.go t p).acks = s.acks := rfl
theorem spawn_acks : (s.spawn k p).acks = s.acks := rfl
theorem ev_acks : (s.ev e).acks = s.acks := rfl
theorem put_acks : (s.put st).acks = s.acks := rfl
theorem go_closed : (s.go t p).closed = s.closed := rfl
theorem spawn_closed : (s.spawn k p).closed = s.closed := rfl
theorem ev_closed : (s.ev e).closed = s.closed := rfl
theorem put_closed : (s.put st).closed = s.closed := rfl
theorem go_centroids : (s.go t p).centroids = s.centroids := rfl
theorem spawn_centroids : (s.spawn k p).centroids = s.centroids := rfl
theorem ev_centroids : (s.ev e).centroids = s.centroids := rfl
theorem put_centroids : (s.put st).centroids = s.centroids := rfl
theorem go_iterations : (s.go t p).iterations = s.iterations := rfl
theorem spawn_iterations : (s.spawn k p).iterations = s.iterations := rfl
theorem ev_iterations : (s.ev e).iterations = s.iterations := rfl
theorem put_iterations : (s.put st).iterations = s.iterations := rfl
theorem go_pushedData : (s.go t p).pushedData = s.pushedData := rfl
theorem spawn_pushedData : (s.spawn k p).pushedData = s.pushedData := rfl
theorem ev_pushedData : (s.ev e).pushedData = s.pushedData := rfl
theorem put_pushedData : (s.put st).pushedData = s.pushedData := rfl
theorem go_newData : (s.go t p).newData = s.newData := rfl
theorem spawn_newData : (s.spawn k p).newData = s.newData := rfl
theorem ev_newData : (s.ev e).newData = s.newData := rfl
theorem put_newData : (s.put st).newData = s.newData := rfl
theorem go_figIter : (s.go t p).figIter = s.figIter := rfl
theorem spawn_figIter : (s.spawn k p).figIter = s.figIter := rfl
theorem ev_figIter : (s.ev e).figIter = s.figIter := rfl
theorem put_figIter : (s.put st).figIter = s.figIter := rfl
theorem go_figPushed : (s.go t p).figPushed = s.figPushed := rfl
theorem spawn_figPushed : (s.spawn k p).figPushed = s.figPushed := rfl
theorem ev_figPushed : (s.ev e).figPushed = s.figPushed := rfl
theorem put_figPushed : (s.put st).figPushed = s.figPushed := rfl
theorem go_timeout : (s.go t p).timeout = s.timeout := rfl
theorem spawn_timeout : (s.spawn k p).timeout = s.timeout := rfl
theorem ev_timeout : (s.ev e).timeout = s.timeout := rfl
theorem put_timeout : (s.put st).timeout = s.timeout := rfl
theorem go_disabled : (s.go t p).disabled = s.disabled := rfl
theorem spawn_disabled : (s.spawn k p).disabled = s.disabled := rfl
theorem ev_disabled : (s.ev e).disabled = s.disabled := rfl
theorem put_disabled : (s.put st).disabled = s.disabled := rfl
theorem go_n : (s.go t p).n = s.n := rfl
theorem spawn_n : (s.spawn k p).n = s.n + 1 := rfl
theorem ev_n : (s.ev e).n = s.n := rfl
theorem put_n : (s.put st).n = s.n := rfl
theorem go_log : (s.go t p).log = s.log := rfl
theorem spawn_log : (s.spawn k p).log = s.log := rfl
theorem ev_log : (s.ev e).log = e :: s.log := rfl
theorem put_log : (s.put st).log = .set st :: s.log := rfl
theorem ev_thr : (s.ev e).thr = s.thr := rfl
theorem put_thr : (s.put st).thr = s.thr := rfl

end frame

section frameRet
variable (s : Algo C) (t j : Nat) (r : Res C)

theorem ret_pc : ((s.ret t r).thr j).pc =
    if j = t then (if (s.thr t).inPush then .pu6 else .home) else (s.thr j).pc := by
  unfold ret; split <;> simp_all [go_pc, ev_thr]
theorem ret_inPush : ((s.ret t r).thr j).inPush = (s.thr j).inPush := by
  unfold ret; split <;> simp [go_inPush, ev_thr]
theorem ret_kind : ((s.ret t r).thr j).kind = (s.thr j).kind := by
  unfold ret; split <;> simp [go_kind, ev_thr]
theorem ret_log : (s.ret t r).log = if (s.thr t).inPush then s.log else .ret t r :: s.log := by
  unfold ret; split <;> simp [go_log, ev_log]
theorem ret_status : (s.ret t r).status = s.status := by unfold ret; split <;> rfl
theorem ret_sm : (s.ret t r).sm = s.sm := by unfold ret; split <;> rfl
theorem ret_ma : (s.ret t r).ma = s.ma := by unfold ret; split <;> rfl
theorem ret_mr : (s.ret t r).mr = s.mr := by unfold ret; split <;> rfl
theorem ret_notif : (s.ret t r).notif = s.notif := by unfold ret; split <;> rfl
theorem ret_ack : (s.ret t r).ack = s.ack := by unfold ret; split <;> rfl
theorem ret_acks : (s.ret t r).acks = s.acks := by unfold ret; split <;> rfl
theorem ret_closed : (s.ret t r).closed = s.closed := by unfold ret; split <;> rfl
theorem ret_centroids : (s.ret t r).centroids = s.centroids := by unfold ret; split <;> rfl
theorem ret_iterations : (s.ret t r).iterations = s.iterations := by unfold ret; split <;> rfl
theorem ret_pushedData : (s.ret t r).pushedData = s.pushedData := by unfold ret; split <;> rfl
theorem ret_newData : (s.ret t r).newData = s.newData := by unfold ret; split <;> rfl
theorem ret_figIter : (s.ret t r).figIter = s.figIter := by unfold ret; split <;> rfl
theorem ret_figPushed : (s.ret t r).figPushed = s.figPushed := by unfold ret; split <;> rfl
theorem ret_timeout : (s.ret t r).timeout = s.timeout := by unfold ret; split <;> rfl
theorem ret_disabled : (s.ret t r).disabled = s.disabled := by unfold ret; split <;> rfl
theorem ret_n : (s.ret t r).n = s.n := by unfold ret; split <;> rfl

end frameRet

/-- All projections. -/
macro "ctrl_proj" : tactic => `(tactic| simp only [go_pc, go_inPush, go_kind, spawn_pc, spawn_inPush, spawn_kind,
  ret_pc, ret_inPush, ret_kind, ret_log, ret_status, ret_sm, ret_ma, ret_mr, ret_notif, ret_ack, ret_acks, ret_closed, ret_centroids, ret_iterations, ret_pushedData, ret_newData, ret_figIter, ret_figPushed, ret_timeout, ret_disabled, ret_n,
  go_status, spawn_status, ev_status, put_status, go_sm, spawn_sm, ev_sm, put_sm, go_ma, spawn_ma, ev_ma, put_ma, go_mr, spawn_mr, ev_mr, put_mr, go_notif, spawn_notif, ev_notif, put_notif, go_ack, spawn_ack, ev_ack, put_ack, go_acks, spawn_acks, ev_acks, put_acks, go_closed, spawn_closed, ev_closed, put_closed, go_centroids, spawn_centroids, ev_centroids, put_centroids, go_iterations, spawn_iterations, ev_iterations, put_iterations, go_pushedData, spawn_pushedData, ev_pushedData, put_pushedData, go_newData, spawn_newData, ev_newData, put_newData, go_figIter, spawn_figIter, ev_figIter, put_figIter, go_figPushed, spawn_figPushed, ev_figPushed, put_figPushed, go_timeout, spawn_timeout, ev_timeout, put_timeout, go_disabled, spawn_disabled, ev_disabled, put_disabled, go_n, spawn_n, ev_n, put_n, go_log, spawn_log, ev_log, put_log, ev_thr, put_thr])

theorem sending_some {p : PC C} {st : OCStatus} {k : SendFrom} :
    sending p = some (st, k) ↔ p = .sd1 st k := by
  cases p <;> simp [sending]

theorem acking_some {p p' : PC C} {a : Nat} :
    acking p = some (a, p') ↔ ∃ i, p = .r5 i a ∧ p' = if i then .r1 else .r6 := by
  cases p <;> simp only [acking, reduceCtorEq, false_and, exists_false, Option.some.injEq,
    Prod.mk.injEq, PC.r5.injEq]
  rename_i i a'
  constructor
  · rintro ⟨rfl, rfl⟩; exact ⟨i, ⟨rfl, rfl⟩, rfl⟩
  · rintro ⟨i', ⟨rfl, rfl⟩, rfl⟩; exact ⟨rfl, rfl⟩

/-- Case analysis on the function a step belongs to. -/
theorem step_elim {conf : Conf} {s s' : Algo C} {t : Nat} {c : Choice C} {P : Prop}
    (h : s.step conf t c = some s')
    (home : (s.thr t).pc = .home → s.stepHome t c = some s' → P)
    (read : s.stepRead t (s.thr t).pc = some s' → P)
    (push : s.stepPush conf t (s.thr t).pc c = some s' → P)
    (init : s.stepInit t (s.thr t).pc c = some s' → P)
    (play : s.stepPlay conf t (s.thr t).pc c = some s' → P)
    (pause : s.stepPause t (s.thr t).pc c = some s' → P)
    (intr : s.stepInterrupt t (s.thr t).pc c = some s' → P)
    (send : s.stepSend t (s.thr t).pc c = some s' → P)
    (wait : s.stepWait conf t (s.thr t).pc c = some s' → P)
    (run : s.stepRun conf t (s.thr t).pc c = some s' → P)
    (recv : s.stepRecover t (s.thr t).pc c = some s' → P)
    (notif : s.stepNotif conf t (s.thr t).pc c = some s' → P)
    (timer : s.stepTimer t (s.thr t).pc c = some s' → P) : P := by
  unfold step at h
  split at h
  · generalize hp : (s.thr t).pc = p at *
    cases p <;> dsimp only at h <;>
      first
        | exact push h | exact init h | exact play h | exact pause h | exact intr h | exact send h
        | exact wait h | exact run h | exact recv h | exact notif h | exact timer h
        | exact home rfl h
        | (split at h
           · exact read h
           · cases h)
  · cases h

theorem step_lt {conf : Conf} {s s' : Algo C} {t : Nat} {c : Choice C}
    (h : s.step conf t c = some s') : t < s.n := by
  unfold step at h
  split at h
  · assumption
  · cases h

end Algo
end Distclus
