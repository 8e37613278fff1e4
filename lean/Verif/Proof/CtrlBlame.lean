import Verif.Proof.CtrlTimer
import Verif.Proof.CtrlTell
import Verif.Proof.CtrlRun
import Verif.Spec.CtrlBlame
/-!
# Where the errors of the status come from: proof
-/
namespace Distclus
open Ctrl Algo
open Spec
namespace Algo
variable {C : Type} {conf : Conf} {s s' : Algo C}

/-- The error a goroutine is about to put in the status. -/
def errOf : PC C → Option Err
  | .in6 _ _ e => e
  | .in7 _ _ e => e
  | .in8 _ e => e
  | .it0 e => e
  | .sd0 st _ => st.error
  | .sd1 st _ => st.error
  | .r2 st => st.error
  | .r10 st => st.error
  | .r15 e => some e
  | .c0 p => p
  | _ => none

theorem Blamed.cons {e : Err} {l : List (Event C)} (h : Blamed l e) (x : Event C) : Blamed (x :: l) e := by
  rcases h with ⟨h, a, ha⟩ | ⟨h, i, hi⟩ | ⟨c, h⟩ | ⟨r, h⟩ | ⟨r, h⟩
  · exact .inl ⟨h, a, List.mem_cons_of_mem _ ha⟩
  · exact .inr (.inl ⟨h, i, List.mem_cons_of_mem _ hi⟩)
  · exact .inr (.inr (.inl ⟨c, List.mem_cons_of_mem _ h⟩))
  · exact .inr (.inr (.inr (.inl ⟨r, List.mem_cons_of_mem _ h⟩)))
  · exact .inr (.inr (.inr (.inr ⟨r, List.mem_cons_of_mem _ h⟩)))

theorem errOf_beginPc (v : ClustStatus) (k : InitFrom) : errOf (beginPc v k : PC C) = none := by
  cases v <;> rfl

theorem errOf_notifying {p q : PC C} {st : OCStatus} (h : notifying p = some (st, q)) : errOf q = none := by
  cases p <;> simp only [notifying, reduceCtorEq] at h
  all_goals (try (rename_i e; cases e <;> simp only at h))
  all_goals (cases h; (try split) <;> rfl)

theorem errGo {x : Algo C} {t u : Nat} {p : PC C} {e : Err} (h : errOf ((x.go t p).thr u).pc = some e) :
    errOf p = some e ∨ errOf (x.thr u).pc = some e := by
  rw [go_pc] at h
  split at h
  · exact .inl h
  · exact .inr h

theorem errSpawn {x : Algo C} {k : Kind} {u : Nat} {p : PC C} {e : Err}
    (h : errOf ((x.spawn k p).thr u).pc = some e) : errOf p = some e ∨ errOf (x.thr u).pc = some e := by
  rw [spawn_pc] at h
  split at h
  · exact .inl h
  · exact .inr h

theorem errRet {x : Algo C} {t u : Nat} {r : Res C} {e : Err} (h : errOf ((x.ret t r).thr u).pc = some e) :
    errOf (x.thr u).pc = some e := by
  unfold ret at h
  split at h
  · exact (errGo h).resolve_left (by rintro ⟨⟩)
  · exact (errGo h).resolve_left (by rintro ⟨⟩)

theorem errSent {x : Algo C} {t u : Nat} {b : Bool} {k : SendFrom} {e : Err}
    (h : errOf ((x.sent t b k).thr u).pc = some e) : errOf (x.thr u).pc = some e := by
  cases k
  · exact errRet h
  · exact (errGo h).resolve_left (by rintro ⟨⟩)
  · exact errRet h
  · exact (errGo h).resolve_left (by rintro ⟨⟩)

theorem sent_status' {x : Algo C} {t : Nat} {b : Bool} {k : SendFrom} : (x.sent t b k).status = x.status := by
  cases k <;> simp only [sent, ret] <;> (try split) <;> rfl

theorem ret_status' {x : Algo C} {t : Nat} {r : Res C} : (x.ret t r).status = x.status := by
  simp only [ret]; split <;> rfl

theorem Step.blame (h : Step conf s s') (hcl : ∀ a ∈ s.closed, .closed a ∈ s.log) :
    (∀ e, s'.status.error = some e → s.status.error = some e ∨ (∃ u, errOf (s.thr u).pc = some e)) ∧
    ∀ u e, errOf (s'.thr u).pc = some e → (∃ v, errOf (s.thr v).pc = some e) ∨ Blamed s'.log e := by
  cases h
  case in5 t ht k hp c x =>
    refine ⟨fun e he => .inl he, fun u e he => ?_⟩
    rcases errGo he with he | he
    · cases x with
      | none => cases he
      | some x => cases he; exact .inr (.inr (.inr (.inl ⟨c, List.mem_cons_self⟩)))
    · exact .inl ⟨u, he⟩
  case iterErr t ht hp x =>
    refine ⟨fun e he => .inl he, fun u e he => ?_⟩
    rcases errGo he with he | he
    · cases he; exact .inr (.inr (.inr (.inr (.inl ⟨t, List.mem_cons_self⟩))))
    · exact .inl ⟨u, he⟩
  case iterPanic t ht hp x =>
    refine ⟨fun e he => .inl he, fun u e he => ?_⟩
    rcases errGo he with he | he
    · cases he; exact .inr (.inr (.inr (.inr (.inr ⟨t, List.mem_cons_self⟩))))
    · exact .inl ⟨u, he⟩
  case ti0Fire t ht hp hd =>
    refine ⟨fun e he => .inl he, fun u e he => ?_⟩
    rcases errGo he with he | he
    · cases he; exact .inr (.inr (.inl ⟨rfl, t, List.mem_cons_self⟩))
    · exact .inl ⟨u, he⟩
  case r5Closed t ht i a hp ha =>
    refine ⟨fun e he => .inl he, fun u e he => ?_⟩
    rcases errGo he with he | he
    · cases he; exact .inr (.inl ⟨rfl, a, hcl a ha⟩)
    · exact .inl ⟨u, he⟩
  case in0 t ht hp hs =>
    refine ⟨fun e he => .inl he, fun u e he => ?_⟩
    rcases errGo he with he | he
    · rw [errOf_beginPc] at he; cases he
    · exact .inl ⟨u, he⟩
  case pl0Init t ht hp hs hv =>
    refine ⟨fun e he => .inl he, fun u e he => ?_⟩
    rcases errGo he with he | he
    · rw [errOf_beginPc] at he; cases he
    · exact .inl ⟨u, he⟩
  case nl0 t ht hp j hj st q hq =>
    refine ⟨fun e he => .inl he, fun u e he => ?_⟩
    rcases errGo he with he | he
    · cases he
    · rcases errGo he with he | he
      · rw [errOf_notifying hq] at he; cases he
      · exact .inl ⟨u, he⟩
  case nl1 t ht st hp hm =>
    refine ⟨fun e he => .inl he, fun u e he => ?_⟩
    rcases errGo he with he | he
    · split at he <;> cases he
    · exact .inl ⟨u, he⟩
  case r7 t ht hp hm hd =>
    refine ⟨fun e he => .inl he, fun u e he => ?_⟩
    rcases errGo he with he | he
    · split at he <;> cases he
    · exact .inl ⟨u, he⟩
  case client =>
    refine ⟨fun e he => .inl he, fun u e he => ?_⟩
    exact .inl ⟨u, (errSpawn he).resolve_left (by rintro ⟨⟩)⟩
  case call t ht hp op hk =>
    refine ⟨fun e he => .inl he, fun u e he => ?_⟩
    rcases errGo he with he | he
    · cases op <;> cases he
    · exact .inl ⟨u, he⟩
  case pu5 t ht hp hm =>
    refine ⟨fun e he => .inl he, fun u e he => ?_⟩
    dsimp only at he
    split at he
    · split at he <;> cases he
    · exact .inl ⟨u, he⟩
  case pu6 t ht hp =>
    refine ⟨fun e he => .inl he, fun u e he => ?_⟩
    dsimp only at he
    split at he
    · cases he
    · exact .inl ⟨u, he⟩
  case in3Created t ht k hp hv =>
    refine ⟨fun e he => (nomatch he), fun u e he => ?_⟩
    exact .inl ⟨u, (errSpawn (x := { s with notif := true }) ((errGo he).resolve_left (by rintro ⟨⟩))).resolve_left
      (by rintro ⟨⟩)⟩
  case pl1 t ht hp =>
    refine ⟨fun e he => .inl he, fun u e he => ?_⟩
    exact .inl ⟨u, (errSpawn (x := ({ s with sm := none } : Algo C).ev (.runStart s.n))
      ((errGo he).resolve_left (by rintro ⟨⟩))).resolve_left (by rintro ⟨⟩)⟩
  case pl3Timeout t ht hp hm hc =>
    refine ⟨fun e he => .inl (by rw [ret_status'] at he; exact he), fun u e he => ?_⟩
    exact .inl ⟨u, (errSpawn (errRet he)).resolve_left (by rintro ⟨⟩)⟩
  case sd3 t ht a k hp j hj i hq ha =>
    refine ⟨fun e he => .inl (by rw [sent_status'] at he; exact he), fun u e he => ?_⟩
    rcases errGo (errSent he) with he | he
    · split at he <;> cases he
    · exact .inl ⟨u, he⟩
  case c6 t ht hp j hj i hq ha =>
    refine ⟨fun e he => .inl he, fun u e he => ?_⟩
    rcases errGo ((errGo he).resolve_left (by rintro ⟨⟩)) with he | he
    · split at he <;> cases he
    · exact .inl ⟨u, he⟩
  case c4 t ht hp j hj st k hq =>
    refine ⟨fun e he => .inr ⟨j, by rw [hq]; exact he⟩, fun u e he => ?_⟩
    exact .inl ⟨u, (errGo (x := s) ((errGo he).resolve_left (by rintro ⟨⟩))).resolve_left (by rintro ⟨⟩)⟩
  case r1 t ht hp j hj st k hq =>
    refine ⟨fun e he => .inl he, fun u e he => ?_⟩
    rcases errGo he with he | he
    · exact .inl ⟨j, by rw [hq]; exact he⟩
    · exact .inl ⟨u, (errGo he).resolve_left (by rintro ⟨⟩)⟩
  case r9 t ht hp j hj st k hq =>
    refine ⟨fun e he => .inl he, fun u e he => ?_⟩
    rcases errGo he with he | he
    · exact .inl ⟨j, by rw [hq]; exact he⟩
    · exact .inl ⟨u, (errGo he).resolve_left (by rintro ⟨⟩)⟩
  case c4Panic t ht x hp j hj st k hq =>
    refine ⟨fun e he => .inl he, fun u e he => ?_⟩
    exact .inl ⟨u, (errGo ((errGo he).resolve_left (by rintro ⟨⟩))).resolve_left (by rintro ⟨⟩)⟩
  all_goals
    refine ⟨fun e he => ?_, fun u e he => ?_⟩
  all_goals first
    | exact .inl he
    | (exfalso; cases he; done)
    | (rw [ret_status'] at he; exact .inl he)
    | (rw [sent_status'] at he; exact .inl he)
    | (have h2 := errRet he; exact .inl ⟨u, h2⟩)
    | (have h2 := errSent he; exact .inl ⟨u, h2⟩)
    | (rcases errGo he with he | he
       · exfalso; cases he; done
       · exact .inl ⟨u, he⟩)
    | exact .inr ⟨_, by rw [‹(s.thr _).pc = _›]; exact he⟩
    | (rcases errGo he with he | he
       · exact .inl ⟨_, by rw [‹(s.thr _).pc = _›]; exact he⟩
       · exact .inl ⟨u, he⟩)

/-- Every error in the status or on its way to it has been caused by something in the record, at every moment. -/
theorem Reachable.blamed (h : Reachable conf s) : ((∀ e, s.status.error = some e → Blamed s.log e) ∧
    ∀ u e, errOf (s.thr u).pc = some e → Blamed s.log e) ∧
    ∀ l1 l2 e, s.log = l1 ++ l2 → (current l2).error = some e → Blamed l2 e := by
  refine (h.induction (P := fun s => (AckInv s ∧ HistInv s) ∧ ((∀ e, s.status.error = some e → Blamed s.log e) ∧
    ∀ u e, errOf (s.thr u).pc = some e → Blamed s.log e) ∧
    ∀ l1 l2 e, s.log = l1 ++ l2 → (current l2).error = some e → Blamed l2 e) ?_ ?_).2
  · refine ⟨⟨AckInv.init, HistInv.init⟩, ⟨fun e h => (nomatch h), fun u e h => (nomatch h)⟩, fun l1 l2 e hl he => ?_⟩
    obtain ⟨rfl, rfl⟩ := List.append_eq_nil_iff.1 hl.symm
    cases he
  · rintro s s' ⟨⟨hA, hH⟩, ⟨h1, h2⟩, h3⟩ hs
    have hA' := hA.step hs
    have hH' := hH.step hs
    obtain ⟨b1, b2⟩ := hs.blame (fun a ha => by
      rw [← hA.log] at ha
      obtain ⟨x, hx, hx'⟩ := List.mem_filterMap.1 ha
      cases x <;> cases hx'
      exact hx)
    have keep : ∀ e, Blamed s.log e → Blamed s'.log e := by
      intro e he
      rcases hs.log with ⟨hl, _⟩ | ⟨x, hl, _⟩
      · rw [hl]; exact he
      · rw [hl]; exact Blamed.cons he x
    have h1' : ∀ e, s'.status.error = some e → Blamed s'.log e := fun e he => by
      rcases b1 e he with h | ⟨u, h⟩
      · exact keep e (h1 e h)
      · exact keep e (h2 u e h)
    refine ⟨⟨hA', hH'⟩, ⟨h1', fun u e he => ?_⟩, fun l1 l2 e hl he => ?_⟩
    · rcases b2 u e he with ⟨v, h⟩ | h
      · exact keep e (h2 v e h)
      · exact h
    · cases l1 with
      | nil =>
        rw [List.nil_append] at hl
        subst hl
        rw [hH'.cur] at he
        exact h1' e he
      | cons x l1 =>
        rcases hs.log with ⟨hl', _⟩ | ⟨y, hl', _⟩
        · exact h3 (x :: l1) l2 e (hl'.symm.trans hl) he
        · rw [hl', List.cons_append] at hl
          exact h3 l1 l2 e (List.cons.inj hl).2 he

/-- A new goroutine is a time-out only if the configuration asks for one. -/
theorem Step.timerConf (h : Step conf s s') : conf.timeout = true ∨ s'.n = s.n ∨ (s'.thr s.n).pc ≠ .ti0 := by
  cases h
  case pl3Timeout t ht hp hm hc => exact .inl hc
  case client =>
    refine .inr (.inr ?_)
    rw [spawn_pc, if_pos rfl]
    rintro ⟨⟩
  case in3Created t ht k hp hv =>
    refine .inr (.inr ?_)
    rw [go_pc, put_thr, spawn_pc, if_pos rfl]
    split <;> rintro ⟨⟩
  case pl1 t ht hp =>
    refine .inr (.inr ?_)
    rw [go_pc, spawn_pc]; split
    · rintro ⟨⟩
    · split <;> [(rintro ⟨⟩); exact absurd rfl ‹_›]
  all_goals first
    | exact .inr (.inl rfl)
    | exact .inr (.inl (ret_n ..))
    | exact .inr (.inl (sent_n ..))

/-- A time-out exists and fires only if the configuration asks for one. -/
theorem Reachable.timerConf (h : Reachable conf s) : ((∃ u, (s.thr u).pc = .ti0) → conf.timeout = true) ∧
    ((∃ i, .fired i ∈ s.log) → conf.timeout = true) := by
  refine (h.induction (P := fun s => LockInv s ∧ ((∃ u, (s.thr u).pc = .ti0) → conf.timeout = true) ∧
    ((∃ i, .fired i ∈ s.log) → conf.timeout = true)) ?_ ?_).2
  · exact ⟨LockInv.init, fun ⟨u, h⟩ => (nomatch h), fun ⟨u, h⟩ => (nomatch h)⟩
  · rintro s s' ⟨hL, h1, h2⟩ hs
    refine ⟨hL.step hs, fun ⟨u, hu⟩ => ?_, fun ⟨i, hi⟩ => ?_⟩
    · rcases hs.edge hL u with e | e
      · dsimp only at e; exact h1 ⟨u, e.symm.trans hu⟩
      · obtain rfl := e.toTi0 (by dsimp only; rw [hu]; rfl)
        rcases hs.timerConf with h | h | h
        · exact h
        · have := (hL.step hs).unborn s.n (by omega)
          rw [this] at hu; cases hu
        · exact absurd hu h
    · rcases hs.log with ⟨hl, _⟩ | ⟨x, hl, _, hf⟩
      · rw [hl] at hi; exact h2 ⟨i, hi⟩
      · rw [hl] at hi
        rcases List.mem_cons.1 hi with rfl | hi
        · exact h1 ⟨i, hf.1⟩
        · exact h2 ⟨i, hi⟩

end Algo
end Distclus
