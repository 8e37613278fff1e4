import Verif.Proof.CtrlLive
import Verif.Props.CtrlBatch
/-!
# C117: every call returns

C82 shows that no call is stuck: it can return. Here it does return, in every execution in which something
happens as long as something can happen: neither the notification loop nor the run can keep the client in its call by
working, because they have only finitely much to do until the limit.
-/
namespace Distclus
open Ctrl Algo Spec

set_option linter.unusedSimpArgs false
set_option linter.unusedTactic false

variable {C : Type} {conf : Conf} {s : Algo C} {σ : Nat → Algo C}

/-- What an action does to the call in progress. -/
theorem step_session {s' : Algo C} (h : Step conf s s') (hP : Rebatching s'.log) (hh : (s.thr 0).pc ≠ .home)
    {op : Op} (ho : (session s.log).1 = some op) :
    session s'.log = session s.log ∨ ∃ r, session s'.log = (none, (op, r) :: (session s.log).2) := by
  rcases h.log with ⟨e, -⟩ | ⟨e, h1, -, h2⟩
  · rw [e]; exact .inl rfl
  · rw [h1] at hP ⊢
    cases e
    case call t op' =>
      obtain ⟨⟨rfl, _⟩, _⟩ := hP
      exact absurd h2.1 hh
    case ret t r =>
      cases t with
      | zero => refine .inr ⟨r, ?_⟩; simp only [session, ho]
      | succ t => exact .inl rfl
    all_goals exact .inl rfl

/-- A path which leads elsewhere has a first action which changes the state. -/
theorem canChange_of_exec : ∀ (as : List (Act C)) {s s' : Algo C}, .client ∉ as → exec conf s as = some s' → s' ≠ s →
    CanChange conf s := by
  intro as
  induction as with
  | nil => intro s s' _ h hne; simp only [exec, Option.some.injEq] at h; exact absurd h.symm hne
  | cons a as ih =>
    intro s s' hc h hne
    simp only [exec] at h
    cases hn : s.next conf a with
    | none => rw [hn] at h; cases h
    | some s1 =>
      rw [hn] at h
      by_cases h1 : s1 = s
      · subst h1
        exact ih (fun hm => hc (List.mem_cons_of_mem _ hm)) h hne
      · cases a with
        | client => exact absurd List.mem_cons_self hc
        | act t c => exact ⟨t, c, s1, hn, h1⟩

/-- **C117 (no deadlock).** As long as the client is in a call, an action is possible which changes the
state. -/
theorem C117_no_deadlock [Nonempty C] (hc : Limited conf) (h : OneClient conf s) (hP : Rebatching s.log) {op : Op}
    (ho : (session s.log).1 = some op) : CanChange conf s := by
  have hI := RunsInv.of_oneClient hc h hP
  obtain ⟨as, s', h1, h2, h3, h4, h5, h6⟩ :=
    Under.goes hc (l := s.log) _ s (Nat.lt_succ_self _) ⟨hI, hP, .inl rfl⟩
  refine canChange_of_exec as h1 h2 ?_
  rintro rfl
  rw [hI.free h3] at ho
  cases ho

theorem _root_.Distclus.Spec.Forever.oneClient (hF : Forever conf σ) (i : Nat) : OneClient conf (σ i) := by
  induction i with
  | zero => exact hF.start
  | succ i ih =>
    rcases hF.next i with h | ⟨t, c, h⟩
    · rw [h]; exact ih
    · obtain ⟨as, h1, h2⟩ := ih
      refine ⟨as ++ [.act t c], ?_, ?_⟩
      · intro hm
        rcases List.mem_append.1 hm with hm | hm
        · exact h1 hm
        · simp at hm
      · rw [← List.cons_append, exec_append, h2]
        change (match (σ i).step conf t c with | none => none | some s' => some s') = _
        rw [h]

theorem first_change (hF : Forever conf σ) : ∀ (d i : Nat), σ (i + d) ≠ σ i →
    ∃ j t c, (σ i).step conf t c = some (σ (i + j + 1)) ∧ σ (i + j + 1) ≠ σ i := by
  intro d
  induction d with
  | zero => intro i h; exact absurd rfl h
  | succ d ih =>
    intro i h
    by_cases he : σ (i + d) = σ i
    · rcases hF.next (i + d) with h1 | ⟨t, c, h1⟩
      · exact absurd (h1.trans he) h
      · rw [he] at h1
        exact ⟨d, t, c, h1, h⟩
    · exact ih i he

/-- **C117.** Every call returns: with a limit on the iterations, in every execution by one client which uses the
algorithm as in C82 and in which something happens as long as something can happen, if `Iterate` is without result only
finitely often, then a call in progress at some time has returned at some later time, and no other call has
been made before. -/
theorem C117_returns [Nonempty C] (hc : Limited conf) (hF : Forever conf σ) (hP : ∀ i, Rebatching (σ i).log)
    (hN : ∃ N, ∀ i, events isIterNil (σ i).log ≤ N) (hG : Progress conf σ) (i : Nat) {op : Op}
    (ho : (session (σ i).log).1 = some op) :
    ∃ j, i < j ∧ ∃ r, session (σ j).log = (none, (op, r) :: (session (σ i).log).2) := by
  obtain ⟨N, hN⟩ := hN
  suffices H : ∀ (m : Nat) (x : Nat × Nat × Nat) (i : Nat), N - events isIterNil (σ i).log = m →
      left conf (σ i) = x → (session (σ i).log).1 = some op →
      ∃ j, i < j ∧ ∃ r, session (σ j).log = (none, (op, r) :: (session (σ i).log).2) from
    H _ _ i rfl rfl ho
  intro m
  induction m using Nat.strongRecOn with
  | _ m ihm =>
    intro x
    induction x using less_wf.induction with
    | _ x ihx =>
      rintro i hm rfl ho
      have hI := RunsInv.of_oneClient hc (hF.oneClient i) (hP i)
      have hh : ((σ i).thr 0).pc ≠ .home := fun h => by rw [hI.free h] at ho; cases ho
      obtain ⟨j, hj, hne⟩ := hG i (by rw [ho]; rintro ⟨⟩) (C117_no_deadlock hc (hF.oneClient i) (hP i) ho)
      obtain ⟨d, rfl⟩ : ∃ d, j = i + d := ⟨j - i, by omega⟩
      obtain ⟨k, t, c, h, hne⟩ := first_change hF d i hne
      have hst := Step.of_step h
      have hI' := RunsInv.of_oneClient hc (hF.oneClient (i + k + 1)) (hP (i + k + 1))
      rcases step_session hst (hP _) hh ho with hs | ⟨r, hr⟩
      · have key : ∃ j, i + k + 1 < j ∧ ∃ r, session (σ j).log =
            (none, (op, r) :: (session (σ (i + k + 1)).log).2) := by
          rcases Step.descends hc.1 hI.placed hst (step_noClient h) (hP _)
            (Nat.le_trans (Nat.le_add_right _ _) (Bounded.limit hc.2 hI'.bounded).2.2) hh with h1 | h1 | ⟨u, h1⟩
          · exact absurd h1 hne
          · rcases Nat.lt_or_ge (N - events isIterNil (σ (i + k + 1)).log) m with h2 | h2
            · exact ihm _ h2 _ _ rfl rfl (by rw [hs]; exact ho)
            · refine ihx _ h1 _ ?_ rfl (by rw [hs]; exact ho)
              have : events isIterNil (σ i).log ≤ events isIterNil (σ (i + k + 1)).log := by
                rcases hst.log with ⟨e, _⟩ | ⟨e, e1, _⟩
                · rw [e]; exact Nat.le_refl _
                · rw [e1]; unfold events; rw [List.countP_cons]; omega
              omega
          · refine ihm _ ?_ _ _ rfl rfl (by rw [hs]; exact ho)
            have e1 : events isIterNil (σ (i + k + 1)).log = events isIterNil (σ i).log + 1 := by
              rw [h1]; unfold events; rw [List.countP_cons]; rfl
            have := hN (i + k + 1)
            omega
        obtain ⟨j, hj, r, hr⟩ := key
        exact ⟨j, by omega, r, by rw [hr, hs]⟩
      · exact ⟨i + k + 1, by omega, r, hr⟩

/-! ## Executions which meet the hypotheses -/

/-- A finite execution, after which nothing happens. -/
def path (conf : Conf) (s : Algo C) : List (Act C) → Nat → Algo C
  | [], _ => s
  | _ :: _, 0 => s
  | a :: as, i + 1 => match s.next conf a with
    | none => s
    | some s' => path conf s' as i

theorem path_zero (as : List (Act C)) : path conf s as 0 = s := by cases as <;> rfl

theorem path_next : ∀ (as : List (Act C)) (s : Algo C) (i : Nat), .client ∉ as →
    path conf s as (i + 1) = path conf s as i ∨
      ∃ t c, (path conf s as i).step conf t c = some (path conf s as (i + 1)) := by
  intro as
  induction as with
  | nil => intro s i _; exact .inl rfl
  | cons a as ih =>
    intro s i hn
    cases h : s.next conf a with
    | none => refine .inl ?_; cases i <;> simp only [path, h]
    | some s1 =>
      cases i with
      | zero =>
        cases a with
        | client => exact absurd List.mem_cons_self hn
        | act t c => refine .inr ⟨t, c, ?_⟩; simp only [path, h, path_zero]; exact h
      | succ i =>
        have := ih s1 i (fun hm => hn (List.mem_cons_of_mem _ hm))
        simpa only [path, h] using this

theorem path_end : ∀ (as : List (Act C)) {s s' : Algo C}, exec conf s as = some s' → ∀ i, as.length ≤ i →
    path conf s as i = s' := by
  intro as
  induction as with
  | nil => intro s s' h i _; simp only [exec, Option.some.injEq] at h; exact h
  | cons a as ih =>
    intro s s' h i hi
    simp only [exec] at h
    cases hn : s.next conf a with
    | none => rw [hn] at h; cases h
    | some s1 =>
      rw [hn] at h
      cases i with
      | zero => simp at hi
      | succ i =>
        simp only [path, hn]
        exact ih h i (by simpa using hi)

/-- A finite execution which ends between two calls, with the last state forever after, meets the hypotheses of C117. -/
theorem path_meets {as : List (Act C)} {s' : Algo C} (hc : .client ∉ as)
    (h : exec conf (new : Algo C) (.client :: as) = some s') (hP : Rebatching s'.log) (hs : (session s'.log).1 = none) :
    Forever conf (path conf ((new : Algo C).spawn .client .home) as) ∧
    (∀ i, Rebatching (path conf ((new : Algo C).spawn .client .home) as i).log) ∧
    (∃ N, ∀ i, events isIterNil (path conf ((new : Algo C).spawn .client .home) as i).log ≤ N) ∧
    Progress conf (path conf ((new : Algo C).spawn .client .home) as) := by
  have he := path_end as h
  have hnx := fun i => path_next (conf := conf) as ((new : Algo C).spawn .client .home) i hc
  have back : ∀ d i, i + d = as.length → Rebatching (path conf ((new : Algo C).spawn .client .home) as i).log ∧
      events isIterNil (path conf ((new : Algo C).spawn .client .home) as i).log ≤ events isIterNil s'.log := by
    intro d
    induction d with
    | zero => intro i hi; rw [he i (by omega)]; exact ⟨hP, Nat.le_refl _⟩
    | succ d ih =>
      intro i hi
      obtain ⟨h1, h2⟩ := ih (i + 1) (by omega)
      rcases hnx i with h3 | ⟨t, c, h3⟩
      · rw [h3] at h1 h2; exact ⟨h1, h2⟩
      · have hst := Step.of_step h3
        refine ⟨rebatching_tail hst h1, Nat.le_trans ?_ h2⟩
        rcases hst.log with ⟨e, _⟩ | ⟨e, e1, _⟩
        · rw [e]; exact Nat.le_refl _
        · rw [e1]; unfold events; rw [List.countP_cons]; omega
  have all : ∀ i, Rebatching (path conf ((new : Algo C).spawn .client .home) as i).log ∧
      events isIterNil (path conf ((new : Algo C).spawn .client .home) as i).log ≤ events isIterNil s'.log := by
    intro i
    rcases Nat.lt_or_ge i as.length with hi | hi
    · exact back (as.length - i) i (by omega)
    · rw [he i hi]; exact ⟨hP, Nat.le_refl _⟩
  refine ⟨⟨⟨[], by simp, ?_⟩, hnx⟩, fun i => (all i).1, ⟨_, fun i => (all i).2⟩, ?_⟩
  · rw [path_zero]; rfl
  · intro i hi _
    rcases Nat.lt_or_ge i as.length with hl | hl
    · refine ⟨as.length, hl, fun h1 => ?_⟩
      rw [← h1, he _ (Nat.le_refl _), hs] at hi
      exact hi rfl
    · rw [he i hl, hs] at hi
      exact absurd rfl hi

/-- The hypotheses of C117 hold for `Batch` on a new algorithm with `Iter` 2, which makes four calls. -/
example : ∃ σ : Nat → Algo Nat, Limited ⟨2, 0, 0, false, false, false⟩ ∧ Forever ⟨2, 0, 0, false, false, false⟩ σ ∧
    (∀ i, Rebatching (σ i).log) ∧ (∃ N, ∀ i, events isIterNil (σ i).log ≤ N) ∧
    Progress ⟨2, 0, 0, false, false, false⟩ σ ∧ ∃ i, (session (σ i).log).1 = some (.wait false false) := by
  have key : (exec ⟨2, 0, 0, false, false, false⟩ (new : Algo Nat) batchNew).any (fun s => rebatchingB s.log &&
      decide ((session s.log).1 = none)) = true := by
    decide +kernel
  cases he : exec ⟨2, 0, 0, false, false, false⟩ (new : Algo Nat) batchNew with
  | none => rw [he] at key; cases key
  | some s =>
    rw [he, Option.any_some, Bool.and_eq_true] at key
    obtain ⟨h1, h2, h3, h4⟩ := path_meets (as := batchNew.tail) (by decide) he (rebatching_of_test key.1)
      (of_decide_eq_true key.2)
    refine ⟨_, ⟨⟨rfl, rfl, rfl⟩, .inl (by decide)⟩, h1, h2, h3, h4, 36, ?_⟩
    decide +kernel

/-! ## An implementation without results -/

/-- The run, goroutine 2, iterates without result, and the client is in `Wait`. -/
structure Spin (s : Algo Nat) : Prop where
  n : s.n = 3
  c : (s.thr 0).pc = .wa2 false false
  l : (s.thr 1).pc = .nl0
  r : (s.thr 2).pc = .r6 ∨ (s.thr 2).pc = .r7 ∨ (s.thr 2).pc = .r9 ∨ (s.thr 2).pc = .rI
  st : s.status.value = .running
  ma : s.ma = none
  it : s.figIter = 0
  ses : (session s.log).1 = some (.wait false false)
  reb : Rebatching s.log

/-- A limit of one iteration. -/
def oneIter : Conf := ⟨1, 0, 0, false, false, false⟩

theorem Spin.next {s : Algo Nat} (h : Spin s) : ∃ t c s', s.step oneIter t c = some s' ∧ s' ≠ s ∧ Spin s' := by
  have hne : ∀ {s1 : Algo Nat} {p : PC Nat}, (s.thr 2).pc ≠ p → s1.go 2 p ≠ s := by
    intro s1 p hp he
    apply hp
    rw [← he, go_pc, if_pos rfl]
  have ht : 2 < s.n := by rw [h.n]; decide
  have h0 : ∀ {s1 : Algo Nat} {p : PC Nat}, s1.thr = s.thr → ((s1.go 2 p).thr 0).pc = .wa2 false false := by
    intro s1 p he; rw [go_pc, if_neg (by decide), he, h.c]
  have h1 : ∀ {s1 : Algo Nat} {p : PC Nat}, s1.thr = s.thr → ((s1.go 2 p).thr 1).pc = .nl0 := by
    intro s1 p he; rw [go_pc, if_neg (by decide), he, h.l]
  have h2 : ∀ {s1 : Algo Nat} {p : PC Nat}, ((s1.go 2 p).thr 2).pc = p := by
    intro s1 p; rw [go_pc, if_pos rfl]
  rcases h.r with hr | hr | hr | hr
  · refine ⟨2, .go, s.go 2 .r7, ?_, hne (by rw [hr]; rintro ⟨⟩), h.n, h0 rfl, h1 rfl, .inr (.inl h2), h.st, h.ma, h.it, h.ses, h.reb⟩
    simp only [step, if_pos ht, hr, stepRun, h.st, if_true]
  · refine ⟨2, .go, s.go 2 .r9, ?_, hne (by rw [hr]; rintro ⟨⟩), h.n, h0 rfl, h1 rfl, .inr (.inr (.inl h2)), h.st, h.ma, h.it, h.ses, h.reb⟩
    have hd : iterDone oneIter s = false := by
      simp only [iterDone, oneIter, h.it]; simp
    simp only [step, if_pos ht, hr, stepRun, h.ma, hd, if_true]
    rfl
  · refine ⟨2, .default, (s.ev (.iterCall 2 s.status s.centroids)).go 2 .rI, ?_, hne (by rw [hr]; rintro ⟨⟩),
      h.n, h0 rfl, h1 rfl, .inr (.inr (.inr h2)), h.st, h.ma, h.it, h.ses, trivial, h.reb⟩
    have hs : s.noSender = true := by
      unfold noSender
      refine decide_eq_true fun j hj => ?_
      rw [h.n] at hj
      have : j = 0 ∨ j = 1 ∨ j = 2 := by omega
      rcases this with rfl | rfl | rfl
      · rw [h.c]; rfl
      · rw [h.l]; rfl
      · rw [hr]; rfl
    simp only [step, if_pos ht, hr, stepRun, hs, if_true]
  · refine ⟨2, .iterNil, (s.ev (.iterNil 2)).go 2 .r6, ?_, hne (by rw [hr]; rintro ⟨⟩),
      h.n, h0 rfl, h1 rfl, .inl h2, h.st, h.ma, h.it, h.ses, trivial, h.reb⟩
    simp only [step, if_pos ht, hr, stepRun]

open Trace in
/-- `Play` on a new algorithm, then `Wait`. -/
def spinStart : List (Act Nat) :=
  init ++ play ++ [call 0 (.wait false false), g 0, g 0]

open Classical in
/-- The states of an execution in which the run iterates without result. -/
noncomputable def spin (s : Algo Nat) : Nat → Algo Nat
  | 0 => s
  | i + 1 => if h : Spin (spin s i) then h.next.choose_spec.choose_spec.choose else spin s i

theorem spin_spin {s : Algo Nat} (h : Spin s) (i : Nat) : Spin (spin s i) ∧
    (∃ t c, (spin s i).step oneIter t c = some (spin s (i + 1))) ∧ spin s (i + 1) ≠ spin s i := by
  have hs : ∀ i, Spin (spin s i) := by
    intro i
    induction i with
    | zero => exact h
    | succ i ih =>
      rw [spin, dif_pos ih]
      exact ih.next.choose_spec.choose_spec.choose_spec.2.2
  have h1 := (hs i).next.choose_spec.choose_spec.choose_spec
  refine ⟨hs i, ?_, ?_⟩
  · rw [spin, dif_pos (hs i)]
    exact ⟨_, _, h1.1⟩
  · rw [spin, dif_pos (hs i)]
    exact h1.2.1

/-- **C117 (claim examined).** The hypothesis about `Iterate` is needed: an `Iterate` without result does not
count for the limit, so with `Iter` 1 and an implementation which is always without result (as streaming is when no
data is left, streaming/impl.go:61-70; k-means and MCMC never are), `Wait` does not return though the run works all the
time. -/
theorem C117_spin : ∃ σ : Nat → Algo Nat, Limited oneIter ∧ Forever oneIter σ ∧ (∀ i, Rebatching (σ i).log) ∧
    Progress oneIter σ ∧ ∀ i, (session (σ i).log).1 = some (.wait false false) := by
  have key : (exec oneIter (new : Algo Nat) spinStart).any (fun s => rebatchingB s.log &&
      decide (s.n = 3 ∧ (s.thr 0).pc = .wa2 false false ∧ (s.thr 1).pc = .nl0 ∧ (s.thr 2).pc = .r6 ∧
        s.status.value = .running ∧ s.ma = none ∧ s.figIter = 0 ∧
        (session s.log).1 = some (.wait false false))) = true := by
    decide +kernel
  cases he : exec oneIter (new : Algo Nat) spinStart with
  | none => rw [he] at key; cases key
  | some s =>
    rw [he, Option.any_some, Bool.and_eq_true] at key
    obtain ⟨h1, h2, h3, h4, h5, h6, h7, h8⟩ := of_decide_eq_true key.2
    have h := spin_spin (s := s) ⟨h1, h2, h3, .inl h4, h5, h6, h7, h8, rebatching_of_test key.1⟩
    exact ⟨spin s, ⟨⟨rfl, rfl, rfl⟩, .inl (by decide)⟩, ⟨⟨spinStart.tail, by decide, he⟩, fun i => .inr (h i).2.1⟩,
      fun i => (h i).1.reb, fun i _ _ => ⟨i + 1, by omega, (h i).2.2⟩, fun i => (h i).1.ses⟩

end Distclus
