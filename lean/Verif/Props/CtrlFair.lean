import Verif.Proof.CtrlFair
import Verif.Spec.CtrlFair
import Verif.Props.CtrlLive
import Verif.Props.CtrlUse
/-!
# C119: without a limit, every call returns if the scheduler is fair

C58 shows that no call is stuck while a run without limit works: it can return. C117 shows that
calls return because there is a limit. Here there is no limit: the run works forever.
-/
namespace Distclus
open Ctrl Algo Spec

set_option linter.unusedSimpArgs false
set_option linter.unusedTactic false

variable {C : Type} {conf : Conf} {s : Algo C} {σ : Nat → Algo C}

/-- What an action does to the call in progress. -/
theorem step_session_use {s' : Algo C} (h : Step conf s s') (hP : Peaceful s'.log) (hh : (s.thr 0).pc ≠ .home)
    {op : Op} (ho : (session s.log).1 = some op) :
    session s'.log = session s.log ∨ ∃ r, session s'.log = (none, (op, r) :: (session s.log).2) := by
  rcases h.log with ⟨e, -⟩ | ⟨e, h1, -, h2⟩
  · rw [e]; exact .inl rfl
  · rw [h1] at hP ⊢
    cases e
    case call t op' =>
      obtain ⟨⟨rfl, _⟩, _⟩ := hP
      exact absurd h2.1 hh
    case ret t r =>
      cases t with
      | zero => refine .inr ⟨r, ?_⟩; simp only [session, ho]
      | succ t => exact .inl rfl
    all_goals exact .inl rfl

/-- A natural number which never increases is constant from some time on. -/
theorem stable {f : Nat → Nat} {i : Nat} (h : ∀ j, i ≤ j → f (j + 1) ≤ f j) :
    ∃ k, i ≤ k ∧ ∀ j, k ≤ j → f (j + 1) = f j := by
  suffices H : ∀ m i, f i = m → (∀ j, i ≤ j → f (j + 1) ≤ f j) → ∃ k, i ≤ k ∧ ∀ j, k ≤ j → f (j + 1) = f j from
    H _ i rfl h
  intro m
  induction m using Nat.strongRecOn with
  | _ m ih =>
    rintro i rfl h
    by_cases hc : ∀ j, i ≤ j → f (j + 1) = f j
    · exact ⟨i, Nat.le_refl _, hc⟩
    · simp only [Classical.not_forall] at hc
      obtain ⟨j, hj, hne⟩ := hc
      have mono : ∀ d, f (i + d) ≤ f i := by
        intro d
        induction d with
        | zero => exact Nat.le_refl _
        | succ d ihd => exact Nat.le_trans (h (i + d) (by omega)) ihd
      have h1 := mono (j - i)
      rw [show i + (j - i) = j by omega] at h1
      have h2 := h j hj
      obtain ⟨k, hk, hs⟩ := ih (f (j + 1)) (by omega) (j + 1) rfl (fun l hl => h l (by omega))
      exact ⟨k, by omega, hs⟩

theorem calm_noCall {c : Choice C} (h : calm c = true) (op : Op) : c ≠ .call op := by
  rintro rfl; cases h

/-- A state which can change changes. -/
theorem Fair.changes (hG : Fair conf σ) {i t : Nat} {c : Choice C} {s' : Algo C}
    (h1 : (σ i).step conf t c = some s') (hcl : calm c = true) (h2 : s' ≠ σ i) : ∃ j, i < j ∧ σ j ≠ σ i := by
  by_contra hn
  simp only [not_exists, not_and, Classical.not_not] at hn
  have hall : ∀ j, i ≤ j → σ j = σ i := fun j hj => by
    rcases Nat.lt_or_eq_of_le hj with h1 | rfl
    · exact hn j h1
    · rfl
  have hp := (step_pc h1).resolve_left h2
  obtain ⟨j, hj, hm⟩ := hG t (fun k => ⟨max i k, Nat.le_max_right _ _, by
    rw [hall _ (Nat.le_max_left _ _)]; exact ⟨c, s', calm_noCall hcl, h1, hp⟩⟩) i
  rw [hall j hj, hall (j + 1) (by omega)] at hm
  exact hm rfl

/-- When the run can only begin an iteration, another goroutine can move. -/
theorem other_able (hc : Endless conf) (hA : AckInv s) (hW : NoWait s) (hI : UseInv follows s)
    (hh : (s.thr 0).pc ≠ .home) (h9 : runPc s = .r9) (hn : s.noSender = true) :
    Able conf 0 s ∨ Able conf 1 s := by
  obtain ⟨t, c, s', h1, h2, h3⟩ := hI.movesE hc hA hW hh
  have hne : s' ≠ s := by rintro rfl; omega
  have hp := (step_pc h1).resolve_left hne
  have h3n : 3 ≤ s.n := by
    by_contra h
    unfold runPc at h9; rw [if_neg h] at h9; cases h9
  have ht := step_lt h1
  by_cases h0 : t = 0
  · subst h0; exact .inl ⟨c, s', calm_noCall h2, h1, hp⟩
  by_cases h01 : t = 1
  · subst h01; exact .inr ⟨c, s', calm_noCall h2, h1, hp⟩
  exfalso
  have e2 : runPc s = (s.thr (s.n - 1)).pc := by unfold runPc; rw [if_pos h3n]
  by_cases hl : t = s.n - 1
  · subst hl
    have hp9 : (s.thr (s.n - 1)).pc = .r9 := e2.symm.trans h9
    unfold step at h1
    rw [if_pos ht, hp9] at h1
    dsimp only at h1
    cases c <;> simp only [stepRun, reduceCtorEq] at h1
    · rename_i j
      split at h1
      · rename_i st k hq
        split at h1
        · rename_i hj
          have := of_decide_eq_true hn j hj
          rw [hq] at this; cases this
        · cases h1
      · cases h1
    · rw [hn, if_pos rfl] at h1
      cases h1
      have h10 : (((s.ev (.iterCall (s.n - 1) s.status s.centroids)).go (s.n - 1) .rI).thr 0).pc = (s.thr 0).pc := by
        rw [go_pc, if_neg (by omega)]; rfl
      have h11 : (((s.ev (.iterCall (s.n - 1) s.status s.centroids)).go (s.n - 1) .rI).thr 1).pc = (s.thr 1).pc := by
        rw [go_pc, if_neg (by omega)]; rfl
      have h12 : runPc ((s.ev (.iterCall (s.n - 1) s.status s.centroids)).go (s.n - 1) .rI) = .rI := by
        unfold runPc; rw [go_n]
        change (if 3 ≤ s.n then _ else _) = _
        rw [if_pos h3n]
        change ((Algo.go _ (s.n - 1) _).thr (s.n - 1)).pc = _
        rw [go_pc, if_pos rfl]
      unfold rank notifPc at h3
      rw [h10, h11, h12, h9, go_n] at h3
      change _ + 10 * 12 + nRank (if 2 ≤ s.n then _ else _) < _ + 10 * 8 + _ at h3
      omega
  · have := hI.others t (by omega) (by omega)
    unfold step at h1
    rw [if_pos ht, this] at h1
    cases h1

/-- **C119.** Without a limit on the iterations, while the run iterates forever, every call of the client returns:
in every fair execution by one client which uses the algorithm as in C58, a call in progress at some time has returned at
some later time, and no other call has been made before. -/
theorem C119_returns (hc : Endless conf) (hF : Forever conf σ) (hP : ∀ i, Peaceful (σ i).log) (hG : Fair conf σ)
    (i : Nat) {op : Op} (ho : (session (σ i).log).1 = some op) :
    ∃ j, i < j ∧ ∃ r, session (σ j).log = (none, (op, r) :: (session (σ i).log).2) := by
  by_contra hno
  have hI := fun j => UseInv.of_oneClient hc (hF.oneClient j) (hP j)
  have hhome : ∀ j, (session (σ j).log).1 = some op → ((σ j).thr 0).pc ≠ .home := by
    intro j h1 h2
    obtain ⟨_, _, _, hR, hC, _⟩ := (hI j).2.2.row
    rw [h2] at hC
    rw [hR.1, hC.1] at h1
    cases h1
  -- the call is in progress forever
  have hses : ∀ d, session (σ (i + d)).log = session (σ i).log := by
    intro d
    induction d with
    | zero => rfl
    | succ d ih =>
      have ho' : (session (σ (i + d)).log).1 = some op := by rw [ih]; exact ho
      rcases hF.next (i + d) with h | ⟨t, c, h⟩
      · rw [← Nat.add_assoc, h]; exact ih
      · rcases step_session_use (Step.of_step h) (hP _) (hhome _ ho') ho' with h1 | ⟨r, h1⟩
        · rw [← Nat.add_assoc, h1]; exact ih
        · exact absurd ⟨i + d + 1, by omega, r, by rw [h1, ih]⟩ hno
  have hin : ∀ j, i ≤ j → (session (σ j).log).1 = some op := by
    intro j hj
    have := hses (j - i)
    rw [show i + (j - i) = j by omega] at this
    rw [this]; exact ho
  have hne := fun j hj => hhome j (hin j hj)
  have hrk : ∀ j, i ≤ j → σ (j + 1) = σ j ∨ cAll ((σ (j + 1)).thr 0).pc < cAll ((σ j).thr 0).pc ∨
      Ranks (σ j) (σ (j + 1)) ∨
      (((σ (j + 1)).thr 0).pc = ((σ j).thr 0).pc ∧ (σ (j + 1)).n = (σ j).n ∧ runPc (σ (j + 1)) = runPc (σ j) ∧
        nRank (notifPc (σ (j + 1))) < nRank (notifPc (σ j))) ∨
      (((σ (j + 1)).thr 0).pc = ((σ j).thr 0).pc ∧ (σ (j + 1)).n = (σ j).n ∧ notifPc (σ (j + 1)) = notifPc (σ j) ∧
        runPc (σ j) = .r9 ∧ runPc (σ (j + 1)) = .rI ∧ (σ j).noSender = true) := by
    intro j hj
    rcases hF.next j with h | ⟨t, c, h⟩
    · exact .inl h
    · exact Step.ranks (hI j).2.2.placed (Step.of_step h) (step_noClient h) (hP _) (hne j hj)
  -- from some time on the client does not move
  obtain ⟨a, ha, hca⟩ := stable (f := fun j => cAll ((σ j).thr 0).pc) (i := i) (fun j hj => by
    rcases hrk j hj with h | h | h | h | h
    · simp only [h]; exact Nat.le_refl _
    · exact Nat.le_of_lt h
    · simp only [h.1]; exact Nat.le_refl _
    · simp only [h.1]; exact Nat.le_refl _
    · simp only [h.1]; exact Nat.le_refl _)
  have hrk2 : ∀ j, a ≤ j → σ (j + 1) = σ j ∨ Ranks (σ j) (σ (j + 1)) ∨
      (((σ (j + 1)).thr 0).pc = ((σ j).thr 0).pc ∧ (σ (j + 1)).n = (σ j).n ∧ runPc (σ (j + 1)) = runPc (σ j) ∧
        nRank (notifPc (σ (j + 1))) < nRank (notifPc (σ j))) ∨
      (((σ (j + 1)).thr 0).pc = ((σ j).thr 0).pc ∧ (σ (j + 1)).n = (σ j).n ∧ notifPc (σ (j + 1)) = notifPc (σ j) ∧
        runPc (σ j) = .r9 ∧ runPc (σ (j + 1)) = .rI ∧ (σ j).noSender = true) := by
    intro j hj
    rcases hrk j (by omega) with h | h | h
    · exact .inl h
    · exact absurd (hca j hj) (Nat.ne_of_lt h)
    · exact .inr h
  have hcl : ∀ j, a ≤ j → ((σ (j + 1)).thr 0).pc = ((σ j).thr 0).pc := by
    intro j hj
    rcases hrk2 j hj with h | h | h | h
    · rw [h]
    · exact h.1
    · exact h.1
    · exact h.1
  -- the run begins an iteration again and again
  have hit : ∀ j, a ≤ j → ∃ k, j ≤ k ∧ runPc (σ k) = .r9 ∧ runPc (σ (k + 1)) = .rI ∧ (σ k).noSender = true := by
    suffices H : ∀ m j, 10 * rCyc (runPc (σ j)) + nRank (notifPc (σ j)) = m → a ≤ j →
        ∃ k, j ≤ k ∧ runPc (σ k) = .r9 ∧ runPc (σ (k + 1)) = .rI ∧ (σ k).noSender = true from
      fun j hj => H _ j rfl hj
    intro m
    induction m using Nat.strongRecOn with
    | _ m ih =>
      rintro j rfl hj
      obtain ⟨t, c, s', h1, h2, h3⟩ := (hI j).2.2.movesE hc (hI j).1 (hI j).2.1 (hne j (by omega))
      obtain ⟨k, hk, hkn⟩ := Fair.changes hG h1 h2 (by intro h; rw [h] at h3; omega)
      obtain ⟨d, rfl⟩ : ∃ d, k = j + d := ⟨k - j, by omega⟩
      obtain ⟨l, t', c', h4, h5⟩ := first_change hF d j hkn
      -- the first change after `j`
      have key : ∃ l, j ≤ l ∧ σ l = σ j ∧ σ (l + 1) ≠ σ j := by
        by_contra hcon
        simp only [not_exists, not_and, Classical.not_not] at hcon
        have : ∀ e, σ (j + e) = σ j := by
          intro e
          induction e with
          | zero => rfl
          | succ e ihe => exact hcon (j + e) (by omega) ihe
        exact h5 (by rw [Nat.add_assoc]; exact this _)
      obtain ⟨l, hl, h6, h7⟩ := key
      have hnr := nRank_le (notifPc (σ (l + 1)))
      rcases hrk2 l (by omega) with h | ⟨_, _, h, _⟩ | ⟨_, _, h, h'⟩ | ⟨_, _, _, h, h', h''⟩
      · exact absurd (h.trans h6) h7
      · obtain ⟨k, hk, hh⟩ := ih _ (by rw [h6] at h; omega) (l + 1) rfl (by omega)
        exact ⟨k, by omega, hh⟩
      · obtain ⟨k, hk, hh⟩ := ih _ (by rw [h6] at h h'; rw [h]; omega) (l + 1) rfl (by omega)
        exact ⟨k, by omega, hh⟩
      · exact ⟨l, hl, h, h', h''⟩
  -- so it stays in its loop
  have hge : ∀ j, a ≤ j → 13 ≤ rCyc (runPc (σ j)) := by
    intro j hj
    by_contra hlt
    have : ∀ d, rCyc (runPc (σ (j + d))) ≤ 12 := by
      intro d
      induction d with
      | zero => rw [Nat.add_zero]; omega
      | succ d ihd =>
        rw [← Nat.add_assoc]
        rcases hrk2 (j + d) (by omega) with h | ⟨_, _, h, _⟩ | ⟨_, _, h, _⟩ | ⟨_, _, _, h, _, _⟩
        · rw [h]; exact ihd
        · omega
        · rw [h]; exact ihd
        · rw [h] at ihd; exact absurd ihd (by simp only [rCyc]; omega)
    obtain ⟨k, hk, h9, _⟩ := hit j hj
    have := this (k - j)
    rw [show j + (k - j) = k by omega, h9] at this
    exact absurd this (by simp only [rCyc]; omega)
  obtain ⟨b, hb, _, hbI, _⟩ := hit a (Nat.le_refl _)
  have hle : ∀ d, rCyc (runPc (σ (b + 1 + d))) ≤ 19 := by
    intro d
    induction d with
    | zero => rw [Nat.add_zero, hbI]; exact Nat.le_refl _
    | succ d ihd =>
      rw [← Nat.add_assoc]
      rcases hrk2 (b + 1 + d) (by omega) with h | ⟨_, _, h, _⟩ | ⟨_, _, h, _⟩ | ⟨_, _, _, _, h, _⟩
      · rw [h]; exact ihd
      · omega
      · rw [h]; exact ihd
      · rw [h]; exact Nat.le_refl _
  -- and from some time on the notification loop does not move
  have hno1 : ∀ j, b + 1 ≤ j → notifPc (σ (j + 1)) = notifPc (σ j) ∨
      nRank (notifPc (σ (j + 1))) < nRank (notifPc (σ j)) := by
    intro j hj
    rcases hrk2 j (by omega) with h | ⟨_, _, _, h⟩ | ⟨_, _, _, h⟩ | ⟨_, _, h, _⟩
    · rw [h]; exact .inl rfl
    · refine .inl (h.resolve_right fun h => h ?_)
      have := hle (j - (b + 1))
      rw [show b + 1 + (j - (b + 1)) = j by omega] at this
      exact rCyc_quiet (hge j (by omega)) this
    · exact .inr h
    · exact .inl h
  obtain ⟨e, he, hst⟩ := stable (f := fun j => nRank (notifPc (σ j))) (i := b + 1) (fun j hj => by
    rcases hno1 j hj with h | h
    · simp only [h]; exact Nat.le_refl _
    · exact Nat.le_of_lt h)
  have hnp : ∀ j, e ≤ j → notifPc (σ (j + 1)) = notifPc (σ j) := by
    intro j hj
    exact (hno1 j (by omega)).resolve_right fun h => absurd (hst j hj) (Nat.ne_of_lt h)
  have h3n : ∀ j, a ≤ j → 3 ≤ (σ j).n := by
    intro j hj
    have := hge j hj
    unfold runPc at this
    split at this
    · assumption
    · exact absurd this (by simp only [rCyc]; omega)
  have hnl : ∀ j, e ≤ j → ((σ (j + 1)).thr 1).pc = ((σ j).thr 1).pc := by
    intro j hj
    have := hnp j hj
    unfold notifPc at this
    have h1 := h3n j (by omega)
    have h2 := h3n (j + 1) (by omega)
    rw [if_pos (by omega), if_pos (by omega)] at this
    exact this
  -- but one of them can move again and again
  have hab : ∀ j, ∃ k, j ≤ k ∧ (Able conf 0 (σ k) ∨ Able conf 1 (σ k)) := by
    intro j
    obtain ⟨k, hk, h9, _, hs⟩ := hit (max a j) (Nat.le_max_left _ _)
    exact ⟨k, by omega, other_able hc (hI k).1 (hI k).2.1 (hI k).2.2 (hne k (by omega)) h9 hs⟩
  by_cases h0 : ∀ j, ∃ k, j ≤ k ∧ Able conf 0 (σ k)
  · obtain ⟨j, hj, hm⟩ := hG 0 h0 a
    exact hm (hcl j hj)
  · simp only [Classical.not_forall] at h0
    obtain ⟨m, hm⟩ := h0
    obtain ⟨j, hj, hmv⟩ := hG 1 (fun j => by
      obtain ⟨k, hk, h | h⟩ := hab (max m j)
      · exact absurd ⟨k, by omega, h⟩ hm
      · exact ⟨k, by omega, h⟩) e
    exact hmv (hnl j hj)

/-! ## A run which works forever -/

/-- The run, goroutine 2, is in its loop, and the client is at `p`. -/
structure Works (p : PC Nat) (s : Algo Nat) : Prop where
  n : s.n = 3
  c : (s.thr 0).pc = p
  l : (s.thr 1).pc = .nl0
  r : ((s.thr 2).pc = .r6 ∨ (s.thr 2).pc = .r7 ∨ (s.thr 2).pc = .r9 ∨ (s.thr 2).pc = .rI ∨ (s.thr 2).pc = .rS 6) ∧
    s.ma = none ∨ (s.thr 2).pc = .rS' 6
  st : s.status.value = .running
  mr : s.mr = []
  sm : s.sm = none
  k : (s.thr 0).kind = .client
  log : Peaceful s.log

theorem Works.next {p : PC Nat} (hp : sending p = none) {s : Algo Nat} (h : Works p s) :
    ∃ c s', s.step Trace.plain 2 c = some s' ∧ (s'.thr 2).pc ≠ (s.thr 2).pc ∧ Works p s' ∧
      session s'.log = session s.log := by
  have hne : ∀ {s1 : Algo Nat} {p : PC Nat}, (s.thr 2).pc ≠ p → ((s1.go 2 p).thr 2).pc ≠ (s.thr 2).pc := by
    intro s1 p hp he
    rw [go_pc, if_pos rfl] at he
    exact hp he.symm
  have ht : 2 < s.n := by rw [h.n]; decide
  have h0 : ∀ {s1 : Algo Nat} {q : PC Nat}, s1.thr = s.thr → ((s1.go 2 q).thr 0).pc = p := by
    intro s1 p he; rw [go_pc, if_neg (by decide), he, h.c]
  have h1 : ∀ {s1 : Algo Nat} {p : PC Nat}, s1.thr = s.thr → ((s1.go 2 p).thr 1).pc = .nl0 := by
    intro s1 p he; rw [go_pc, if_neg (by decide), he, h.l]
  have h2 : ∀ {s1 : Algo Nat} {p : PC Nat}, ((s1.go 2 p).thr 2).pc = p := by
    intro s1 p; rw [go_pc, if_pos rfl]
  have hk : ∀ {s1 : Algo Nat} {p : PC Nat}, s1.thr = s.thr → ((s1.go 2 p).thr 0).kind = .client := by
    intro s1 p he; rw [go_kind, he, h.k]
  rcases h.r with ⟨hr | hr | hr | hr | hr, hm⟩ | hr
  · refine ⟨.go, s.go 2 .r7, ?_, hne (by rw [hr]; rintro ⟨⟩), ⟨h.n, h0 rfl, h1 rfl, .inl ⟨.inr (.inl h2), hm⟩, h.st,
      h.mr, h.sm, hk rfl, h.log⟩, rfl⟩
    simp only [step, if_pos ht, hr, stepRun, h.st, if_true]
  · refine ⟨.go, s.go 2 .r9, ?_, hne (by rw [hr]; rintro ⟨⟩), ⟨h.n, h0 rfl, h1 rfl, .inl ⟨.inr (.inr (.inl h2)), hm⟩,
      h.st, h.mr, h.sm, hk rfl, h.log⟩, rfl⟩
    have hd : iterDone Trace.plain s = false := by
      simp [iterDone, Trace.plain]
    simp only [step, if_pos ht, hr, stepRun, hm, hd, if_true]
    rfl
  · refine ⟨.default, (s.ev (.iterCall 2 s.status s.centroids)).go 2 .rI, ?_, hne (by rw [hr]; rintro ⟨⟩),
      ⟨h.n, h0 rfl, h1 rfl, .inl ⟨.inr (.inr (.inr (.inl h2))), hm⟩, h.st, h.mr, h.sm, hk rfl, trivial, h.log⟩, rfl⟩
    have hs : s.noSender = true := by
      unfold noSender
      refine decide_eq_true fun j hj => ?_
      rw [h.n] at hj
      have : j = 0 ∨ j = 1 ∨ j = 2 := by omega
      rcases this with rfl | rfl | rfl
      · rw [h.c, hp]; rfl
      · rw [h.l]; rfl
      · rw [hr]; rfl
    simp only [step, if_pos ht, hr, stepRun, hs, if_true]
  · refine ⟨.iterOk 6, (s.ev (.iterOk 2 6)).go 2 (.rS 6), ?_, hne (by rw [hr]; rintro ⟨⟩),
      ⟨h.n, h0 rfl, h1 rfl, .inl ⟨.inr (.inr (.inr (.inr h2))), hm⟩, h.st, h.mr, h.sm, hk rfl, trivial, h.log⟩, rfl⟩
    simp only [step, if_pos ht, hr, stepRun]
  · refine ⟨.go, { s with ma := some 2 }.go 2 (.rS' 6), ?_, hne (s1 := { s with ma := some 2 }) (by rw [hr]; rintro ⟨⟩),
      ⟨h.n, h0 (s1 := { s with ma := some 2 }) rfl, h1 (s1 := { s with ma := some 2 }) rfl, .inr h2, h.st, h.mr, h.sm,
        hk (s1 := { s with ma := some 2 }) rfl, h.log⟩, rfl⟩
    simp only [step, if_pos ht, hr, stepRun, hm, if_true]
  · have hs : s.step Trace.plain 2 .go = some (({ s with
        iterations := s.iterations + 1
        centroids := some 6
        figIter := s.iterations + 1
        figPushed := s.pushedData
        ma := none }.ev (.saved 6)).go 2 .r6) := by
      simp only [step, if_pos ht, hr, stepRun, h.mr, if_true]
    exact ⟨.go, _, hs, hne (by rw [hr]; rintro ⟨⟩),
      ⟨h.n, h0 rfl, h1 rfl, .inl ⟨.inl h2, rfl⟩, h.st, h.mr, h.sm, hk rfl, trivial, h.log⟩, rfl⟩

open Classical in
/-- The states of an execution in which only the run works. -/
noncomputable def works (p : PC Nat) (hp : sending p = none) (s : Algo Nat) : Nat → Algo Nat
  | 0 => s
  | i + 1 => if h : Works p (works p hp s i) then (h.next hp).choose_spec.choose else works p hp s i

theorem works_works {p : PC Nat} (hp : sending p = none) {s : Algo Nat} (h : Works p s) (i : Nat) :
    Works p (works p hp s i) ∧ (∃ c, (works p hp s i).step Trace.plain 2 c = some (works p hp s (i + 1))) ∧
    ((works p hp s (i + 1)).thr 2).pc ≠ ((works p hp s i).thr 2).pc ∧
    session (works p hp s i).log = session s.log := by
  have hs : ∀ i, Works p (works p hp s i) := by
    intro i
    induction i with
    | zero => exact h
    | succ i ih =>
      rw [works, dif_pos ih]
      exact (ih.next hp).choose_spec.choose_spec.2.2.1
  have h1 := fun i => ((hs i).next hp).choose_spec.choose_spec
  have e1 : ∀ i, works p hp s (i + 1) = ((hs i).next hp).choose_spec.choose := fun i => by rw [works, dif_pos (hs i)]
  refine ⟨hs i, ?_, ?_, ?_⟩
  · rw [e1]; exact ⟨_, (h1 i).1⟩
  · rw [e1]; exact (h1 i).2.1
  · induction i with
    | zero => rfl
    | succ i ih => rw [e1, (h1 i).2.2.2, ih]

/-- `Play` on a new algorithm, then a call of `Status`. -/
def workStart : List (Act Nat) := Trace.init ++ Trace.play ++ [Trace.call 0 .status]

theorem workStart_works : ∃ s, OneClient Trace.plain s ∧ Works .rdStatus s ∧ (session s.log).1 = some .status ∧
    (s.thr 0).inPush = false := by
  have key : (exec Trace.plain (new : Algo Nat) workStart).any (fun s => peacefulB s.log &&
      decide (s.n = 3 ∧ (s.thr 0).pc = .rdStatus ∧ (s.thr 1).pc = .nl0 ∧ (s.thr 2).pc = .r6 ∧
        s.status.value = .running ∧ s.ma = none ∧ s.mr = [] ∧ s.sm = none ∧ (s.thr 0).inPush = false ∧ (s.thr 0).kind = .client ∧
        (session s.log).1 = some .status)) = true := by
    decide +kernel
  cases he : exec Trace.plain (new : Algo Nat) workStart with
  | none => rw [he] at key; cases key
  | some s =>
    rw [he, Option.any_some, Bool.and_eq_true] at key
    obtain ⟨h1, h2, h3, h4, h5, h6, h7, h8, h9, h11, h10⟩ := of_decide_eq_true key.2
    exact ⟨s, ⟨workStart.tail, by decide, he⟩, ⟨h1, h2, h3, .inl ⟨.inl h4, h6⟩, h5, h7, h8, h11,
      peaceful_of_test key.1⟩, h10, h9⟩

/-- **C119 (claim examined).** The hypothesis about each goroutine is needed: it is not enough that something
happens all the time. The run can work forever while a client which calls `Status`, and could go on, is
forgotten. -/
theorem C119_starved : ∃ σ : Nat → Algo Nat, Endless Trace.plain ∧ Forever Trace.plain σ ∧ (∀ i, Peaceful (σ i).log) ∧
    Progress Trace.plain σ ∧ (∀ i, Able Trace.plain 0 (σ i)) ∧ ∀ i, (session (σ i).log).1 = some .status := by
  obtain ⟨s, h1, h2, h3, h5⟩ := workStart_works
  have h := works_works (p := .rdStatus) rfl h2
  refine ⟨works .rdStatus rfl s, ⟨rfl, rfl, rfl, rfl, rfl⟩, ⟨h1, fun i => .inr ⟨2, (h i).2.1⟩⟩, fun i => (h i).1.log,
    fun i _ _ => ⟨i + 1, by omega, fun he => (h i).2.2.1 (by rw [he])⟩, fun i => ?_, fun i => by rw [(h i).2.2.2]; exact h3⟩
  have hw := (h i).1
  have hst : (works .rdStatus rfl s i).step Trace.plain 0 .go =
      some ((works .rdStatus rfl s i).ret 0 (.status (works .rdStatus rfl s i).status)) := by
    have : 0 < (works .rdStatus rfl s i).n := by rw [hw.n]; decide
    simp only [step, if_pos this, hw.c, stepRead, hw.sm, if_true]
  refine ⟨.go, _, by rintro op ⟨⟩, hst, ?_⟩
  rw [ret_pc, if_pos rfl, hw.c]
  split <;> rintro ⟨⟩

theorem Works.not_able {s : Algo Nat} (h : Works .home s) {t : Nat} (ht : t ≠ 2) : ¬ Able Trace.plain t s := by
  rintro ⟨c, s', h1, h2, -⟩
  have hlt := step_lt h2
  unfold step at h2
  rw [if_pos hlt] at h2
  have hn := h.n
  have : t = 0 ∨ t = 1 := by omega
  rcases this with rfl | rfl
  · rw [h.c] at h2
    dsimp only at h2
    cases c <;> simp only [stepHome, reduceCtorEq, h.k, if_false] at h2
    exact h1 _ rfl
  · rw [h.l] at h2
    dsimp only at h2
    cases c <;> simp only [stepNotif, reduceCtorEq] at h2
    rename_i j
    split at h2
    · rename_i st p hq
      split at h2
      · rename_i hj
        have : j = 0 ∨ j = 1 ∨ j = 2 := by omega
        rcases this with rfl | rfl | rfl
        · rw [h.c] at hq; cases hq
        · rw [h.l] at hq; cases hq
        · rcases h.r with ⟨hr | hr | hr | hr | hr, _⟩ | hr <;> rw [hr] at hq <;> cases hq
      · cases h2
    · cases h2

/-- The hypotheses of C119 hold: after `Play`, a call of `Status` is in progress, it returns, and the run works
forever. -/
example : ∃ σ : Nat → Algo Nat, Endless Trace.plain ∧ Forever Trace.plain σ ∧ (∀ i, Peaceful (σ i).log) ∧
    Fair Trace.plain σ ∧ (session (σ 0).log).1 = some .status ∧
    ∀ i, ((σ (i + 1)).thr 2).pc ≠ ((σ (i + 2)).thr 2).pc := by
  obtain ⟨s, h1, h2, h3, h5⟩ := workStart_works
  have hst : s.step Trace.plain 0 .go = some (s.ret 0 (.status s.status)) := by
    have : 0 < s.n := by rw [h2.n]; decide
    simp only [step, if_pos this, h2.c, stepRead, h2.sm, if_true]
  have hne : ∀ t, t ≠ 0 → ((s.ret 0 (.status s.status)).thr t).pc = (s.thr t).pc := fun t ht => by
    rw [ret_pc, if_neg ht]
  have hw : Works .home (s.ret 0 (.status s.status)) := by
    refine ⟨by rw [ret_n, h2.n], by rw [ret_pc, if_pos rfl, h5]; rfl, by rw [hne 1 (by decide), h2.l], ?_,
      by rw [ret_status, h2.st], by rw [ret_mr, h2.mr], by rw [ret_sm, h2.sm], by rw [ret_kind, h2.k], ?_⟩
    · rw [hne 2 (by decide), ret_ma]; exact h2.r
    · rw [ret_log, h5]; exact ⟨trivial, h2.log⟩
  have h := works_works (p := .home) rfl hw
  refine ⟨fun | 0 => s | i + 1 => works .home rfl (s.ret 0 (.status s.status)) i, ⟨rfl, rfl, rfl, rfl, rfl⟩,
    ⟨h1, ?_⟩, ?_, ?_, h3, fun i => (h i).2.2.1.symm⟩
  · intro i
    cases i with
    | zero => exact .inr ⟨0, .go, hst⟩
    | succ i => exact .inr ⟨2, (h i).2.1⟩
  · intro i
    cases i with
    | zero => exact h2.log
    | succ i => exact (h i).1.log
  · intro t ha i
    by_cases ht : t = 2
    · subst ht; exact ⟨i + 1, by omega, (h i).2.2.1⟩
    · obtain ⟨j, hj, hab⟩ := ha 1
      cases j with
      | zero => omega
      | succ j => exact absurd hab ((h j).1.not_able ht)

end Distclus
