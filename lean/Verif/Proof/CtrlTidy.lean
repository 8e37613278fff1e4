import Verif.Proof.CtrlSerial
import Verif.Spec.CtrlTidy
/-!
# When data are pushed: the invariant
-/
namespace Distclus
open Ctrl Spec
namespace Algo
variable {C : Type} {conf : Conf} {s s' : Algo C} {t u j : Nat} {p : PC C}

set_option linter.unusedVariables false
set_option linter.unusedSimpArgs false
set_option linter.unusedTactic false
set_option linter.unreachableTactic false

/-- The client is in `Play` and has started the run. -/
def late : PC C → Bool
  | .pl2 | .pl3 | .sd0 _ .playRun | .sd1 _ .playRun | .sd2 .playRun | .sd3 _ .playRun => true
  | _ => false

/-- `Init` has returned and the status is not Ready yet. -/
def primed : PC C → Bool
  | .in6 _ _ _ | .in7 _ _ _ | .in8 _ _ => true
  | _ => false

/-- `Init` has returned in `Play`. -/
def warm : PC C → Bool
  | .in6 _ _ _ | .in7 _ _ _ | .in8 .play _ | .in9 .play _ | .in10 .play _ | .pl1 => true
  | _ => false

/-! ## What the invariant of the executions says -/

theorem BatchInv.isClient (hI : BatchInv conf s) (ht : t < s.n) (hp : (s.thr t).pc = p)
    (h : clientPc p = true) : t = 0 := by
  rcases hI.phase with h' | h'
  · exact h'.use.isClient ht hp h
  · exact h'.isClient ht hp h

theorem BatchInv.isRun (hI : BatchInv conf s) (ht : t < s.n) (hp : (s.thr t).pc = p)
    (h : runnerPc p = true) : 3 ≤ s.n := by
  rcases hI.phase with h' | h'
  · exact (h'.use.isRun ht hp h).2.1
  · exact h'.n3

theorem BatchInv.live (hI : BatchInv conf s) (hp : (s.thr t).pc = p) (hd : p ≠ .dead) : t < s.n := by
  refine Nat.lt_of_not_le fun hn => hd ?_
  rw [← hp, hI.ack.lock.unborn t hn]

theorem BatchInv.noPush (hI : BatchInv conf s) (hp : (s.thr 0).pc = p) (h : p ≠ .pu6) :
    (s.thr 0).inPush = false := by
  rcases hI.phase with h' | h'
  · exact h'.use.noPush hp h
  · exact h'.push

theorem BatchInv.home (hI : BatchInv conf s) (hp : (s.thr 0).pc = .home) : (session s.log).1 = none := by
  rcases hI.phase with h' | h'
  · obtain ⟨op, d, ph, hR, hC, hO⟩ := h'.use.row
    rw [hp] at hC; rw [hR.1]; exact hC.1
  · obtain ⟨op, v, hR, hC, hO⟩ := h'.row
    rw [hp] at hC; rw [hR.cur]; exact hC.1

theorem BatchInv.late (hI : BatchInv conf s) (hp : late (s.thr 0).pc = true) :
    (session s.log).1 = some .play := by
  rcases hI.phase with h' | h'
  · obtain ⟨op, d, ph, hR, hC, hO⟩ := h'.use.row
    rw [hR.1]
    generalize (s.thr 0).pc = p at hC hp
    cases p <;> first
      | (cases hp; done)
      | exact hC.1
      | (cases ‹SendFrom› <;> first | (cases hp; done) | exact hC.1.1)
  · obtain ⟨op, v, hR, hC, hO⟩ := h'.row
    rw [hR.cur]
    generalize (s.thr 0).pc = p at hC hp
    cases p <;> first | (cases hp; done) | exact hC.1 | exact hC.elim

/-- In `Init`, in `Play` before the run, and in `Push`, there is one of these calls. -/
theorem BatchInv.early (hI : BatchInv conf s) (hp : (s.thr 0).pc = p)
    (h : p = .pu1 ∨ (∃ k, p = .in5 k) ∨ p = .pl0 ∨ p = .pl1) :
    (session s.log).1 = some .push ∨ (session s.log).1 = some .init ∨ (session s.log).1 = some .play := by
  rcases hI.phase with h' | h'
  · obtain ⟨op, d, ph, hR, hC, hO⟩ := h'.use.row
    rw [hR.1]
    rw [hp] at hC
    rcases h with rfl | ⟨k, rfl⟩ | rfl | rfl
    · exact .inl hC.1
    · cases k
      · exact .inr (.inl hC.1)
      · exact .inr (.inr hC.1)
    · exact .inr (.inr hC.1)
    · exact .inr (.inr hC.1)
  · obtain ⟨op, v, hR, hC, hO⟩ := h'.row
    rw [hp] at hC
    rcases h with rfl | ⟨k, rfl⟩ | rfl | rfl <;> exact hC.elim

theorem batching_unplayed {l : List (Event C)} (hP : Batching l)
    (h : (session l).1 = some .push ∨ (session l).1 = some .init ∨ (session l).1 = some .play) :
    played (session l).2 = false := by
  rcases h with h | h | h <;>
  · rcases (batching_allowed hP h).1 with h' | h' | h' | h'
    · exact h'
    · cases h'
    · cases h'
    · cases h'.1

theorem played_mono {l : List (Event C)} {e : Event C} (h : played (session l).2 = true) :
    played (session (e :: l)).2 = true := by
  cases e
  case call t op => cases t <;> exact h
  case ret t r =>
    cases t with
    | succ t => exact h
    | zero =>
      simp only [session]
      split
      · simp only [played, List.any_cons, Bool.or_eq_true] at h ⊢
        exact .inr h
      · exact h
  all_goals exact h

theorem NoIter.event {l : List (Event C)} {e : Event C} (h : NoIter l)
    (h1 : ∀ r st c, e ≠ .iterCall r st c) (h2 : ∀ r c, e ≠ .iterOk r c) : NoIter (e :: l) := by
  cases e <;> first | exact h | exact absurd rfl (h1 _ _ _) | exact absurd rfl (h2 _ _)

theorem Steady.event {l : List (Event C)} {e : Event C} (h : Steady l)
    (h1 : e = .implPushed → alive (current l) = true) : Steady (e :: l) := by
  cases e <;> first | exact h | exact ⟨h1 rfl, h⟩ | trivial

theorem Fresh.event {l : List (Event C)} {e : Event C} (h : Fresh l) (h1 : e ≠ .implPushed) :
    Fresh (e :: l) := by
  cases e <;> first | exact h | exact absurd rfl h1 | trivial

theorem Cold.tail {l : List (Event C)} {e : Event C} (h : Cold (e :: l)) : Cold l := by
  cases e
  case call t op => cases t <;> cases op <;> first | exact h | exact h.2
  all_goals exact h

/-- The call the client is in was made when it had made those it has completed. -/
theorem Cold.now : ∀ {l : List (Event C)}, Cold l → (session l).1 = some .play →
    followsL (session l).2 ≠ some .ready := by
  intro l
  induction l with
  | nil => intro _ h; cases h
  | cons e l ih =>
    intro hC h
    have ih := ih (Cold.tail hC)
    cases e
    case call t op =>
      cases t with
      | succ t => exact ih h
      | zero => cases op <;> first | (cases h; done) | exact hC.1
    case ret t r =>
      cases t with
      | succ t => exact ih h
      | zero =>
        simp only [session] at h
        split at h <;> cases h
    all_goals exact ih h

/-! ## The invariant -/

/-- What the state says about the record. -/
structure Tidy (s : Algo C) : Prop where
  none : s.n ≤ 2 → NoIter s.log
  late : 3 ≤ s.n → played (session s.log).2 = true ∨ late (s.thr 0).pc = true
  steady : 3 ≤ s.n ∨ s.status.value = .ready ∨ primed (s.thr 0).pc = true → Steady s.log
  cold : Cold s.log → 3 ≤ s.n ∨ warm (s.thr 0).pc = true → Fresh s.log
  orderly : Orderly s.log
  paired : Paired s.log
  ini : 3 ≤ s.n → s.log.any initOk = true

theorem Tidy.few (hI : BatchInv conf s) (hT : Tidy s) (hP : Batching s.log) (hp : (s.thr 0).pc = p)
    (h : p = .pu1 ∨ (∃ k, p = .in5 k) ∨ p = .pl0 ∨ p = .pl1) : s.n ≤ 2 := by
  refine Nat.le_of_lt_succ (Nat.lt_of_not_le fun hn => ?_)
  rcases hT.late hn with h1 | h1
  · rw [batching_unplayed hP (hI.early hp h)] at h1; cases h1
  · rw [hp] at h1
    rcases h with rfl | ⟨k, rfl⟩ | rfl | rfl <;> cases h1

theorem Tidy.step (hc : Limited conf) (hI : BatchInv conf s) (hT : Tidy s) (hst : Step conf s s')
    (hnc : s'.n = s.n + 1 → (s'.thr s.n).kind ≠ .client) (hP : Batching s'.log)
    (hI' : BatchInv conf s') : Tidy s' := by
  have hPs : Batching s.log := batching_tail hst hP
  have hL := hI.ack.lock
  have hR := bounded_reachable hI.bounded
  have hcur : current s.log = s.status := hR.hist.cur
  -- which goroutines are started
  have hgrow : s'.n = s.n ∨ (s.n = 1 ∧ s'.n = 2) ∨
      (s'.n = s.n + 1 ∧ (s.thr 0).pc = .pl1 ∧ Algo.late (s'.thr 0).pc = true) := by
    rcases hst.grow with h | ⟨h, ⟨t, ht, hp, h1⟩ | ⟨t, k, ht, hp, hv⟩ | hto | hcl⟩
    · exact .inl h
    · obtain rfl := hI.isClient ht hp rfl
      exact .inr (.inr ⟨h, hp, by rw [h1 hp]; rfl⟩)
    · refine .inr (.inl ?_)
      rcases hI.phase with h' | h'
      · have := h'.use.born.1 hv; omega
      · exact absurd hv (by
          obtain ⟨_, _, _, _, hO⟩ := h'.row
          revert hO
          generalize (s.thr (s.n - 1)).pc = q
          intro hO hv
          rw [hv] at hO
          cases q <;> simp [RunEnd] at hO)
    · rw [hc.1.2.1] at hto; cases hto
    · exact absurd hcl (hnc h)
  have hn : s.n ≤ s'.n := by rcases hgrow with h | ⟨h, h'⟩ | ⟨h, _⟩ <;> omega
  -- data are pushed and `Init` returns before the run
  have hpush : EvFact s s' .implPushed → s.n ≤ 2 ∧ (s.thr 0).pc = .pu1 := by
    rintro ⟨t, hp⟩
    obtain rfl := hI.isClient (hI.live hp (by rintro ⟨⟩)) hp rfl
    exact ⟨hT.few hI hPs hp (.inl rfl), hp⟩
  have hinit : ∀ c e, EvFact s s' (.initRet c e) → s.n ≤ 2 := by
    rintro c e ⟨t, k, hp, _⟩
    obtain rfl := hI.isClient (hI.live hp (by rintro ⟨⟩)) hp rfl
    exact hT.few hI hPs hp (.inr (.inl ⟨k, rfl⟩))
  have hcall : ∀ r st c, EvFact s s' (.iterCall r st c) → 3 ≤ s.n := by
    rintro r st c ⟨hp, _⟩
    exact hI.isRun (hI.live hp (by rintro ⟨⟩)) hp rfl
  have hok : ∀ r c, EvFact s s' (.iterOk r c) → 3 ≤ s.n := by
    rintro r c ⟨hp, _⟩
    exact hI.isRun (hI.live hp (by rintro ⟨⟩)) hp rfl
  have hlog := hst.log
  have h0 := hst.edge hL 0
  dsimp only at h0
  have hready : (s.thr 0).pc = .pl1 → s.status.value = .ready := by
    intro hp
    rcases hI.phase with h' | h'
    · obtain ⟨op, d, ph, _, hC, hO⟩ := h'.use.row
      rw [hp] at hC
      obtain ⟨_, _, rfl⟩ := hC
      exact hO.1
    · obtain ⟨op, v, _, hC, _⟩ := h'.row
      rw [hp] at hC; exact hC.elim
  -- data pushed to an algorithm which is alive
  have hsteady : (3 ≤ s.n ∨ s.status.value = .ready ∨ primed (s.thr 0).pc = true) → Steady s'.log := by
    intro h
    have h1 := hT.steady h
    rcases hlog with ⟨h2, _⟩ | ⟨e, h2, _, hf⟩
    · rw [h2]; exact h1
    · rw [h2]
      refine Steady.event h1 ?_
      rintro rfl
      obtain ⟨h3, h4⟩ := hpush hf
      rcases h with h | h | h
      · omega
      · rw [hcur]; simp [alive, h]
      · rw [h4] at h; cases h
  have hfresh : Cold s'.log → (3 ≤ s.n ∨ warm (s.thr 0).pc = true) → Fresh s'.log := by
    intro hC h
    rcases hlog with ⟨h2, _⟩ | ⟨e, h2, _, hf⟩
    · rw [h2] at hC ⊢; exact hT.cold hC h
    · rw [h2] at hC ⊢
      refine Fresh.event (hT.cold (Cold.tail hC) h) ?_
      rintro rfl
      obtain ⟨h3, h4⟩ := hpush hf
      rcases h with h | h
      · omega
      · rw [h4] at h; cases h
  have hinr : ∀ c, cell (s'.thr 0).pc = .inr c → cell (s.thr 0).pc = .inr c ∨
      ∃ e l, s'.log = .initRet c e :: l := by
    intro c h
    cases hst.cell hL (created_iterations hR) with
    | still hc hi hl hp => rw [hp] at h; exact .inl h
    | initRet u c' e h0 h1 hv hc hi hl =>
      by_cases e : 0 = u
      · rw [e, h1] at h; cases h; exact .inr ⟨_, _, hl⟩
      · rw [hv 0 e] at h; exact .inl h
    | start u h0 h1 hv hc hi hl =>
      by_cases e : 0 = u
      · rw [e, h1] at h; cases h
      · rw [hv 0 e] at h; exact .inl h
    | initSave u c' h0 h1 hv hc hi hl =>
      by_cases e : 0 = u
      · rw [e, h1] at h; cases h
      · rw [hv 0 e] at h; exact .inl h
    | iterCall u st h0 h1 hv hc hi hl =>
      by_cases e : 0 = u
      · rw [e, h1] at h; cases h
      · rw [hv 0 e] at h; exact .inl h
    | iterOk u c' h0 h1 hv hc hi hl =>
      by_cases e : 0 = u
      · rw [e, h1] at h; cases h
      · rw [hv 0 e] at h; exact .inl h
    | iterEnd u e he h0 h1 hv hc hi hl =>
      by_cases e : 0 = u
      · rw [e, h1] at h; cases h
      · rw [hv 0 e] at h; exact .inl h
    | save u c' h0 h1 hv hc hi hl =>
      by_cases e : 0 = u
      · rw [e, h1] at h; cases h
      · rw [hv 0 e] at h; exact .inl h
  refine ⟨?_, ?_, ?_, ?_, ?_, ?_, ?_⟩
  · intro h
    have h1 := hT.none (by omega)
    rcases hlog with ⟨h2, _⟩ | ⟨e, h2, _, hf⟩
    · rw [h2]; exact h1
    · rw [h2]
      refine NoIter.event h1 ?_ ?_
      · rintro r st c rfl; have := hcall _ _ _ hf; omega
      · rintro r c rfl; have := hok _ _ hf; omega
  · intro h
    rcases hgrow with hg | ⟨_, hg⟩ | ⟨_, _, hg⟩
    · rcases hT.late (by omega) with h1 | h1
      · left
        rcases hlog with ⟨h2, _⟩ | ⟨e, h2, _, hf⟩
        · rw [h2]; exact h1
        · rw [h2]; exact played_mono h1
      · have hop := hI.late h1
        have hb : back s 0 = .home := by
          unfold back
          rw [hI.noPush rfl (by intro h; rw [h] at h1; cases h1), if_neg (by simp)]
        have key : Algo.late (s'.thr 0).pc = true ∨ (s'.thr 0).pc = .home := by
          rcases h0 with h0 | h0
          · rw [h0]; exact .inl h1
          · generalize (s.thr 0).pc = p at h0 h1
            generalize (s'.thr 0).pc = p' at h0
            cases h0 <;> first
              | (cases h1; done)
              | exact .inl h1
              | exact .inl rfl
              | exact .inr hb
              | (cases ‹SendFrom› <;> first | (cases h1; done) | exact .inl rfl)
        rcases key with h2 | h2
        · exact .inr h2
        · left
          have h3 := hI'.home h2
          rcases hlog with ⟨h4, _⟩ | ⟨e, h4, _, hf⟩
          · rw [h4, hop] at h3; cases h3
          · rw [h4] at h3 ⊢
            cases e
            case call t op _ => cases t <;> simp [session, hop] at h3
            case ret t r _ =>
              cases t with
              | succ t => simp [session, hop] at h3
              | zero => simp [session, hop, played]
            all_goals simp [session, hop] at h3
    · omega
    · exact .inr hg
  · rintro (h | h | h)
    · rcases hgrow with hg | ⟨_, hg⟩ | ⟨_, hg, _⟩
      · exact hsteady (.inl (by omega))
      · omega
      · exact hsteady (.inr (.inl (hready hg)))
    · rcases hlog with ⟨_, h2⟩ | ⟨e, h2, h3, hf⟩
      · rw [h2] at h; exact hsteady (.inr (.inl h))
      · cases he : isSet e with
        | false => rw [h3 he] at h; exact hsteady (.inr (.inl h))
        | true =>
          cases e <;> first | (cases he; done) | skip
          rename_i st
          obtain ⟨rfl, hf⟩ := hf
          have run : ∀ {t p}, (s.thr t).pc = p → runnerPc p = true → Steady s'.log := fun hp h =>
            hsteady (.inl (hI.isRun (hI.live hp (by rintro rfl; cases h)) hp h))
          rcases hf with ⟨t, k, hp, h4⟩ | ⟨t, k, hp, h4⟩ | ⟨t, k, e, hp, h4⟩ | ⟨_, h4, _⟩ | ⟨_, t, hp | hp⟩ |
            ⟨_, t, hp, _⟩ | ⟨_, t, e, hp | hp, _⟩ | ⟨t, _, _, hp, _⟩
          · rw [h4] at h; cases h
          · obtain rfl := hI.isClient (hI.live hp (by rintro ⟨⟩)) hp rfl
            exact hsteady (.inr (.inr (by rw [hp]; rfl)))
          · rw [h4] at h; cases h
          · exact hsteady (.inr (.inl h4))
          all_goals exact run hp rfl
    · have key : primed (s.thr 0).pc = true ∨ ∃ c e l, s'.log = .initRet c e :: l := by
        rcases h0 with h0 | h0
        · rw [h0] at h; exact .inl h
        · generalize hp : (s.thr 0).pc = p at h0
          generalize hp' : (s'.thr 0).pc = p' at h0 h
          cases h0 <;> first
            | (cases h; done)
            | exact .inl rfl
            | (unfold back at h; split at h <;> cases h; done)
            | (unfold beginPc at h; split at h <;> cases h; done)
            | (split at h <;> cases h; done)
            | (rename_i op _; cases op <;> cases h; done)
            | (cases ‹SendFrom› <;> simp only [sentPc, back] at h <;> (try split at h) <;> (cases h; done))
            | skip
          rename_i k c e
          rcases hinr c (by rw [hp']; rfl) with h5 | ⟨e, l, h5⟩
          · rw [hp] at h5; cases h5
          · exact .inr ⟨c, e, l, h5⟩
      rcases key with h | ⟨c, e, l, h⟩
      · exact hsteady (.inr (.inr h))
      · rw [h]; trivial
  · intro hC h
    have hC0 : Cold s.log := by
      rcases hlog with ⟨h2, _⟩ | ⟨e, h2, _, hf⟩
      · rw [h2] at hC; exact hC
      · rw [h2] at hC; exact Cold.tail hC
    rcases h with h | h
    · rcases hgrow with hg | ⟨_, hg⟩ | ⟨_, hg, _⟩
      · exact hfresh hC (.inl (by omega))
      · omega
      · exact hfresh hC (.inr (by rw [hg]; rfl))
    · have key : warm (s.thr 0).pc = true ∨ (∃ c e l, s'.log = .initRet c e :: l) ∨
          ((s.thr 0).pc = .pl0 ∧ s.status.value = .ready) := by
        rcases h0 with h0 | h0
        · rw [h0] at h; exact .inl h
        · generalize hp : (s.thr 0).pc = p at h0
          generalize hp' : (s'.thr 0).pc = p' at h0 h
          cases h0
          case in5 k c e =>
            rcases hinr c (by rw [hp']; rfl) with h5 | ⟨e, l, h5⟩
            · rw [hp] at h5; cases h5
            · exact .inr (.inl ⟨c, e, l, h5⟩)
          case pl0Ready hs hv => exact .inr (.inr ⟨rfl, hv⟩)
          case pl0Init hs hv =>
            rcases hv with hv | hv <;> rw [hv] at h <;> cases h
          all_goals first
            | (cases h; done)
            | exact .inl rfl
            | (cases ‹InitFrom› <;> first | (cases h; done) | exact .inl rfl)
            | (unfold back at h; split at h <;> cases h; done)
            | (unfold beginPc at h; split at h <;> cases h; done)
            | (split at h <;> cases h; done)
            | (rename_i op _; cases op <;> cases h; done)
            | (cases ‹SendFrom› <;> simp only [sentPc, back] at h <;> (try split at h) <;> (cases h; done))
      rcases key with h | ⟨c, e, l, h⟩ | ⟨hp, hv⟩
      · exact hfresh hC (.inr h)
      · rw [h]; trivial
      · exfalso
        rcases hI.phase with h' | h'
        · obtain ⟨op, d, ph, hRc, hCl, hO⟩ := h'.use.row
          rw [hp] at hCl
          obtain ⟨rfl, rfl⟩ := hCl
          have hd : s.status.value = d := hO.1
          refine Cold.now hC0 hRc.1 ?_
          rw [hRc.2, ← hd, hv]
        · obtain ⟨op, v, _, hCl, _⟩ := h'.row
          rw [hp] at hCl; exact hCl.elim
  · have h1 := hT.orderly
    rcases hlog with ⟨h2, _⟩ | ⟨e, h2, _, hf⟩
    · rw [h2]; exact h1
    · rw [h2]
      cases e
      case implPushed => exact ⟨hT.none (hpush hf).1, h1⟩
      case initRet c e => exact ⟨hT.none (hinit _ _ hf), h1⟩
      case iterCall r st c => exact ⟨hT.steady (.inl (hcall _ _ _ hf)), h1⟩
      all_goals exact h1
  · have h1 := hT.paired
    rcases hlog with ⟨h2, _⟩ | ⟨e, h2, _, hf⟩
    · rw [h2]; exact h1
    · rw [h2]
      cases e
      case call t op _ =>
        cases t with
        | succ t => exact h1
        | zero => exact ⟨hI.home hf.1, h1⟩
      all_goals exact h1
  · intro h
    have h1 : s.log.any initOk = true := by
      rcases hgrow with hg | ⟨_, hg⟩ | ⟨_, hg, _⟩
      · exact hT.ini (by omega)
      · omega
      · exact hR.initInv.st (by rw [hready hg]; rfl)
    rcases hlog with ⟨h2, _⟩ | ⟨e, h2, _, hf⟩
    · rw [h2]; exact h1
    · rw [h2, List.any_cons, h1, Bool.or_true]

theorem Tidy.start : Tidy ((new : Algo C).spawn .client .home) where
  none _ := trivial
  late h := by simp [spawn, Algo.new] at h
  steady _ := trivial
  cold _ _ := trivial
  orderly := trivial
  paired := trivial
  ini h := by simp [spawn, Algo.new] at h

theorem exec_tidy (hc : Limited conf) : ∀ (as : List (Act C)) (s : Algo C), .client ∉ as →
    (Batching s.log → BatchInv conf s ∧ Tidy s) → exec conf s as = some s' →
    Batching s'.log → BatchInv conf s' ∧ Tidy s' := by
  intro as
  induction as with
  | nil => intro s _ hI he; cases he; exact hI
  | cons a as ih =>
    intro s hn hI he
    cases a with
    | client => exact absurd List.mem_cons_self hn
    | act t c =>
      simp only [exec, next] at he
      cases hs : s.step conf t c with
      | none => rw [hs] at he; cases he
      | some s1 =>
        rw [hs] at he
        refine ih s1 (fun h => hn (List.mem_cons_of_mem _ h)) (fun hP => ?_) he
        have hst := Step.of_step hs
        obtain ⟨h1, h2⟩ := hI (batching_tail hst hP)
        have h3 := h1.step hc hs hP
        exact ⟨h3, h2.step hc h1 hst (step_noClient hs) hP h3⟩

theorem OneClient.tidy (hc : Limited conf) (h : OneClient conf s) (hP : Batching s.log) : Tidy s := by
  obtain ⟨as, hn, he⟩ := h
  exact (exec_tidy hc as _ hn (fun _ => ⟨.start, .start⟩) he hP).2

end Algo
end Distclus
