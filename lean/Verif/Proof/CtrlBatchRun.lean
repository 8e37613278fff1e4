import Verif.Proof.CtrlBatch
/-!
# Playing until the limit: the whole execution
-/
namespace Distclus
open Ctrl
namespace Algo
open Spec
variable {C : Type}
variable {conf : Conf} {s s' : Algo C} {t u : Nat}

set_option linter.unusedTactic false
set_option linter.unusedVariables false
set_option linter.unreachableTactic false
set_option linter.unusedSimpArgs false

/-! ## What the record says -/

theorem rebatching_current : ∀ {l : List (Event C)}, Rebatching l → ∀ {op : Op}, (session l).1 = some op →
    (followsL (session l).2 ≠ some .running ∨ reader op = true ∨ op = .wait false false) ∧
    ∀ c d, op = .wait c d → c = false ∧ d = false := by
  intro l
  induction l with
  | nil => intro _ op h; cases h
  | cons e l ih =>
    rintro ⟨h1, h2⟩ op h
    have ih := @ih h2
    cases e
    case call t o =>
      obtain ⟨rfl, h3, h4⟩ := h1
      simp only [session, Option.some.injEq] at h ⊢
      subst h
      refine ⟨?_, h3⟩
      rcases h4 with h4 | h4 | h4 | h4
      · exact .inl h4.2
      · exact .inr (.inl h4)
      · exact .inr (.inr h4)
      · exact .inl h4.2
    case ret t r =>
      cases t with
      | succ t => exact ih h
      | zero =>
        simp only [session] at h ⊢
        split at h <;> cases h
    all_goals exact ih h

/-- Nobody pauses, and before `Play` nothing runs. -/
theorem rebatching_calm : ∀ {l : List (Event C)}, Rebatching l →
    (followsL (session l).2 = some .running → played (session l).2 = true) ∧
    followsL (session l).2 ≠ some .idle := by
  intro l
  induction l with
  | nil => intro _; exact ⟨by rintro ⟨⟩, by rintro ⟨⟩⟩
  | cons e l ih =>
    rintro ⟨h1, h2⟩
    replace ih := ih h2
    cases e
    case ret t r =>
      cases t with
      | succ t => exact ih
      | zero =>
        have ha := @rebatching_current C l h2
        generalize hs : session l = x at *
        obtain ⟨o, cs⟩ := x
        cases o with
        | none => simp only [session, hs]; exact ih
        | some op =>
          have ha := (ha rfl).1
          simp only [session, hs, followsL] at ih ha ⊢
          cases hf : followsL cs with
          | none => exact ⟨by rintro ⟨⟩, by rintro ⟨⟩⟩
          | some v =>
            rw [hf] at ih ha
            simp only
            split
            · simp only [ne_eq, Option.some.injEq] at ih ha ⊢
              by_cases hv : v = .running
              · subst hv
                have hp : played cs = true := ih.1 rfl
                have hp' : played ((op, r) :: cs) = true := by
                  simp only [played, List.any_cons, Bool.or_eq_true]; exact .inr hp
                refine ⟨fun _ => hp', ?_⟩
                rcases ha with ha | ha | rfl
                · exact absurd rfl ha
                · cases op <;> first | (cases ha; done) | (simp [afterL, after, answer, refusal]; done)
                · simp [afterL]
              · have e2 : afterL v op = after v op := by unfold afterL; rw [if_neg hv]
                rw [e2]
                have h2 := ih.2
                by_cases ho : op = .play
                · subst ho
                  refine ⟨fun _ => by simp [played], ?_⟩
                  cases v <;> first | exact absurd rfl hv | exact absurd rfl h2 | (simp [after, answer, refusal]; done)
                · cases v <;> first | exact absurd rfl hv | exact absurd rfl h2 | skip
                  all_goals cases op <;> first | exact absurd rfl ho | (simp [after, answer, refusal]; done)
            · exact ⟨by rintro ⟨⟩, by rintro ⟨⟩⟩
    case call t op =>
      obtain ⟨rfl, _⟩ := h1
      exact ih
    all_goals exact ih

theorem rebatching_mild : ∀ {l : List (Event C)}, Rebatching l → Mild followsL l := by
  intro l
  induction l with
  | nil => intro _; trivial
  | cons e l ih =>
    rintro ⟨h1, h2⟩
    refine ⟨?_, ih h2⟩
    cases e
    case call t op => exact ⟨h1.1, h1.2.1, fun _ => (rebatching_calm h2).2⟩
    all_goals exact h1

theorem Reads.followsL (hc : Limited conf) : Reads conf (followsL (C := C)) := by
  refine ⟨rfl, fun {l v op r} h hr hw => ?_⟩
  have hw : v = .running → ∀ c d, op ≠ .wait c d := by
    intro h
    rcases hw h with h | h
    · exact h
    · rcases hc.2 with h' | h' <;> omega
  have e1 : rightL v op r = true := by
    unfold rightL
    split
    · rename_i hv
      subst hv
      cases op <;> first | exact absurd rfl (hw rfl _ _) | (cases r <;> first | exact hr | (cases hr; done) | skip)
      simp only [right, decide_eq_true_eq] at hr ⊢
      exact .inl hr
    · exact hr
  have e2 : afterL v op = after v op := by
    unfold afterL
    split
    · rename_i hv
      cases op <;> first | rfl | exact absurd rfl (hw hv _ _)
    · rfl
  simp only [Spec.followsL, h, e1, e2, if_true]

theorem busy_cons {l : List (Event C)} {e : Event C} (h : busy l = true) (he : ∀ r, e ≠ .runEnd r) :
    busy (e :: l) = true := by
  cases e <;> first | exact h | exact absurd rfl (he _) | skip
  rename_i t op
  cases t <;> first | exact h | (cases op <;> first | exact h | rfl)

theorem busy_play {l : List (Event C)} {e : Event C} (h : (session (e :: l)).1 = some .play) :
    e = .call 0 .play ∨ (session l).1 = some .play := by
  cases e <;> first | exact .inr h | skip
  case call t op =>
    cases t with
    | zero => simp only [session, Option.some.injEq] at h; subst h; exact .inl rfl
    | succ t => exact .inr h
  case ret t r =>
    cases t with
    | zero => simp only [session] at h; split at h <;> cases h
    | succ t => exact .inr h

theorem session_quiet {l : List (Event C)} {e : Event C} (he : quietEv e = true) :
    session (e :: l) = session l := by cases e <;> first | rfl | cases he

/-- Which actions start a goroutine. -/
theorem Step.grow (h : Step conf s s') : s'.n = s.n ∨ (s'.n = s.n + 1 ∧
    ((∃ t, t < s.n ∧ (s.thr t).pc = .pl1 ∧ ((s.thr t).pc = .pl1 → (s'.thr t).pc = .sd0 (.new .running) .playRun)) ∨
     (∃ t k, t < s.n ∧ (s.thr t).pc = .in3 k ∧ s.status.value = .created) ∨ conf.timeout = true ∨
     (s'.thr s.n).kind = .client)) := by
  cases h
  case client => exact .inr ⟨rfl, .inr (.inr (.inr (by simp [spawn])))⟩
  case pl1 t ht hp =>
    refine .inr ⟨rfl, .inl ⟨t, ht, hp, fun _ => ?_⟩⟩
    rw [go_pc, if_pos rfl]
  case in3Created t ht k hp hv => exact .inr ⟨rfl, .inr (.inl ⟨t, k, ht, hp, hv⟩)⟩
  case pl3Timeout t ht hp hm hc => exact .inr ⟨by rw [ret_n]; rfl, .inr (.inr (.inl hc))⟩
  all_goals first
    | exact .inl rfl
    | exact .inl (ret_n ..)
    | (left; rw [sent_n]; done)
    | (left; rw [sent_n]; rfl)

/-! ## Before the limit -/

/-- Before the limit of the current run, or without a run. -/
structure PreInv (conf : Conf) (s : Algo C) : Prop where
  use : UseInv followsL s
  last : runPc s ≠ .c8
  work : runPc s ≠ .dead ∨ (session s.log).1 = some .play → busy s.log = true
  rest : playedLast (session s.log).2 = true → harmless (session s.log).1 = true →
    runPc s ≠ .dead ∨ limit conf s ≤ s.iterations

/-- A run which has not been stopped and has not reached its limit. -/
def living : PC C → Bool
  | .r0 | .r1 | .r2 _ | .r3 _ | .r4 false | .r5 false _ | .r6 | .r7 | .r9 | .rI | .rS _ | .rS' _ => true
  | _ => false

theorem PreInv.living (hI : PreInv conf s) (hP : Rebatching s.log) (hd : runPc s ≠ .dead) :
    living (runPc s) = true := by
  obtain ⟨op, d, ph, ⟨h1, h2⟩, hC, hO⟩ := hI.use.row
  have hlast := hI.last
  have hcalm := (rebatching_calm hP).2
  have hcur := @rebatching_current C s.log hP
  rw [h1, h2] at *
  have hno : ∀ o, op = some o → d = .running → o ≠ .pause ∧ o ≠ .stop := by
    rintro o rfl rfl
    rcases (hcur rfl).1 with h | h | h
    · exact absurd rfl h
    · constructor <;> rintro rfl <;> cases h
    · constructor <;> rintro rfl <;> cases h
  have hidle : d ≠ .idle := fun h => hcalm (h ▸ rfl)
  have hsend : ∀ k, sendOk op d k → k = .playRun := by
    intro k hk
    cases k
    · exact absurd hk.2 hidle
    · rfl
    · exact absurd rfl (hno _ hk.1 hk.2).1
    · exact absurd rfl (hno _ hk.1 hk.2).2
  have hph : (∃ d', ph = .quiet d' ∧ d' ≠ .idle) ∨ (∃ v, ph = .alone v) ∨ ph = .offer .playRun ∨ ph = .wait .playRun := by
    generalize (s.thr 0).pc = p at hC
    cases p <;> simp only [ClientOk] at hC
    all_goals first
      | exact .inl ⟨_, hC.2, hidle⟩
      | exact .inl ⟨_, hC.2.2, by rintro ⟨⟩⟩
      | exact .inl ⟨_, hC.2.2.2, hidle⟩
      | exact .inl ⟨_, hC.2.2.2.2, hidle⟩
      | exact .inr (.inl ⟨_, hC.2.2⟩)
      | exact .inr (.inl ⟨_, hC.2.2.2⟩)
      | (rcases hC with hC | hC
         · exact .inr (.inl ⟨_, hC.2.2.2⟩)
         · exact .inl ⟨_, hC.2.2.2.2.2, hidle⟩)
      | exact absurd rfl (hno _ hC.1 hC.2.1).2
      | (obtain rfl := hsend _ hC.1; exact .inr (.inr (.inl hC.2.2)))
      | (obtain rfl := hsend _ hC.1; exact .inr (.inr (.inr hC.2)))
      | (obtain rfl := hsend _ hC.1; exact .inr (.inr (.inr hC.2.2)))
  rcases hph with ⟨d', rfl, hd'⟩ | ⟨v, rfl⟩ | rfl | rfl
  · obtain ⟨_, hO⟩ := hO
    generalize runPc s = r at *
    cases d' <;> simp only [Quiet] at hO
    case running => cases r <;> first | rfl | exact hO.1.elim
    case finished => rcases hO with rfl | rfl; exact absurd rfl hd; exact absurd rfl hlast
    case idle => exact absurd rfl hd'
    all_goals exact absurd hO hd
  · exact absurd hO.2 hd
  · rcases hO.2 with h | h
    · rw [h]; rfl
    · rw [h.1]; rfl
  · have := hO.1
    generalize runPc s = r at *
    cases r <;> first | exact this.elim | rfl | (obtain ⟨rfl, _⟩ := this; rfl)

theorem living_edge {p q : PC C} (h : living p = true) (he : Edge conf s u p q) : q ≠ .dead ∧ q ≠ .c8 := by
  cases he <;> first | (cases h; done) | (constructor <;> rintro ⟨⟩; done) | skip
  all_goals (split <;> constructor <;> rintro ⟨⟩)

/-- A goroutine starts only when there is no run. -/
theorem PreInv.grow (hc : Tame conf) (hI : PreInv conf s) (h : Step conf s s')
    (hcl : s'.n = s.n + 1 → (s'.thr s.n).kind ≠ .client) :
    s'.n = s.n ∨ (s'.n = s.n + 1 ∧ runPc s = .dead ∧ ((session s.log).1 = some .play ∨ s.n = 1)) := by
  obtain ⟨op, d, ph, ⟨h1, h2⟩, hC, hO⟩ := hI.use.row
  rcases h.grow with h | ⟨h, ⟨t, ht, hp, _⟩ | ⟨t, k, ht, hp, hv⟩ | h' | h'⟩
  · exact .inl h
  · obtain rfl := hI.use.isClient ht hp rfl
    rw [hp] at hC
    obtain ⟨rfl, _, rfl⟩ := hC
    exact .inr ⟨h, hO.2, .inl h1⟩
  · obtain rfl := hI.use.isClient ht hp rfl
    rw [hp] at hC
    obtain ⟨rfl, _, rfl⟩ := hC
    exact .inr ⟨h, hO.2, .inr (hI.use.born.1 hv)⟩
  · rw [hc.2.1] at h'; cases h'
  · exact absurd h' (hcl h)

/-- A run which goes on is not over, nor about to be. -/
theorem PreInv.alive (hc : Tame conf) (hL : LockInv s) (hI : PreInv conf s) (hP : Rebatching s.log)
    (h : Step conf s s') (hcl : s'.n = s.n + 1 → (s'.thr s.n).kind ≠ .client) :
    (runPc s ≠ .dead → runPc s' ≠ .dead) ∧ runPc s' ≠ .c8 := by
  have hdead : ∀ u, (s.thr u).pc = .dead → (s'.thr u).pc ≠ .c8 := by
    intro u hu
    rcases h.edge hL u with e | e
    · dsimp only at e; rw [e, hu]; rintro ⟨⟩
    · dsimp only at e; rw [hu] at e
      generalize (s'.thr u).pc = q at e
      cases e <;> rintro ⟨⟩
  rcases hI.grow hc h hcl with hn | ⟨hn, h1, _⟩
  · by_cases h3 : 3 ≤ s.n
    · have e1 : runPc s = (s.thr (s.n - 1)).pc := if_pos h3
      have e2 : runPc s' = (s'.thr (s.n - 1)).pc := by unfold runPc; rw [hn, if_pos h3]
      by_cases hd : runPc s = .dead
      · exact ⟨fun h => absurd hd h, e2 ▸ hdead _ (e1 ▸ hd)⟩
      · have hl := hI.living hP hd
        rw [e1] at hl
        rw [e2]
        rcases h.edge hL (s.n - 1) with e | e
        · dsimp only at e; rw [e]
          exact ⟨fun _ => e1 ▸ hd, by intro h; rw [h] at hl; cases hl⟩
        · dsimp only at e
          have := living_edge hl e
          exact ⟨fun _ => this.1, this.2⟩
    · have e1 : runPc s = .dead := if_neg h3
      have e2 : runPc s' = .dead := by unfold runPc; rw [hn, if_neg h3]
      exact ⟨fun h => absurd e1 h, by rw [e2]; rintro ⟨⟩⟩
  · refine ⟨fun h => absurd h1 h, ?_⟩
    by_cases h3 : 3 ≤ s.n + 1
    · have e2 : runPc s' = (s'.thr s.n).pc := by unfold runPc; rw [hn, if_pos h3]; rfl
      rw [e2]
      exact hdead _ (hL.unborn _ (Nat.le_refl _))
    · have e2 : runPc s' = .dead := by unfold runPc; rw [hn, if_neg h3]
      rw [e2]; rintro ⟨⟩

/-- What changes the limit and the iterations. -/
theorem Step.counts (h : Step conf s s') : (s'.pushedData = s.pushedData ∧ s'.iterations = s.iterations) ∨
    (session s'.log = session s.log ∧ ∃ t, t < s.n ∧ ((s.thr t).pc = .pu3 ∨ (∃ k, (s.thr t).pc = .in2 k) ∨
      ∃ c, (s.thr t).pc = .rS' c)) := by
  cases h
  case pu3 t ht hp hr => exact .inr ⟨rfl, t, ht, .inl hp⟩
  case in2 t ht k hp hr => exact .inr ⟨rfl, t, ht, .inr (.inl ⟨k, hp⟩)⟩
  case rS' t ht c hp hr => exact .inr ⟨rfl, t, ht, .inr (.inr ⟨c, hp⟩)⟩
  all_goals first
    | exact .inl ⟨rfl, rfl⟩
    | exact .inl ⟨ret_pushedData .., ret_iterations ..⟩
    | (left; exact ⟨by rw [ret_pushedData], by rw [ret_iterations]⟩)
    | (left; constructor <;> first | (rw [sent_pushedData]; done) | (rw [sent_pushedData]; rfl) |
        (rw [sent_iterations]; done) | (rw [sent_iterations]; rfl))

/-- Between two calls the client leaves the run alone. -/
theorem ClientOk.quiet {a : Nat} {d : ClustStatus} {ph : Ph} {p : PC C} (h : ClientOk a none d ph p) :
    ph = .quiet d := by
  cases p <;> (try simp [ClientOk] at h; done) <;>
    first
      | exact h.elim
      | exact h.2
      | (rename_i k; cases k <;> simp [ClientOk, sendOk, opOf] at h; done)
      | (rename_i _ k; cases k <;> simp [ClientOk, sendOk, opOf] at h; done)
      | (rename_i k _; cases k <;> simp [ClientOk, sendOk, opOf] at h; done)
      | (rename_i k _ _; cases k <;> simp [ClientOk, sendOk, opOf] at h; done)

theorem PreInv.step (hc : Limited conf) (hA : AckInv s) (hI : PreInv conf s) (h : Step conf s s')
    (hcl : s'.n = s.n + 1 → (s'.thr s.n).kind ≠ .client) (hP : Rebatching s'.log)
    (hE : ∀ t, t < s.n → (s.thr t).pc = .r7 → s.ma = none → iterDone conf s = true →
      s' ≠ s.go t .r12) : PreInv conf s' := by
  have hU := hI.use.step hc.1 (.followsL hc) hA h hcl (rebatching_mild hP) hE
  have hP' : Rebatching s.log := by
    rcases h.log with ⟨e, _⟩ | ⟨e, h1, _⟩
    · rw [← e]; exact hP
    · rw [h1] at hP; exact hP.2
  have hgrow := hI.grow hc.1 h hcl
  obtain ⟨ha, hb⟩ := hI.alive hc.1 hA.lock hP' h hcl
  obtain ⟨op, d, ph, ⟨h1, h2⟩, hC, hO⟩ := hI.use.row
  have hend : ∀ r, s'.log ≠ .runEnd r :: s.log := by
    intro r hr
    rcases h.log with ⟨e, _⟩ | ⟨e, h1, _, hf⟩
    · rw [e] at hr; exact absurd hr (by simp)
    · rw [hr] at h1
      obtain ⟨rfl, _⟩ := List.cons.inj h1
      have hf : (s.thr r).pc = .c8 := hf
      have hr : r < s.n := hA.lock.lt (by rw [hf]; rintro ⟨⟩)
      exact hI.last (hI.use.isRun hr hf rfl).2.2
  have hbusy : busy s.log = true → busy s'.log = true := by
    intro hb
    rcases h.log with ⟨e, _⟩ | ⟨e, h1, _⟩
    · rw [e]; exact hb
    · rw [h1]; exact busy_cons hb (fun r hr => hend r (hr ▸ h1))
  refine ⟨hU, hb, ?_, ?_⟩
  · rintro (hd | hd)
    · by_cases hd' : runPc s = .dead
      · refine hbusy (hI.work (.inr ?_))
        rcases hgrow with hn | ⟨hn, _, h | h⟩
        · exfalso
          by_cases h3 : 3 ≤ s.n
          · rw [runPc, hn, if_pos h3] at hd
            rw [runPc, if_pos h3] at hd'
            rcases h.edge hA.lock (s.n - 1) with e | e
            · dsimp only at e; exact hd (e.trans hd')
            · dsimp only at e; rw [hd'] at e
              generalize (s'.thr (s.n - 1)).pc = q at e
              cases e <;> omega
          · rw [runPc, hn, if_neg h3] at hd; exact hd rfl
        · exact h
        · exfalso
          rw [runPc, hn, h, if_neg (by omega)] at hd; exact hd rfl
      · exact hbusy (hI.work (.inl hd'))
    · rcases h.log with ⟨e, _⟩ | ⟨e, h1, _⟩
      · rw [e] at hd; exact hbusy (hI.work (.inr hd))
      · rw [h1] at hd
        rcases busy_play hd with rfl | hd
        · rw [h1]; rfl
        · exact hbusy (hI.work (.inr hd))
  · intro hp hh
    by_cases hd : runPc s = .dead
    · have keep : playedLast (session s.log).2 = true → harmless (session s.log).1 = true → limit conf s' ≤ s'.iterations := by
        intro k1 k2
        have k3 := (hI.rest k1 k2).resolve_left (fun h => h hd)
        rcases h.counts with ⟨e1, e2⟩ | ⟨_, t, ht, hp | ⟨k, hp⟩ | ⟨c, hp⟩⟩
        · unfold limit; rw [e1, e2]; exact k3
        · exfalso
          obtain rfl := hI.use.isClient ht hp rfl
          rw [hp] at hC
          rw [h1, hC.1] at k2; cases k2
        · exfalso
          obtain rfl := hI.use.isClient ht hp rfl
          rw [hp] at hC
          rw [h1, hC.1] at k2; cases k <;> cases k2
        · exfalso
          have := (hI.use.isRun ht hp rfl).2.2
          rw [hd] at this; cases this
      rcases h.log with ⟨e, _⟩ | ⟨e, hl, -, hf⟩
      · rw [e] at hp hh; exact .inr (keep hp hh)
      · rw [hl] at hp hh
        by_cases he : quietEv e = true
        · rw [session_quiet he] at hp hh; exact .inr (keep hp hh)
        · cases e <;> first | exact absurd rfl he | skip
          case call t o =>
            rw [hl] at hP
            obtain ⟨rfl, _⟩ := hP.1
            have hf : (s.thr 0).pc = .home := hf.1
            rw [hf] at hC
            exact .inr (keep hp (by rw [h1, hC.1]; rfl))
          case ret t r =>
            cases t with
            | succ t => exact .inr (keep hp hh)
            | zero =>
              cases op with
              | none =>
                simp only [session, h1] at hp hh
                exact .inr (keep hp (by rw [h1]; rfl))
              | some o =>
                simp only [session, h1, playedLast] at hp
                split at hp
                · have : o = .play := of_decide_eq_true hp
                  subst this
                  left
                  obtain ⟨op', d', ph', ⟨h1', h2'⟩, hC', hO'⟩ := hU.row
                  have hd1 : d ≠ .running := by
                    rintro rfl
                    rcases (rebatching_current hP' h1).1 with h | h | h
                    · exact h h2
                    · cases h
                    · cases h
                  have hd2 : d ≠ .idle := fun h => (rebatching_calm hP').2 (h ▸ h2)
                  rw [hl] at h1' h2'
                  simp only [session, h1] at h1' h2'
                  subst h1'
                  simp only [followsL, h2] at h2'
                  have : d' = .running := by
                    split at h2'
                    · cases h2'
                      unfold afterL; rw [if_neg hd1]
                      cases d <;> first | exact absurd rfl hd1 | exact absurd rfl hd2 | rfl
                    · cases h2'
                  subst this
                  obtain rfl := hC'.quiet
                  intro hx
                  rw [hx] at hO'
                  exact hO'.2.1
                · rename_i hch
                  exact .inr (keep hp (by rw [h1]; simpa [harmless] using hch))
    · exact .inl (ha hd)

/-- The limit is reached. -/
theorem PreInv.finish (hc : Limited conf) (hR : Reachable conf s) (hI : PreInv conf s) (hP : Rebatching s.log)
    (ht : t < s.n) (hp : (s.thr t).pc = .r7) (hm : s.ma = none) (hd : iterDone conf s = true) :
    EndInv conf (s.go t .r12) := by
  obtain ⟨rfl, h3, hr⟩ := hI.use.isRun ht hp rfl
  have hU := hI.use
  obtain ⟨op, d, ph, ⟨h1, h2⟩, hC, hO⟩ := hU.row
  have ha := @rebatching_current C s.log hP
  have hcalm := rebatching_calm hP
  have hal : ∀ o, op = some o → d = .running → reader o = true ∨ o = .wait false false := by
    rintro o rfl rfl
    rcases (ha h1).1 with h | h | h
    · exact absurd h2 h
    · exact .inl h
    · exact .inr h
  have hph : ∃ d', ph = .quiet d' ∧ d' = .running ∧ s.status.value = .running := by
    rw [hr] at hO
    rcases ph with d' | _ | k | k | _
    · cases d' <;> simp [RunOk, Quiet, InLoop] at hO
      exact ⟨_, rfl, rfl, hO.1⟩
    · simp [RunOk] at hO
    · exfalso
      cases k <;> simp [RunOk, InLoop] at hO
      all_goals
        generalize (s.thr 0).pc = p at hC
        cases p <;> simp [ClientOk] at hC
        all_goals
          obtain ⟨hs, _, rfl⟩ := hC
          have := hal _ hs.1 hs.2
          simp [reader] at this
    · cases k <;> simp [RunOk, Starting, Pausing, Stopping] at hO
    · simp [RunOk] at hO
  obtain ⟨_, rfl, rfl, hv⟩ := hph
  have hpl : op ≠ some .play → d = .running → played (session s.log).2 = true := by
    rintro h rfl
    exact hcalm.1 h2
  have hlim : limit conf s ≤ s.iterations := by
    have h1 := hR.count.fi
    have h2 := hR.count.fp
    have h3 := hR.lock.noPu4 (fun j _ => by rw [hm]; rintro ⟨⟩)
    have : s.figPushed = s.pushedData := by omega
    simp only [iterDone, Bool.and_eq_true, decide_eq_true_eq] at hd
    unfold limit; rw [← this, ← h1]; exact hd.2
  have hC' : ClientEnd op d .running (s.thr 0).pc ∧ (op ≠ some .play → d = .running) := by
    generalize (s.thr 0).pc = p at hC
    cases p <;> simp only [ClientOk, Ph.quiet.injEq, reduceCtorEq, and_false, or_false, false_or] at hC
    all_goals first
      | (obtain ⟨rfl, rfl⟩ := hC; exact ⟨⟨rfl, .inl rfl⟩, fun _ => rfl⟩)
      | exact ⟨⟨hC.1, hC.2.1, .inl rfl⟩, fun h => absurd hC.1 h⟩
      | (obtain ⟨rfl, rfl, rfl, rfl⟩ := hC; exact ⟨⟨rfl, rfl, rfl, .inl rfl⟩, fun _ => rfl⟩)
      | (obtain ⟨rfl, rfl, rfl, rfl, _⟩ := hC; exact ⟨⟨rfl, rfl, rfl, rfl, .inl rfl⟩, fun _ => rfl⟩)
      | (have := hal _ hC.1 hC.2.symm; simp [reader] at this; done)
      | (have := hal _ hC.2.1 hC.2.2.2.symm; simp [reader] at this; done)
      | (have := hal _ hC.2.2.1 hC.2.2.2.2.2.symm; simp [reader] at this; done)
  refine ⟨h3, ?_, ?_, ?_, ?_, ⟨op, d, ⟨h1, h2, fun h => hpl h (hC'.2 h)⟩, ?_, ?_⟩, hU.err, ?_, ?_, hlim, ?_⟩
  · intro j a b
    rw [go_n] at b
    rw [go_pc, if_neg (by omega)]; exact hU.others j a b
  · rw [go_pc, if_neg (by omega)]; exact hU.notif (by omega)
  · rw [go_kind]; exact hU.kind0
  · rw [go_kind]; exact hU.kind1 (by omega)
  · rw [go_pc, if_neg (by omega), go_status, hv]; exact hC'.1
  · rw [go_n, go_pc, if_pos rfl]; exact hv
  · rw [go_inPush]
    cases hx : (s.thr 0).inPush with
    | false => rfl
    | true =>
      have h6 := hC'.1
      rw [hU.push hx] at h6; exact h6.elim
  · intro j hj
    have := hU.full j hj
    rw [go_pc]
    split
    · subst j; rw [hp] at this; cases this
    · exact this
  · intro _; exact hI.work (.inl (by rw [hr]; rintro ⟨⟩))

/-! ## One run at a time -/

theorem countP_range_le_one {P : Nat → Bool} : ∀ {n : Nat},
    (∀ i < n, ∀ j < n, P i = true → P j = true → i = j) → (List.range n).countP P ≤ 1 := by
  intro n
  induction n with
  | zero => intro _; exact Nat.zero_le _
  | succ n ih =>
    intro h
    rw [List.range_succ, List.countP_append, List.countP_singleton]
    cases hn : P n with
    | false =>
      have := ih fun i hi j hj => h i (by omega) j (by omega)
      simpa using this
    | true =>
      have : (List.range n).countP P = 0 := by
        rw [List.countP_eq_zero]
        intro a ha hp
        have := List.mem_range.1 ha
        have := h a (by omega) n (by omega) hp hn
        omega
      rw [this]; exact Nat.le_refl _

theorem UseInv.looping {fol : List (Op × Res C) → Option ClustStatus} (hI : UseInv fol s) : waiting looping s ≤ 1 := by
  refine countP_range_le_one fun i hi j hj h1 h2 => ?_
  obtain ⟨op, d, ph, _, hC, hO⟩ := hI.row
  have key : ∀ i, i < s.n → Spec.looping (s.thr i).pc = true →
      (i = 0 ∧ runPc s = .dead) ∨ (i = s.n - 1 ∧ runPc s ≠ .dead) := by
    intro i hi h
    rcases hI.who hi rfl (by intro h'; rw [h'] at h; cases h) with ⟨rfl, _⟩ | ⟨rfl, _, _, hN⟩ | ⟨h1, _, h2, _⟩
    · left
      refine ⟨rfl, ?_⟩
      generalize (s.thr 0).pc = p at hC h
      cases p <;> first | (cases h; done) | exact hC.elim | skip
      obtain ⟨_, _, rfl⟩ := hC
      exact hO.2
    · generalize (s.thr 1).pc = p at hN h
      cases p <;> first | (cases h; done) | exact hN.elim
    · right
      refine ⟨h1, fun hd => ?_⟩
      rw [← h2, hd] at h; cases h
  rcases key i hi h1 with ⟨rfl, a⟩ | ⟨rfl, a⟩ <;> rcases key j hj h2 with ⟨rfl, b⟩ | ⟨rfl, b⟩
  · rfl
  · exact absurd a b
  · exact absurd b a
  · rfl

theorem EndInv.looping (hI : EndInv conf s) : waiting looping s ≤ 1 := by
  refine countP_range_le_one fun i hi j hj h1 h2 => ?_
  exfalso
  obtain ⟨op, v, _, hC, hO⟩ := hI.row
  rcases hI.who hi rfl (by intro h'; rw [h'] at h1; cases h1) with ⟨rfl, _⟩ | ⟨rfl, _, hN⟩ | ⟨rfl, _⟩
  · generalize (s.thr 0).pc = p at hC h1
    cases p <;> first | (cases h1; done) | exact hC.elim
  · generalize (s.thr 1).pc = p at hN h1
    cases p <;> first | (cases h1; done) | exact hN.elim
  · generalize (s.thr (s.n - 1)).pc = p at hO h1
    cases p <;> first | (cases h1; done) | exact hO.elim

/-! ## The next run -/

/-- After the limit, when the run is over and the client has waited for it, all is as before a run. -/
theorem EndInv.again (hI : EndInv conf s) (hh : (s.thr 0).pc = .home) (hd : (s.thr (s.n - 1)).pc = .dead)
    (hv : followsL (session s.log).2 ≠ some .running) : PreInv conf s := by
  obtain ⟨op, v, hR, hC, hO⟩ := hI.row
  have h3 := hI.n3
  rw [hh] at hC
  obtain ⟨rfl, hA⟩ := hC
  have hr : runPc s = .dead := by rw [runPc, if_pos h3]; exact hd
  have hv' : (v = .ready ∨ v = .finished) ∧ s.status.value = v := by
    cases v <;> first | exact hA.elim | exact absurd hR.fol hv | exact ⟨.inl rfl, hA⟩ | exact ⟨.inr rfl, hA⟩
  refine ⟨⟨by omega, hI.others, fun _ => hI.notif, hI.kind0, fun _ => hI.kind1, ?_, ?_, hI.err, ?_, ?_, hI.full⟩, ?_, ?_, ?_⟩
  · rw [hv'.2]
    constructor
    · rintro rfl; rcases hv'.1 with h | h <;> cases h
    · intro h; omega
  · refine ⟨none, v, .quiet v, ⟨hR.cur, hR.fol⟩, ?_, hv'.2, ?_⟩
    · rw [hh]; exact ⟨rfl, rfl⟩
    · rw [hr]
      rcases hv'.1 with rfl | rfl
      · rfl
      · exact .inl rfl
  · intro h; rw [hI.push] at h; cases h
  · intro h; rw [hh] at h; cases h
  · rw [hr]; rintro ⟨⟩
  · rintro (h | h)
    · exact absurd hr h
    · rw [hR.cur] at h; cases h
  · intro _ _; exact .inr hI.done

/-! ## The whole execution -/

/-- The invariant of the executions which play until the limit, once or more. -/
structure RunsInv (conf : Conf) (s : Algo C) : Prop where
  ack : AckInv s
  bounded : Bounded conf 1 s
  phase : PreInv conf s ∨ EndInv conf s

theorem bounded_reachable {m : Nat} (h : Bounded conf m s) : Reachable conf s := by
  induction h with
  | new => exact ⟨[], rfl⟩
  | next a _ hn _ ih => exact ih.next hn

theorem rebatching_tail (h : Step conf s s') (hP : Rebatching s'.log) : Rebatching s.log := by
  rcases h.log with ⟨e, _⟩ | ⟨e, h1, _⟩
  · rw [← e]; exact hP
  · rw [h1] at hP; exact hP.2

theorem batching_tail (h : Step conf s s') (hP : Batching s'.log) : Batching s.log := by
  rcases h.log with ⟨e, _⟩ | ⟨e, h1, _⟩
  · rw [← e]; exact hP
  · rw [h1] at hP; exact hP.2

/-- A step before the limit. -/
theorem PreInv.next (hc : Limited conf) (hA : AckInv s) (hB : Bounded conf 1 s) (hI : PreInv conf s)
    (h : Step conf s s') (hcl : s'.n = s.n + 1 → (s'.thr s.n).kind ≠ .client) (hP : Rebatching s'.log) :
    PreInv conf s' ∨ EndInv conf s' := by
  by_cases hE : ∀ t, t < s.n → (s.thr t).pc = .r7 → s.ma = none → iterDone conf s = true →
      s' ≠ s.go t .r12
  · exact .inl (hI.step hc hA h hcl hP hE)
  · right
    simp only [Classical.not_forall, Classical.not_not] at hE
    obtain ⟨u, h1, h2, h3, h4, rfl⟩ := hE
    exact hI.finish hc (bounded_reachable hB) (rebatching_tail h hP) h1 h2 h3 h4

/-- A step after the limit. -/
theorem EndInv.next (hc : Limited conf) (hA : AckInv s) (hB : Bounded conf 1 s) (hI : EndInv conf s)
    (h : Step conf s s') (hcl : s'.n = s.n + 1 → (s'.thr s.n).kind ≠ .client) (hP : Rebatching s'.log) :
    PreInv conf s' ∨ EndInv conf s' := by
  by_cases hE : ∀ t op, s'.log = .call t op :: s.log → t = 0 ∧ (reader op = true ∨ op = .wait false false ∨
      (op = .stop ∧ followsL (session s.log).2 ≠ some .running))
  · exact .inr (hI.step hc hA.lock h hcl hE)
  · simp only [Classical.not_forall] at hE
    obtain ⟨t, op, hl, hE⟩ := hE
    have hp := hP
    rw [hl] at hp
    obtain ⟨rfl, _, hq⟩ := hp.1
    rcases hq with ⟨q1, q2⟩ | hq | hq | hq
    · have hd : (s.thr (s.n - 1)).pc = .dead := by
        by_contra hd
        rw [hI.live hd] at q1; cases q1
      have hh : (s.thr 0).pc = .home := by
        rcases h.log with ⟨e, _⟩ | ⟨e, h1, _, hf⟩
        · rw [e] at hl; exact absurd hl (by simp)
        · rw [hl] at h1
          obtain ⟨rfl, _⟩ := List.cons.inj h1
          exact hf.1
      exact (hI.again hh hd q2).next hc hA hB h hcl hP
    · exact absurd ⟨rfl, .inl hq⟩ hE
    · exact absurd ⟨rfl, .inr (.inl hq)⟩ hE
    · exact absurd ⟨rfl, .inr (.inr hq)⟩ hE

theorem RunsInv.step {c : Choice C} (hc : Limited conf) (hI : RunsInv conf s)
    (h : s.step conf t c = some s') (hP : Rebatching s'.log) : RunsInv conf s' := by
  have hst := Step.of_step h
  have hph : PreInv conf s' ∨ EndInv conf s' := by
    rcases hI.phase with hp | hp
    · exact hp.next hc hI.ack hI.bounded hst (step_noClient h) hP
    · exact hp.next hc hI.ack hI.bounded hst (step_noClient h) hP
  refine ⟨hI.ack.step hst, .next (.act t c) hI.bounded h ?_, hph⟩
  rcases hph with h | h
  · exact h.use.looping
  · exact h.looping

theorem PreInv.start : PreInv conf ((new : Algo C).spawn .client .home) := by
  have : runPc ((new : Algo C).spawn .client .home) = .dead := rfl
  refine ⟨UseInv.start rfl, by rw [this]; rintro ⟨⟩, ?_, by rintro ⟨⟩⟩
  rintro (h | h)
  · exact absurd this h
  · cases h

theorem RunsInv.start : RunsInv conf ((new : Algo C).spawn .client .home) :=
  ⟨Reachable.ack (conf := conf) ⟨[.client], rfl⟩,
    .next .client .new rfl (UseInv.start (fol := followsL) rfl).looping, .inl .start⟩

theorem exec_runs (hc : Limited conf) : ∀ (as : List (Act C)) (s : Algo C), .client ∉ as →
    (Rebatching s.log → RunsInv conf s) → exec conf s as = some s' →
    Rebatching s'.log → RunsInv conf s' := by
  intro as
  induction as with
  | nil => intro s _ hI he; cases he; exact hI
  | cons a as ih =>
    intro s hn hI he
    cases a with
    | client => exact absurd List.mem_cons_self hn
    | act t c =>
      simp only [exec, Algo.next] at he
      cases hs : s.step conf t c with
      | none => rw [hs] at he; cases he
      | some s1 =>
        rw [hs] at he
        exact ih s1 (fun h => hn (List.mem_cons_of_mem _ h))
          (fun hP => (hI (rebatching_tail (Step.of_step hs) hP)).step hc hs hP) he

theorem RunsInv.of_oneClient (hc : Limited conf) (h : OneClient conf s) (hP : Rebatching s.log) :
    RunsInv conf s := by
  obtain ⟨as, hn, he⟩ := h
  exact exec_runs hc as _ hn (fun _ => .start) he hP

/-! ## One run -/

/-- Before the limit of the only run. -/
structure PreOne (conf : Conf) (s : Algo C) : Prop extends PreInv conf s where
  ran : played (session s.log).2 = true → runPc s ≠ .dead

/-- The invariant of the executions which play at most once. -/
structure BatchInv (conf : Conf) (s : Algo C) : Prop where
  ack : AckInv s
  bounded : Bounded conf 1 s
  phase : PreOne conf s ∨ EndInv conf s
  reb : Rebatching s.log
  seen : busy s.log = true → played (session s.log).2 = true ∨ (session s.log).1 = some .play

theorem BatchInv.runs (hI : BatchInv conf s) : RunsInv conf s :=
  ⟨hI.ack, hI.bounded, hI.phase.imp (·.toPreInv) id⟩

/-- Where a call begins no call is in progress. -/
theorem RunsInv.free (hI : RunsInv conf s) (hp : (s.thr 0).pc = .home) : (session s.log).1 = none := by
  rcases hI.phase with h | h
  · obtain ⟨op, d, ph, hR, hC, _⟩ := h.use.row
    rw [hp] at hC; rw [hR.1]; exact hC.1
  · obtain ⟨op, v, hR, hC, _⟩ := h.row
    rw [hp] at hC; rw [hR.cur]; exact hC.1

theorem BatchInv.again (hI : BatchInv conf s) (h : Step conf s s') (hP : Batching s'.log) :
    Rebatching s'.log ∧
    (busy s'.log = true → played (session s'.log).2 = true ∨ (session s'.log).1 = some .play) := by
  rcases h.log with ⟨e, _⟩ | ⟨e, hl, -, hf⟩
  · rw [e]; exact ⟨hI.reb, hI.seen⟩
  · rw [hl] at hP ⊢
    by_cases hq : quietEv e = true
    · refine ⟨⟨?_, hI.reb⟩, ?_⟩
      · have := hP.1
        cases e <;> first | exact this | (cases hq; done)
      · rw [session_quiet hq]
        intro hb
        refine hI.seen ?_
        cases e <;> first | exact hb | (cases hq; done) | cases hb
    · cases e <;> first | exact absurd rfl hq | skip
      case call t op =>
        obtain ⟨rfl, hw, ha⟩ := hP.1
        have h0 := hI.runs.free hf.1
        have hs : busy s.log = true → played (session s.log).2 = true := by
          intro hb
          rcases hI.seen hb with h | h
          · exact h
          · rw [h0] at h; cases h
        refine ⟨⟨⟨rfl, hw, ?_⟩, hI.reb⟩, ?_⟩
        · rcases ha with ha | ha
          · left
            constructor
            · cases hb : busy s.log with
              | false => rfl
              | true => rw [hs hb] at ha; cases ha
            · intro h
              rw [(rebatching_calm hI.reb).1 h] at ha; cases ha
          · exact .inr ha
        · intro hb
          by_cases ho : op = .play
          · subst ho; exact .inr rfl
          · left
            refine hs ?_
            cases op <;> first | exact hb | exact absurd rfl ho
      case ret t r =>
        refine ⟨⟨trivial, hI.reb⟩, ?_⟩
        intro hb
        have hb : busy s.log = true := hb
        cases t with
        | succ t => exact hI.seen hb
        | zero =>
          rcases hI.seen hb with h | h
          · left
            simp only [session]
            split
            · simp only [played, List.any_cons, Bool.or_eq_true]; exact .inr h
            · exact h
          · left
            simp only [session, h]
            simp [played]

theorem BatchInv.step {c : Choice C} (hc : Limited conf) (hI : BatchInv conf s)
    (h : s.step conf t c = some s') (hP : Batching s'.log) : BatchInv conf s' := by
  have hst := Step.of_step h
  obtain ⟨hR, hS⟩ := hI.again hst hP
  have hr := hI.runs.step hc h hR
  refine ⟨hr.ack, hr.bounded, ?_, hR, hS⟩
  rcases hI.phase with hp | hp
  · rcases hp.next hc hI.ack hI.bounded hst (step_noClient h) hR with h' | h'
    · left
      refine ⟨h', fun hpl => ?_⟩
      by_cases hpl' : played (session s.log).2 = true
      · exact (hp.alive hc.1 hI.ack.lock hI.reb hst (step_noClient h)).1 (hp.ran hpl')
      · intro hd
        rcases hst.log with ⟨e, _⟩ | ⟨e, hl, -, hf⟩
        · rw [e] at hpl; exact hpl' hpl
        · rw [hl] at hpl
          by_cases hq : quietEv e = true
          · rw [session_quiet hq] at hpl; exact hpl' hpl
          · cases e <;> first | exact absurd rfl hq | skip
            case call t op => cases t <;> exact hpl' hpl
            case ret t r =>
              cases t with
              | succ t => exact hpl' hpl
              | zero =>
                cases ho : (session s.log).1 with
                | none => simp only [session, ho] at hpl; exact hpl' hpl
                | some o =>
                  have : o = .play := by
                    simp only [session, ho, played, List.any_cons, Bool.or_eq_true, decide_eq_true_eq] at hpl
                    rcases hpl with h | h
                    · exact h
                    · exact absurd h hpl'
                  subst this
                  obtain ⟨op', d', ph', ⟨h1', h2'⟩, hC', hO'⟩ := h'.use.row
                  rw [hl] at h1' h2'
                  simp only [session, ho] at h1' h2'
                  subst h1'
                  obtain rfl := hC'.quiet
                  obtain ⟨d, hf⟩ : ∃ d, followsL (session s.log).2 = some d := by
                    obtain ⟨_, d, _, hR, _⟩ := hp.use.row
                    exact ⟨d, hR.2⟩
                  have hd1 : d ≠ .running := by
                    rintro rfl
                    exact hpl' ((rebatching_calm hI.reb).1 hf)
                  have hd2 : d ≠ .idle := fun h => (rebatching_calm hI.reb).2 (h ▸ hf)
                  simp only [followsL, hf] at h2'
                  have : d' = .running := by
                    split at h2'
                    · cases h2'
                      unfold afterL; rw [if_neg hd1]
                      cases d <;> first | exact absurd rfl hd1 | exact absurd rfl hd2 | rfl
                    · cases h2'
                  subst this
                  rw [hd] at hO'
                  exact hO'.2.1
    · exact .inr h'
  · right
    refine hp.step hc hI.ack.lock hst (step_noClient h) fun t op hl => ?_
    have hf : (s.thr t).pc = .home := by
      rcases hst.log with ⟨e, _⟩ | ⟨e, h1, _, hf⟩
      · rw [e] at hl; exact absurd hl (by simp)
      · rw [hl] at h1
        obtain ⟨rfl, _⟩ := List.cons.inj h1
        exact hf.1
    rw [hl] at hP
    obtain ⟨rfl, _, ha⟩ := hP.1
    refine ⟨rfl, ?_⟩
    rcases ha with ha | ha
    · obtain ⟨op', v, hR, hC, _⟩ := hp.row
      rw [hf] at hC
      obtain ⟨rfl, _⟩ := hC
      rw [hR.plays (by rintro ⟨⟩)] at ha; cases ha
    · exact ha

theorem exec_batch (hc : Limited conf) : ∀ (as : List (Act C)) (s : Algo C), .client ∉ as →
    (Batching s.log → BatchInv conf s) → exec conf s as = some s' →
    Batching s'.log → BatchInv conf s' := by
  intro as
  induction as with
  | nil => intro s _ hI he; cases he; exact hI
  | cons a as ih =>
    intro s hn hI he
    cases a with
    | client => exact absurd List.mem_cons_self hn
    | act t c =>
      simp only [exec, Algo.next] at he
      cases hs : s.step conf t c with
      | none => rw [hs] at he; cases he
      | some s1 =>
        rw [hs] at he
        exact ih s1 (fun h => hn (List.mem_cons_of_mem _ h))
          (fun hP => (hI (batching_tail (Step.of_step hs) hP)).step hc hs hP) he

theorem BatchInv.start : BatchInv conf ((new : Algo C).spawn .client .home) :=
  ⟨(RunsInv.start (conf := conf)).ack, RunsInv.start.bounded, .inl ⟨.start, by rintro ⟨⟩⟩, trivial, by rintro ⟨⟩⟩

theorem BatchInv.of_oneClient (hc : Limited conf) (h : OneClient conf s) (hP : Batching s.log) :
    BatchInv conf s := by
  obtain ⟨as, hn, he⟩ := h
  exact exec_batch hc as _ hn (fun _ => .start) he hP

end Algo
end Distclus
