import Verif.Proof.CtrlSerial
/-!
# Who may start a time-out, and which time-outs may interrupt
-/
namespace Distclus
open Ctrl Spec
namespace Algo

section
variable {C : Type} {conf : Conf} {s s' : Algo C} {t u : Nat}

/-- Induction on the executions with one client. -/
theorem OneClient.induction {P : Algo C → Prop} (h : OneClient conf s)
    (h0 : P ((new : Algo C).spawn .client .home))
    (hs : ∀ (a b : Algo C) (t : Nat) (c : Choice C), Reachable conf a → P a → a.step conf t c = some b → P b) : P s := by
  obtain ⟨as, hn, he⟩ := h
  have key : ∀ (as : List (Act C)) (a : Algo C), .client ∉ as → Reachable conf a → P a →
      exec conf a as = some s → P s := by
    intro as
    induction as with
    | nil => intro a _ _ hP he; cases he; exact hP
    | cons x as ih =>
      intro a hn hr hP he
      cases x with
      | client => exact absurd List.mem_cons_self hn
      | act t c =>
        simp only [exec, next] at he
        cases hst : a.step conf t c with
        | none => rw [hst] at he; cases he
        | some b =>
          rw [hst] at he
          exact ih b (fun h => hn (List.mem_cons_of_mem _ h)) (hr.next (a := .act t c) hst) (hs a b t c hr hP hst) he
  exact key as _ hn ⟨[.client], rfl⟩ h0 he

/-- The program counters of runs, notification loops and time-outs: those which are inside no `Push`, `Init`,
`Play`, `Pause`, `Wait`. -/
def aux : PC C → Bool
  | .home | .dead | .it0 _ | .it1 _ | .it2 | .it3 => true
  | .sd0 _ k | .sd1 _ k | .sd2 k | .sd3 _ k => k == .interrupt
  | .r0 | .r1 | .r2 _ | .r3 _ | .r4 _ | .r5 _ _ | .r6 | .r7 | .r8 | .r9 | .r10 _ | .r11 _ | .rI => true
  | .rS _ | .rS' _ | .r12 | .r13 | .r14 | .r15 _ | .r16 _ => true
  | .c0 _ | .c1 _ | .c2 _ | .c3 _ | .c4 _ | .c5 _ | .c6 | .c7 | .c8 => true
  | .nl0 | .nl1 _ | .ti0 => true
  | _ => false

/-- The program counters of a notification loop, when there is no notifier. -/
def loops : PC C → Bool
  | .nl0 | .nl1 _ => true
  | _ => false

/-- With one client and no notifier, only goroutine 0 is inside the methods of the controller. -/
structure Servants (s : Algo C) : Prop where
  pos : 0 < s.n
  kind : ∀ u, u ≠ 0 → u < s.n → (s.thr u).kind ≠ .client
  push : ∀ u, u ≠ 0 → (s.thr u).inPush = false
  loop : ∀ u, u ≠ 0 → u < s.n → (s.thr u).kind = .notifier → loops (s.thr u).pc = true
  aux : ∀ u, u ≠ 0 → aux (s.thr u).pc = true

theorem Edge.aux {p q : PC C} (h : Edge conf s u p q) (hn : conf.notifier = false)
    (hk : p ≠ .dead → (s.thr u).kind ≠ .client) (hp : (s.thr u).inPush = false)
    (hl : p ≠ .dead → (s.thr u).kind = .notifier → loops p = true)
    (ha : Algo.aux p = true) : Algo.aux q = true := by
  have hb : back s u = .home := by unfold back; rw [hp]; rfl
  cases h
  case call op hk' =>
    rcases hk' with h | h
    · exact absurd h (hk (by rintro ⟨⟩))
    · have := hl (by rintro ⟨⟩) h
      cases this
  case sd3 k _ _ _ _ => cases k <;> first | rfl | cases ha
  case sd3Closed k _ => cases k <;> first | rfl | cases ha
  case nl1 => rw [hn]; rfl
  case r5 i _ _ => cases i <;> rfl
  case r7 => split <;> rfl
  case r11 => split <;> rfl
  all_goals first
    | rfl
    | exact ha
    | (rw [hb]; rfl)
    | cases ha

theorem Edge.loops {p q : PC C} (h : Edge conf s u p q) (hn : conf.notifier = false)
    (hl : Algo.loops p = true) : Algo.loops q = true := by
  cases h
  case nl1 => rw [hn]; rfl
  all_goals first | rfl | cases hl

/-- Only `Push` changes `inPush`. -/
theorem Step.pushFact (h : Step conf s s') (j : Nat) :
    (s'.thr j).inPush = (s.thr j).inPush ∨ (s'.thr j).inPush = false ∨ (s.thr j).pc = .pu5 := by
  cases h
  case client => rw [spawn_inPush]; split <;> simp
  case pu5 t ht hp hm => dsimp only; split <;> [(subst j; exact .inr (.inr hp)); exact .inl rfl]
  case pu6 t ht hp => dsimp only; split <;> [exact .inr (.inl rfl); exact .inl rfl]
  case in3Created t ht k hp hv => rw [go_inPush, put_thr, spawn_inPush]; split <;> simp
  case pl1 t ht hp => rw [go_inPush, spawn_inPush]; split <;> simp [ev_thr]
  case pl3Timeout t ht hp hm hc => rw [ret_inPush, spawn_inPush]; split <;> simp
  all_goals
    simp only [go_inPush, ret_inPush, sent_inPush, ev_thr, put_thr]
    exact .inl trivial

/-- The kind of a new goroutine, and where it starts. -/
theorem Step.newFact (h : Step conf s s') (hn : s'.n = s.n + 1) (hcl : (s'.thr s.n).kind ≠ .client) :
    (s'.thr s.n).kind = .notifier ∧ (s'.thr s.n).pc = .nl0 ∨
    (s'.thr s.n).kind = .run ∧ (s'.thr s.n).pc = .r0 ∨
    (s'.thr s.n).kind = .timer ∧ (s'.thr s.n).pc = .ti0 := by
  have ne : ∀ {t}, t < s.n → s.n ≠ t := fun h => by omega
  cases h
  case client => exact absurd (by rw [spawn_kind, if_pos rfl]) hcl
  case in3Created t ht k hp hv =>
    left
    rw [go_kind, put_thr, spawn_kind, if_pos rfl, go_pc, if_neg (ne ht), put_thr, spawn_pc, if_pos rfl]
    exact ⟨rfl, rfl⟩
  case pl1 t ht hp =>
    right; left
    rw [go_kind, spawn_kind, go_pc, if_neg (ne ht), spawn_pc]
    exact ⟨if_pos rfl, if_pos rfl⟩
  case pl3Timeout t ht hp hm hc =>
    right; right
    rw [ret_kind, spawn_kind, ret_pc, if_neg (ne ht), spawn_pc]
    exact ⟨if_pos rfl, if_pos rfl⟩
  all_goals
    exfalso
    simp only [go_n, ret_n, sent_n, ev_n, put_n] at hn
    omega

theorem Servants.step {c : Choice C} (hI : Servants s) (hL : LockInv s) (hn : conf.notifier = false)
    (hs : s.step conf t c = some s') : Servants s' := by
  have h := Step.of_step hs
  have hcl := step_noClient hs
  have hge : s.n ≤ s'.n := by rcases h.nFact with e | e <;> omega
  have hlt : ∀ u, (s.thr u).pc ≠ .dead → u < s.n := fun u hd => by
    by_contra hc; exact hd (hL.unborn u (by omega))
  have hkind : ∀ u, u < s.n → (s'.thr u).kind = (s.thr u).kind := fun u hu => by
    rcases h.kindFact u with ⟨_, e⟩ | ⟨e, _⟩
    · exact e
    · omega
  refine ⟨Nat.lt_of_lt_of_le hI.pos hge, fun u h0 hu => ?_, fun u h0 => ?_, fun u h0 hu hk => ?_, fun u h0 => ?_⟩
  · rcases h.nFact with e | e
    · rw [hkind u (by omega)]; exact hI.kind u h0 (by omega)
    · by_cases hun : u = s.n
      · subst hun; exact hcl e
      · rw [hkind u (by omega)]; exact hI.kind u h0 (by omega)
  · rcases h.pushFact u with e | e | e
    · rw [e]; exact hI.push u h0
    · exact e
    · have := hI.aux u h0
      rw [e] at this; cases this
  · by_cases hun : u < s.n
    · have hl := hI.loop u h0 hun (by rw [← hkind u hun]; exact hk)
      rcases h.edge hL u with e | e
      · dsimp only at e; rw [e]; exact hl
      · exact e.loops hn hl
    · have e : s'.n = s.n + 1 := by rcases h.nFact with e | e <;> omega
      obtain rfl : u = s.n := by omega
      rcases h.newFact e (hcl e) with ⟨_, e⟩ | ⟨e, _⟩ | ⟨e, _⟩
      · rw [e]; rfl
      · rw [e] at hk; cases hk
      · rw [e] at hk; cases hk
  · rcases h.edge hL u with e | e
    · dsimp only at e; rw [e]; exact hI.aux u h0
    · exact e.aux hn (fun hd => hI.kind u h0 (hlt u hd)) (hI.push u h0)
        (fun hd => hI.loop u h0 (hlt u hd)) (hI.aux u h0)

theorem Servants.start : Servants ((new : Algo C).spawn .client .home) := by
  have hne : ∀ u, u ≠ 0 → ¬ u = (new : Algo C).n := fun u h => h
  refine ⟨Nat.one_pos, fun u h0 hu => ?_, fun u h0 => ?_, fun u h0 hu => ?_, fun u h0 => ?_⟩
  · exact absurd (show u < 1 from hu) (by omega)
  · rw [spawn_inPush, if_neg (hne u h0)]; rfl
  · exact absurd (show u < 1 from hu) (by omega)
  · rw [spawn_pc, if_neg (hne u h0)]; rfl

theorem OneClient.servants (hn : conf.notifier = false) (h : OneClient conf s) : Servants s :=
  OneClient.induction h Servants.start fun _ _ _ _ hr hI hs => hI.step hr.lock hn hs

/-! ## Time-outs -/

/-- `Play` is about to start a time-out. -/
def isPl3 : PC C → Bool
  | .pl3 => true
  | _ => false

theorem isPl3_back : isPl3 (back s u) = false := by unfold back; split <;> rfl
theorem isPl3_sentPc {k : SendFrom} : isPl3 (sentPc s u k) = false := by
  cases k <;> first | rfl | exact isPl3_back

theorem Edge.toPl3 {p p' : PC C} (h : Edge conf s u p p') (hp : isPl3 p' = true) : p = .pl2 := by
  cases h
  case pl2 => rfl
  case sd3Closed | sd3 => rw [isPl3_sentPc] at hp; cases hp
  case call op hk => cases op <;> cases hp
  case in0 => revert hp; cases s.status.value <;> (intro hp; cases hp)
  case pl0Init hs hv => revert hp; rcases hv with hv | hv <;> rw [hv] <;> (intro hp; cases hp)
  case pu5 => split at hp <;> cases hp
  case nl1 => split at hp <;> cases hp
  case r5 => split at hp <;> cases hp
  case r7 => split at hp <;> cases hp
  case r11 => split at hp <;> cases hp
  all_goals first
    | (cases hp; done)
    | (rw [isPl3_back] at hp; cases hp)

/-- `Play` disables the stored time-out before it starts one. -/
theorem Step.toPl3 (h : Step conf s s') (hL : LockInv s) (u : Nat) (hu : (s'.thr u).pc = .pl3) :
    (s.thr u).pc = .pl3 ∨ ∀ i, s.timeout = some i → i ∈ s'.disabled := by
  rcases h.edge hL u with he | he
  · dsimp only at he; exact .inl (he.symm.trans hu)
  · have hp2 : (s.thr u).pc = .pl2 := he.toPl3 (by dsimp only; rw [hu]; rfl)
    clear he
    cases h
    case pl2 t ht hp hi => right; intro i h; rw [hi] at h; cases h
    case pl2Disable t ht hp i hi =>
      right; intro j h; rw [hi] at h; cases h
      exact List.mem_cons_self
    case sd3Closed t ht a k hp ha =>
      exfalso
      have hut : u ≠ t := by rintro rfl; rw [hp2] at hp; cases hp
      rw [sent_pc_ne hut, hp2] at hu; cases hu
    case sd3 t ht a k hp j hjn i hj ha =>
      exfalso
      have hut : u ≠ t := by rintro rfl; rw [hp2] at hp; cases hp
      have huj : u ≠ j := by rintro rfl; rw [hp2] at hj; cases hj
      rw [sent_pc_ne hut, go_pc, if_neg huj, hp2] at hu; cases hu
    case nl0 t ht hp j hjn st p hq =>
      exfalso
      have hut : u ≠ t := by rintro rfl; rw [hp2] at hp; cases hp
      have huj : u ≠ j := by rintro rfl; rw [hp2] at hq; cases hq
      rw [go_pc, if_neg hut, go_pc, if_neg huj, ev_thr, hp2] at hu; cases hu
    all_goals
      exfalso
      first
      | (simp only [go_pc, ev_thr, put_thr] at hu; split at hu <;> [(subst u; rw [hp2] at *; contradiction); (rw [hp2] at hu; cases hu)]; done)
      | (simp only [go_pc, ret_pc, spawn_pc, ev_thr, put_thr] at hu
         repeat' split at hu
         all_goals first
           | (rw [hp2] at hu; cases hu; done)
           | (cases hu; done)
           | (simp_all; done))

/-- With one client, the time-outs which may still interrupt. -/
structure Armed (s : Algo C) : Prop where
  stored : ∀ i, (s.thr i).pc = .ti0 → i ∈ s.disabled ∨ s.timeout = some i
  last : ∀ i j, s.timeout = some i → j < s.n → (s.thr j).kind = .timer → j ≤ i
  born : ∀ i, s.timeout = some i → i < s.n
  never : s.timeout = none → ∀ j, j < s.n → (s.thr j).kind ≠ .timer
  kind : ∀ i, i < s.n → (s.thr i).pc = .ti0 → (s.thr i).kind = .timer
  play : ∀ u, (s.thr u).pc = .pl3 → ∀ i, s.timeout = .some i → i ∈ s.disabled

/-- The steps which touch the time-outs. -/
theorem Step.timeFact (h : Step conf s s') :
    (s'.timeout = s.timeout ∧ (s'.n = s.n ∨ (s'.thr s.n).kind ≠ .timer ∧ (s'.thr s.n).pc ≠ .ti0)) ∨
    (∃ t, t < s.n ∧ (s.thr t).pc = .pl3 ∧ s'.timeout = some s.n ∧ s'.n = s.n + 1 ∧
      ∀ u, (s'.thr u).pc = .pl3 → u ≠ t ∧ (s.thr u).pc = .pl3) := by
  cases h
  case client =>
    left; refine ⟨rfl, .inr ?_⟩
    rw [spawn_kind, if_pos rfl, spawn_pc, if_pos rfl]
    exact ⟨by rintro ⟨⟩, by rintro ⟨⟩⟩
  case in3Created t ht k hp hv =>
    left; refine ⟨rfl, .inr ?_⟩
    rw [go_kind, put_thr, spawn_kind, if_pos rfl, go_pc, put_thr, spawn_pc, if_pos rfl]
    refine ⟨by rintro ⟨⟩, ?_⟩
    split <;> rintro ⟨⟩
  case pl1 t ht hp =>
    left; refine ⟨rfl, .inr ⟨?_, ?_⟩⟩
    · rw [go_kind, spawn_kind]; split <;> [(rintro ⟨⟩); exact absurd rfl ‹_›]
    · rw [go_pc, spawn_pc]; split
      · rintro ⟨⟩
      · split <;> [(rintro ⟨⟩); exact absurd rfl ‹_›]
  case pl3Timeout t ht hp hm hc =>
    right; refine ⟨t, ht, hp, ret_timeout .., ret_n .., fun u hu => ?_⟩
    rw [ret_pc] at hu
    by_cases hut : u = t
    · rw [if_pos hut] at hu; split at hu <;> cases hu
    · rw [if_neg hut, spawn_pc] at hu
      split at hu
      · cases hu
      · exact ⟨hut, hu⟩
  all_goals first
    | exact .inl ⟨rfl, .inl rfl⟩
    | exact .inl ⟨ret_timeout .., .inl (ret_n ..)⟩
    | exact .inl ⟨sent_timeout .., .inl (sent_n ..)⟩

theorem Armed.step {c : Choice C} (hI : Armed s) (hL : LockInv s) (hS : Servants s)
    (hs : s.step conf t c = some s') : Armed s' := by
  have h := Step.of_step hs
  have hkind : ∀ u, u < s.n → (s'.thr u).kind = (s.thr u).kind := fun u hu => by
    rcases h.kindFact u with ⟨_, e⟩ | ⟨e, _⟩
    · exact e
    · omega
  have hti : ∀ u, (s'.thr u).pc = .ti0 → (s.thr u).pc = .ti0 ∨ u = s.n := fun u hu => by
    rcases h.edge hL u with e | e
    · dsimp only at e; exact .inl (e.symm.trans hu)
    · exact .inr (e.toTi0 (by dsimp only; rw [hu]; rfl))
  have hpl : ∀ u, (s'.thr u).pc = .pl3 → ∀ i, s.timeout = .some i → i ∈ s'.disabled := fun u hu i hi => by
    rcases h.toPl3 hL u hu with e | e
    · exact h.disabledMono i (hI.play u e i hi)
    · exact e i hi
  have only : ∀ u, (s.thr u).pc = .pl3 → u = 0 := fun u hu => by
    by_contra h0
    have := hS.aux u h0
    rw [hu] at this; cases this
  have hkd : ∀ i, i < s'.n → (s'.thr i).pc = .ti0 → (s'.thr i).kind = .timer := fun i hi hp => by
    by_cases hin : i < s.n
    · rw [hkind i hin]
      rcases hti i hp with e | e
      · exact hI.kind i hin e
      · omega
    · have e : s'.n = s.n + 1 := by rcases h.nFact with e | e <;> omega
      obtain rfl : i = s.n := by omega
      rcases h.newFact e (step_noClient hs e) with ⟨_, e⟩ | ⟨_, e⟩ | ⟨e, _⟩
      · rw [hp] at e; cases e
      · rw [hp] at e; cases e
      · exact e
  rcases h.timeFact with ⟨e1, e2⟩ | ⟨v, hv, hp, e1, e2, e3⟩
  · have hnew : s'.n ≠ s.n → (s'.thr s.n).kind ≠ .timer ∧ (s'.thr s.n).pc ≠ .ti0 := fun hn =>
      e2.resolve_left hn
    have hnn := h.nFact
    refine ⟨fun i hi => ?_, fun i j hi hj hk => ?_, fun i hi => ?_, fun h0 j hj => ?_, hkd,
      fun u hu i hi => ?_⟩
    · rw [e1]
      rcases hti i hi with e | e
      · exact (hI.stored i e).imp_left (h.disabledMono i)
      · exfalso
        subst e
        by_cases hn : s'.n = s.n
        · rw [(hL.step h).unborn s.n (by omega)] at hi
          cases hi
        · exact (hnew hn).2 hi
    · rw [e1] at hi
      by_cases hjn : j < s.n
      · exact hI.last i j hi hjn (by rw [← hkind j hjn]; exact hk)
      · obtain rfl : j = s.n := by omega
        exact absurd hk (hnew (by omega)).1
    · rw [e1] at hi
      have := hI.born i hi
      omega
    · rw [e1] at h0
      by_cases hjn : j < s.n
      · rw [hkind j hjn]; exact hI.never h0 j hjn
      · obtain rfl : j = s.n := by omega
        exact (hnew (by omega)).1
    · rw [e1] at hi
      exact hpl u hu i hi
  · refine ⟨fun i hi => ?_, fun i j hi hj hk => ?_, fun i hi => ?_, fun h0 => ?_, hkd, fun u hu => ?_⟩
    · rcases hti i hi with e | e
      · left
        rcases hI.stored i e with h1 | h1
        · exact h.disabledMono i h1
        · exact h.disabledMono i (hI.play v hp i h1)
      · right; rw [e1, e]
    · rw [e1] at hi; cases hi; omega
    · rw [e1] at hi; cases hi; omega
    · rw [e1] at h0; cases h0
    · exfalso
      obtain ⟨h1, h2⟩ := e3 u hu
      exact h1 ((only u h2).trans (only v hp).symm)

theorem Armed.start : Armed ((new : Algo C).spawn .client .home) := by
  refine ⟨fun i hi => ?_, (fun i j hi => by cases hi), (fun i hi => by cases hi), fun _ j hj => ?_,
    fun i _ hi => ?_, fun u hu => ?_⟩
  · rw [spawn_pc] at hi; split at hi <;> cases hi
  · obtain rfl : j = 0 := by have : j < 1 := hj; omega
    rintro ⟨⟩
  · rw [spawn_pc] at hi; split at hi <;> cases hi
  · rw [spawn_pc] at hu; split at hu <;> cases hu

theorem OneClient.armed (hn : conf.notifier = false) (h : OneClient conf s) : Armed s :=
  (OneClient.induction (P := fun s => Servants s ∧ Armed s) h ⟨Servants.start, Armed.start⟩
    fun _ _ _ _ hr hI hs => ⟨hI.1.step hr.lock hn hs, hI.2.step hr.lock hI.1 hs⟩).2

end
end Algo
end Distclus
