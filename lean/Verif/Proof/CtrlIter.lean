import Verif.Proof.CtrlRun
import Verif.Proof.CtrlHistory
/-!
# Initialisations, iterations and time-outs: invariants
-/
namespace Distclus
open Ctrl Spec
namespace Algo
variable {C : Type}

set_option linter.unusedVariables false
set_option linter.unusedSimpArgs false
set_option linter.unusedTactic false

section
variable {conf : Conf} {s s' s1 : Algo C} {t u j : Nat} {p p0 : PC C}

/-- Where the writer of `modelMutex` unlocks it. -/
theorem Step.maHolder (h : Step conf s s') :
    s'.ma = s.ma ∨ s.ma = none ∨ ∃ t, unlocksM (s.thr t).pc = true := by
  cases h
  case pu4 t ht hp hs => exact .inr (.inr ⟨t, by rw [hp]; rfl⟩)
  case in2 t ht k hp hr => exact .inr (.inr ⟨t, by rw [hp]; rfl⟩)
  case in7 t ht k c e hp hr => exact .inr (.inr ⟨t, by rw [hp]; rfl⟩)
  case rS' t ht c hp hr => exact .inr (.inr ⟨t, by rw [hp]; rfl⟩)
  case c3 t ht p hp hr => exact .inr (.inr ⟨t, by rw [hp]; rfl⟩)
  all_goals first
    | exact .inl rfl
    | exact .inl (ret_ma ..)
    | exact .inl (sent_ma ..)
    | exact .inr (.inl ‹_›)

/-! ## Results of the implementation -/

/-- The event which brings goroutine `u` to a program counter, for those which keep a result of the
implementation or have just recorded an error. -/
def birth (u : Nat) : PC C → Option (Event C)
  | .in6 _ c e => some (.initRet c e)
  | .rS c => some (.iterOk u c)
  | .r15 e => some (.iterErr u e)
  | .r16 e => some (.set (.ofError (some e)))
  | .c1 (some e) => some (.set (.ofError (some e)))
  | _ => none

/-- A goroutine is at such a program counter because it was, or because the event just happened. -/
def Born (s s' : Algo C) : Prop :=
  ∀ u e, birth u (s'.thr u).pc = some e → (s'.thr u).pc = (s.thr u).pc ∨ s'.log = e :: s.log

/-- No goroutine comes to such a program counter. -/
def Calm (s s' : Algo C) : Prop :=
  ∀ u, birth u (s'.thr u).pc ≠ none → (s'.thr u).pc = (s.thr u).pc

theorem Calm.born (h : Calm s s') : Born s s' :=
  fun u e hu => .inl (h u (by rw [hu]; rintro ⟨⟩))

theorem Calm.congr (h : s'.thr = s.thr) : Calm s s' := fun u _ => by rw [h]

theorem Calm.trans {s2 : Algo C} (h : Calm s s1) (h2 : s2.thr = s1.thr) : Calm s s2 := by
  intro u; rw [h2]; exact h u

theorem Calm.go (h : Calm s s1) (hp : ∀ u, birth u p = none) : Calm s (s1.go t p) := by
  intro u hu
  rw [go_pc] at hu ⊢
  by_cases hc : u = t
  · rw [if_pos hc, hp] at hu; exact absurd rfl hu
  · rw [if_neg hc] at hu ⊢; exact h u hu

theorem Calm.ret {r : Res C} (h : Calm s s1) : Calm s (s1.ret t r) := by
  intro u hu
  rw [ret_pc] at hu ⊢
  by_cases hc : u = t
  · rw [if_pos hc] at hu; split at hu <;> exact absurd rfl hu
  · rw [if_neg hc] at hu ⊢; exact h u hu

theorem Calm.sent {ok : Bool} {k : SendFrom} (h : Calm s s1) : Calm s (s1.sent t ok k) := by
  cases k
  · exact h.ret
  · exact h.go (fun _ => rfl)
  · exact h.ret
  · exact h.go (fun _ => rfl)

theorem Calm.spawn {k : Kind} (h : Calm s s1) (hp : ∀ u, birth u p = none) :
    Calm s (s1.spawn k p) := by
  intro u hu
  rw [spawn_pc] at hu ⊢
  by_cases hc : u = s1.n
  · rw [if_pos hc, hp] at hu; exact absurd rfl hu
  · rw [if_neg hc] at hu ⊢; exact h u hu

theorem Born.goEv {e : Event C} (h : s1.thr = s.thr) (hl : s1.log = e :: s.log)
    (hp : birth t p = some e) : Born s (s1.go t p) := by
  intro u e' hu
  rw [go_pc] at hu ⊢
  by_cases hc : u = t
  · rw [if_pos hc, hc, hp] at hu; cases hu; exact .inr hl
  · rw [if_neg hc]; left; rw [h]

theorem birth_notifying {p q : PC C} {st : OCStatus} (h : notifying p = some (st, q)) (u : Nat) :
    birth u q = none := by
  cases p
  case r11 => simp only [notifying, Option.some.injEq, Prod.mk.injEq] at h; rw [← h.2]; split <;> rfl
  case in9 k e => cases e <;> · simp only [notifying, Option.some.injEq, Prod.mk.injEq] at h; rw [← h.2]; rfl
  all_goals first
    | (cases h; done)
    | (cases h; rfl)

theorem birth_entry {op : Op} (u : Nat) : birth u (entry op : PC C) = none := by cases op <;> rfl
theorem birth_ite {c : Prop} [Decidable c] {p q : PC C} {u : Nat} (h : birth u p = none)
    (h' : birth u q = none) : birth u (if c then p else q) = none := by split <;> assumption
theorem birth_begin {v : ClustStatus} {k : InitFrom} (u : Nat) :
    birth u (beginPc v k : PC C) = none := by cases v <;> rfl

theorem Step.birth (h : Step conf s s') : Born s s' := by
  cases h
  case in5 => exact Born.goEv rfl rfl rfl
  case iterOk => exact Born.goEv rfl rfl rfl
  case iterErr => exact Born.goEv rfl rfl rfl
  case r15 => exact Born.goEv rfl rfl rfl
  case c0Panic => exact Born.goEv rfl rfl rfl
  case pu5 t ht hp hm =>
    intro u e hu
    by_cases hc : u = t
    · dsimp only at hu; rw [if_pos hc] at hu; split at hu <;> cases hu
    · left; dsimp only; rw [if_neg hc]
  case pu6 t ht hp =>
    intro u e hu
    by_cases hc : u = t
    · dsimp only at hu; rw [if_pos hc] at hu; cases hu
    · left; dsimp only; rw [if_neg hc]
  case nl0 t ht hp j hj st q hq =>
    exact Calm.born (Calm.go (Calm.go (Calm.congr rfl) (birth_notifying hq)) (fun _ => rfl))
  case in3Created =>
    exact Calm.born (Calm.go (Calm.trans (Calm.spawn (Calm.congr rfl) (p := .nl0) (k := .notifier)
      (fun _ => rfl)) rfl) (fun _ => rfl))
  case c4 t ht hp j hj st k hq =>
    exact Calm.born (Calm.go (Calm.trans (Calm.go (Calm.congr rfl) (p := .sd2 k) (t := j)
      (fun _ => rfl)) rfl) (fun _ => rfl))
  all_goals first
    | (with_reducible refine Calm.born (Calm.ret ?_)) <;> first
        | exact Calm.congr rfl
        | exact Calm.spawn (Calm.congr rfl) (fun _ => rfl)
    | (with_reducible refine Calm.born (Calm.sent ?_)) <;> first
        | exact Calm.congr rfl
        | exact Calm.go (Calm.congr rfl) (fun _ => birth_ite rfl rfl)
    | (with_reducible refine Calm.born (Calm.go ?_ ?_)) <;> first
        | exact Calm.congr rfl
        | exact fun _ => rfl
        | exact fun _ => birth_entry _
        | exact fun _ => birth_begin _
        | exact fun _ => birth_ite rfl rfl
        | exact Calm.go (Calm.congr rfl) (fun _ => rfl)
        | exact Calm.go (Calm.congr rfl) (fun _ => birth_ite rfl rfl)
        | exact Calm.spawn (Calm.congr rfl) (fun _ => rfl)
    | exact Calm.born (Calm.spawn (Calm.congr rfl) (fun _ => rfl))

/-! ## Iterations come after an initialisation -/

/-- The results of an initialisation after which a run may start. -/
def okErr : Option Err → Bool
  | none => true
  | some .alreadyCreated => true
  | _ => false

theorem initOk_initRet {c : Option C} {e : Option Err} :
    initOk (.initRet c e : Event C) = okErr e := by
  cases e with
  | none => rfl
  | some e => cases e <;> rfl

theorem okErr_of {e : Option Err} (h : ¬ (e ≠ none ∧ e ≠ some .alreadyCreated)) : okErr e = true := by
  cases e with
  | none => rfl
  | some e => cases e <;> first | rfl | exact absurd ⟨by rintro ⟨⟩, by rintro ⟨⟩⟩ h

/-- The program counters reached only after a successful initialisation. -/
def started : PC C → Bool
  | .in6 _ _ e | .in7 _ _ e | .in8 _ e | .in9 _ e | .in10 .play e => okErr e
  | .pl1
  | .r0 | .r1 | .r2 _ | .r3 _ | .r4 _ | .r5 _ _ | .r6 | .r7 | .r8 | .r9 | .r10 _ | .r11 _ | .rI
  | .rS _ | .rS' _ | .r12 | .r13 | .r14 | .r15 _ | .r16 _
  | .c0 _ | .c1 _ | .c2 _ | .c3 _ | .c4 _ | .c5 _ | .c6 | .c7 | .c8 => true
  | _ => false

theorem started_back : started (back s u) = false := by unfold back; split <;> rfl
theorem started_sentPc {k : SendFrom} : started (sentPc s u k) = false := by
  cases k <;> first | exact started_back | rfl

theorem Edge.started {p p' : PC C} (h : Edge conf s u p p') (hp : Algo.started p' = true) :
    Algo.started p = true ∨ (∃ k c e, p' = .in6 k c e ∧ p = .in5 k) ∨ s.status.value = .ready ∨
      ∃ t, (s.thr t).pc = .pl1 := by
  cases h
  case sd3Closed | sd3 => rw [started_sentPc] at hp; cases hp
  case call op hk => cases op <;> cases hp
  case pu5 => split at hp <;> cases hp
  case nl1 => split at hp <;> cases hp
  case in0 => revert hp; cases s.status.value <;> (intro hp; cases hp)
  case pl0Init hs hv => revert hp; rcases hv with hv | hv <;> rw [hv] <;> (intro hp; cases hp)
  case pl0Ready hs hv => exact .inr (.inr (.inl hv))
  case bornRun hu t h => exact .inr (.inr (.inr ⟨t, h⟩))
  case in5 k c e => exact .inr (.inl ⟨k, c, e, rfl, rfl⟩)
  case in9 k e j hj => left; cases k <;> first | exact hp | cases hp
  case in10Play e he => exact .inl (okErr_of he)
  all_goals first
    | exact .inl rfl
    | exact .inl hp
    | cases hp
    | (rw [started_back] at hp; cases hp)

/-- The statuses of an algorithm which was initialised. -/
def aliveV : ClustStatus → Bool
  | .ready | .running | .idle => true
  | _ => false

/-- The invariant: a successful initialisation is on record. -/
structure InitInv (s : Algo C) : Prop where
  pc : ∀ u, started (s.thr u).pc = true → s.log.any initOk = true
  st : aliveV s.status.value = true → s.log.any initOk = true
  log : IterAfterInit s.log

theorem InitInv.init : InitInv (new : Algo C) :=
  ⟨(fun _ h => by cases h), (fun h => by cases h), trivial⟩

theorem IterAfterInit.cons {e : Event C} {l : List (Event C)} (h : IterAfterInit l)
    (he : ∀ r a b, e = .iterCall r a b → l.any initOk = true) : IterAfterInit (e :: l) := by
  cases e <;> first | exact h | exact ⟨he _ _ _ rfl, h⟩

/-- Where the status becomes that of an initialised algorithm. -/
theorem SetFact.started {st : OCStatus} (hS : StInv s) (h : SetFact s st)
    (hv : aliveV st.value = true) : ∃ u, Algo.started (s.thr u).pc = true := by
  rcases h with ⟨t, k, h, rfl⟩ | ⟨t, k, h, rfl⟩ | ⟨t, k, e, h, rfl⟩ | ⟨-, -, t, e, h, rfl⟩ |
    ⟨-, t, h | h⟩ | ⟨-, t, h, rfl⟩ | ⟨-, t, e, h | h, rfl⟩ | ⟨t, j, k, h, -⟩
  · cases hv
  · exact ⟨t, by rw [h]; rfl⟩
  · cases hv
  · cases hv
  all_goals exact ⟨t, by rw [h]; rfl⟩

theorem InitInv.step (hI : InitInv s) (hL : LockInv s) (hS : StInv s) (h : Step conf s s') :
    InitInv s' := by
  have mono : s.log.any initOk = true → s'.log.any initOk = true := by
    intro ha
    rcases h.log with ⟨e, -⟩ | ⟨x, e, -, -⟩
    · rw [e]; exact ha
    · rw [e, List.any_cons, ha, Bool.or_true]
  refine ⟨fun u hu => ?_, fun hv => ?_, ?_⟩
  · rcases h.edge hL u with e | e
    · dsimp only at e; rw [e] at hu; exact mono (hI.pc u hu)
    · dsimp only at e
      rcases e.started hu with h1 | ⟨k, c, e', h1, h2⟩ | h1 | ⟨t, h1⟩
      · exact mono (hI.pc u h1)
      · rcases h.birth u (.initRet c e') (by rw [h1]; rfl) with h3 | h3
        · rw [h1, h2] at h3; cases h3
        · rw [h3, List.any_cons, initOk_initRet]
          rw [h1] at hu
          rw [show okErr e' = true from hu, Bool.true_or]
      · exact mono (hI.st (by rw [h1]; rfl))
      · exact mono (hI.pc t (by rw [h1]; rfl))
  · rcases h.log with ⟨-, e⟩ | ⟨x, e, h1, h2⟩
    · rw [e] at hv; exact mono (hI.st hv)
    · by_cases hx : isSet x = true
      · cases x <;> try cases hx
        obtain ⟨h3, h4⟩ := h2
        rw [h3] at hv
        obtain ⟨u, hu⟩ := h4.started hS hv
        exact mono (hI.pc u hu)
      · rw [h1 (by simpa using hx)] at hv; exact mono (hI.st hv)
  · rcases h.log with ⟨e, -⟩ | ⟨x, e, -, h2⟩
    · rw [e]; exact hI.log
    · rw [e]
      refine IterAfterInit.cons hI.log ?_
      rintro r a b rfl
      exact hI.pc r (by rw [h2.1]; rfl)

theorem Reachable.initInv (h : Reachable conf s) : InitInv s := by
  have := h.induction (P := fun s => (LockInv s ∧ StInv s) ∧ InitInv s)
    ⟨⟨LockInv.init, StInv.init⟩, InitInv.init⟩
    (fun a b ⟨⟨h1, h2⟩, h3⟩ hs => ⟨⟨h1.step hs, h2.step h1 hs⟩, h3.step h1 h2 hs⟩)
  exact this.2

/-! ## What is saved -/

theorem lastIter_cons {r : Nat} {e : Event C} {l : List (Event C)}
    (h : ∀ x, (∃ a b, e = .iterCall x a b) ∨ e = .iterNil x ∨ (∃ c, e = .iterOk x c) ∨
      (∃ y, e = .iterErr x y) ∨ (∃ y, e = .iterPanic x y) → x ≠ r) :
    lastIter r (e :: l) = lastIter r l := by
  cases e
  case iterCall => exact if_neg (h _ (.inl ⟨_, _, rfl⟩))
  case iterNil => exact if_neg (h _ (.inr (.inl rfl)))
  case iterOk => exact if_neg (h _ (.inr (.inr (.inl ⟨_, rfl⟩))))
  case iterErr => exact if_neg (h _ (.inr (.inr (.inr (.inl ⟨_, rfl⟩)))))
  case iterPanic => exact if_neg (h _ (.inr (.inr (.inr (.inr ⟨_, rfl⟩)))))
  all_goals rfl

/-- The result of an iteration which is being saved. -/
def savingC : PC C → Option C
  | .rS c => some c
  | .rS' c => some c
  | _ => none

theorem savingC_some {c : C} {p : PC C} (h : savingC p = some c) : p = .rS c ∨ p = .rS' c := by
  cases p <;> first | (cases h; done) | (cases h; exact .inl rfl) | (cases h; exact .inr rfl)

theorem savingC_back : savingC (back s u) = none := by unfold back; split <;> rfl
theorem savingC_sentPc {k : SendFrom} : savingC (sentPc s u k) = none := by
  cases k <;> first | exact savingC_back | rfl

theorem Edge.saving {p p' : PC C} {c : C} (h : Edge conf s u p p') (hp : savingC p' = some c) :
    savingC p = some c ∨ (p' = .rS c ∧ p = .rI) := by
  cases h
  case sd3Closed | sd3 => rw [savingC_sentPc] at hp; cases hp
  case call op hk => cases op <;> cases hp
  case pu5 => split at hp <;> cases hp
  case nl1 => split at hp <;> cases hp
  case r5 => split at hp <;> cases hp
  case r7 => split at hp <;> cases hp
  case r11 => split at hp <;> cases hp
  case in0 => revert hp; cases s.status.value <;> (intro hp; cases hp)
  case pl0Init hs hv => revert hp; rcases hv with hv | hv <;> rw [hv] <;> (intro hp; cases hp)
  all_goals first
    | (cases hp; done)
    | (rw [savingC_back] at hp; cases hp; done)
    | exact .inl hp
    | (cases hp; exact .inr ⟨rfl, rfl⟩)

/-- The invariant: what is being saved was just returned. -/
structure SaveInv (s : Algo C) : Prop where
  pc : ∀ u c, savingC (s.thr u).pc = some c → lastIter u s.log = some (.iterOk u c)
  log : SavedOk s.log

theorem SaveInv.init : SaveInv (new : Algo C) := ⟨(fun _ _ h => by cases h), trivial⟩

theorem SavedOk.cons {e : Event C} {l : List (Event C)} (h : SavedOk l)
    (he : ∀ c, e = .saved c → ∃ r, lastIter r l = some (.iterOk r c)) : SavedOk (e :: l) := by
  cases e <;> first | exact h | exact ⟨he _ rfl, h⟩

theorem EvFact.iter {e : Event C} {x : Nat} (h : EvFact s s' e)
    (he : (∃ a b, e = .iterCall x a b) ∨ e = .iterNil x ∨ (∃ c, e = .iterOk x c) ∨
      (∃ y, e = .iterErr x y) ∨ (∃ y, e = .iterPanic x y)) :
    (s.thr x).pc = .r9 ∨ (s.thr x).pc = .rI := by
  rcases he with ⟨a, b, rfl⟩ | rfl | ⟨c, rfl⟩ | ⟨y, rfl⟩ | ⟨y, rfl⟩
  · exact .inl h.1
  · exact .inr h
  · exact .inr h.1
  · exact .inr h.1
  · exact .inr h.1

theorem SaveInv.step (hI : SaveInv s) (hL : LockInv s) (h : Step conf s s') : SaveInv s' := by
  have keep : ∀ u c, savingC (s.thr u).pc = some c → lastIter u s'.log = some (.iterOk u c) := by
    intro u c hu
    rcases h.log with ⟨e, -⟩ | ⟨x, e, -, hx⟩
    · rw [e]; exact hI.pc u c hu
    · rw [e, lastIter_cons]
      · exact hI.pc u c hu
      · rintro r hr rfl
        rcases hx.iter hr with h1 | h1 <;> rw [h1] at hu <;> cases hu
  refine ⟨fun u c hu => ?_, ?_⟩
  · rcases h.edge hL u with e | e
    · dsimp only at e; rw [e] at hu; exact keep u c hu
    · rcases e.saving hu with h1 | ⟨h1, h2⟩
      · exact keep u c h1
      · dsimp only at h1
        rcases h.birth u (.iterOk u c) (by rw [h1]; rfl) with h3 | h3
        · rw [h1, h2] at h3; cases h3
        · rw [h3]; exact if_pos rfl
  · rcases h.log with ⟨e, -⟩ | ⟨x, e, -, h2⟩
    · rw [e]; exact hI.log
    · rw [e]
      refine SavedOk.cons hI.log ?_
      rintro c rfl
      obtain ⟨t, ht⟩ := h2
      exact ⟨t, hI.pc t c (by rw [ht]; rfl)⟩

theorem Reachable.save (h : Reachable conf s) : SaveInv s :=
  (h.induction (P := fun s => LockInv s ∧ SaveInv s) ⟨LockInv.init, SaveInv.init⟩
    (fun a b ⟨h1, h3⟩ hs => ⟨h1.step hs, h3.step h1 hs⟩)).2

/-! ## Failed iterations -/

theorem ending_back : ending (back s u) = false := by unfold back; split <;> rfl

/-- A run which ends does not come back. -/
theorem Edge.ending {p p' : PC C} (h : Edge conf s u p p') (hu : u < s.n)
    (hp : Spec.ending p = true) : Spec.ending p' = true := by
  cases h
  case born | bornRun | bornNotif | bornTimer => omega
  all_goals first
    | rfl
    | (cases hp; done)

theorem Step.ending (h : Step conf s s') (hL : LockInv s) (hu : u < s.n)
    (hp : Spec.ending (s.thr u).pc = true) : Spec.ending (s'.thr u).pc = true := by
  rcases h.edge hL u with e | e
  · dsimp only at e; rw [e]; exact hp
  · exact e.ending hu hp

/-- A run which ends calls `Iterate` no more. -/
theorem Step.iterCalls (h : Step conf s s') (hp : Spec.ending (s.thr u).pc = true) :
    Spec.iterCalls u s'.log = Spec.iterCalls u s.log := by
  rcases h.log with ⟨e, -⟩ | ⟨x, e, -, hx⟩
  · rw [e]
  · rw [e]
    cases x
    case iterCall r a b =>
      by_cases hr : r = u
      · subst hr; rw [hx.1] at hp; cases hp
      · exact if_neg hr
    all_goals rfl

/-- A failed iteration is recorded by the next action of its run. -/
theorem Step.failed (h : Step conf s s') (hL : LockInv s) {e : Err}
    (hp : (s.thr u).pc = .r15 e ∨ (s.thr u).pc = .c0 (some e)) :
    (s'.thr u).pc = (s.thr u).pc ∨ s'.log = .set (.ofError (some e)) :: s.log := by
  rcases h.edge hL u with h1 | h1
  · exact .inl h1
  · dsimp only at h1
    rcases hp with hp | hp
    · rw [hp] at h1
      generalize hq : (s'.thr u).pc = q at h1
      cases h1
      refine (h.birth u (.set (.ofError (some e))) (by rw [hq]; rfl)).imp_left (fun h => ?_)
      exact hq.symm.trans h
    · rw [hp] at h1
      generalize hq : (s'.thr u).pc = q at h1
      cases h1
      refine (h.birth u (.set (.ofError (some e))) (by rw [hq]; rfl)).imp_left (fun h => ?_)
      exact hq.symm.trans h

/-! ## Time-outs -/

theorem Step.disabledMono (h : Step conf s s') : ∀ i ∈ s.disabled, i ∈ s'.disabled := by
  cases h
  case pl2 => exact fun i hi => hi
  case pl2Disable => exact fun i hi => List.mem_cons_of_mem _ hi
  all_goals first
    | exact fun _ hi => hi
    | (intro i hi; rw [ret_disabled]; exact hi)
    | (intro i hi; rw [sent_disabled]; exact hi)

/-- A time-out which sleeps. -/
def isTi0 : PC C → Bool
  | .ti0 => true
  | _ => false

theorem isTi0_back : isTi0 (back s u) = false := by unfold back; split <;> rfl
theorem isTi0_sentPc {k : SendFrom} : isTi0 (sentPc s u k) = false := by
  cases k <;> first | exact isTi0_back | rfl

theorem Edge.toTi0 {p p' : PC C} (h : Edge conf s u p p') (hp : isTi0 p' = true) : u = s.n := by
  cases h
  case bornTimer hu t h => exact hu
  case sd3Closed | sd3 => rw [isTi0_sentPc] at hp; cases hp
  case call op hk => cases op <;> cases hp
  case in0 => revert hp; cases s.status.value <;> (intro hp; cases hp)
  case pl0Init hs hv => revert hp; rcases hv with hv | hv <;> rw [hv] <;> (intro hp; cases hp)
  case pu5 => split at hp <;> cases hp
  case nl1 => split at hp <;> cases hp
  case r5 => split at hp <;> cases hp
  case r7 => split at hp <;> cases hp
  case r11 => split at hp <;> cases hp
  all_goals first
    | cases hp
    | (rw [isTi0_back] at hp; cases hp)

/-- The invariant of the time-outs. -/
structure TimerInv (s : Algo C) : Prop where
  fired : ∀ i, .fired i ∈ s.log → i < s.n ∧ (s.thr i).pc ≠ .ti0
  disabled : ∀ i, .disabled i ∈ s.log → i ∈ s.disabled
  log : FiredOk s.log

theorem TimerInv.init : TimerInv (new : Algo C) :=
  ⟨(fun _ h => by cases h), (fun _ h => by cases h), trivial⟩

theorem FiredOk.cons {e : Event C} {l : List (Event C)} (h : FiredOk l)
    (he : ∀ i, e = .fired i → .fired i ∉ l ∧ .disabled i ∉ l) : FiredOk (e :: l) := by
  cases e <;> first | exact h | exact ⟨he _ rfl, h⟩

theorem TimerInv.step (hI : TimerInv s) (hL : LockInv s) (h : Step conf s s') : TimerInv s' := by
  have hn : s.n ≤ s'.n := by rcases h.nFact with e | e <;> omega
  have keep : ∀ i, i < s.n → (s.thr i).pc ≠ .ti0 → (s'.thr i).pc ≠ .ti0 := by
    intro i hi hp
    rcases h.edge hL i with e | e
    · dsimp only at e; rw [e]; exact hp
    · intro hc
      dsimp only at e
      have := e.toTi0 (by rw [hc]; rfl)
      omega
  rcases h.log with ⟨e, -⟩ | ⟨x, e, -, hx⟩
  · refine ⟨fun i hi => ?_, fun i hi => ?_, by rw [e]; exact hI.log⟩
    · rw [e] at hi
      obtain ⟨h1, h2⟩ := hI.fired i hi
      exact ⟨Nat.lt_of_lt_of_le h1 hn, keep i h1 h2⟩
    · rw [e] at hi; exact h.disabledMono i (hI.disabled i hi)
  · refine ⟨fun i hi => ?_, fun i hi => ?_, ?_⟩
    · rw [e] at hi
      rcases List.mem_cons.1 hi with hi | hi
      · subst hi
        have hlt : i < s.n := hL.lt (by rw [hx.1]; rintro ⟨⟩)
        exact ⟨Nat.lt_of_lt_of_le hlt hn, hx.2.2⟩
      · obtain ⟨h1, h2⟩ := hI.fired i hi
        exact ⟨Nat.lt_of_lt_of_le h1 hn, keep i h1 h2⟩
    · rw [e] at hi
      rcases List.mem_cons.1 hi with hi | hi
      · subst hi; exact hx.2
      · exact h.disabledMono i (hI.disabled i hi)
    · rw [e]
      refine FiredOk.cons hI.log ?_
      rintro i rfl
      exact ⟨fun hc => (hI.fired i hc).2 hx.1, fun hc => hx.2.1 (hI.disabled i hc)⟩

theorem Reachable.timer (h : Reachable conf s) : TimerInv s :=
  (h.induction (P := fun s => LockInv s ∧ TimerInv s) ⟨LockInv.init, TimerInv.init⟩
    (fun a b ⟨h1, h3⟩ hs => ⟨h1.step hs, h3.step h1 hs⟩)).2

end
end Algo
end Distclus
