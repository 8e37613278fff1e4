import Verif.Proof.CtrlBlock
import Verif.Proof.CtrlBatchRun
import Verif.Spec.CtrlSerial
/-!
# The implementation is used sequentially: the invariant
-/
namespace Distclus
open Ctrl Spec
namespace Algo
variable {C : Type}

set_option linter.unusedVariables false
set_option linter.unusedSimpArgs false
set_option linter.unusedTactic false
set_option linter.unreachableTactic false

/-- What a goroutine is doing with the implementation. -/
inductive Cell (C : Type) where
  | out
  | run
  | sav (c : C)
  | ini
  | inr (c : Option C)

/-- ... by its program counter. -/
def cell : PC C → Cell C
  | .rI => .run
  | .rS c | .rS' c => .sav c
  | .in3 _ | .in4 _ | .in5 _ => .ini
  | .in6 _ c _ | .in7 _ c _ => .inr c
  | _ => .out

theorem inside_iff {p : PC C} : inside p = false ↔ cell p = .out := by
  cases p <;> simp [inside, cell]

section
variable {conf : Conf} {s s' s1 : Algo C} {t u j : Nat} {p p0 : PC C}

/-- The events the observer notes. -/
def deskEv : Event C → Bool
  | .initRet _ _ | .iterCall _ _ _ | .iterNil _ | .iterErr _ _ | .iterPanic _ _ | .iterOk _ _ => true
  | _ => false

theorem Desk.Next.same {d : Desk C} {e : Event C} (h : deskEv e = false) : d.Next e d := by
  cases e <;> first | rfl | cases h

/-- No goroutine changes what it does with the implementation. -/
def SameCell (s s' : Algo C) : Prop := ∀ u, cell (s'.thr u).pc = cell (s.thr u).pc

theorem SameCell.congr (h : s'.thr = s.thr) : SameCell s s' := fun u => by rw [h]

theorem SameCell.trans {s2 : Algo C} (h : SameCell s s1) (h2 : s2.thr = s1.thr) : SameCell s s2 := by
  intro u; rw [h2]; exact h u

theorem SameCell.go (h : SameCell s s1) (hp : cell p = cell (s.thr t).pc) : SameCell s (s1.go t p) := by
  intro u
  rw [go_pc]
  by_cases hc : u = t
  · rw [if_pos hc, hc]; exact hp
  · rw [if_neg hc]; exact h u

theorem SameCell.ret {r : Res C} (h : SameCell s s1) (hp : Cell.out = cell (s.thr t).pc) :
    SameCell s (s1.ret t r) := by
  intro u
  rw [ret_pc]
  by_cases hc : u = t
  · rw [if_pos hc, hc, ← hp]; split <;> rfl
  · rw [if_neg hc]; exact h u

theorem SameCell.sent {ok : Bool} {k : SendFrom} (h : SameCell s s1) (hp : Cell.out = cell (s.thr t).pc) :
    SameCell s (s1.sent t ok k) := by
  cases k
  · exact h.ret hp
  · exact h.go hp
  · exact h.ret hp
  · exact h.go hp

theorem SameCell.spawn {k : Kind} (h : SameCell s s1) (hn : s1.n = s.n) (hL : LockInv s)
    (hp : cell p = .out) : SameCell s (s1.spawn k p) := by
  intro u
  rw [spawn_pc]
  by_cases hc : u = s1.n
  · rw [if_pos hc, hp, hL.unborn u (by omega)]; rfl
  · rw [if_neg hc]; exact h u

theorem cell_notifying {p q : PC C} {st : OCStatus} (h : notifying p = some (st, q)) : cell q = cell p := by
  cases p
  case r11 => simp only [notifying, Option.some.injEq, Prod.mk.injEq] at h; rw [← h.2]; split <;> rfl
  case in9 k e => cases e <;> · simp only [notifying, Option.some.injEq, Prod.mk.injEq] at h; rw [← h.2]; rfl
  all_goals first
    | (cases h; done)
    | (cases h; rfl)

theorem cell_entry {op : Op} : cell (entry op : PC C) = .out := by cases op <;> rfl
theorem cell_ite {c : Prop} [Decidable c] {p q : PC C} {x : Cell C} (h : cell p = x)
    (h' : cell q = x) : cell (if c then p else q) = x := by split <;> assumption

/-- An action with respect to the implementation. -/
inductive CellStep (s s' : Algo C) : Prop
  | still (hc : s'.centroids = s.centroids) (hi : s'.iterations = s.iterations)
      (hl : s'.log = s.log ∨ ∃ e, s'.log = e :: s.log ∧ deskEv e = false) (hp : SameCell s s')
  | start (u : Nat) (h0 : cell (s.thr u).pc = .out) (h1 : cell (s'.thr u).pc = .ini)
      (hv : ∀ v, v ≠ u → cell (s'.thr v).pc = cell (s.thr v).pc)
      (hc : s'.centroids = s.centroids) (hi : s'.iterations = 0)
      (hl : s'.log = s.log ∨ ∃ e, s'.log = e :: s.log ∧ deskEv e = false)
  | initRet (u : Nat) (c : Option C) (e : Option Err) (h0 : cell (s.thr u).pc = .ini)
      (h1 : cell (s'.thr u).pc = .inr c) (hv : ∀ v, v ≠ u → cell (s'.thr v).pc = cell (s.thr v).pc)
      (hc : s'.centroids = s.centroids) (hi : s'.iterations = s.iterations)
      (hl : s'.log = .initRet c e :: s.log)
  | initSave (u : Nat) (c : Option C) (h0 : cell (s.thr u).pc = .inr c)
      (h1 : cell (s'.thr u).pc = .out) (hv : ∀ v, v ≠ u → cell (s'.thr v).pc = cell (s.thr v).pc)
      (hc : s'.centroids = c) (hi : s'.iterations = s.iterations) (hl : s'.log = s.log)
  | iterCall (u : Nat) (st : OCStatus) (h0 : cell (s.thr u).pc = .out)
      (h1 : cell (s'.thr u).pc = .run) (hv : ∀ v, v ≠ u → cell (s'.thr v).pc = cell (s.thr v).pc)
      (hc : s'.centroids = s.centroids) (hi : s'.iterations = s.iterations)
      (hl : s'.log = .iterCall u st s.centroids :: s.log)
  | iterOk (u : Nat) (c : C) (h0 : cell (s.thr u).pc = .run)
      (h1 : cell (s'.thr u).pc = .sav c) (hv : ∀ v, v ≠ u → cell (s'.thr v).pc = cell (s.thr v).pc)
      (hc : s'.centroids = s.centroids) (hi : s'.iterations = s.iterations)
      (hl : s'.log = .iterOk u c :: s.log)
  | iterEnd (u : Nat) (e : Event C) (he : e = .iterNil u ∨ (∃ x, e = .iterErr u x) ∨ ∃ x, e = .iterPanic u x)
      (h0 : cell (s.thr u).pc = .run)
      (h1 : cell (s'.thr u).pc = .out) (hv : ∀ v, v ≠ u → cell (s'.thr v).pc = cell (s.thr v).pc)
      (hc : s'.centroids = s.centroids) (hi : s'.iterations = s.iterations)
      (hl : s'.log = e :: s.log)
  | save (u : Nat) (c : C) (h0 : cell (s.thr u).pc = .sav c)
      (h1 : cell (s'.thr u).pc = .out) (hv : ∀ v, v ≠ u → cell (s'.thr v).pc = cell (s.thr v).pc)
      (hc : s'.centroids = some c) (hi : s'.iterations = s.iterations + 1)
      (hl : s'.log = .saved c :: s.log)

theorem go_cell (h : s1.thr = s.thr) : cell ((s1.go t p).thr t).pc = cell p ∧
    ∀ v, v ≠ t → cell ((s1.go t p).thr v).pc = cell (s.thr v).pc := by
  constructor
  · rw [go_pc, if_pos rfl]
  · intro v hv; rw [go_pc, if_neg hv, h]

theorem CellStep.ret {r : Res C} (hc : s1.centroids = s.centroids) (hi : s1.iterations = s.iterations)
    (hl : s1.log = s.log) (hs : SameCell s s1) (hp : Cell.out = cell (s.thr t).pc) :
    CellStep s (s1.ret t r) := by
  refine .still (by rw [ret_centroids, hc]) (by rw [ret_iterations, hi]) ?_ (hs.ret hp)
  rw [ret_log]
  split
  · exact .inl hl
  · exact .inr ⟨_, by rw [hl], rfl⟩

theorem CellStep.sent {ok : Bool} {k : SendFrom} (hc : s1.centroids = s.centroids)
    (hi : s1.iterations = s.iterations)
    (hl : s1.log = s.log) (hs : SameCell s s1) (hp : Cell.out = cell (s.thr t).pc) :
    CellStep s (s1.sent t ok k) := by
  cases k
  · exact CellStep.ret hc hi hl hs hp
  · exact .still hc hi (.inl hl) (hs.go hp)
  · exact CellStep.ret hc hi hl hs hp
  · exact .still hc hi (.inl hl) (hs.go hp)

theorem CellStep.begin {k : InitFrom} (hz : s.status.value = .created → s.iterations = 0)
    (hp : Cell.out = cell (s.thr t).pc) :
    CellStep s ({ s with sm := some t }.go t (beginPc s.status.value k)) := by
  cases hv : s.status.value
  case created =>
    exact .start t hp.symm (go_cell (s := s) rfl).1 (go_cell rfl).2 rfl (hz hv) (.inl rfl)
  all_goals exact .still rfl rfl (.inl rfl) (SameCell.go (SameCell.congr rfl) hp)

theorem Step.cell (h : Step conf s s') (hL : LockInv s)
    (hz : s.status.value = .created → s.iterations = 0) : CellStep s s' := by
  cases h
  case in0 t ht hp hs => exact CellStep.begin hz (by rw [hp]; rfl)
  case pl0Init t ht hp hs hv => exact CellStep.begin hz (by rw [hp]; rfl)
  case in2 t ht k hp hr =>
    exact .start t (by rw [hp]; rfl) (go_cell (s := s) rfl).1 (go_cell rfl).2 rfl rfl (.inr ⟨_, rfl, rfl⟩)
  case in5 t ht k hp c e =>
    exact .initRet t c e (by rw [hp]; rfl) (go_cell (s := s) rfl).1 (go_cell rfl).2 rfl rfl rfl
  case in7 t ht k c e hp hr =>
    exact .initSave t c (by rw [hp]; rfl) (go_cell (s := s) rfl).1 (go_cell rfl).2 rfl rfl rfl
  case r9Default t ht hp hn =>
    exact .iterCall t _ (by rw [hp]; rfl) (go_cell (s := s) rfl).1 (go_cell rfl).2 rfl rfl rfl
  case iterOk t ht hp c =>
    exact .iterOk t c (by rw [hp]; rfl) (go_cell (s := s) rfl).1 (go_cell rfl).2 rfl rfl rfl
  case iterNil t ht hp =>
    exact .iterEnd t _ (.inl rfl) (by rw [hp]; rfl) (go_cell (s := s) rfl).1 (go_cell rfl).2 rfl rfl rfl
  case iterErr t ht hp e =>
    exact .iterEnd t _ (.inr (.inl ⟨e, rfl⟩)) (by rw [hp]; rfl) (go_cell (s := s) rfl).1 (go_cell rfl).2
      rfl rfl rfl
  case iterPanic t ht hp e =>
    exact .iterEnd t _ (.inr (.inr ⟨e, rfl⟩)) (by rw [hp]; rfl) (go_cell (s := s) rfl).1 (go_cell rfl).2
      rfl rfl rfl
  case rS' t ht c hp hr =>
    exact .save t c (by rw [hp]; rfl) (go_cell (s := s) rfl).1 (go_cell rfl).2 rfl rfl rfl
  case pu5 t ht hp hm =>
    refine .still rfl rfl (.inl rfl) (fun u => ?_)
    by_cases hc : u = t
    · subst hc; dsimp only; rw [if_pos rfl, hp]; split <;> rfl
    · dsimp only; rw [if_neg hc]
  case pu6 t ht hp =>
    refine .still rfl rfl (.inr ⟨_, rfl, rfl⟩) (fun u => ?_)
    by_cases hc : u = t
    · subst hc; dsimp only; rw [if_pos rfl, hp]; rfl
    · dsimp only; rw [if_neg hc]
  case nl0 t ht hp j hj st q hq =>
    exact .still rfl rfl (.inr ⟨_, rfl, rfl⟩)
      (SameCell.go (SameCell.go (SameCell.congr rfl) (cell_notifying hq)) (by rw [hp]; rfl))
  case in3Created t ht k hp hv =>
    exact .still rfl rfl (.inr ⟨_, rfl, rfl⟩)
      (SameCell.go (SameCell.trans (SameCell.spawn (SameCell.congr rfl) (p := .nl0) (k := .notifier)
        rfl hL rfl) rfl) (by rw [hp]; rfl))
  case c4 t ht hp j hj st k hq =>
    exact .still rfl rfl (.inr ⟨_, rfl, rfl⟩)
      (SameCell.go (SameCell.trans (SameCell.go (SameCell.congr rfl) (p := .sd2 k) (t := j)
        (by rw [hq]; rfl)) rfl) (by rw [hp]; rfl))
  case client => exact .still rfl rfl (.inl rfl) (SameCell.spawn (SameCell.congr rfl) rfl hL rfl)
  case pl1 t ht hp =>
    exact .still rfl rfl (.inr ⟨_, rfl, rfl⟩) (SameCell.go (SameCell.spawn (SameCell.congr rfl) rfl hL rfl)
      (by rw [hp]; rfl))
  case pl3Timeout t ht hp hm hc =>
    exact CellStep.ret rfl rfl rfl (SameCell.spawn (SameCell.congr rfl) rfl hL rfl) (by rw [hp]; rfl)
  case sd3 t ht a k hp j hj i hq ha =>
    exact CellStep.sent rfl rfl rfl (SameCell.go (SameCell.congr rfl) (by rw [hq]; cases i <;> rfl))
      (by rw [hp]; rfl)
  case sd3Closed t ht a k hp ha =>
    exact CellStep.sent rfl rfl rfl (SameCell.congr rfl) (by rw [hp]; rfl)
  case c6 t ht hp j hj i hq ha =>
    exact .still rfl rfl (.inl rfl) (SameCell.go (SameCell.go (SameCell.congr rfl)
      (by rw [hq]; cases i <;> rfl)) (by rw [hp]; rfl))
  case r1 t ht hp j hj st k hq =>
    exact .still rfl rfl (.inl rfl) (SameCell.go (SameCell.go (SameCell.congr rfl)
      (by rw [hq]; rfl)) (by rw [hp]; rfl))
  case r9 t ht hp j hj st k hq =>
    exact .still rfl rfl (.inl rfl) (SameCell.go (SameCell.go (SameCell.congr rfl)
      (by rw [hq]; rfl)) (by rw [hp]; rfl))
  case c4Panic t ht e hp j hj st k hq =>
    exact .still rfl rfl (.inl rfl) (SameCell.go (SameCell.go (SameCell.congr rfl)
      (by rw [hq]; rfl)) (by rw [hp]; rfl))
  case call t ht hp op hk =>
    exact .still rfl rfl (.inr ⟨_, rfl, rfl⟩) (SameCell.go (SameCell.congr rfl) (by rw [hp, cell_entry]; rfl))
  case r7 t ht hp hm hd =>
    exact .still rfl rfl (.inl rfl) (SameCell.go (SameCell.congr rfl) (by rw [hp]; exact cell_ite rfl rfl))
  case nl1 t ht st hp hm =>
    exact .still rfl rfl (.inl rfl) (SameCell.go (SameCell.congr rfl) (by rw [hp]; exact cell_ite rfl rfl))
  all_goals first
    | (with_reducible refine CellStep.ret ?_ ?_ ?_ (SameCell.congr ?_) ?_) <;> first | rfl | (simp only [*]; done) | (simp only [*]; rfl)
    | (with_reducible refine CellStep.sent ?_ ?_ ?_ (SameCell.congr ?_) ?_) <;> first | rfl | (simp only [*]; done) | (simp only [*]; rfl)
    | (refine CellStep.still rfl rfl ?_ (SameCell.congr ?_)) <;>
        first | exact .inl rfl | exact .inr ⟨_, rfl, rfl⟩ | rfl
    | (refine CellStep.still rfl rfl ?_ (SameCell.go (SameCell.congr ?_) ?_)) <;>
        first | rfl | exact .inl rfl | exact .inr ⟨_, rfl, rfl⟩ | (simp only [*]; done) | (simp only [*]; rfl)

/-! ## Before the first initialisation -/

theorem created_step (hL : LockInv s) (hS : StInv s) (hz : s.status.value = .created → s.iterations = 0)
    (hs : Step conf s s') : s'.status.value = .created → s'.iterations = 0 := fun hv => by
  have hv0 : s.status.value = .created := Classical.byContradiction fun h => hs.created hL hS h hv
  cases hs.cell hL hz with
  | start u h0 h1 hv hc hi hl => exact hi
  | save u c h0 h1 hv hc hi hl =>
    exfalso
    have := hS.pc u
    generalize (s.thr u).pc = p at this h0
    cases p <;> first | (cases h0; done) | exact this hv0
  | still hc hi hl hp => rw [hi]; exact hz hv0
  | _ => rename_i hi _; rw [hi]; exact hz hv0

theorem created_iterations (h : Reachable conf s) : s.status.value = .created → s.iterations = 0 := by
  have : LockInv s ∧ StInv s ∧ (s.status.value = .created → s.iterations = 0) :=
    h.induction (P := fun s => LockInv s ∧ StInv s ∧ (s.status.value = .created → s.iterations = 0))
      ⟨LockInv.init, StInv.init, fun _ => rfl⟩
      (fun {s s'} hI hs => ⟨hI.1.step hs, hI.2.1.step hI.1 hs, created_step hI.1 hI.2.1 hI.2.2 hs⟩)
  exact this.2.2

/-! ## The observer -/

/-- What the observer knows. -/
structure SerInv (s : Algo C) (d : Desk C) : Prop where
  log : Serial s.log d
  busy : ∀ r, d.busy = some r → cell (s.thr r).pc = .run
  run : ∀ r, cell (s.thr r).pc = .run → d.busy = some r ∧ d.cur = s.centroids ∧ d.count = s.iterations
  sav : ∀ r c, cell (s.thr r).pc = .sav c → d.cur = some c ∧ d.count = s.iterations + 1
  ini : ∀ r, cell (s.thr r).pc = .ini → s.iterations = 0
  inr : ∀ r c, cell (s.thr r).pc = .inr c → d.cur = c ∧ d.count = 0 ∧ s.iterations = 0
  rest : (∀ u, cell (s.thr u).pc = .out) → d.cur = s.centroids ∧ d.count = s.iterations

theorem Serial.skip {d : Desk C} (h : Serial s.log d)
    (hl : s'.log = s.log ∨ ∃ e, s'.log = e :: s.log ∧ deskEv e = false) : Serial s'.log d := by
  rcases hl with hl | ⟨e, hl, he⟩
  · rw [hl]; exact h
  · rw [hl]; exact ⟨d, h, Desk.Next.same he⟩

theorem Alone.out (h : Alone s) {u v : Nat} (hu : cell (s.thr u).pc ≠ .out) (hv : v ≠ u) :
    cell (s.thr v).pc = .out := by
  rw [← inside_iff]
  cases hi : inside (s.thr v).pc with
  | false => rfl
  | true =>
    refine absurd (h v u hi ?_) hv
    cases hj : inside (s.thr u).pc with
    | false => exact absurd (inside_iff.1 hj) hu
    | true => rfl

theorem SerInv.step {d : Desk C} (hI : SerInv s d) (ha : Alone s) (hb : Alone s') (h : CellStep s s') :
    ∃ d', SerInv s' d' := by
  cases h with
  | still hc hi hl hp =>
    refine ⟨d, Serial.skip hI.log hl, ?_, ?_, ?_, ?_, ?_, ?_⟩
    · intro r h; rw [hp]; exact hI.busy r h
    · intro r h; rw [hp] at h; rw [hc, hi]; exact hI.run r h
    · intro r c h; rw [hp] at h; rw [hi]; exact hI.sav r c h
    · intro r h; rw [hp] at h; rw [hi]; exact hI.ini r h
    · intro r c h; rw [hp] at h; rw [hi]; exact hI.inr r c h
    · intro h; rw [hc, hi]; exact hI.rest fun u => by rw [← hp]; exact h u
  | start u h0 h1 hv hc hi hl =>
    have ho : ∀ v, v ≠ u → cell (s'.thr v).pc = .out := fun v h => hb.out (by rw [h1]; rintro ⟨⟩) h
    have hs : ∀ v, cell (s.thr v).pc = .out := fun v => by
      by_cases e : v = u
      · rw [e, h0]
      · rw [← hv v e, ho v e]
    refine ⟨d, Serial.skip hI.log hl, ?_, ?_, ?_, ?_, ?_, ?_⟩
    · intro r h; have := hI.busy r h; rw [hs] at this; cases this
    · intro r h
      by_cases e : r = u
      · rw [e, h1] at h; cases h
      · rw [ho r e] at h; cases h
    · intro r c h
      by_cases e : r = u
      · rw [e, h1] at h; cases h
      · rw [ho r e] at h; cases h
    · intro r h; exact hi
    · intro r c h
      by_cases e : r = u
      · rw [e, h1] at h; cases h
      · rw [ho r e] at h; cases h
    · intro h; have := h u; rw [h1] at this; cases this
  | initRet u c e h0 h1 hv hc hi hl =>
    have ho : ∀ v, v ≠ u → cell (s'.thr v).pc = .out := fun v h => hb.out (by rw [h1]; rintro ⟨⟩) h
    have hz := hI.ini u h0
    have hbz : d.busy = none := by
      cases hbb : d.busy with
      | none => rfl
      | some r =>
        have := hI.busy r hbb
        by_cases e : r = u
        · rw [e, h0] at this; cases this
        · rw [← hv r e, ho r e] at this; cases this
    refine ⟨⟨none, c, c, 0⟩, ?_, ?_, ?_, ?_, ?_, ?_, ?_⟩
    · rw [hl]; exact ⟨d, hI.log, hbz, rfl⟩
    · intro r h; cases h
    · intro r h
      by_cases e : r = u
      · rw [e, h1] at h; cases h
      · rw [ho r e] at h; cases h
    · intro r c h
      by_cases e : r = u
      · rw [e, h1] at h; cases h
      · rw [ho r e] at h; cases h
    · intro r h; rw [hi]; exact hz
    · intro r c' h
      by_cases e : r = u
      · rw [e, h1] at h; cases h; exact ⟨rfl, rfl, by rw [hi]; exact hz⟩
      · rw [ho r e] at h; cases h
    · intro h; have := h u; rw [h1] at this; cases this
  | initSave u c h0 h1 hv hc hi hl =>
    have ho : ∀ v, cell (s'.thr v).pc = .out := fun v => by
      by_cases e : v = u
      · rw [e, h1]
      · rw [hv v e]; exact ha.out (by rw [h0]; rintro ⟨⟩) e
    obtain ⟨a1, a2, a3⟩ := hI.inr u c h0
    refine ⟨d, by rw [hl]; exact hI.log, ?_, ?_, ?_, ?_, ?_, ?_⟩
    · intro r h
      have := hI.busy r h
      by_cases e : r = u
      · rw [e, h0] at this; cases this
      · rw [← hv r e, ho r] at this; cases this
    · intro r h; rw [ho] at h; cases h
    · intro r c h; rw [ho] at h; cases h
    · intro r h; rw [ho] at h; cases h
    · intro r c h; rw [ho] at h; cases h
    · intro _; rw [hc, hi, a1, a2, a3]; exact ⟨rfl, rfl⟩
  | iterCall u st h0 h1 hv hc hi hl =>
    have ho : ∀ v, v ≠ u → cell (s'.thr v).pc = .out := fun v h => hb.out (by rw [h1]; rintro ⟨⟩) h
    have hs : ∀ v, cell (s.thr v).pc = .out := fun v => by
      by_cases e : v = u
      · rw [e, h0]
      · rw [← hv v e, ho v e]
    obtain ⟨a1, a2⟩ := hI.rest hs
    have hbz : d.busy = none := by
      cases hbb : d.busy with
      | none => rfl
      | some r => have := hI.busy r hbb; rw [hs] at this; cases this
    refine ⟨{ d with busy := some u }, ?_, ?_, ?_, ?_, ?_, ?_, ?_⟩
    · rw [hl]; exact ⟨d, hI.log, hbz, a1.symm, rfl⟩
    · intro r h; cases h; exact h1
    · intro r h
      by_cases e : r = u
      · rw [hc, hi, e]; exact ⟨rfl, a1, a2⟩
      · rw [ho r e] at h; cases h
    · intro r c h
      by_cases e : r = u
      · rw [e, h1] at h; cases h
      · rw [ho r e] at h; cases h
    · intro r h
      by_cases e : r = u
      · rw [e, h1] at h; cases h
      · rw [ho r e] at h; cases h
    · intro r c h
      by_cases e : r = u
      · rw [e, h1] at h; cases h
      · rw [ho r e] at h; cases h
    · intro h; have := h u; rw [h1] at this; cases this
  | iterOk u c h0 h1 hv hc hi hl =>
    have ho : ∀ v, v ≠ u → cell (s'.thr v).pc = .out := fun v h => hb.out (by rw [h1]; rintro ⟨⟩) h
    obtain ⟨a1, a2, a3⟩ := hI.run u h0
    refine ⟨{ d with busy := none, cur := some c, count := d.count + 1 }, ?_, ?_, ?_, ?_, ?_, ?_, ?_⟩
    · rw [hl]; exact ⟨d, hI.log, a1, rfl⟩
    · intro r h; cases h
    · intro r h
      by_cases e : r = u
      · rw [e, h1] at h; cases h
      · rw [ho r e] at h; cases h
    · intro r c' h
      by_cases e : r = u
      · rw [e, h1] at h; cases h; exact ⟨rfl, by rw [hi, ← a3]⟩
      · rw [ho r e] at h; cases h
    · intro r h
      by_cases e : r = u
      · rw [e, h1] at h; cases h
      · rw [ho r e] at h; cases h
    · intro r c h
      by_cases e : r = u
      · rw [e, h1] at h; cases h
      · rw [ho r e] at h; cases h
    · intro h; have := h u; rw [h1] at this; cases this
  | iterEnd u e he h0 h1 hv hc hi hl =>
    have ho : ∀ v, cell (s'.thr v).pc = .out := fun v => by
      by_cases e : v = u
      · rw [e, h1]
      · rw [hv v e]; exact ha.out (by rw [h0]; rintro ⟨⟩) e
    obtain ⟨a1, a2, a3⟩ := hI.run u h0
    refine ⟨{ d with busy := none }, ?_, ?_, ?_, ?_, ?_, ?_, ?_⟩
    · rw [hl]
      rcases he with rfl | ⟨x, rfl⟩ | ⟨x, rfl⟩ <;> exact ⟨d, hI.log, a1, rfl⟩
    · intro r h; cases h
    · intro r h; rw [ho] at h; cases h
    · intro r c h; rw [ho] at h; cases h
    · intro r h; rw [ho] at h; cases h
    · intro r c h; rw [ho] at h; cases h
    · intro _; rw [hc, hi]; exact ⟨a2, a3⟩
  | save u c h0 h1 hv hc hi hl =>
    have ho : ∀ v, cell (s'.thr v).pc = .out := fun v => by
      by_cases e : v = u
      · rw [e, h1]
      · rw [hv v e]; exact ha.out (by rw [h0]; rintro ⟨⟩) e
    obtain ⟨a1, a2⟩ := hI.sav u c h0
    refine ⟨d, ?_, ?_, ?_, ?_, ?_, ?_, ?_⟩
    · rw [hl]; exact ⟨d, hI.log, rfl⟩
    · intro r h
      have := hI.busy r h
      by_cases e : r = u
      · rw [e, h0] at this; cases this
      · rw [← hv r e, ho r] at this; cases this
    · intro r h; rw [ho] at h; cases h
    · intro r c h; rw [ho] at h; cases h
    · intro r h; rw [ho] at h; cases h
    · intro r c h; rw [ho] at h; cases h
    · intro _; rw [hc, hi]; exact ⟨a1, a2⟩

theorem Alone.new : Alone (new : Algo C) := fun _ _ h => by cases h

theorem Solo.alone (h : Solo conf s) : Alone s := by
  cases h with
  | new => exact Alone.new
  | next a _ _ hb => exact hb

theorem Solo.reachable (h : Solo conf s) : Reachable conf s := by
  induction h with
  | new => exact ⟨[], rfl⟩
  | next a _ hn _ ih => exact ih.next hn

theorem Solo.serInv (h : Solo conf s) : ∃ d, SerInv s d := by
  induction h with
  | new =>
    refine ⟨⟨none, none, none, 0⟩, rfl, ?_, ?_, ?_, ?_, ?_, ?_⟩
    · intro r h; cases h
    · intro r h; cases h
    · intro r c h; cases h
    · intro r h; cases h
    · intro r c h; cases h
    · intro _; exact ⟨rfl, rfl⟩
  | next a h hn hb ih =>
    obtain ⟨d, hd⟩ := ih
    exact hd.step h.alone hb ((Step.of_next hn).cell h.reachable.lock (created_iterations h.reachable))

/-! ## One client -/

theorem UseInv.alone {fol : List (Op × Res C) → Option ClustStatus} (hL : LockInv s) (hI : UseInv fol s) : Alone s := by
  intro i j h1 h2
  obtain ⟨op, d, ph, _, hC, hO⟩ := hI.row
  have key : ∀ i, inside (s.thr i).pc = true →
      (i = 0 ∧ runPc s = .dead) ∨ (i = s.n - 1 ∧ runPc s ≠ .dead) := by
    intro i h
    have hi : i < s.n := by
      refine Nat.lt_of_not_le fun hn => ?_
      rw [hL.unborn i hn] at h; cases h
    rcases hI.who hi rfl (by intro h'; rw [h'] at h; cases h) with ⟨rfl, _⟩ | ⟨rfl, _, _, hN⟩ | ⟨h1, _, h2, _⟩
    · left
      refine ⟨rfl, ?_⟩
      generalize (s.thr 0).pc = p at hC h
      cases p <;> first | (cases h; done) | exact hC.elim | skip
      all_goals
        first
        | obtain ⟨_, _, rfl⟩ := hC
        | obtain ⟨_, _, _, rfl⟩ := hC
        exact hO.2
    · generalize (s.thr 1).pc = p at hN h
      cases p <;> first | (cases h; done) | exact hN.elim
    · right
      refine ⟨h1, fun hd => ?_⟩
      rw [← h2, hd] at h; cases h
  rcases key i h1 with ⟨rfl, a⟩ | ⟨rfl, a⟩ <;> rcases key j h2 with ⟨rfl, b⟩ | ⟨rfl, b⟩
  · rfl
  · exact absurd a b
  · exact absurd b a
  · rfl

/-- After the limit nobody uses the implementation. -/
theorem EndInv.outside (hL : LockInv s) (hI : EndInv conf s) (i : Nat) : inside (s.thr i).pc = false := by
  cases h1 : inside (s.thr i).pc with
  | false => rfl
  | true =>
    exfalso
    have hi : i < s.n := by
      refine Nat.lt_of_not_le fun hn => ?_
      rw [hL.unborn i hn] at h1; cases h1
    obtain ⟨op, v, _, hC, hO⟩ := hI.row
    rcases hI.who hi rfl (by intro h'; rw [h'] at h1; cases h1) with ⟨rfl, _⟩ | ⟨rfl, _, hN⟩ | ⟨rfl, _⟩
    · generalize (s.thr 0).pc = p at hC h1
      cases p <;> first | (cases h1; done) | exact hC.elim
    · generalize (s.thr 1).pc = p at hN h1
      cases p <;> first | (cases h1; done) | exact hN.elim
    · generalize (s.thr (s.n - 1)).pc = p at hO h1
      cases p <;> first | (cases h1; done) | exact hO.elim

theorem RunsInv.alone (hI : RunsInv conf s) : Alone s := by
  rcases hI.phase with h | h
  · exact h.use.alone hI.ack.lock
  · intro i j h1; rw [h.outside hI.ack.lock] at h1; cases h1

/-- Once the client has waited for the last run, it is over. -/
theorem PreInv.waited (h : PreInv conf s) (hP : Rebatching s.log) (hs : harmless (session s.log).1 = true)
    (hv : followsL (session s.log).2 ≠ some .running) : inside (s.thr 0).pc = false ∧ runPc s = .dead := by
  have hlast := h.last
  obtain ⟨op, d, ph, ⟨h1, h2⟩, hC, hO⟩ := h.use.row
  have hd : d ≠ .running := fun h => hv (h ▸ h2)
  have hidle : d ≠ .idle := fun h => (rebatching_calm hP).2 (h ▸ h2)
  have hop : harmless op = true := h1 ▸ hs
  have hk : ∀ k, sendOk op d k → False := by
    intro k hk
    cases k
    · exact hidle hk.2
    · rw [hk.1] at hop; cases hop
    · exact hd hk.2
    · exact hd hk.2
  have hx : inside (s.thr 0).pc = false ∧ (ph = .quiet d ∨ ∃ v, ph = .alone v) := by
    generalize (s.thr 0).pc = p at hC
    cases p <;> simp only [ClientOk] at hC
    all_goals first
      | exact ⟨rfl, .inl hC.2⟩
      | exact ⟨rfl, .inl hC.2.2.2⟩
      | exact ⟨rfl, .inr ⟨_, hC.2.2⟩⟩
      | exact ⟨rfl, .inr ⟨_, hC.2.2.2⟩⟩
      | (exfalso; rw [hC.1] at hop; cases hop; done)
      | (exfalso; rw [hC.1] at hop; rename_i k; cases k <;> cases hop; done)
      | (exfalso; rw [hC.2.1] at hop; rename_i k _; cases k <;> cases hop; done)
      | (exfalso; rw [hC.2.1] at hop; rename_i k _ _; cases k <;> cases hop; done)
      | exact absurd hC.2.2.2.1 hd
      | exact absurd hC.2.1 hd
      | exact (hk _ hC.1).elim
      | (exfalso
         rcases hC with hC | hC
         · rw [hC.2.1] at hop; rename_i k _; cases k <;> cases hop
         · rw [hC.2.2.1] at hop; cases hop)
  have hr : runPc s = .dead := by
    rcases hx.2 with rfl | ⟨v, rfl⟩
    · obtain ⟨_, hO⟩ := hO
      cases d <;> simp only [Quiet] at hO
      case finished => exact hO.resolve_right hlast
      case running => exact absurd rfl hd
      case idle => exact absurd rfl hidle
      all_goals exact hO
    · exact hO.2
  exact ⟨hx.1, hr⟩

/-- Once the client has waited for the last run, it is over and has reached its limit. -/
theorem RunsInv.ended (hI : RunsInv conf s) (hP : Rebatching s.log) (hs : settled s.log = true)
    (hv : followsL (session s.log).2 ≠ some .running) :
    limit conf s ≤ s.iterations ∧ ∀ t, inside (s.thr t).pc = false := by
  simp only [settled, Bool.and_eq_true] at hs
  rcases hI.phase with h | h
  · obtain ⟨hx, hr⟩ := h.waited hP hs.2 hv
    refine ⟨(h.rest hs.1 hs.2).resolve_left (fun h => h hr), fun t => ?_⟩
    cases ht : inside (s.thr t).pc with
    | false => rfl
    | true =>
      have hne : (s.thr t).pc ≠ .dead := by intro h'; rw [h'] at ht; cases ht
      rcases h.use.who (hI.ack.lock.lt hne) rfl hne with ⟨rfl, _⟩ | ⟨rfl, _, _, hN⟩ | ⟨_, _, h3, _⟩
      · rw [hx] at ht; cases ht
      · generalize (s.thr 1).pc = p at hN ht
        cases p <;> first | (cases ht; done) | exact hN.elim
      · exact absurd (h3.symm.trans hr) hne
  · exact ⟨h.done, h.outside hI.ack.lock⟩

theorem batching_settled : ∀ {l : List (Event C)}, Batching l → played (session l).2 = true → settled l = true := by
  have h1 : ∀ {l : List (Event C)}, Batching l → played (session l).2 = true → harmless (session l).1 = true := by
    intro l hP hp
    cases ho : (session l).1 with
    | none => rfl
    | some op =>
      rcases (batching_allowed hP ho).1 with h | h | rfl | ⟨rfl, _⟩
      · rw [hp] at h; cases h
      · cases op <;> first | (cases h; done) | rfl
      · rfl
      · rfl
  intro l
  induction l with
  | nil => intro _ h; cases h
  | cons e l ih =>
    intro hP hp
    have h2 : playedLast (session (e :: l)).2 = true := by
      have old : played (session l).2 = true → playedLast (session l).2 = true := by
        intro h
        have := ih hP.2 h
        simp only [settled, Bool.and_eq_true] at this
        exact this.1
      by_cases hq : quietEv e = true
      · rw [session_quiet hq] at hp ⊢; exact old hp
      · cases e <;> first | exact absurd rfl hq | skip
        case call t op => cases t <;> exact old hp
        case ret t r =>
          cases t with
          | succ t => exact old hp
          | zero =>
            cases ho : (session l).1 with
            | none => simp only [session, ho] at hp ⊢; exact old hp
            | some op =>
              have hh := h1 hP.2
              simp only [session, ho, played, List.any_cons, Bool.or_eq_true, decide_eq_true_eq, playedLast] at hp hh ⊢
              split
              · rename_i hc
                rw [decide_eq_true_eq]
                rcases hp with hp | hp
                · exact hp
                · have := hh hp
                  simp only [harmless, hc] at this; cases this
              · rename_i hc
                rcases hp with rfl | hp
                · exact absurd rfl hc
                · exact old hp
    simp only [settled, Bool.and_eq_true]
    exact ⟨h2, h1 hP hp⟩

/-- Once the client has waited for its only run, it is over. -/
theorem BatchInv.ended (hI : BatchInv conf s) (hP : Batching s.log)
    (hp : played (session s.log).2 = true) (hv : followsL (session s.log).2 ≠ some .running) :
    EndInv conf s := by
  rcases hI.phase with h | h
  · have := batching_settled hP hp
    simp only [settled, Bool.and_eq_true] at this
    exact absurd (h.waited hI.reb this.2 hv).2 (h.ran hp)
  · exact h

theorem Solo.start : Solo conf ((Algo.new : Algo C).spawn .client .home) := by
  refine .next .client .new rfl (fun i j h => ?_)
  rw [spawn_pc] at h
  split at h <;> cases h

theorem exec_soloL (hc : Limited conf) : ∀ (as : List (Act C)) (s : Algo C), .client ∉ as →
    (Rebatching s.log → RunsInv conf s ∧ Solo conf s) → exec conf s as = some s' →
    Rebatching s'.log → RunsInv conf s' ∧ Solo conf s' := by
  intro as
  induction as with
  | nil => intro s _ hI he; cases he; exact hI
  | cons a as ih =>
    intro s hn hI he
    cases a with
    | client => exact absurd List.mem_cons_self hn
    | act t c =>
      simp only [exec, next] at he
      cases hs : s.step conf t c with
      | none => rw [hs] at he; cases he
      | some s1 =>
        rw [hs] at he
        refine ih s1 (fun h => hn (List.mem_cons_of_mem _ h)) (fun hP => ?_) he
        obtain ⟨h1, h2⟩ := hI (rebatching_tail (Step.of_step hs) hP)
        have h3 := h1.step hc hs hP
        exact ⟨h3, .next (.act t c) h2 hs h3.alone⟩

theorem exec_soloE (hc : Endless conf) : ∀ (as : List (Act C)) (s : Algo C), .client ∉ as →
    (Peaceful s.log → AckInv s ∧ UseInv follows s ∧ Solo conf s) → exec conf s as = some s' →
    Peaceful s'.log → AckInv s' ∧ UseInv follows s' ∧ Solo conf s' := by
  intro as
  induction as with
  | nil => intro s _ hI he; cases he; exact hI
  | cons a as ih =>
    intro s hn hI he
    cases a with
    | client => exact absurd List.mem_cons_self hn
    | act t c =>
      simp only [exec, next] at he
      cases hs : s.step conf t c with
      | none => rw [hs] at he; cases he
      | some s1 =>
        rw [hs] at he
        refine ih s1 (fun h => hn (List.mem_cons_of_mem _ h)) (fun hP => ?_) he
        have hst := Step.of_step hs
        obtain ⟨h1, h2, h3⟩ := hI (Peaceful_tail hst hP)
        have h4 := h1.step hst
        have h5 := h2.step hc.2.2 .follows h1 hst (step_noClient hs) (peaceful_mild hP) (noEnd hc)
        exact ⟨h4, h5, .next (.act t c) h3 hs (h5.alone h4.lock)⟩

theorem OneClient.soloL (hc : Limited conf) (h : OneClient conf s) (hP : Rebatching s.log) : Solo conf s := by
  obtain ⟨as, hn, he⟩ := h
  exact (exec_soloL hc as _ hn (fun _ => ⟨.start, .start⟩) he hP).2

theorem OneClient.soloE (hc : Endless conf) (h : OneClient conf s) (hP : Peaceful s.log) : Solo conf s := by
  obtain ⟨as, hn, he⟩ := h
  exact (exec_soloE hc as _ hn
    (fun _ => ⟨Reachable.ack (conf := conf) ⟨[.client], rfl⟩, UseInv.start rfl, .start⟩) he hP).2.2

/-! ## What is computed -/

theorem Serial.desk : ∀ {l : List (Event C)} {d : Desk C}, Serial l d →
    d.base = initial l ∧ d.count = doneSince l := by
  intro l
  induction l with
  | nil => intro d h; cases h; exact ⟨rfl, rfl⟩
  | cons e l ih =>
    intro d' h
    obtain ⟨d, hs, hn⟩ := h
    obtain ⟨i1, i2⟩ := ih hs
    cases e
    case initRet c e => obtain ⟨_, rfl⟩ := hn; exact ⟨rfl, rfl⟩
    case iterCall r st c => obtain ⟨_, rfl, rfl⟩ := hn; exact ⟨i1, i2⟩
    case iterOk r c => obtain ⟨hb, rfl⟩ := hn; exact ⟨i1, congrArg (· + 1) i2⟩
    case iterNil r => obtain ⟨_, rfl⟩ := hn; exact ⟨i1, i2⟩
    case iterErr r e => obtain ⟨_, rfl⟩ := hn; exact ⟨i1, i2⟩
    case iterPanic r e => obtain ⟨_, rfl⟩ := hn; exact ⟨i1, i2⟩
    all_goals
      cases hn
      exact ⟨i1, i2⟩

theorem Serial.computed {f : Nat → C → Option C} : ∀ {l : List (Event C)} {d : Desk C}, Serial l d →
    Computes f l →
    d.cur = d.base.bind (times f d.count) ∧ ∀ r, d.busy = some r → given r l = some d.cur := by
  intro l
  induction l with
  | nil => intro d h _; cases h; exact ⟨rfl, fun r h => by cases h⟩
  | cons e l ih =>
    intro d' h hC
    obtain ⟨d, hs, hn⟩ := h
    have hC' : Computes f l := by cases e <;> first | exact hC | exact hC.2
    obtain ⟨i1, i2⟩ := ih hs hC'
    cases e
    case initRet c e =>
      obtain ⟨_, rfl⟩ := hn
      exact ⟨by cases c <;> rfl, fun r h => by cases h⟩
    case iterCall r st c =>
      obtain ⟨_, rfl, rfl⟩ := hn
      exact ⟨i1, fun r h => by cases h; simp [given]⟩
    case iterOk r c =>
      obtain ⟨hb, rfl⟩ := hn
      refine ⟨?_, fun r h => by cases h⟩
      obtain ⟨⟨c0, h1, h2⟩, _⟩ := hC
      have := i2 r hb
      rw [h1, Option.some.injEq] at this
      rw [← (Serial.desk hs).2] at h2
      show some c = d.base.bind fun b => (times f d.count b).bind (f d.count)
      rw [← Option.bind_assoc, ← i1, ← this, Option.bind_some, h2]
    case iterNil r => obtain ⟨_, rfl⟩ := hn; exact ⟨i1, fun r h => by cases h⟩
    case iterErr r e => obtain ⟨_, rfl⟩ := hn; exact ⟨i1, fun r h => by cases h⟩
    case iterPanic r e => obtain ⟨_, rfl⟩ := hn; exact ⟨i1, fun r h => by cases h⟩
    all_goals
      cases hn
      exact ⟨i1, i2⟩

/-! ## Earlier moments -/

theorem OneClient.act {c : Choice C} (h : OneClient conf s) (hs : s.step conf t c = some s') :
    OneClient conf s' := by
  obtain ⟨as, hn, he⟩ := h
  refine ⟨as ++ [.act t c], fun hm => ?_, ?_⟩
  · rcases List.mem_append.1 hm with h | h
    · exact hn h
    · cases h with | tail _ h => cases h
  · rw [← List.cons_append, exec_append, he]
    simp only [Option.bind_some, exec, next, hs]

/-- The event `e`, with the record `l` before it, was recorded by an action. -/
def Happened (conf : Conf) (e : Event C) (l : List (Event C)) : Prop :=
  ∃ s0 s1 : Algo C, OneClient conf s0 ∧ s0.log = l ∧ Step conf s0 s1 ∧ s1.log = e :: l

theorem exec_past : ∀ (as : List (Act C)) (s : Algo C), .client ∉ as → OneClient conf s →
    (∀ l1 e l2, s.log = l1 ++ e :: l2 → Happened conf e l2) → exec conf s as = some s' →
    ∀ l1 e l2, s'.log = l1 ++ e :: l2 → Happened conf e l2 := by
  intro as
  induction as with
  | nil => intro s _ _ hI he; cases he; exact hI
  | cons a as ih =>
    intro s hn hO hI he
    cases a with
    | client => exact absurd List.mem_cons_self hn
    | act t c =>
      simp only [exec, next] at he
      cases hs : s.step conf t c with
      | none => rw [hs] at he; cases he
      | some s1 =>
        rw [hs] at he
        refine ih s1 (fun h => hn (List.mem_cons_of_mem _ h)) (OneClient.act hO hs) ?_ he
        intro l1 e l2 hl
        have hst := Step.of_step hs
        rcases hst.log with ⟨h1, _⟩ | ⟨e', h1, _⟩
        · exact hI l1 e l2 (h1 ▸ hl)
        · cases l1 with
          | nil =>
            rw [h1] at hl
            cases hl
            exact ⟨s, s1, hO, rfl, hst, h1⟩
          | cons x l1 =>
            rw [h1] at hl
            simp only [List.cons_append, List.cons.injEq] at hl
            exact hI l1 e l2 hl.2

/-- Every recorded event was recorded by an action of the execution. -/
theorem OneClient.past (h : OneClient conf s) {l1 l2 : List (Event C)} {e : Event C}
    (hl : s.log = l1 ++ e :: l2) : Happened conf e l2 := by
  obtain ⟨as, hn, he⟩ := h
  refine exec_past as _ hn ⟨[], (fun h => by cases h), rfl⟩ ?_ he l1 e l2 hl
  intro l1 e l2 h
  cases l1 <;> cases h

theorem rebatching_drop : ∀ {l1 l2 : List (Event C)}, Rebatching (l1 ++ l2) → Rebatching l2 := by
  intro l1
  induction l1 with
  | nil => intro l2 h; exact h
  | cons e l ih => intro l2 h; exact ih h.2

theorem batching_drop : ∀ {l1 l2 : List (Event C)}, Batching (l1 ++ l2) → Batching l2 := by
  intro l1
  induction l1 with
  | nil => intro l2 h; exact h
  | cons e l ih => intro l2 h; exact ih h.2

theorem computes_drop {f : Nat → C → Option C} : ∀ {l1 l2 : List (Event C)}, Computes f (l1 ++ l2) →
    Computes f l2 := by
  intro l1
  induction l1 with
  | nil => intro l2 h; exact h
  | cons e l ih => intro l2 h; exact ih (by cases e <;> first | exact h | exact h.2)

end
end Algo
end Distclus
