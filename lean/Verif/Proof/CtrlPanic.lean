import Verif.Model.CtrlPanic
import Verif.Proof.CtrlBlock
import Verif.Proof.CtrlSource
/-!
# After a panic of the implementation during `Init`
-/
namespace Distclus
open Ctrl Spec

variable {C : Type} {conf : Conf} {s s1 s' : Algo C}

namespace Algo

theorem initPanic_elim {t : Nat} (h : s.initPanic t = some s1) : ∃ k, (s.thr t).pc = .in5 k ∧
    s1 = { s with
      sm := match k with
        | .init => none
        | .play => s.sm
      mr := if (s.thr t).inPush then s.mr.erase t else s.mr
      thr := fun j => if j = t then { s.thr t with pc := .home, inPush := false } else s.thr j } := by
  unfold initPanic at h
  split at h
  · rename_i k hk; exact ⟨k, hk, (Option.some.inj h).symm⟩
  · cases h

theorem initPanic_lock (hL : LockInv s) {t : Nat} (h : s.initPanic t = some s1) : LockInv s1 := by
  obtain ⟨k, hk, rfl⟩ := initPanic_elim h
  have hsm : s.sm = some t := hL.hS t (by rw [hk]; rfl)
  refine hL.move (t := t) (p := .in5 k) (p' := .home) ⟨hk, by simp, hL.lt (by rw [hk]; rintro ⟨⟩),
    fun j hj => by simp [hj], rfl, ?_, .inl ⟨rfl, rfl⟩, ?_, by simp, by rintro ⟨⟩⟩
  · cases k
    · exact .inr (.inr ⟨rfl, rfl, rfl⟩)
    · exact .inl ⟨rfl, fun h => by cases h⟩
  · by_cases hi : (s.thr t).inPush
    · exact .inr (.inr ⟨by simp [hi], hi, by simp⟩)
    · exact .inl ⟨by simp [hi], by simp [hi]⟩

/-- Where goroutines are after a panic in the first initialisation. -/
def halted : PC C → Bool
  | .in1 _ | .in2 _ | .in3 _ | .in4 _ | .in5 _ | .in6 _ _ _ | .in7 _ _ _ => false
  | .in10 .init e => e == some .alreadyCreated
  | p => early p

theorem halted_early {p : PC C} (h : halted p = true) : early p = true := by
  cases p <;> first | rfl | exact h | (rename_i k e; cases k <;> first | rfl | cases h)

theorem halted_entry (op : Op) : halted (entry op : PC C) = true := by cases op <;> rfl

theorem halted_back (s : Algo C) (u : Nat) : halted (back s u) = true := by
  simp only [back]; split <;> rfl

/-- What a panic in the first initialisation leaves, for ever. -/
structure Halted (s : Algo C) : Prop where
  lock : LockInv s
  pc : ∀ t, halted (s.thr t).pc = true
  st : s.status = .new .initializing

theorem halted_edge {u : Nat} {p q : PC C} (hH : Halted s) (hp : halted p = true)
    (h : Edge conf s u p q) : halted q = true := by
  have hv : s.status.value = .initializing := by rw [hH.st]; rfl
  cases h
  case bornRun hu t h => have := hH.pc t; rw [h] at this; cases this
  case bornTimer hu t h => have := hH.pc t; rw [h] at this; cases this
  case call op hk => exact halted_entry op
  case pu5 hm => exact (by split <;> rfl)
  case in0 hs => rw [hv]; rfl
  case pl0Init hs hw => rw [hv] at hw; rcases hw with hw | hw <;> cases hw
  case pl0Idle hs hw => rw [hv] at hw; cases hw
  case pl0Ready hs hw => rw [hv] at hw; cases hw
  case pa0 hs hw => rw [hv] at hw; cases hw
  case it0Ready e hs hw => rw [hv] at hw; cases hw
  case it0 e hs hw => rw [hv] at hw; rcases hw with hw | hw <;> cases hw
  case wa0Running c d hs hw => rw [hv] at hw; cases hw
  case nl1 st hm => exact (by split <;> rfl)
  all_goals first
    | rfl
    | exact halted_back s u
    | (cases hp)

/-- The events which are not recorded after such a panic. -/
def quiet : Event C → Bool
  | .call .. | .ret .. | .notified _ | .implPushed | .pushed | .counted _ => true
  | _ => false

theorem Halted.step (hH : Halted s) (hs : Step conf s s') :
    Halted s' ∧ (s'.log = s.log ∨ ∃ e, s'.log = e :: s.log ∧ quiet e = true) := by
  have hno : ∀ {t : Nat} {p : PC C}, (s.thr t).pc = p → halted p = true := fun h => h ▸ hH.pc _
  have hv : s.status.value = .initializing := by rw [hH.st]; rfl
  have hq : ∀ e, EvFact s s' e → quiet e = true := by
    intro e hf
    cases e <;> try rfl
    case set st =>
      obtain ⟨-, hf⟩ := hf
      rcases hf with ⟨t, k, hp, rfl⟩ | ⟨t, k, hp, -⟩ | ⟨t, k, e, hp, -⟩ | ⟨-, hr, -⟩ | ⟨-, t, hp | hp⟩ |
        ⟨-, t, hp, -⟩ | ⟨-, t, e, hp | hp, -⟩ | ⟨t, j, k, hp, -⟩
      case inr.inr.inr.inl => rw [hv] at hr; cases hr
      all_goals cases hno hp
    case initRet => obtain ⟨t, k, hp, -⟩ := hf; cases hno hp
    case iterCall => cases hno hf.1
    case iterNil => cases hno hf
    case iterOk => cases hno hf.1
    case iterErr => cases hno hf.1
    case iterPanic => cases hno hf.1
    case saved => obtain ⟨t, hp⟩ := hf; cases hno hp
    case reset => obtain ⟨t, k, hp⟩ := hf; cases hno hp
    case runStart => obtain ⟨t, hp, -⟩ := hf; cases hno hp
    case runEnd => cases hno hf
    case closed => obtain ⟨t, hp, -⟩ := hf; cases hno hp
    case disabled => obtain ⟨⟨t, hp, -⟩, -⟩ := hf; cases hno hp
    case fired => cases hno hf.1
  refine ⟨⟨hH.lock.step hs, fun u => ?_, ?_⟩, ?_⟩
  · rcases hs.edge hH.lock u with h | h
    · dsimp only at h; rw [h]; exact hH.pc u
    · exact halted_edge hH (hH.pc u) h
  · rcases hs.log with ⟨-, h⟩ | ⟨e, -, hst, hf⟩
    · rw [h, hH.st]
    · have := hq e hf
      rw [hst (by cases e <;> first | rfl | cases this), hH.st]
  · rcases hs.log with ⟨h, -⟩ | ⟨e, hl, -, hf⟩
    · exact .inl h
    · exact .inr ⟨e, hl, hq e hf⟩

/-- The events recorded during a continuation. -/
theorem Halted.exec {as : List (Act C)} (hH : Halted s) (hx : Algo.exec conf s as = some s') :
    Halted s' ∧ ∃ l, s'.log = l ++ s.log ∧ ∀ e ∈ l, quiet e = true := by
  refine exec_induction (conf := conf)
    (P := fun x => Halted x ∧ ∃ l, x.log = l ++ s.log ∧ ∀ e ∈ l, quiet e = true)
    (fun a b ⟨h, l, hl, hq⟩ hs => ?_) as s s' ⟨hH, [], rfl, by simp⟩ hx
  obtain ⟨h', hl'⟩ := h.step hs
  refine ⟨h', ?_⟩
  rcases hl' with e | ⟨e, hl', he⟩
  · exact ⟨l, e.trans hl, hq⟩
  · exact ⟨e :: l, by rw [hl', hl]; rfl, by simpa [he] using hq⟩

theorem Lost.blocked {t u : Nat} {op : Op} (h : Lost t s) (hop : statusOp op = true)
    (hu : (s.thr u).pc = entry op) :
    (∀ c, s.next conf (.act u c) = none) ∧ NeverReturns conf s u := by
  refine ⟨fun c => ?_, h.never (by rw [hu]; exact needsS_entry hop)⟩
  have hu' : u < s.n := h.lock.lt (by rw [hu]; cases op <;> rintro ⟨⟩)
  have hs' : ¬ s.sm = none := by rw [h.sm]; rintro ⟨⟩
  cases op <;> simp only [statusOp, reduceCtorEq] at hop <;> cases c <;>
    simp only [next, Algo.step, hu', if_true, hu, entry, stepRead, stepInit, stepPlay, stepPause,
      stepInterrupt, stepWait, hs', if_false]

theorem no_init_step (hL : LockInv s) (h0 : s.status.value = .created → s.iterations = 0) (hS : SrcInv s)
    (hE : Filled s.log → EarlyInv s) (hs : Step conf s s') (hI : (∀ c e, .initRet c e ∉ s.log) → s.centroids = none)
    (hn : ∀ c e, .initRet c e ∉ s'.log) : s'.centroids = none := by
  have hn0 : ∀ c e, .initRet c e ∉ s.log := fun c e hm => by
    rcases hs.log with ⟨h, _⟩ | ⟨x, h, _⟩
    · exact hn c e (h ▸ hm)
    · exact hn c e (h ▸ List.mem_cons_of_mem _ hm)
  have hc := hI hn0
  cases hs.cell hL h0 with
  | initSave u c g0 => obtain ⟨e, he⟩ := hS.inr u c g0; exact absurd he (hn0 c e)
  | save u c g0 =>
    have := (hE (fun e => hn0 _ e) hc).1 u
    generalize (s.thr u).pc = p at g0 this
    cases p <;> first | (cases this; done) | cases g0
  | still g => rw [g, hc]
  | start _ _ _ _ g => rw [g, hc]
  | initRet _ _ _ _ _ _ g => rw [g, hc]
  | iterCall _ _ _ _ _ g => rw [g, hc]
  | iterOk _ _ _ _ _ g => rw [g, hc]
  | iterEnd _ _ _ _ _ _ g => rw [g, hc]

/-- Before the end of the first initialisation there are no centroids. -/
theorem no_init (h : Reachable conf s) (hn : ∀ c e, .initRet c e ∉ s.log) : s.centroids = none := by
  have : ((LockInv s ∧ StInv s ∧ (s.status.value = .created → s.iterations = 0)) ∧ SrcInv s) ∧
      (Filled s.log → EarlyInv s) ∧ ((∀ c e, .initRet c e ∉ s.log) → s.centroids = none) :=
    h.induction (P := fun s => ((LockInv s ∧ StInv s ∧ (s.status.value = .created → s.iterations = 0)) ∧
        SrcInv s) ∧ (Filled s.log → EarlyInv s) ∧ ((∀ c e, .initRet c e ∉ s.log) → s.centroids = none))
      ⟨⟨⟨LockInv.init, StInv.init, fun _ => rfl⟩, SrcInv.init⟩, fun _ => EarlyInv.init, fun _ => rfl⟩
      (fun {s s'} hI hs => ⟨⟨⟨hI.1.1.1.step hs, hI.1.1.2.1.step hI.1.1.1 hs,
        created_step hI.1.1.1 hI.1.1.2.1 hI.1.1.2.2 hs⟩,
        hI.1.2.step hs (hs.cell hI.1.1.1 hI.1.1.2.2)⟩, (fun hF => by
          have hF0 : Filled s.log := by
            rcases hs.log with ⟨e, _⟩ | ⟨e, hl, _⟩
            · rw [e] at hF; exact hF
            · rw [hl] at hF; exact filled_of_cons hF
          exact (hI.2.1 hF0).step hI.1.1.1 hI.1.2 hF0 hs (hs.cell hI.1.1.1 hI.1.1.2.2)),
        no_init_step hI.1.1.1 hI.1.1.2.2 hI.1.2 hI.2.1 hs hI.2.2⟩)
  exact this.2.2 hn

theorem halted_of_panic (h : Reachable conf s) (hf : ∀ c e, .initRet c e ∉ s.log) {t : Nat}
    (hp : (s.thr t).pc = .in5 .init) (hi : s.initPanic t = some s1) : Halted s1 := by
  obtain ⟨he, -, hset, -⟩ := h.early (fun e => hf _ e) (no_init h hf)
  have hst := h.st.2.pc t
  rw [hp] at hst
  have hsm : s.sm = some t := h.lock.hS t (by rw [hp]; rfl)
  refine ⟨initPanic_lock h.lock hi, ?_, ?_⟩
  · obtain ⟨k, hk, rfl⟩ := initPanic_elim hi
    intro j
    dsimp only
    by_cases hj : j = t
    · rw [if_pos hj]; rfl
    · rw [if_neg hj]
      have h1 : holdsS (s.thr j).pc = false := by
        by_contra hc
        have := h.lock.hS j (by simpa using hc)
        rw [hsm] at this; cases this; exact hj rfl
      have h2 := he j
      generalize (s.thr j).pc = p at h1 h2
      cases p <;> first | rfl | (cases h1; done) | exact h2
  · obtain ⟨k, hk, rfl⟩ := initPanic_elim hi
    have hv : s.status.value = .initializing := hst
    have hn := h.st.2.err
    rw [hv] at hn
    have : s.status.error = none := by by_contra hc; cases hn hc
    dsimp only
    generalize s.status = x at hv this
    cases x; cases hv; cases this; rfl

end Algo
end Distclus
