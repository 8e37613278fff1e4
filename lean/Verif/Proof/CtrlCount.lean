import Verif.Proof.CtrlBal
/-!
# The counters of the controller
-/
namespace Distclus
open Ctrl Spec
namespace Algo
variable {C : Type}

/-- The counters are unchanged. -/
structure DataSame (s s' : Algo C) : Prop where
  iterations : s'.iterations = s.iterations
  pushedData : s'.pushedData = s.pushedData
  newData : s'.newData = s.newData
  figIter : s'.figIter = s.figIter
  figPushed : s'.figPushed = s.figPushed

/-- The events which go with a change of the counters. -/
def dataE : Event C → Bool
  | .pushed | .counted _ | .reset | .saved _ => true
  | _ => false

/-- How they change. -/
def DataFact (conf : Conf) (s s' : Algo C) : Event C → Prop
  | .pushed => s'.iterations = s.iterations ∧ s'.pushedData = s.pushedData + 1 ∧
      s'.newData = s.newData ∧ s'.figIter = s.figIter ∧ s'.figPushed = s.figPushed ∧
      ∃ t, t < s.n ∧ (s.thr t).pc = .pu3
  | .counted b => s'.iterations = s.iterations ∧ s'.pushedData = s.pushedData ∧
      b = s.autoPlay conf ∧
      s'.newData = (if b then 0 else s.newData + 1) ∧ s'.figIter = s.iterations ∧
      s'.figPushed = s.pushedData ∧ ∃ t, t < s.n ∧ (s.thr t).pc = .pu4 ∧ (s'.thr t).pc = .pu5 ∧
        ∀ j, j ≠ t → (s'.thr j).pc = (s.thr j).pc
  | .reset => s'.iterations = 0 ∧ s'.pushedData = 0 ∧ s'.newData = s.newData ∧ s'.figIter = 0 ∧
      s'.figPushed = 0 ∧ ∃ t k, t < s.n ∧ (s.thr t).pc = .in2 k
  | .saved c => s'.iterations = s.iterations + 1 ∧ s'.pushedData = s.pushedData ∧
      s'.newData = s.newData ∧ s'.figIter = s.iterations + 1 ∧ s'.figPushed = s.pushedData ∧
      ∃ t, t < s.n ∧ (s.thr t).pc = .rS' c
  | _ => False

/-- How an action changes the counters. -/
def DataStep (conf : Conf) (s s' : Algo C) : Prop :=
  (∃ e, s'.log = e :: s.log ∧ dataE e = true ∧ DataFact conf s s' e) ∨
  ((s'.log = s.log ∨ ∃ e, dataE e = false ∧ s'.log = e :: s.log) ∧ DataSame s s')

theorem DataStep.ret {conf : Conf} {s s1 : Algo C} {t : Nat} {r : Res C} (h1 : s1.log = s.log)
    (h2 : DataSame s s1) : DataStep conf s (s1.ret t r) := by
  refine .inr ⟨?_, ?_⟩
  · by_cases hi : (s1.thr t).inPush
    · exact .inl (by rw [ret_log, if_pos hi, h1])
    · exact .inr ⟨.ret t r, rfl, by rw [ret_log, if_neg hi, h1]⟩
  · exact ⟨by rw [ret_iterations, h2.1], by rw [ret_pushedData, h2.2], by rw [ret_newData, h2.3],
      by rw [ret_figIter, h2.4], by rw [ret_figPushed, h2.5]⟩

theorem DataStep.sent {conf : Conf} {s s1 : Algo C} {t : Nat} {ok : Bool} {k : SendFrom}
    (h1 : s1.log = s.log) (h2 : DataSame s s1) : DataStep conf s (s1.sent t ok k) := by
  cases k
  · exact DataStep.ret h1 h2
  · exact .inr ⟨.inl h1, ⟨h2.1, h2.2, h2.3, h2.4, h2.5⟩⟩
  · exact DataStep.ret h1 h2
  · exact .inr ⟨.inl h1, ⟨h2.1, h2.2, h2.3, h2.4, h2.5⟩⟩

theorem Step.data {conf : Conf} {s s' : Algo C} (h : Step conf s s') : DataStep conf s s' := by
  cases h
  case pu3 t ht hp hr => exact .inl ⟨_, rfl, rfl, rfl, rfl, rfl, rfl, rfl, t, ht, hp⟩
  case pu4 t ht hp hs =>
    exact .inl ⟨_, rfl, rfl, rfl, rfl, rfl, rfl, rfl, rfl, t, ht, hp, by rw [go_pc, if_pos rfl],
      fun j hj => by rw [go_pc, if_neg hj]; rfl⟩
  case in2 t ht k hp hr => exact .inl ⟨_, rfl, rfl, rfl, rfl, rfl, rfl, rfl, t, k, ht, hp⟩
  case rS' t ht c hp hr => exact .inl ⟨_, rfl, rfl, rfl, rfl, rfl, rfl, rfl, t, ht, hp⟩
  all_goals first
    | (with_reducible refine DataStep.ret ?_ ?_) <;> first | rfl | exact ⟨rfl, rfl, rfl, rfl, rfl⟩
    | (with_reducible refine DataStep.sent ?_ ?_) <;> first | rfl | exact ⟨rfl, rfl, rfl, rfl, rfl⟩
    | exact .inr ⟨.inl rfl, ⟨rfl, rfl, rfl, rfl, rfl⟩⟩
    | exact .inr ⟨.inr ⟨_, rfl, rfl⟩, ⟨rfl, rfl, rfl, rfl, rfl⟩⟩

/-- Goroutines between counting a push and updating the figures. -/
def fPu4 : PC C → Nat
  | .pu4 => 1
  | _ => 0

/-- Pushes counted, minus updates of the figures by `Push`. -/
def wPu4 : Event C → Int
  | .pushed => 1
  | .counted _ => -1
  | _ => 0

theorem balanced_pu4 : Balanced (fPu4 : PC C → Nat) wPu4 where
  z p h := by cases p <;> first | rfl | cases h
  wz e h := by cases e <;> first | rfl | cases h
  push := rfl
  pu23 := rfl
  pushed := rfl
  counted _ := rfl
  iter _ _ := rfl
  rS _ := rfl
  saved _ := rfl
  set p st h := by
    cases p <;> first | rfl | cases h
  notified _ := rfl

theorem tot_zero {f : PC C → Nat} {s : Algo C} (h : ∀ t, f (s.thr t).pc = 0) : tot f s = 0 := by
  unfold tot
  have : (List.range s.n).map (fun j => f (s.thr j).pc) = (List.range s.n).map (fun _ => 0) :=
    List.map_congr_left (fun j _ => h j)
  rw [this]
  generalize List.range s.n = l
  induction l with
  | nil => rfl
  | cons a l ih => simpa using ih

/-- When another goroutine, or nobody, holds `modelMutex`, no push is between the two. -/
theorem LockInv.noPu4 {s : Algo C} (hL : LockInv s) (h : ∀ t, (s.thr t).pc = .pu4 → s.ma ≠ some t) :
    tot fPu4 s = 0 := by
  refine tot_zero (fun t => ?_)
  by_cases hp : (s.thr t).pc = .pu4
  · exact absurd ((hL.hM t).1 (by rw [hp]; rfl)) (h t hp)
  · generalize (s.thr t).pc = p at hp
    cases p <;> first | rfl | exact absurd rfl hp

/-- The counters agree with the record, whatever the configuration. -/
structure CountCore (s : Algo C) : Prop where
  hist : HistInv s
  bal : Bal fPu4 wPu4 0 s
  it : s.iterations = savedSince s.log
  pd : s.pushedData = pushedSince s.log
  nd : s.newData = countedSince s.log
  fi : s.figIter = s.iterations
  fp : s.figPushed + tot fPu4 s = s.pushedData
  figures : FiguresOk s.log

/-- The counters agree with the record. -/
structure CountInv (conf : Conf) (s : Algo C) : Prop extends CountCore s where
  auto : AutoOk conf.dataPerIter s.log

theorem CountCore.init : CountCore (new : Algo C) :=
  ⟨HistInv.init, rfl, rfl, rfl, rfl, rfl, rfl, trivial⟩

theorem CountInv.init {conf : Conf} : CountInv conf (new : Algo C) :=
  ⟨CountCore.init, trivial⟩

theorem savedSince_cons {e : Event C} {l : List (Event C)} (h : dataE e = false) :
    savedSince (e :: l) = savedSince l := by
  cases e <;> first | rfl | cases h
theorem pushedSince_cons {e : Event C} {l : List (Event C)} (h : dataE e = false) :
    pushedSince (e :: l) = pushedSince l := by
  cases e <;> first | rfl | cases h
theorem countedSince_cons {e : Event C} {l : List (Event C)} (h : dataE e = false) :
    countedSince (e :: l) = countedSince l := by
  cases e <;> first | rfl | cases h
theorem wPu4_cons {e : Event C} (h : dataE e = false) : wPu4 e = 0 := by
  cases e <;> first | rfl | cases h
theorem AutoOk.cons {n : Nat} {e : Event C} {l : List (Event C)} (h : dataE e = false)
    (hl : AutoOk n l) : AutoOk n (e :: l) := by
  cases e <;> first | exact hl | cases h

theorem CountCore.step {conf : Conf} {s s' : Algo C} (hI : CountCore s) (h : Step conf s s') :
    CountCore s' := by
  have hH := hI.hist.step h
  have hB := hI.bal.step balanced_pu4 h
  have hL := hI.hist.lock
  have hb := hI.bal
  unfold Bal at hB hb
  rcases h.data with ⟨e, hl, he, hf⟩ | ⟨hl, hs⟩
  · rw [hl] at hB
    cases e <;> simp only [dataE, reduceCtorEq] at he
    case pushed =>
      obtain ⟨h1, h2, h3, h4, h5, t, ht, hp⟩ := hf
      refine ⟨hH, hI.bal.step balanced_pu4 h, ?_, ?_, ?_, ?_, ?_, ?_⟩
      · rw [h1, hl, hI.it]; rfl
      · rw [h2, hl, hI.pd]; rfl
      · rw [h3, hl, hI.nd]; rfl
      · rw [h4, h1, hI.fi]
      · have := hI.fp
        have : wsum wPu4 (.pushed :: s.log) = 1 + wsum wPu4 s.log := rfl
        omega
      · rw [hl]; exact hI.figures
    case counted b =>
      obtain ⟨h1, h2, h3, h4, h5, h6, t, ht, hp, hp', ho⟩ := hf
      refine ⟨hH, hI.bal.step balanced_pu4 h, ?_, ?_, ?_, ?_, ?_, ?_⟩
      · rw [h1, hl, hI.it]; rfl
      · rw [h2, hl, hI.pd]; rfl
      · rw [h4, hl, hI.nd]; cases b <;> rfl
      · rw [h5, h1]
      · rw [h6, h2, tot_zero (fun j => ?_)]; · rfl
        by_cases hj : j = t
        · rw [hj, hp']; rfl
        · rw [ho j hj]
          by_cases hpj : (s.thr j).pc = .pu4
          · have a := (hL.hM j).1 (by rw [hpj]; rfl)
            have b := (hL.hM t).1 (by rw [hp]; rfl)
            rw [a] at b
            exact absurd (by simpa using b) hj
          · generalize (s.thr j).pc = p at hpj
            cases p <;> first | rfl | exact absurd rfl hpj
      · rw [hl]; exact hI.figures
    case reset =>
      obtain ⟨h1, h2, h3, h4, h5, t, k, ht, hp⟩ := hf
      have h0 : tot fPu4 s = 0 := hL.noPu4 (fun j hj => by
        rw [(hL.hM t).1 (by rw [hp]; rfl)]
        rintro ⟨⟩
        rw [hj] at hp; cases hp)
      have : wsum wPu4 (.reset :: s.log) = 0 + wsum wPu4 s.log := rfl
      refine ⟨hH, hI.bal.step balanced_pu4 h, ?_, ?_, ?_, ?_, ?_, ?_⟩
      · rw [h1, hl]; rfl
      · rw [h2, hl]; rfl
      · rw [h3, hl, hI.nd]; rfl
      · rw [h4, h1]
      · omega
      · rw [hl]; exact hI.figures
    case saved c =>
      obtain ⟨h1, h2, h3, h4, h5, t, ht, hp⟩ := hf
      have h0 : tot fPu4 s = 0 := hL.noPu4 (fun j hj => by
        rw [(hL.hM t).1 (by rw [hp]; rfl)]
        rintro ⟨⟩
        rw [hj] at hp; cases hp)
      have : wsum wPu4 (.saved c :: s.log) = 0 + wsum wPu4 s.log := rfl
      refine ⟨hH, hI.bal.step balanced_pu4 h, ?_, ?_, ?_, ?_, ?_, ?_⟩
      · rw [h1, hl, hI.it]; rfl
      · rw [h2, hl, hI.pd]; rfl
      · rw [h3, hl, hI.nd]; rfl
      · rw [h4, h1]
      · omega
      · rw [hl]; exact hI.figures
  · have hw : wsum wPu4 s'.log = wsum wPu4 s.log := by
      rcases hl with hl | ⟨e, he, hl⟩
      · rw [hl]
      · rw [hl]; simp only [wsum, List.map_cons, List.sum_cons, wPu4_cons he]; omega
    refine ⟨hH, hI.bal.step balanced_pu4 h, ?_, ?_, ?_, ?_, ?_, ?_⟩
    · rw [hs.iterations, hI.it]
      rcases hl with hl | ⟨e, he, hl⟩
      · rw [hl]
      · rw [hl, savedSince_cons he]
    · rw [hs.pushedData, hI.pd]
      rcases hl with hl | ⟨e, he, hl⟩
      · rw [hl]
      · rw [hl, pushedSince_cons he]
    · rw [hs.newData, hI.nd]
      rcases hl with hl | ⟨e, he, hl⟩
      · rw [hl]
      · rw [hl, countedSince_cons he]
    · rw [hs.figIter, hs.iterations, hI.fi]
    · have := hI.fp
      rw [hs.figPushed, hs.pushedData]
      omega
    · rcases h.log with ⟨h1, h2⟩ | ⟨e, h1, h2, h3⟩
      · rw [h1]; exact hI.figures
      · rw [h1]
        cases e <;> first | exact hI.figures | skip
        rename_i t r
        cases r <;> first | exact hI.figures | skip
        obtain ⟨-, rfl, rfl, hm⟩ := h3
        refine ⟨hI.fi.trans hI.it, ?_, hI.figures⟩
        have := hL.noPu4 (fun j _ => by rw [hm]; rintro ⟨⟩)
        have := hI.fp
        have := hI.pd
        omega

theorem CountInv.step {conf : Conf} {s s' : Algo C} (hI : CountInv conf s) (h : Step conf s s') :
    CountInv conf s' := by
  refine ⟨hI.toCountCore.step h, ?_⟩
  rcases h.data with ⟨e, hl, he, hf⟩ | ⟨hl, hs⟩
  · cases e <;> simp only [dataE, reduceCtorEq] at he
    case counted b =>
      obtain ⟨h1, h2, h3, h4, h5, h6, t, ht, hp, hp', ho⟩ := hf
      rw [hl]
      refine ⟨?_, hI.auto⟩
      rw [h3, hI.hist.cur, ← hI.nd]
      simp [autoPlay]
    all_goals rw [hl]; exact hI.auto
  · rcases hl with hl | ⟨e, he, hl⟩
    · rw [hl]; exact hI.auto
    · rw [hl]; exact AutoOk.cons he hI.auto

theorem Reachable.count {conf : Conf} {s : Algo C} (h : Reachable conf s) : CountInv conf s :=
  Reachable.induction CountInv.init (fun _ _ => CountInv.step) h

end Algo
end Distclus
