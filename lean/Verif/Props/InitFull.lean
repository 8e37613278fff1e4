import Verif.Model.InitFull
import Verif.Props.KMeansInit
import Verif.Props.CtrlSource
/-!
# C97: what a failed initialisation leaves
-/

set_option linter.unusedSectionVars false

namespace Distclus
open Spec Ctrl

section
variable {E F : Type}

/-- What `Model/KMeans.lean` keeps of a result. -/
def FullRes.short : FullRes E → InitRes E
  | .panic => .panic
  | .ret _ (some _) => .err
  | .ret c none => .ok ((c.getD []).filterMap id)

theorem initCheckErr_iff (k : Int) (elemts : List E) :
    initCheckErr k elemts = none ↔ 1 ≤ k ∧ k ≤ elemts.length := by
  unfold initCheckErr
  split
  · simp; omega
  · split
    · simp; omega
    · simp; omega

theorem initCheck_err (k : Int) (elemts : List E) :
    initCheck k elemts = (initCheckErr k elemts).isNone := by
  unfold initCheck initCheckErr
  split
  · rfl
  · split <;> rfl

/-- The results of `GivenInitializer`, once the centroids returned with an error are forgotten, are those of the
model used elsewhere. -/
theorem givenFull_short (k : Int) (elemts : List E) (space : Space E F) :
    (givenFull k elemts space).short = givenInitializer k elemts space := by
  unfold givenFull givenInitializer
  rw [initCheck_err]
  cases initCheckErr k elemts with
  | some e => rfl
  | none =>
    simp only [Option.isNone_none, if_true]
    cases givenLoop space k.toNat elemts <;> simp [FullRes.short]

theorem randFull_short (k : Int) (elemts : List E) (space : Space E F) (draws : List Nat) :
    (randFull k elemts space draws).map FullRes.short = randInitializer k elemts space draws := by
  unfold randFull randInitializer
  rw [initCheck_err]
  split
  · rfl
  · cases initCheckErr k elemts with
    | some e => rfl
    | none =>
      simp only [Option.isNone_none, if_true]
      rcases randLoop space elemts k.toNat draws [] [] with _ | _ | c <;>
        simp [FullRes.short]

/-- **C97 (given).** `GivenInitializer` returns `nil` centroids with an error. -/
theorem C97_given (k : Int) (elemts : List E) (space : Space E F) (h : ¬ (1 ≤ k ∧ k ≤ elemts.length)) :
    ∃ e, givenFull k elemts space = .ret none (some e) := by
  have := mt (initCheckErr_iff k elemts).1 h
  unfold givenFull
  cases hc : initCheckErr k elemts with
  | none => exact absurd hc this
  | some e => exact ⟨e, rfl⟩

variable [Zero F] [One F] [Neg F] [LT F] [DecidableLT F] [Add F] [Sub F] [Mul F] [BEq F]

theorem ppFullLoop_short (space : Space E F) (elemts : List E) : ∀ (n : Nat) (us : List F) (acc : List E),
    (ppFullLoop space elemts n us acc).map FullRes.short = ppLoop space elemts n us acc
  | 0, us, acc => by simp [ppFullLoop, ppLoop, FullRes.short]
  | n + 1, [], acc => rfl
  | n + 1, u :: us, acc => by
    simp only [ppFullLoop, ppLoop]
    cases ppIter space acc elemts u with
    | panic => rfl
    | nullSet => rfl
    | ok e => exact ppFullLoop_short space elemts n us _

theorem ppFull_short (k : Int) (elemts : List E) (space : Space E F) (first : Nat) (us : List F) :
    (ppFull k elemts space first us).map FullRes.short = ppInitializer k elemts space first us := by
  unfold ppFull ppInitializer
  rw [initCheck_err]
  split
  · rfl
  · cases initCheckErr k elemts with
    | some e => rfl
    | none =>
      simp only [Option.isNone_none, if_true]
      cases elemts[first]? with
      | none => rfl
      | some e => exact ppFullLoop_short space elemts _ us _

/-- **C97 (random, k-means++).** When the check fails, `RandInitializer` and `PPInitializer` return, with the error,
`k` centroids which are all `nil`. -/
theorem C97_check (k : Int) (hk : 0 ≤ k) (elemts : List E) (space : Space E F) (first : Nat) (draws : List Nat)
    (us : List F) (h : ¬ (1 ≤ k ∧ k ≤ elemts.length)) :
    ∃ e, randFull k elemts space draws = some (.ret (some (List.replicate k.toNat none)) (some e)) ∧
      ppFull k elemts space first us = some (.ret (some (List.replicate k.toNat none)) (some e)) := by
  have := mt (initCheckErr_iff k elemts).1 h
  cases hc : initCheckErr k elemts with
  | none => exact absurd hc this
  | some e =>
    have hk' : ¬ k < 0 := by omega
    exact ⟨e, by simp [randFull, hk', hc], by simp [ppFull, hk', hc]⟩

theorem ppFullLoop_failed (space : Space E F) (elemts : List E) (hne : elemts ≠ []) :
    ∀ (n : Nat) (us : List F) (acc : List E) (c : Option (List (Option E))) (e : InitErr),
    ppFullLoop space elemts n us acc = some (.ret c (some e)) →
    ∃ (l : List E) (m : Nat), c = some (l.map some ++ List.replicate m none) ∧ acc.length < l.length ∧
      l.length + m = acc.length + n ∧ acc <+: l ∧ e = .nullSet
  | 0, us, acc, c, e, h => by simp [ppFullLoop] at h
  | n + 1, [], acc, c, e, h => by simp [ppFullLoop] at h
  | n + 1, u :: us, acc, c, e, h => by
    simp only [ppFullLoop] at h
    cases hi : ppIter space acc elemts u with
    | panic => simp [hi] at h
    | nullSet =>
      simp only [hi, Option.some.injEq, FullRes.ret.injEq] at h
      obtain ⟨rfl, rfl⟩ := h
      obtain ⟨x, xs, rfl⟩ := List.exists_cons_of_ne_nil hne
      exact ⟨acc ++ [space.copy x], n, by simp, by simp, by simp; omega, List.prefix_append _ _, rfl⟩
    | ok y =>
      simp only [hi] at h
      obtain ⟨l, m, h1, h2, h3, h4, h5⟩ := ppFullLoop_failed space elemts hne n us _ c e h
      simp only [List.length_append, List.length_singleton] at h2 h3
      exact ⟨l, m, h1, by omega, by omega, (List.prefix_append _ _).trans h4, h5⟩

/-- **C97 (k-means++).** When k-means++ finds no further centre, it returns with the null-set error `k` centroids:
the elements drawn so far and a copy of the first datum, then `nil`. -/
theorem C97_null_set (k : Int) (elemts : List E) (space : Space E F) (first : Nat) (us : List F)
    (h : 1 ≤ k ∧ k ≤ elemts.length) (c : Option (List (Option E))) (e : InitErr)
    (hr : ppFull k elemts space first us = some (.ret c (some e))) :
    e = .nullSet ∧ ∃ (l : List E) (m : Nat), c = some (l.map some ++ List.replicate m none) ∧ 2 ≤ l.length ∧
      ((l.length + m : Nat) : Int) = k ∧ l[0]? = elemts[first]? := by
  have hc := (initCheckErr_iff k elemts).2 h
  have hk' : ¬ k < 0 := by omega
  have hne : elemts ≠ [] := by rintro rfl; simp at h; omega
  simp only [ppFull, hk', if_false, hc] at hr
  cases hf : elemts[first]? with
  | none => simp [hf] at hr
  | some x =>
    simp only [hf] at hr
    obtain ⟨l, m, h1, h2, h3, h4, h5⟩ := ppFullLoop_failed space elemts hne _ us _ c e hr
    simp only [List.length_singleton] at h2 h3
    refine ⟨h5, l, m, h1, h2, by omega, ?_⟩
    obtain ⟨t, rfl⟩ := h4
    rfl

theorem ppFullLoop_ok (space : Space E F) (elemts : List E) :
    ∀ (n : Nat) (us : List F) (acc : List E) (c : Option (List (Option E))),
    ppFullLoop space elemts n us acc = some (.ret c none) →
    ∃ l : List E, c = some (l.map some) ∧ l.length = acc.length + n
  | 0, us, acc, c, h => by
    simp only [ppFullLoop, Option.some.injEq, FullRes.ret.injEq] at h
    exact ⟨acc, h.1.symm, rfl⟩
  | n + 1, [], acc, c, h => by simp [ppFullLoop] at h
  | n + 1, u :: us, acc, c, h => by
    simp only [ppFullLoop] at h
    cases hi : ppIter space acc elemts u with
    | panic => simp [hi] at h
    | nullSet => simp [hi] at h
    | ok y =>
      simp only [hi] at h
      obtain ⟨l, h1, h2⟩ := ppFullLoop_ok space elemts n us _ c h
      exact ⟨l, h1, by simp at h2; omega⟩

/-- **C97 (success).** Without error there is no `nil` centroid, and there are `k` of them. -/
theorem C97_success (i : Option InitName) (k : Int) (elemts : List E) (space : Space E F) (first : Nat)
    (ints : List Nat) (us : List F) (hd : ∀ d ∈ ints, d < elemts.length) (c : Option (List (Option E)))
    (h : callInitializer i k elemts space first ints us = some (.ret c none)) :
    ∃ l : List E, c = some (l.map some) ∧ (l.length : Int) = k := by
  rcases i with _ | _ | _ | _
  · cases h
  · have hs := givenFull_short k elemts space
    simp only [callInitializer, Option.some.injEq] at h
    rw [h] at hs
    unfold givenFull at h
    cases hc : initCheckErr k elemts with
    | some e => simp [hc] at h
    | none =>
      simp only [hc] at h
      cases hg : givenLoop space k.toNat elemts with
      | none => simp [hg] at h
      | some l =>
        simp only [hg, FullRes.ret.injEq] at h
        refine ⟨l, h.1.symm, C26_given_length k elemts space l ?_⟩
        rw [← hs, ← h.1]
        simp [FullRes.short]
  · simp only [callInitializer, ppFull] at h
    split at h
    · cases h
    · rename_i hk
      cases hc : initCheckErr k elemts with
      | some e => simp [hc] at h
      | none =>
        have := (initCheckErr_iff k elemts).1 hc
        simp only [hc] at h
        cases hf : elemts[first]? with
        | none => simp [hf] at h
        | some x =>
          simp only [hf] at h
          obtain ⟨l, h1, h2⟩ := ppFullLoop_ok space elemts _ us _ c h
          exact ⟨l, h1, by simp at h2; omega⟩
  · have hs := randFull_short k elemts space ints
    simp only [callInitializer] at h
    rw [h] at hs
    unfold randFull at h
    split at h
    · cases h
    · rename_i hk
      cases hc : initCheckErr k elemts with
      | some e => simp [hc] at h
      | none =>
        simp only [hc] at h
        rcases hg : randLoop space elemts k.toNat ints [] [] with _ | _ | l
        · simp [hg] at h
        · simp [hg] at h
        · simp only [hg, Option.some.injEq, FullRes.ret.injEq] at h
          have hl : randInitializer k elemts space ints = some (.ok l) := by
            rw [← hs, ← h.1]
            simp [FullRes.short]
          obtain ⟨ps, -, h2, -, h4⟩ := (C27_rand k (by omega) elemts space ints hd).2.2.1 l hl
          have := congrArg List.length h4
          simp only [List.length_map] at this
          exact ⟨l, h.1.symm, by omega⟩

/-- **C97 (unknown initializer).** `CreateInitializer` accepts any name; `Init` panics with an initializer created
from an unknown one, and with k-means++ or random initialisation of a negative number of clusters. -/
theorem C97_panic (lower : String → String) (name : String) (k : Int) (elemts : List E) (space : Space E F)
    (first : Nat) (ints : List Nat) (us : List F)
    (h : (lower name ≠ "given" ∧ lower name ≠ "pp" ∧ lower name ≠ "rand") ∨ (lower name ≠ "given" ∧ k < 0)) :
    callInitializer (createInitializer lower name) k elemts space first ints us = some .panic := by
  unfold createInitializer callInitializer
  rcases h with ⟨h1, h2, h3⟩ | ⟨h1, h2⟩
  · simp [h1, h2, h3]
  · rw [if_neg h1]
    split_ifs <;> simp [ppFull, randFull, h2]

/-! ### Prediction -/

omit [Add F] [Sub F] [Mul F] [BEq F] in
theorem nearestNilLoop_some (space : Space E F) (elemt : E) : ∀ (l : List E) (i : Nat) (label : Int) (min : F),
    nearestNilLoop space elemt (l.map some) i label min = some (nearestLoop space elemt l i label min)
  | [], i, label, min => rfl
  | c :: cs, i, label, min => by
    simp only [List.map_cons, nearestNilLoop, nearestLoop]
    split <;> exact nearestNilLoop_some space elemt cs _ _ _

omit [Add F] [Sub F] [Mul F] [BEq F] in
theorem nearestNilLoop_nil (space : Space E F) (elemt : E) : ∀ (l : List (Option E)) (i : Nat) (label : Int)
    (min : F), none ∈ l → nearestNilLoop space elemt l i label min = none
  | none :: cs, i, label, min, _ => rfl
  | some c :: cs, i, label, min, h => by
    have : none ∈ cs := by simpa using h
    simp only [nearestNilLoop]
    split <;> exact nearestNilLoop_nil space elemt cs _ _ _ this

omit [Add F] [Sub F] [Mul F] [BEq F] in
/-- **C97 (prediction).** `Predict` panics, whatever the element, if one of the centroids is `nil`. -/
theorem C97_predict_panics (space : Space E F) (l : List (Option E)) (h : none ∈ l) (elemt : E) :
    predictNil space (some l) elemt = none := by
  simp [predictNil, nearestNilLoop_nil space elemt l _ _ _ h]

omit [Add F] [Sub F] [Mul F] [BEq F] in
/-- **C97 (prediction).** Without `nil` centroids it is `Assign`. -/
theorem C97_predict (space : Space E F) (l : List E) (elemt : E) :
    predictNil space (some (l.map some)) elemt = assign space l elemt := by
  simp only [predictNil, Option.getD_some, nearestNilLoop_some, assign, nearest]
  have hi : ∀ label, idx? (l.map some) label = (idx? l label).map some := fun label => by
    simp only [idx?, List.getElem?_map]; split <;> rfl
  rw [hi]
  cases idx? l (nearestLoop space elemt l 0 (-1) (-1)).1 <;> rfl

omit [Add F] [Sub F] [Mul F] [BEq F] in
/-- **C97 (prediction).** With `nil` centroids the answer is label -1 and no centroid. -/
theorem C97_predict_nil (space : Space E F) (elemt : E) :
    predictNil space none elemt = some (none, -1, -1) := rfl

/-- k-means++ with three data: too many clusters; equal data; success.  -/
example : ppFull 4 [5, 6, 7] exSpace 0 [] = some (.ret (some [none, none, none, none]) (some .fewer)) ∧
    ppFull 3 [5, 5, 5] exSpace 1 [1] = some (.ret (some [some 5, some 5, none]) (some .nullSet)) ∧
    randFull 2 [5, 6, 7] exSpace [2, 0] = some (.ret (some [some 7, some 5]) none) ∧
    givenFull 4 [5, 6, 7] exSpace = .ret none (some .fewer) := by decide

/-- Predictions with these centroids. -/
example : predictNil exSpace (some [some 5, some 5, none]) 6 = none ∧
    predictNil exSpace (some [some 7, some 5]) 5 = some (some 5, 1, 0) := by decide

/-- `CreateInitializer` of a known and an unknown name. -/
example : createInitializer String.toLower "PP" = some .pp ∧ createInitializer String.toLower "kmeans++" = none := by
  decide +kernel

end

/-! ### The controller -/

section
open Algo
variable {C : Type} {conf : Conf} {s : Algo C}

/-- **C97 (shown).** The controller keeps the centroids returned with an error: if every initialisation so far
returned the same centroids `c` (`nil` or not, with an error or not) and no iteration has ended, then once the status
is no longer Initializing `Centroids()` returns `c`, whatever the clients do. -/
theorem C97_shown (h : Reachable conf s) {t : Nat} {c x : Option C} {l1 l2 : List (Event C)}
    (hl : s.log = l1 ++ .ret t (.centroids x) :: l2) (hi : ∀ c' e, .initRet c' e ∈ l2 → c' = c)
    (hno : ∀ r c', .iterOk r c' ∉ l2) {st : OCStatus} (hst : .set st ∈ l2) (hv : st.value ≠ .initializing) :
    x = c := by
  cases x with
  | some y =>
    rcases C93_source h hl with ⟨e, he⟩ | ⟨r, hr⟩
    · exact hi _ _ he
    · exact absurd hr (hno _ _)
  | none =>
    cases c with
    | none => rfl
    | some y => exact absurd ((C93_nil h hl fun e he => by cases hi _ _ he).1 st hst) hv

/-- **C97 (prediction after a failure).** If the implementation of a k-means algorithm returns from its
initialisations the `k` `nil` centroids of `C97_check`, for `k ≥ 1`, every `Predict` later than the failure panics. -/
theorem C97_after_failure {E F : Type} [Zero F] [One F] [Neg F] [LT F] [DecidableLT F] {conf : Conf}
    {s : Algo (List (Option E))} (space : Space E F) (h : Reachable conf s) {k : Nat} (hk : 0 < k) {t : Nat}
    {x : Option (List (Option E))} {l1 l2 : List (Event (List (Option E)))}
    (hl : s.log = l1 ++ .ret t (.centroids x) :: l2)
    (hi : ∀ c' e, .initRet c' e ∈ l2 → c' = some (List.replicate k none))
    (hno : ∀ r c', .iterOk r c' ∉ l2) {e : Err} (hst : .set (.ofError (some e)) ∈ l2) (elemt : E) :
    predictNil space x elemt = none := by
  rw [C97_shown h hl hi hno hst (by rintro ⟨⟩)]
  exact C97_predict_panics space _ (by simp; omega) elemt

open Trace in
/-- The hypotheses are met: `Init` fails and leaves 6 (standing for any centroids), shown by `Centroids()`. -/
example : ((exec plain (new : Algo Nat) [.client, call 0 .init, g 0, g 0, recv 1 0, g 1,
    .act 0 (.initRet (some 6) (some (.other 3))), g 0, g 0, g 0, recv 1 0, g 1, g 0,
    call 0 .centroids, g 0]).map fun s => s.log.take 6) =
    some [.ret 0 (.centroids (some 6)), .call 0 .centroids, .ret 0 (.err (some (.other 3))),
      .notified (.ofError (some (.other 3))), .set (.ofError (some (.other 3))),
      .initRet (some 6) (some (.other 3))] := by decide +kernel

end
end Distclus
