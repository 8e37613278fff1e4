import Verif.Proof.KMeans
import Verif.Props.Euclid
import Verif.Spec.Example
import Mathlib.Algebra.Order.Field.Basic
import Mathlib.Algebra.Order.BigOperators.Group.List
import Mathlib.Combinatorics.Pigeonhole
import Mathlib.Tactic.Linarith
/-!
# C26, C27, C28, C29: initial centroids of k-means
-/

set_option linter.unusedSectionVars false

namespace Distclus
open Spec

section
variable {E F : Type}

theorem initCheck_iff (k : Int) (elemts : List E) :
    initCheck k elemts = true ↔ 1 ≤ k ∧ k ≤ elemts.length := by
  unfold initCheck
  split
  · simp; omega
  · split
    · simp; omega
    · simp; omega

theorem givenLoop_eq (space : Space E F) : ∀ (n : Nat) (l : List E), n ≤ l.length →
    givenLoop space n l = some ((l.take n).map space.copy) := by
  intro n
  induction n with
  | zero => intro l _; simp [givenLoop]
  | succ n ih =>
    intro l h
    cases l with
    | nil => simp at h
    | cons e es => simp [givenLoop, ih es (by simpa using h)]

/-- **C26.** `GivenInitializer` succeeds exactly for `1 ≤ k ≤ n`, with copies of the first `k`
elements in order; otherwise it returns an error, and it never panics. -/
theorem C26_given (k : Int) (elemts : List E) (space : Space E F) :
    (1 ≤ k ∧ k ≤ elemts.length →
      givenInitializer k elemts space = .ok ((elemts.take k.toNat).map space.copy)) ∧
    (¬ (1 ≤ k ∧ k ≤ elemts.length) → givenInitializer k elemts space = .err) := by
  unfold givenInitializer
  constructor
  · intro h
    rw [if_pos ((initCheck_iff k elemts).2 h), givenLoop_eq space _ _ (by omega)]
  · intro h
    rw [if_neg (fun hc => h ((initCheck_iff k elemts).1 hc))]

/-- The number of centroids is `k`. -/
theorem C26_given_length (k : Int) (elemts : List E) (space : Space E F) (c : List E)
    (h : givenInitializer k elemts space = .ok c) : (c.length : Int) = k := by
  by_cases hk : 1 ≤ k ∧ k ≤ elemts.length
  · rw [(C26_given k elemts space).1 hk] at h
    cases h
    simp; omega
  · rw [(C26_given k elemts space).2 hk] at h; cases h

example : givenInitializer 2 [5, 6, 7] exSpace = .ok [5, 6] := by decide
example : givenInitializer 4 [5, 6, 7] exSpace = .err := by decide
example : givenInitializer (-1) [5, 6, 7] exSpace = .err := by decide

/-! ### Random initializer -/

theorem randLoop_spec (space : Space E F) (elemts : List E) (k : Nat) :
    ∀ (draws chosen : List Nat) (acc : List E), (∀ d ∈ draws, d < elemts.length) →
      chosen.Nodup → acc.length = chosen.length → acc.length ≤ k →
      (∃ ps : List Nat, (ps ++ chosen).Nodup ∧ (∀ p ∈ ps, p ∈ draws) ∧
        ps.length + chosen.length = k ∧
        ∃ out, randLoop space elemts k draws chosen acc = some (some (acc ++ out)) ∧
          out.map some = ps.map fun p => (elemts[p]?).map space.copy) ∨
      (randLoop space elemts k draws chosen acc = none ∧
        (chosen ++ draws).toFinset.card < k) := by
  intro draws
  induction draws with
  | nil =>
    intro chosen acc _ hn hl hk
    by_cases h : acc.length < k
    · right
      unfold randLoop
      rw [if_pos h]
      refine ⟨rfl, ?_⟩
      rw [List.append_nil, List.toFinset_card_of_nodup hn]; omega
    · left
      refine ⟨[], by simpa using hn, by simp, by simp; omega, [], ?_, rfl⟩
      unfold randLoop
      rw [if_neg h]; simp
  | cons d ds ih =>
    intro chosen acc hd hn hl hk
    by_cases h : acc.length < k
    · unfold randLoop
      rw [if_pos h]
      by_cases hdc : d ∈ chosen
      · simp only [hdc, if_true]
        rcases ih chosen acc (fun x hx => hd x (by simp [hx])) hn hl hk with
          ⟨ps, h1, h2, h3, out, h4, h5⟩ | ⟨h1, h2⟩
        · exact Or.inl ⟨ps, h1, fun p hp => by simp [h2 p hp], h3, out, h4, h5⟩
        · refine Or.inr ⟨h1, ?_⟩
          have : (chosen ++ d :: ds).toFinset = (chosen ++ ds).toFinset := by
            ext x; simp only [List.mem_toFinset, List.mem_append, List.mem_cons]
            constructor
            · rintro (h | rfl | h)
              · exact Or.inl h
              · exact Or.inl hdc
              · exact Or.inr h
            · rintro (h | h)
              · exact Or.inl h
              · exact Or.inr (Or.inr h)
          rw [this]; exact h2
      · have hdlt := hd d (by simp)
        simp only [hdc, if_false, List.getElem?_eq_getElem hdlt]
        rcases ih (d :: chosen) (acc ++ [space.copy elemts[d]])
          (fun x hx => hd x (by simp [hx])) (List.nodup_cons.2 ⟨hdc, hn⟩) (by simp [hl])
          (by simp; omega) with ⟨ps, h1, h2, h3, out, h4, h5⟩ | ⟨h1, h2⟩
        · refine Or.inl ⟨d :: ps, ?_, ?_, by simp at h3 ⊢; omega,
            space.copy elemts[d] :: out, by simpa using h4, by simp [h5, hdlt]⟩
          · exact (List.perm_middle.nodup_iff).1 h1
          · intro p hp
            rcases List.mem_cons.1 hp with rfl | hp
            · simp
            · simp [h2 p hp]
        · refine Or.inr ⟨h1, ?_⟩
          have : (chosen ++ d :: ds).toFinset = (d :: chosen ++ ds).toFinset := by
            ext x; simp only [List.mem_toFinset, List.mem_append, List.mem_cons]
            tauto
          rw [this]; exact h2
    · left
      refine ⟨[], by simpa using hn, by simp, by simp; omega, [], ?_, rfl⟩
      unfold randLoop
      rw [if_neg h]; simp

/-- **C27.** For `k ≥ 0` and draws in range: an error exactly for `k < 1` or `k > n`; otherwise
never a panic or an error, and whenever it returns the centroids are copies of the elements at `k`
pairwise distinct positions that were drawn; it returns exactly when `k` different positions have
been drawn. -/
theorem C27_rand (k : Int) (hk : 0 ≤ k) (elemts : List E) (space : Space E F) (draws : List Nat)
    (hd : ∀ d ∈ draws, d < elemts.length) :
    (randInitializer k elemts space draws = some .err ↔ k < 1 ∨ (elemts.length : Int) < k) ∧
    randInitializer k elemts space draws ≠ some .panic ∧
    (∀ c, randInitializer k elemts space draws = some (.ok c) →
      ∃ ps : List Nat, ps.Nodup ∧ (ps.length : Int) = k ∧ (∀ p ∈ ps, p ∈ draws) ∧
        c.map some = ps.map fun p => (elemts[p]?).map space.copy) ∧
    (1 ≤ k ∧ k ≤ elemts.length →
      ((∃ c, randInitializer k elemts space draws = some (.ok c)) ↔
        k ≤ draws.toFinset.card)) := by
  unfold randInitializer
  rw [if_neg (by omega)]
  by_cases hc : 1 ≤ k ∧ k ≤ elemts.length
  · rw [if_pos ((initCheck_iff k elemts).2 hc)]
    rcases randLoop_spec space elemts k.toNat draws [] [] hd List.nodup_nil rfl (by simp) with
      ⟨ps, h1, h2, h3, out, h4, h5⟩ | ⟨h1, h2⟩
    · simp only [List.append_nil, List.length_nil, Nat.add_zero, List.nil_append] at h1 h3 h4
      rw [h4]
      refine ⟨by simp; omega, by simp, ?_, fun _ => ⟨fun _ => ?_, fun _ => ⟨out, rfl⟩⟩⟩
      · intro c hce
        simp only [Option.some.injEq, InitRes.ok.injEq] at hce
        subst hce
        exact ⟨ps, h1, by omega, h2, h5⟩
      · have : ps.toFinset.card ≤ draws.toFinset.card :=
          Finset.card_le_card fun p hp => by
            simp only [List.mem_toFinset] at hp ⊢; exact h2 p hp
        rw [List.toFinset_card_of_nodup h1] at this
        omega
    · rw [h1]
      refine ⟨by simp; omega, by simp, by simp, fun _ => ⟨by simp, fun h => ?_⟩⟩
      simp only [List.nil_append] at h2
      omega
  · rw [if_neg (fun h => hc ((initCheck_iff k elemts).1 h))]
    exact ⟨by simp; omega, by simp, by simp, fun h => absurd h hc⟩

/-- **C27, negative k.** `RandInitializer` and `PPInitializer` panic. -/
theorem C27_negative_panics [Zero F] [One F] [Neg F] [LT F] [DecidableLT F] [Add F] [Sub F] [Mul F]
    [BEq F] (k : Int) (hk : k < 0) (elemts : List E) (space : Space E F) (draws : List Nat)
    (first : Nat) (us : List F) :
    randInitializer k elemts space draws = some .panic ∧
    ppInitializer k elemts space first us = some .panic := by
  simp [randInitializer, ppInitializer, hk]

example : randInitializer 2 [5, 6, 7] exSpace [1, 1, 2] = some (.ok [6, 7]) := by decide
/-- Drawing always the same position never ends. -/
example : randInitializer 2 [5, 6, 7] exSpace [1, 1, 1, 1] = none := by decide

end

/-! ### Weighted choice -/

section
variable {F : Type}

/-- Without any law: when the sum is not zero and the scaled draw is not positive, the index is -1.
This is so for a draw of exactly 0, and when the sum is NaN. -/
theorem C29_not_positive [Zero F] [LT F] [DecidableLT F] [Add F] [Sub F] [Mul F] [BEq F]
    (weights : List F) (u : F) (hs : (sumF weights == 0) = false)
    (hu : ¬ 0 < u * sumF weights) : weightedChoice weights u = .ok (-1) := by
  unfold weightedChoice
  simp only [hs]
  cases weights <;> simp [choiceLoop, hu]

variable [Field F] [LinearOrder F] [IsStrictOrderedRing F]

theorem sumF_sum (l : List F) : sumF l = l.sum := by
  have : ∀ (l : List F) (a : F), l.foldl (· + ·) a = a + l.sum := by
    intro l
    induction l with
    | nil => simp
    | cons x l ih => intro a; simp only [List.foldl_cons, ih, List.sum_cons]; ring
  rw [sumF, this, zero_add]

theorem choiceLoop_spec : ∀ (ws : List F) (cursor : F) (idx : Int), (∀ w ∈ ws, 0 ≤ w) →
    0 < cursor → cursor ≤ ws.sum →
    ∃ j : Nat, choiceLoop ws cursor idx = some (idx + j) ∧ j < ws.length ∧
      (ws.take j).sum < cursor ∧ cursor ≤ (ws.take (j + 1)).sum := by
  intro ws
  induction ws with
  | nil => intro cursor idx _ h1 h2; simp at h2; exact absurd h1 (not_lt.2 h2)
  | cons w ws ih =>
    intro cursor idx hw h1 h2
    by_cases h : 0 < cursor - w
    · obtain ⟨j, e1, e2, e3, e4⟩ := ih (cursor - w) (idx + 1) (fun x hx => hw x (by simp [hx])) h
        (by simp only [List.sum_cons] at h2; linarith)
      refine ⟨j + 1, ?_, by simp; omega, ?_, ?_⟩
      · rw [choiceLoop, if_pos h1, e1]; congr 1; push_cast; ring
      · simp only [List.take_succ_cons, List.sum_cons]; linarith
      · simp only [List.take_succ_cons, List.sum_cons] at e4 ⊢; linarith
    · refine ⟨0, ?_, by simp, by simpa using h1, ?_⟩
      · rw [choiceLoop, if_pos h1]
        cases ws <;> simp only [choiceLoop, if_neg h] <;> simp
      · simp; linarith [not_lt.1 h]

theorem sum_take_mono {ws : List F} (hw : ∀ w ∈ ws, 0 ≤ w) {i j : Nat} (hij : i ≤ j) :
    (ws.take i).sum ≤ (ws.take j).sum := by
  induction ws generalizing i j with
  | nil => simp
  | cons w ws ih =>
    cases i with
    | zero =>
      simp only [List.take_zero, List.sum_nil]
      exact List.sum_nonneg fun x hx => hw x (List.mem_of_mem_take hx)
    | succ i =>
      obtain ⟨j, rfl⟩ : ∃ j', j = j' + 1 := ⟨j - 1, by omega⟩
      simp only [List.take_succ_cons, List.sum_cons]
      have := ih (fun x hx => hw x (by simp [hx])) (i := i) (j := j) (by omega)
      linarith

/-- **C29.** Exact arithmetic, non-negative weights of positive sum, draw in (0,1): the index is in
range, its weight is positive, and it is the one whose cumulative interval contains the scaled draw
(so each index is drawn with a probability proportional to its weight). -/
theorem C29_weightedChoice (weights : List F) (u : F) (hw : ∀ w ∈ weights, 0 ≤ w)
    (hs : 0 < weights.sum) (hu0 : 0 < u) (hu1 : u < 1) :
    (∃ i : Nat, weightedChoice weights u = .ok (i : Int)) ∧
    ∀ i : Nat, weightedChoice weights u = .ok (i : Int) ↔
      ∃ w, weights[i]? = some w ∧ 0 < w ∧
        (weights.take i).sum < u * weights.sum ∧ u * weights.sum ≤ (weights.take i).sum + w := by
  have hcur : 0 < u * weights.sum := mul_pos hu0 hs
  have hle : u * weights.sum ≤ weights.sum := by nlinarith
  obtain ⟨j, h1, h2, h3, h4⟩ := choiceLoop_spec weights (u * weights.sum) 0 hw hcur hle
  have hj : weightedChoice weights u = .ok (j : Int) := by
    unfold weightedChoice
    have : (sumF weights == 0) = false := by
      rw [sumF_sum]; exact beq_eq_false_iff_ne.2 (ne_of_gt hs)
    simp only [this, Bool.false_eq_true, if_false]
    rw [sumF_sum, h1]
    simp
  have htake : ∀ (i : Nat) (h : i < weights.length),
      (weights.take (i + 1)).sum = (weights.take i).sum + weights[i] := by
    intro i h
    rw [List.take_succ_eq_append_getElem h, List.sum_append]; simp
  refine ⟨⟨j, hj⟩, fun i => ⟨fun hi => ?_, ?_⟩⟩
  · rw [hj] at hi
    have : j = i := by injection hi with hi; exact_mod_cast hi
    subst this
    rw [htake j h2] at h4
    exact ⟨weights[j], by simp, by linarith, h3, h4⟩
  · rintro ⟨w, hwi, _, g1, g2⟩
    have hi := (List.getElem?_eq_some_iff.1 hwi).1
    have hwe : weights[i] = w := (List.getElem?_eq_some_iff.1 hwi).2
    rw [← hwe, ← htake i hi] at g2
    have : j = i := by
      rcases Nat.lt_trichotomy j i with h | h | h
      · have := sum_take_mono hw (show j + 1 ≤ i by omega); linarith
      · exact h
      · have := sum_take_mono hw (show i + 1 ≤ j by omega); linarith
    rw [hj, this]

/-- **C29, null sum.** The error is returned exactly when the weights sum to zero, whatever the
draw. -/
theorem C29_null_iff (weights : List F) (u : F) :
    weightedChoice weights u = .nullSet ↔ weights.sum = 0 := by
  unfold weightedChoice
  simp only [sumF_sum]
  by_cases h : weights.sum = 0
  · simp [h]
  · simp only [h, iff_false, beq_iff_eq, if_false]
    split <;> simp

/-- **C29, draw of exactly 0.** The index is -1. -/
theorem C29_zero_draw (weights : List F) (hs : weights.sum ≠ 0) :
    weightedChoice weights 0 = .ok (-1) := by
  apply C29_not_positive
  · rw [sumF_sum]; exact beq_eq_false_iff_ne.2 hs
  · simp

end

/-- **C29, NaN.** When some weight is NaN the index is -1, whatever the draw. -/
theorem C29_nan (weights : List XReal) (h : XReal.nan ∈ weights) (u : XReal) :
    weightedChoice weights u = .ok (-1) := by
  have hfold : ∀ (l : List XReal) (a : XReal), (a = .nan ∨ XReal.nan ∈ l) →
      l.foldl (· + ·) a = XReal.nan := by
    intro l
    induction l with
    | nil => intro a h; simpa using h
    | cons x l ih =>
      intro a h
      apply ih
      rcases h with rfl | h
      · exact Or.inl rfl
      · rcases List.mem_cons.1 h with rfl | h
        · left; change XReal.add a .nan = .nan; cases a <;> rfl
        · exact Or.inr h
  have hs : sumF weights = XReal.nan := hfold _ _ (Or.inr h)
  apply C29_not_positive
  · rw [hs]; rfl
  · rw [hs]
    have : u * XReal.nan = XReal.nan := by change XReal.mul u .nan = .nan; cases u <;> rfl
    rw [this]; exact fun h => h

/-- Null weights are skipped (here with integers, the draw being scaled to the whole sum). -/
example : weightedChoice [(0 : Int), 3, 0, 5] 0 = .ok (-1) ∧
    weightedChoice [(0 : Int), 0] 1 = .nullSet ∧
    weightedChoice [(0 : Int), 3, 0, 5] 1 = .ok 3 := by decide

/-! ### k-means++ -/

section
variable {E F : Type} [Field F] [LinearOrder F] [IsStrictOrderedRing F]

theorem nearest_le' (space : Space E F) (h0 : ∀ a b, 0 ≤ space.dist a b) (c : List E)
    (hc : c ≠ []) (e : E) : ∃ x ∈ c, (nearest space c e).2 = space.dist e x ∧
      ∀ y ∈ c, space.dist e x ≤ space.dist e y := by
  cases c with
  | nil => exact absurd rfl hc
  | cons c0 cs =>
    obtain ⟨k, x, hk, hx⟩ := nearest_spec (by simp : (-1 : F) < 0) space c0 cs e (fun h => h)
      (fun z _ => not_lt.2 (h0 e z))
    exact ⟨x, List.mem_of_getElem? hx.at_label, by rw [hk],
      fun y hy => not_lt.1 (hx.minimal y hy (fun h => h))⟩

theorem sum_eq_zero_iff' {l : List F} (h : ∀ x ∈ l, 0 ≤ x) :
    l.sum = 0 ↔ ∀ x ∈ l, x = 0 := by
  induction l with
  | nil => simp
  | cons a l ih =>
    have ha := h a (by simp)
    have hl := List.sum_nonneg fun x (hx : x ∈ l) => h x (by simp [hx])
    rw [List.sum_cons, add_eq_zero_iff_of_nonneg ha hl, ih fun x hx => h x (by simp [hx])]
    simp

/-- **C28** (`PPIter`). Non-negative distances, some centre, some element, draw in (0,1): either
every element is at distance 0 of some centre and the null-set error is returned, or a copy of an
element at a positive distance of all centres is returned. It never panics. -/
theorem C28_ppIter (space : Space E F) (h0 : ∀ a b, 0 ≤ space.dist a b) (clust elemts : List E)
    (hc : clust ≠ []) (he : elemts ≠ []) (u : F) (hu0 : 0 < u) (hu1 : u < 1) :
    (ppIter space clust elemts u = .nullSet ∧ ∀ e ∈ elemts, ∃ x ∈ clust, space.dist e x = 0) ∨
    (∃ e ∈ elemts, ppIter space clust elemts u = .ok (space.copy e) ∧
      ∀ x ∈ clust, 0 < space.dist e x) := by
  set ws := (mapLabel space clust elemts).2 with hws
  have hw : ∀ w ∈ ws, 0 ≤ w := by
    intro w hw
    simp only [hws, mapLabel, List.mem_map] at hw
    obtain ⟨e, _, rfl⟩ := hw
    obtain ⟨x, _, h2, _⟩ := nearest_le' space h0 clust hc e
    rw [h2]; exact h0 e x
  rcases (List.sum_nonneg hw).eq_or_lt with hs | hs
  · left
    constructor
    · unfold ppIter
      rw [(C29_null_iff ws u).2 hs.symm]
      simp [he]
    · intro e hee
      have hz : (nearest space clust e).2 = 0 := by
        apply (sum_eq_zero_iff' hw).1 hs.symm
        simp only [hws, mapLabel, List.mem_map]
        exact ⟨e, hee, rfl⟩
      obtain ⟨x, hx, h2, _⟩ := nearest_le' space h0 clust hc e
      exact ⟨x, hx, by rw [← h2, hz]⟩
  · right
    obtain ⟨⟨i, hi⟩, hiff⟩ := C29_weightedChoice ws u hw hs hu0 hu1
    obtain ⟨w, hwi, hpos, _, _⟩ := (hiff i).1 hi
    simp only [hws, mapLabel, List.getElem?_map, Option.map_eq_some_iff] at hwi
    obtain ⟨e, hei, rfl⟩ := hwi
    refine ⟨e, List.mem_of_getElem? hei, ?_, ?_⟩
    · unfold ppIter
      rw [hi]
      have : idx? elemts (i : Int) = some e := by
        unfold idx?; rw [if_neg (by omega), Int.toNat_natCast, hei]
      simp [this]
    · intro x hx
      obtain ⟨y, _, h2, h3⟩ := nearest_le' space h0 clust hc e
      rw [h2] at hpos
      exact lt_of_lt_of_le hpos (h3 x hx)

/-- Distances are a pseudometric that `Copy` does not change. -/
structure PseudoMetric (space : Space E F) : Prop where
  nonneg : ∀ a b, 0 ≤ space.dist a b
  self : ∀ a, space.dist a a = 0
  symm : ∀ a b, space.dist a b = space.dist b a
  triangle : ∀ a b c, space.dist a c ≤ space.dist a b + space.dist b c
  copy : ∀ a b, space.dist a (space.copy b) = space.dist a b

/-- Pairwise at a positive distance. -/
def Separated (space : Space E F) (l : List E) : Prop :=
  l.Pairwise fun a b => 0 < space.dist a b

/-- Every element of `out` is an element of `elemts`, or a copy of one. -/
def FromData (space : Space E F) (elemts out : List E) : Prop :=
  ∀ x ∈ out, ∃ e ∈ elemts, x = e ∨ x = space.copy e

theorem ppLoop_spec {space : Space E F} (hm : PseudoMetric space) (elemts : List E) :
    ∀ (n : Nat) (us : List F) (acc : List E), (∀ u ∈ us, 0 < u ∧ u < 1) → n ≤ us.length →
      acc ≠ [] → elemts ≠ [] → Separated space acc → FromData space elemts acc →
      (∃ out, ppLoop space elemts n us acc = some (.ok (acc ++ out)) ∧ out.length = n ∧
        Separated space (acc ++ out) ∧ FromData space elemts (acc ++ out)) ∨
      (ppLoop space elemts n us acc = some .err ∧
        ∃ out : List E, out.length < acc.length + n ∧ ∀ e ∈ elemts, ∃ x ∈ out, space.dist e x = 0) := by
  intro n
  induction n with
  | zero => intro us acc _ _ _ _ h1 h2; exact Or.inl ⟨[], by simp [ppLoop], rfl, by simpa, by simpa⟩
  | succ n ih =>
    intro us acc hu hl hne hel hsep hfrom
    cases us with
    | nil => simp at hl
    | cons u us =>
      obtain ⟨hu0, hu1⟩ := hu u (by simp)
      rcases C28_ppIter space hm.nonneg acc elemts hne hel u hu0 hu1 with ⟨h1, h2⟩ | ⟨e, he, h1, h2⟩
      · exact Or.inr ⟨by simp [ppLoop, h1], acc, by omega, h2⟩
      · have hsep' : Separated space (acc ++ [space.copy e]) := by
          unfold Separated
          rw [List.pairwise_append]
          refine ⟨hsep, by simp, ?_⟩
          intro a ha b hb
          rw [List.mem_singleton.1 hb, hm.copy, hm.symm]
          exact h2 a ha
        have hfrom' : FromData space elemts (acc ++ [space.copy e]) := by
          intro x hx
          rcases List.mem_append.1 hx with hx | hx
          · exact hfrom x hx
          · exact ⟨e, he, Or.inr (List.mem_singleton.1 hx)⟩
        rcases ih us (acc ++ [space.copy e]) (fun v hv => hu v (by simp [hv])) (by simpa using hl)
          (by simp) hel hsep' hfrom' with ⟨out, g1, g2, g3, g4⟩ | ⟨g1, out, g2, g3⟩
        · left
          rw [List.append_assoc] at g1 g3 g4
          exact ⟨_, by simp [ppLoop, h1]; simpa using g1, by simp [g2], g3, g4⟩
        · exact Or.inr ⟨by simp [ppLoop, h1, g1], out, by simp at g2; omega, g3⟩

/-- With fewer centres than separated elements, some element is at a positive distance of all. -/
theorem separated_uncovered {space : Space E F} (hm : PseudoMetric space) (l out : List E)
    (hl : Separated space l) (hlt : out.length < l.length) :
    ¬ ∀ e ∈ l, ∃ x ∈ out, space.dist e x = 0 := by
  intro h
  have hch : ∀ i : Fin l.length, ∃ j : Fin out.length, space.dist l[i] out[j] = 0 := by
    intro i
    obtain ⟨x, hx, h0⟩ := h l[i] (List.getElem_mem _)
    obtain ⟨j, hj, rfl⟩ := List.mem_iff_getElem.1 hx
    exact ⟨⟨j, hj⟩, h0⟩
  choose f hf using hch
  obtain ⟨i, j, hij, he⟩ := Fintype.exists_ne_map_eq_of_card_lt f (by simpa using hlt)
  have hz : ∀ i j : Fin l.length, f i = f j → space.dist l[i] l[j] = 0 := by
    intro i j he
    have h1 := hf i
    have h2 := hf j
    rw [← he, hm.symm] at h2
    have := hm.triangle l[i] out[f i] l[j]
    rw [h1, h2, add_zero] at this
    exact le_antisymm this (hm.nonneg _ _)
  rcases Nat.lt_or_ge i.1 j.1 with h | h
  · have := List.pairwise_iff_getElem.1 hl i.1 j.1 i.2 j.2 h
    rw [show space.dist l[i.1] l[j.1] = 0 from hz i j he] at this
    exact lt_irrefl _ this
  · have hne : i.1 ≠ j.1 := fun hc => hij (Fin.ext hc)
    have := List.pairwise_iff_getElem.1 hl j.1 i.1 j.2 i.2 (by omega)
    rw [show space.dist l[j.1] l[i.1] = 0 from hz j i he.symm] at this
    exact lt_irrefl _ this

/-- **C28** (`PPInitializer`). With a pseudometric, draws in range, and `0 ≤ k`: when it returns
centroids there are `k` of them, taken from the data and pairwise at a positive distance; it never
panics; and it succeeds exactly when `k ≥ 1` and the data hold `k` elements pairwise at a positive
distance. -/
theorem C28_ppInitializer {space : Space E F} (hm : PseudoMetric space) (k : Int) (hk : 0 ≤ k)
    (elemts : List E) (first : Nat) (us : List F) (hf : 0 < elemts.length → first < elemts.length)
    (hu : ∀ u ∈ us, 0 < u ∧ u < 1) (hus : k ≤ us.length + 1) :
    ((∃ out, ppInitializer k elemts space first us = some (.ok out) ∧ (out.length : Int) = k ∧
        Separated space out ∧ FromData space elemts out) ∨
      ppInitializer k elemts space first us = some .err) ∧
    ((∃ out, ppInitializer k elemts space first us = some (.ok out)) ↔
      1 ≤ k ∧ ∃ l : List E, (∀ e ∈ l, e ∈ elemts) ∧ (l.length : Int) = k ∧ Separated space l) := by
  have hlen : ∀ l : List E, (∀ e ∈ l, e ∈ elemts) → Separated space l →
      l.length ≤ elemts.length := by
    intro l h1 h2
    by_contra hc
    refine separated_uncovered hm l elemts h2 (by omega) fun e he => ⟨e, h1 e he, hm.self e⟩
  unfold ppInitializer
  rw [if_neg (by omega)]
  by_cases hc : 1 ≤ k ∧ k ≤ elemts.length
  · rw [if_pos ((initCheck_iff k elemts).2 hc)]
    have hfl : first < elemts.length := hf (by omega)
    simp only [List.getElem?_eq_getElem hfl]
    have hel : elemts ≠ [] := by intro h; subst h; simp at hfl
    rcases ppLoop_spec hm elemts (k.toNat - 1) us [elemts[first]] hu (by omega) (by simp) hel
      (by simp [Separated])
      (by intro x hx; rw [List.mem_singleton.1 hx]; exact ⟨_, List.getElem_mem hfl, Or.inl rfl⟩) with
      ⟨out, g1, g2, g3, g4⟩ | ⟨g1, out, g2, g3⟩
    · refine ⟨Or.inl ⟨_, g1, by simp [g2]; omega, g3, g4⟩, ⟨fun _ => ⟨hc.1, ?_⟩, fun _ => ⟨_, g1⟩⟩⟩
      -- the data elements behind the centroids
      have : ∀ cs : List E, FromData space elemts cs → Separated space cs →
          ∃ l : List E, (∀ e ∈ l, e ∈ elemts) ∧ l.length = cs.length ∧ Separated space l ∧
            ∀ a, (∀ x ∈ cs, 0 < space.dist a x) → ∀ e ∈ l, 0 < space.dist a e := by
        intro cs
        induction cs with
        | nil => intro _ _; exact ⟨[], by simp, rfl, by simp [Separated], by simp⟩
        | cons x cs ih =>
          intro h1 h2
          obtain ⟨l, q1, q2, q3, q4⟩ := ih (fun y hy => h1 y (by simp [hy])) (List.Pairwise.of_cons h2)
          obtain ⟨e, he, hx⟩ := h1 x (by simp)
          have hd : ∀ a, space.dist a x = space.dist a e := by
            intro a; rcases hx with rfl | rfl
            · rfl
            · exact hm.copy a e
          refine ⟨e :: l, ?_, by simp [q2], ?_, ?_⟩
          · intro y hy
            rcases List.mem_cons.1 hy with rfl | hy
            · exact he
            · exact q1 y hy
          · refine List.pairwise_cons.2 ⟨q4 e ?_, q3⟩
            intro y hy
            have := (List.pairwise_cons.1 h2).1 y hy
            rw [hm.symm, hd] at this
            rw [hm.symm]; exact this
          · intro a ha y hy
            rcases List.mem_cons.1 hy with rfl | hy
            · rw [← hd]; exact ha x (by simp)
            · exact q4 a (fun z hz => ha z (by simp [hz])) y hy
      obtain ⟨l, q1, q2, q3, _⟩ := this _ g4 g3
      exact ⟨l, q1, by simp [q2, g2]; omega, q3⟩
    · refine ⟨Or.inr g1, ⟨?_, ?_⟩⟩
      · rintro ⟨o, ho⟩; rw [g1] at ho; cases ho
      · rintro ⟨_, l, q1, q2, q3⟩
        exact absurd (fun e he => g3 e (q1 e he))
          (separated_uncovered hm l out q3 (by simp at g2; omega))
  · rw [if_neg (fun h => hc ((initCheck_iff k elemts).1 h))]
    refine ⟨Or.inr rfl, ⟨(by rintro ⟨o, ho⟩; cases ho), ?_⟩⟩
    rintro ⟨h1, l, q1, q2, q3⟩
    have := hlen l q1 q3
    omega

/-- **C28, draw of exactly 0.** `PPIter` panics as soon as the distances do not all vanish: the
index is -1. -/
theorem C28_zero_draw_panics (space : Space E F) (clust elemts : List E)
    (hs : ((mapLabel space clust elemts).2).sum ≠ 0) : ppIter space clust elemts 0 = .panic := by
  unfold ppIter
  rw [C29_zero_draw _ hs]
  rfl

end

/-- The Euclidean space in exact arithmetic meets the hypotheses of C28. -/
theorem euclid_pseudoMetric (n : Nat) : PseudoMetric (euclidSpace ℝ n) where
  nonneg a b := by rw [euclid_dist_eq]; exact Real.sqrt_nonneg _
  self a := by rw [euclid_dist_eq]; simp
  symm a b := by
    rw [euclid_dist_eq, euclid_dist_eq]
    congr 1
    exact Finset.sum_congr rfl fun i _ => by ring
  triangle a b c := (C40_metric n a b c).2.2.2
  copy _ _ := rfl

end Distclus
