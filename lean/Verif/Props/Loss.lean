import Verif.Proof.Loss
import Verif.Proof.Euclid
import Verif.Spec.Example
/-!
# C10, C11: losses
-/

set_option linter.unusedSectionVars false

namespace Distclus
open Spec

section
variable {E F : Type} [AddCommMonoid F] [One F] [Neg F] [LT F] [DecidableLT F] [GoMath F]

/-- **C10** (`ReduceLoss`). One loss and one cardinality per centroid: the number of elements
nearest to it and the sum of `dist^norm` over them. -/
theorem C10_reduceLoss (hneg : (-1 : F) < 0) (space : Space E F) (c elemts : List E)
    (hc : c ≠ []) (norm : F) :
    ∃ losses cards, reduceLoss space c elemts norm = some (losses, cards) ∧
      losses.length = c.length ∧ cards.length = c.length ∧ cards.sum = elemts.length ∧
      ∀ (l : Nat) (x : E), c[l]? = some x →
        let ms := elemts.filter fun e => (nearest space c e).1 == (l : Int)
        cards[l]? = some (ms.length : Int) ∧
        losses[l]? = some (ms.map fun e => GoMath.pow (space.dist e x) norm).sum := by
  obtain ⟨⟨losses, cards⟩, h, hs⟩ := reduceLoss_state hneg space c elemts hc norm
  have hsum : cards.sum = elemts.length := by
    have : cards = (List.range c.length).map fun l =>
        ((members (lossPairs space c norm elemts) l).length : Int) := by
      apply List.ext_getElem?
      intro i
      by_cases hi : i < c.length
      · rw [hs.card i hi]; simp [hi]
      · rw [List.getElem?_eq_none (by have := hs.len2; simp only at this; omega)]; simp; omega
    rw [this, card_sum _ _ (lossPairs_range hneg space c hc norm elemts)]
    simp [lossPairs]
  refine ⟨losses, cards, h, hs.len1, hs.len2, hsum, ?_⟩
  intro l x hx
  have hl := (List.getElem?_eq_some_iff.1 hx).1
  have hmem : members (lossPairs space c norm elemts) l =
      (elemts.filter fun e => (nearest space c e).1 == (l : Int)).map
        fun e => GoMath.pow (space.dist e x) norm := by
    unfold members lossPairs
    rw [List.filter_map, List.map_map]
    apply List.map_congr_left
    intro e he
    have he := (List.mem_filter.1 he).2
    simp only [Function.comp, beq_iff_eq] at he
    obtain ⟨j, y, hj, hn⟩ := nearest_mem hneg space c e hc
    rw [hn] at he
    have : j = l := by simp only at he; omega
    subst this
    rw [hx] at hj
    cases hj
    simp only [Function.comp, hn]
  have h1 := hs.card l hl
  have h2 := hs.loss l hl
  rw [hmem] at h1 h2
  refine ⟨by simpa using h1, ?_⟩
  rw [foldl_add_eq_sum, zero_add] at h2
  exact h2

/-- **C10** (parallel). `ParReduceLoss` and `ParTotalLoss` agree with the sequential versions for
every degree, in exact addition. -/
theorem C10_parLoss (hneg : (-1 : F) < 0) (space : Space E F) (c elemts : List E)
    (hc : c ≠ []) (norm : F) (degree : Int) (hd : 1 ≤ degree) :
    (∃ r, parLoss space c elemts norm degree = some r) ∧
    parLoss space c elemts norm degree = reduceLoss space c elemts norm ∧
    parTotalLoss space c elemts norm degree = totalLoss space c elemts norm := by
  obtain ⟨s, h, hs⟩ := reduceLoss_state hneg space c elemts hc norm
  obtain ⟨s', h', hs'⟩ := parLoss_state hneg space c elemts hc norm degree hd
  have := hs.unique hs'
  subst this
  exact ⟨⟨_, h'⟩, by rw [h, h'], by rw [parTotalLoss, totalLoss, h, h']⟩

/-- **C10** (for labels, parallel). -/
theorem C10_parLossForLabels (space : Space E F) (c elemts : List E) (labels : List Int)
    (hl : labels.length = elemts.length) (hr : ∀ l ∈ labels, 0 ≤ l ∧ l < c.length) (norm : F)
    (degree : Int) (hd : 1 ≤ degree) :
    (∃ r, parLossForLabels space c elemts labels norm degree = some r) ∧
    parLossForLabels space c elemts labels norm degree =
      reduceLossForLabels space c elemts labels norm := by
  obtain ⟨s, h, hs⟩ := reduceLossForLabels_state space c elemts labels (by omega)
    (fun l h => hr l (List.mem_of_mem_take h)) norm
  obtain ⟨s', h', hs'⟩ := parLossForLabels_state space c elemts labels hl hr norm degree hd
  have := hs.unique hs'
  subst this
  exact ⟨⟨_, h'⟩, by rw [h, h']⟩

/-- **C10** (total). `TotalLoss` is the sum over the elements of `dist^norm` to the centroid chosen
by `Assign`. -/
theorem C10_totalLoss (hneg : (-1 : F) < 0) (space : Space E F) (c elemts : List E)
    (hc : c ≠ []) (norm : F) :
    totalLoss space c elemts norm =
      some (elemts.map fun e => GoMath.pow (nearest space c e).2 norm).sum := by
  obtain ⟨s, h, hs⟩ := reduceLoss_state hneg space c elemts hc norm
  rw [totalLoss, h, Option.map_some, hs.sum (lossPairs_range hneg space c hc norm elemts)]
  simp [lossPairs, Function.comp_def]

theorem labelPairs_map_fst (space : Space E F) (c : List E) (norm : F) (d : E) : ∀ (es : List E)
    (ls : List Int), ls.length = es.length → (∀ l ∈ ls, 0 ≤ l ∧ l < c.length) →
    (labelPairs space c norm es ls).map (·.1) =
      List.zipWith (fun e l => GoMath.pow (space.dist e (c.getD l.toNat d)) norm) es ls := by
  intro es
  induction es with
  | nil => intros; rfl
  | cons e es ih =>
    intro ls hlen hr
    cases ls with
    | nil => simp at hlen
    | cons l ls =>
      obtain ⟨h0, hk⟩ := hr l (by simp)
      obtain ⟨x, hx⟩ := idx?_in_range c h0 hk
      have := ih ls (by simpa using hlen) (fun l h => hr l (by simp [h]))
      simp only [labelPairs] at this
      simp only [labelPairs, List.zip_cons_cons, List.filterMap_cons, hx, Option.map_some,
        List.map_cons, List.zipWith_cons_cons, this]
      rw [idx?_of_nonneg c h0] at hx
      simp [List.getD, hx]

end

section
variable {E F : Type} [Zero F] [Add F] [One F] [Neg F] [LT F] [DecidableLT F] [GoMath F]

/-- **C10** (labels of `MapLabel`). `ReduceLossForLabels` with the labels of `MapLabel` is
`ReduceLoss`; no law on floats is used but `-1 < 0`. -/
theorem C10_forLabels_mapLabel (hneg : (-1 : F) < 0) (space : Space E F) (c elemts : List E)
    (hc : c ≠ []) (norm : F) :
    reduceLossForLabels space c elemts (mapLabel space c elemts).1 norm =
      reduceLoss space c elemts norm := by
  obtain ⟨s, h, hs⟩ := reduceLoss_state hneg space c elemts hc norm
  obtain ⟨s', h', hs'⟩ := reduceLossForLabels_state space c elemts (mapLabel space c elemts).1
    (by simp [mapLabel]) (fun l hl => by
      have hl := List.mem_of_mem_take hl
      simp only [mapLabel, List.mem_map] at hl
      obtain ⟨e, _, rfl⟩ := hl
      exact nearest_range hneg space c hc e) norm
  have heq : labelPairs space c norm elemts (mapLabel space c elemts).1 =
      lossPairs space c norm elemts := by
    unfold labelPairs
    rw [zip_mapLabel]
    unfold labelled lossPairs
    rw [List.filterMap_map, ← List.filterMap_eq_map]
    apply List.filterMap_congr
    intro e _
    obtain ⟨j, y, hj, hn⟩ := nearest_mem hneg space c e hc
    simp [Function.comp, hn, hj]
  rw [heq] at hs'
  rw [h, h', hs.unique hs']

end

/-- **C11.** Among all labellings of the data, the labelling of `MapLabel` has the smallest total
loss (real distances non-negative, non-negative norm exponent). -/
theorem C11_mapLabel_minimises_loss {E : Type} (space : Space E ℝ) (c elemts : List E)
    (hc : c ≠ []) (norm : ℝ) (hn : 0 ≤ norm) (h0 : ∀ a b, 0 ≤ space.dist a b)
    (labels : List Int) (hl : labels.length = elemts.length)
    (hr : ∀ l ∈ labels, 0 ≤ l ∧ l < c.length) :
    ∃ best other, reduceLossForLabels space c elemts (mapLabel space c elemts).1 norm = some best ∧
      reduceLossForLabels space c elemts labels norm = some other ∧ sumF best.1 ≤ sumF other.1 := by
  have hneg : (-1 : ℝ) < 0 := by norm_num
  obtain ⟨s, h, hs⟩ := reduceLoss_state hneg space c elemts hc norm
  obtain ⟨s', h', hs'⟩ := reduceLossForLabels_state space c elemts labels (by omega)
    (fun l h => hr l (List.mem_of_mem_take h)) norm
  refine ⟨s, s', ?_, h', ?_⟩
  · rw [C10_forLabels_mapLabel hneg space c elemts hc norm, h]
  · rw [hs.sum (lossPairs_range hneg space c hc norm elemts),
      hs'.sum (labelPairs_range space c norm elemts labels)]
    obtain ⟨d, hd⟩ := List.exists_mem_of_ne_nil c hc
    rw [labelPairs_map_fst space c norm d elemts labels hl hr]
    clear h h' hs hs' s s'
    induction elemts generalizing labels with
    | nil => simp [lossPairs]
    | cons e es ih =>
      cases labels with
      | nil => simp at hl
      | cons l ls =>
        have := ih ls (by simpa using hl) (fun l h => hr l (by simp [h]))
        simp only [lossPairs, List.map_cons, List.sum_cons, List.zipWith_cons_cons] at this ⊢
        refine add_le_add ?_ this
        obtain ⟨hl0, hlk⟩ := hr l (by simp)
        obtain ⟨x, hx⟩ := idx?_in_range c hl0 hlk
        rw [idx?_of_nonneg c hl0] at hx
        have hxg : c.getD l.toNat d = x := by simp [List.getD, hx]
        rw [hxg]
        cases c with
        | nil => exact absurd rfl hc
        | cons c0 cs =>
          obtain ⟨k, y, hk, hy⟩ := nearest_spec hneg space c0 cs e (fun h => h)
            (fun z _ => not_lt.2 (h0 e z))
          rw [hk]
          have : space.dist e y ≤ space.dist e x :=
            not_lt.1 (hy.minimal x (List.mem_of_getElem? hx) (fun h => h))
          exact Real.rpow_le_rpow (h0 e y) this hn

/-- Non-vacuity of C11: the Euclidean distance is non-negative. -/
example (n : Nat) (a b : Vec ℝ n) : 0 ≤ (euclidSpace ℝ n).dist a b := Real.sqrt_nonneg _

/-- An integer instance, only used to evaluate examples: `pow` is `x ^ 2` for any exponent. -/
local instance : GoMath Int := ⟨id, id, fun x _ => x * x, id, id, 0⟩

example : reduceLoss exSpace [0, 10, 50] [1, 9, 4, 5, 6] 2 = some ([42, 17, 0], [3, 2, 0]) := by
  decide
example : parLoss exSpace [0, 10, 50] [1, 9, 4, 5, 6] 2 4 = some ([42, 17, 0], [3, 2, 0]) := by
  decide

end Distclus
