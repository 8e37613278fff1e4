import Verif.Spec.Draws
import Verif.Props.KMeansInit
/-!
# C102: the distribution of the draws of k-means++
-/

namespace Distclus
open Spec MeasureTheory

theorem hasProb_of_between {A : ℝ → Prop} {a b : ℝ} (ha : 0 ≤ a) (hab : a ≤ b) (hb : b ≤ 1)
    (h : ∀ u, 0 < u → u < 1 → (A u ↔ a < u ∧ u ≤ b)) (h0 : ¬ A 0) : HasProb A (b - a) := by
  have hset : {u : ℝ | (0 ≤ u ∧ u < 1) ∧ A u} = Set.Ioc a b ∩ Set.Iio 1 := by
    ext u
    simp only [Set.mem_ofPred_eq, Set.mem_inter_iff, Set.mem_Ioc, Set.mem_Iio]
    constructor
    · rintro ⟨⟨h1, h2⟩, h3⟩
      rcases h1.eq_or_lt with rfl | h1
      · exact absurd h3 h0
      · exact ⟨(h u h1 h2).1 h3, h2⟩
    · rintro ⟨⟨h1, h2⟩, h3⟩
      have hu : 0 < u := lt_of_le_of_lt ha h1
      exact ⟨⟨hu.le, h3⟩, (h u hu h3).2 ⟨h1, h2⟩⟩
  refine ⟨by linarith, ?_, ?_⟩
  · rw [hset]; exact measurableSet_Ioc.inter measurableSet_Iio
  · rw [hset]
    apply le_antisymm
    · exact (measure_mono Set.inter_subset_left).trans (by rw [Real.volume_Ioc])
    · rw [← Real.volume_Ioo (a := a) (b := b)]
      exact measure_mono fun u hu => ⟨⟨hu.1, hu.2.le⟩, lt_of_lt_of_le hu.2 hb⟩

/-- Exclusive events. -/
theorem HasProb.union {ι : Type} (s : Finset ι) {A : ι → ℝ → Prop} {p : ι → ℝ}
    (h : ∀ i ∈ s, HasProb (A i) (p i)) (hx : ∀ i ∈ s, ∀ j ∈ s, ∀ u, A i u → A j u → i = j) :
    HasProb (fun u => ∃ i ∈ s, A i u) (∑ i ∈ s, p i) := by
  have hset : {u : ℝ | (0 ≤ u ∧ u < 1) ∧ ∃ i ∈ s, A i u} =
      ⋃ i ∈ s, {u : ℝ | (0 ≤ u ∧ u < 1) ∧ A i u} := by
    ext u
    simp only [Set.mem_ofPred_eq, Set.mem_iUnion, exists_prop]
    constructor
    · rintro ⟨h1, i, h2, h3⟩; exact ⟨i, h2, h1, h3⟩
    · rintro ⟨i, h2, h1, h3⟩; exact ⟨h1, i, h2, h3⟩
  refine ⟨Finset.sum_nonneg fun i hi => (h i hi).1, ?_, ?_⟩
  · rw [hset]
    exact s.measurableSet_biUnion fun i hi => (h i hi).2.1
  · rw [hset, measure_biUnion_finset, ENNReal.ofReal_sum_of_nonneg fun i hi => (h i hi).1]
    · exact Finset.sum_congr rfl fun i hi => (h i hi).2.2
    · intro i hi j hj hij
      refine Set.disjoint_left.2 fun u h1 h2 => hij (hx i hi j hj u h1.2 h2.2)
    · exact fun i hi => (h i hi).2.1

theorem HasProb.congr {A B : ℝ → Prop} {p : ℝ} (h : HasProb A p)
    (he : ∀ u, 0 ≤ u → u < 1 → (A u ↔ B u)) : HasProb B p := by
  have : {u : ℝ | (0 ≤ u ∧ u < 1) ∧ A u} = {u : ℝ | (0 ≤ u ∧ u < 1) ∧ B u} := by
    ext u
    exact and_congr_right fun hu => he u hu.1 hu.2
  rwa [HasProb, this] at h

theorem hasProb_false {A : ℝ → Prop} (h : ∀ u, 0 ≤ u → u < 1 → ¬ A u) : HasProb A 0 := by
  have : {u : ℝ | (0 ≤ u ∧ u < 1) ∧ A u} = ∅ := by
    ext u
    simp only [Set.mem_ofPred_eq, Set.mem_empty_iff_false, iff_false]
    exact fun hu => h u hu.1.1 hu.1.2 hu.2
  refine ⟨le_rfl, ?_, ?_⟩ <;> rw [this] <;> simp

/-- A probability is unique. -/
theorem HasProb.unique {A : ℝ → Prop} {p q : ℝ} (h : HasProb A p) (h' : HasProb A q) : p = q := by
  have := h.2.2.symm.trans h'.2.2
  rwa [ENNReal.ofReal_eq_ofReal_iff h.1 h'.1] at this

/-- **C102 (weighted choice).** With non-negative weights, `WeightedChoice` returns the index `i` with
probability `w_i / Σ w` (0 when the weights are all null: the error is returned). -/
theorem C102_weightedChoice (ws : List ℝ) (hw : ∀ w ∈ ws, 0 ≤ w) (i : Nat) (w : ℝ)
    (hi : ws[i]? = some w) :
    HasProb (fun u => weightedChoice ws u = .ok (i : Int)) (w / ws.sum) := by
  have hilt := (List.getElem?_eq_some_iff.1 hi).1
  have hie : ws[i] = w := (List.getElem?_eq_some_iff.1 hi).2
  have hw0 : 0 ≤ w := hw w (List.mem_of_getElem? hi)
  rcases (List.sum_nonneg hw).eq_or_lt with hs | hs
  · rw [← hs, div_zero]
    apply hasProb_false
    intro u _ _ h
    rw [(C29_null_iff ws u).2 hs.symm] at h
    cases h
  · have htake : (ws.take (i + 1)).sum = (ws.take i).sum + w := by
      rw [List.take_succ_eq_append_getElem hilt, List.sum_append, hie]; simp
    have hle : (ws.take i).sum + w ≤ ws.sum := by
      rw [← htake]
      have := sum_take_mono hw (show i + 1 ≤ ws.length by omega)
      rwa [List.take_length] at this
    have h0 : 0 ≤ (ws.take i).sum := List.sum_nonneg fun x hx => hw x (List.mem_of_mem_take hx)
    have := hasProb_of_between (A := fun u => weightedChoice ws u = .ok (i : Int))
      (a := (ws.take i).sum / ws.sum) (b := ((ws.take i).sum + w) / ws.sum)
      (by positivity) (by gcongr; linarith) ((div_le_one hs).2 hle) ?_ ?_
    · rwa [← sub_div, add_sub_cancel_left] at this
    · intro u hu0 hu1
      rw [(C29_weightedChoice ws u hw hs hu0 hu1).2 i, div_lt_iff₀ hs, le_div_iff₀ hs]
      constructor
      · rintro ⟨w', h1, _, h3, h4⟩
        rw [hi] at h1; cases h1
        exact ⟨h3, h4⟩
      · rintro ⟨h3, h4⟩
        exact ⟨w, hi, by linarith, h3, h4⟩
    · rw [C29_zero_draw ws hs.ne']
      intro h; injection h with h; omega

/-- The error and the index -1 have probability 0 when some weight is positive. -/
theorem C102_weightedChoice_ok (ws : List ℝ) (hw : ∀ w ∈ ws, 0 ≤ w) (hs : 0 < ws.sum) :
    HasProb (fun u => ∃ i : Nat, i < ws.length ∧ weightedChoice ws u = .ok (i : Int)) 1 := by
  have := HasProb.union (Finset.range ws.length) (A := fun i u => weightedChoice ws u = .ok (i : Int))
    (p := fun i => (ws[i]?).getD 0 / ws.sum) ?_ ?_
  · have hsum : ∑ i ∈ Finset.range ws.length, (ws[i]?).getD 0 / ws.sum = 1 := by
      rw [← Finset.sum_div, div_eq_one_iff_eq hs.ne', Finset.sum_range]
      simp [← List.sum_ofFn]
    rw [hsum] at this
    exact HasProb.congr this fun u _ _ => by simp
  · intro i hi
    have hi := Finset.mem_range.1 hi
    have := C102_weightedChoice ws hw i ws[i] (by simp)
    simpa [hi] using this
  · intro i _ j _ u h1 h2
    rw [h1] at h2
    injection h2 with h2; omega

section
variable {E : Type}

theorem nearest_nearDist (space : Space E ℝ) (h0 : ∀ a b, 0 ≤ space.dist a b) :
    ∀ (c : List E), c ≠ [] → ∀ e, (nearest space c e).2 = nearDist space c e := by
  have hle : ∀ (c : List E), c ≠ [] → ∀ e, (∃ x ∈ c, nearDist space c e = space.dist e x) ∧
      ∀ y ∈ c, nearDist space c e ≤ space.dist e y := by
    intro c
    induction c with
    | nil => intro h; exact absurd rfl h
    | cons a c ih =>
      intro _ e
      cases c with
      | nil => simp [nearDist]
      | cons b c =>
        obtain ⟨⟨x, h1, h2⟩, h3⟩ := ih (by simp) e
        rw [nearDist]
        refine ⟨?_, ?_⟩
        · rcases min_choice (space.dist e a) (nearDist space (b :: c) e) with h | h
          · exact ⟨a, by simp, h⟩
          · exact ⟨x, by simp [List.mem_cons.1 h1], by rw [h, h2]⟩
        · intro y hy
          rcases List.mem_cons.1 hy with rfl | hy
          · exact min_le_left _ _
          · exact (min_le_right _ _).trans (h3 y hy)
  intro c hc e
  obtain ⟨x, hx, h2, h3⟩ := nearest_le' space h0 c hc e
  obtain ⟨⟨y, hy, g2⟩, g3⟩ := hle c hc e
  rw [h2]
  apply le_antisymm
  · rw [g2]; exact h3 y hy
  · exact g3 x hx

variable [DecidableEq E]

/-- **C102 (PPIter).** With non-negative distances, `PPIter` draws each element with a probability
proportional to its distance to the nearest centre. -/
theorem C102_ppIter (space : Space E ℝ) (h0 : ∀ a b, 0 ≤ space.dist a b) (clust elemts : List E)
    (hc : clust ≠ []) (x : E) :
    HasProb (fun u => ppIter space clust elemts u = .ok x) (ppProb space elemts clust x) := by
  have hws : (mapLabel space clust elemts).2 = elemts.map (nearDist space clust) := by
    simp only [mapLabel]
    exact List.map_congr_left fun e _ => nearest_nearDist space h0 clust hc e
  have hpos : ∀ w ∈ elemts.map (nearDist space clust), 0 ≤ w := by
    intro w hw
    obtain ⟨e, _, rfl⟩ := List.mem_map.1 hw
    rw [← nearest_nearDist space h0 clust hc]
    obtain ⟨y, _, h2, _⟩ := nearest_le' space h0 clust hc e
    rw [h2]; exact h0 e y
  have hevent : ∀ u, ppIter space clust elemts u = .ok x ↔
      ∃ i ∈ (Finset.range elemts.length).filter (fun i => (elemts[i]?).map space.copy = some x),
        weightedChoice (elemts.map (nearDist space clust)) u = .ok ((i : Nat) : Int) := by
    intro u
    unfold ppIter
    rw [hws]
    constructor
    · cases hch : weightedChoice (elemts.map (nearDist space clust)) u with
      | panic => simp
      | nullSet => simp only []; split <;> simp
      | ok i =>
        simp only [idx?]
        split
        · rename_i h; intro hh; cases hh
        · rename_i e he
          intro hh
          injection hh with hh
          split at he
          · cases he
          · rename_i hi
            refine ⟨i.toNat, ?_, by congr 1; omega⟩
            simp only [Finset.mem_filter, Finset.mem_range, he, Option.map_some, hh, and_true]
            exact (List.getElem?_eq_some_iff.1 he).1
    · rintro ⟨i, hi, hch⟩
      simp only [Finset.mem_filter, Finset.mem_range] at hi
      rw [hch]
      simp only [idx?, Int.toNat_natCast, if_neg (show ¬ ((i : Nat) : Int) < 0 by omega)]
      rw [List.getElem?_eq_getElem hi.1] at hi ⊢
      simpa using hi.2
  have := HasProb.union
    ((Finset.range elemts.length).filter (fun i => (elemts[i]?).map space.copy = some x))
    (A := fun i u => weightedChoice (elemts.map (nearDist space clust)) u = .ok (i : Int))
    (p := fun i => (((elemts.map (nearDist space clust))[i]?).getD 0) /
      (elemts.map (nearDist space clust)).sum) ?_ ?_
  · have hsum : ∑ i ∈ (Finset.range elemts.length).filter
          (fun i => (elemts[i]?).map space.copy = some x),
        (((elemts.map (nearDist space clust))[i]?).getD 0) /
          (elemts.map (nearDist space clust)).sum = ppProb space elemts clust x := by
      rw [← Finset.sum_div, ppProb]
      congr 1
      clear this hevent hws hpos
      induction elemts with
      | nil => simp
      | cons e l ih =>
        rw [Finset.sum_filter, List.length_cons, Finset.sum_range_succ', ← Finset.sum_filter]
        simp only [List.getElem?_cons_succ, List.map_cons, List.getElem?_cons_zero, Option.map_some,
          Option.getD_some, Option.some.injEq]
        rw [ih, List.filter_cons]
        by_cases h : space.copy e = x
        · simp [h, add_comm]
        · simp [h]
    rw [hsum] at this
    exact HasProb.congr this fun u _ _ => (hevent u).symm
  · intro i hi
    simp only [Finset.mem_filter, Finset.mem_range] at hi
    have := C102_weightedChoice _ hpos i (nearDist space clust elemts[i])
      (by simp [hi.1])
    simpa [hi.1] using this
  · intro i _ j _ u h1 h2
    rw [h1] at h2
    injection h2 with h2; omega

omit [DecidableEq E] in
theorem ppLoop_prefix (space : Space E ℝ) (elemts : List E) : ∀ (n : Nat) (us : List ℝ) (acc c : List E),
    ppLoop space elemts n us acc = some (.ok c) → ∃ t, c = acc ++ t := by
  intro n
  induction n with
  | zero => intro us acc c h; exact ⟨[], by simpa [ppLoop] using h.symm⟩
  | succ n ih =>
    intro us acc c h
    cases us with
    | nil => simp [ppLoop] at h
    | cons u us =>
      rw [ppLoop] at h
      cases hi : ppIter space acc elemts u with
      | panic => simp [hi] at h
      | nullSet => simp [hi] at h
      | ok e =>
        simp only [hi] at h
        obtain ⟨t, rfl⟩ := ih us (acc ++ [e]) c h
        exact ⟨e :: t, by simp⟩

omit [DecidableEq E] in
theorem ppLoop_iff (space : Space E ℝ) (elemts : List E) : ∀ (cs : List E) (us : List ℝ) (acc : List E),
    us.length = cs.length →
    (ppLoop space elemts cs.length us acc = some (.ok (acc ++ cs)) ↔
      ∀ j (h : j < us.length) (h' : j < cs.length),
        ppIter space (acc ++ cs.take j) elemts us[j] = .ok cs[j]) := by
  intro cs
  induction cs with
  | nil => intro us acc h; simp [ppLoop]
  | cons c cs ih =>
    intro us acc h
    cases us with
    | nil => simp at h
    | cons u us =>
      have hl : us.length = cs.length := by simpa using h
      change (ppLoop space elemts (cs.length + 1) (u :: us) acc = _) ↔ _
      rw [ppLoop]
      constructor
      · intro hp
        cases hi : ppIter space acc elemts u with
        | panic => simp [hi] at hp
        | nullSet => simp [hi] at hp
        | ok e =>
          simp only [hi] at hp
          have hec : e = c := by
            obtain ⟨t, ht⟩ := ppLoop_prefix space elemts cs.length us (acc ++ [e]) _ hp
            have := congrArg (fun l => l[acc.length]?) ht
            simp only [List.append_assoc, List.singleton_append,
              List.getElem?_append_right (Nat.le_refl _), Nat.sub_self, List.getElem?_cons_zero,
              Option.some.injEq] at this
            exact this.symm
          subst hec
          rw [show acc ++ e :: cs = (acc ++ [e]) ++ cs by simp, ih us (acc ++ [e]) hl] at hp
          intro j h1 h2
          cases j with
          | zero => simpa using hi
          | succ j => simpa using hp j (by simpa using h1) (by simpa using h2)
      · intro hp
        have := hp 0 (by simp) (by simp)
        simp only [List.take_zero, List.append_nil, List.getElem_cons_zero] at this
        simp only [this]
        rw [show acc ++ c :: cs = (acc ++ [c]) ++ cs by simp, ih us (acc ++ [c]) hl]
        intro j h1 h2
        have := hp (j + 1) (by simpa using h1) (by simpa using h2)
        simp only [List.take_succ_cons, List.getElem_cons_succ] at this
        simpa using this

/-- **C102 (PPInitializer).** The first position being drawn, the next centroids are drawn one after
the other with these probabilities: the probability that `PPInitializer` returns `c0, cs` is the product
of those of the successive draws. -/
theorem C102_ppInitializer (space : Space E ℝ) (h0 : ∀ a b, 0 ≤ space.dist a b) (elemts : List E)
    (first : Nat) (c0 : E) (hf : elemts[first]? = some c0) (cs : List E)
    (hk : cs.length + 1 ≤ elemts.length) :
    HasProbN cs.length
      (fun us => ppInitializer (cs.length + 1 : Nat) elemts space first (List.ofFn us) = some (.ok (c0 :: cs)))
      (∏ j : Fin cs.length, ppProb space elemts (c0 :: cs.take j) cs[j]) := by
  have hp := fun j : Fin cs.length => C102_ppIter space h0 (c0 :: cs.take j) elemts (by simp) cs[j]
  have hset : {us : Fin cs.length → ℝ | (∀ i, 0 ≤ us i ∧ us i < 1) ∧
      ppInitializer (cs.length + 1 : Nat) elemts space first (List.ofFn us) = some (.ok (c0 :: cs))} =
      Set.univ.pi fun j : Fin cs.length =>
        {u : ℝ | (0 ≤ u ∧ u < 1) ∧ ppIter space (c0 :: cs.take j) elemts u = .ok cs[j]} := by
    ext us
    simp only [Set.mem_ofPred_eq, Set.mem_pi, Set.mem_univ, forall_true_left]
    have : ppInitializer (cs.length + 1 : Nat) elemts space first (List.ofFn us) =
        ppLoop space elemts cs.length (List.ofFn us) [c0] := by
      unfold ppInitializer
      rw [if_neg (by omega), if_pos ((initCheck_iff _ _).2 (by omega)), hf]
      rfl
    rw [this, show c0 :: cs = [c0] ++ cs by rfl, ppLoop_iff space elemts cs (List.ofFn us) [c0] (by simp)]
    constructor
    · rintro ⟨h1, h2⟩ j
      refine ⟨h1 j, ?_⟩
      simpa using h2 j (by simp) j.2
    · intro h
      refine ⟨fun j => (h j).1, fun j h1 h2 => ?_⟩
      simpa using (h ⟨j, h2⟩).2
  refine ⟨Finset.prod_nonneg fun j _ => (hp j).1, ?_, ?_⟩
  · rw [hset]; exact MeasurableSet.univ_pi fun j => (hp j).2.1
  · rw [hset, volume_pi_pi, ENNReal.ofReal_prod_of_nonneg fun j _ => (hp j).1]
    exact Finset.prod_congr rfl fun j _ => (hp j).2.2

end

/-- The real line. -/
noncomputable def lineSpace : Space ℝ ℝ where
  dist a b := |a - b|
  combine a w b v := (a * w + b * v) / (w + v)
  copy a := a
  dim _ := 1

/-- From the centre 0, the elements 1 and 3 are drawn with the probabilities 1/4 and 3/4. -/
example : HasProb (fun u => ppIter lineSpace [0] [0, 1, 3] u = .ok 3) (3 / 4) := by
  have := C102_ppIter lineSpace (fun a b => abs_nonneg _) [0] [0, 1, 3] (by simp) 3
  convert this using 1
  norm_num [ppProb, nearDist, lineSpace, List.filter_cons]

/-- Starting from the first element, the centroids 0, 3, 1 are drawn with the probability
`3/4 * 1 = 3/4`. -/
example : HasProbN 2 (fun us => ppInitializer 3 [0, 1, 3] lineSpace 0 (List.ofFn us) = some (.ok [0, 3, 1]))
    (3 / 4) := by
  have := C102_ppInitializer lineSpace (fun a b => abs_nonneg _) [0, 1, 3] 0 0 (by simp) [3, 1] (by simp)
  have he : (∏ j : Fin ([3, 1] : List ℝ).length, ppProb lineSpace [0, 1, 3] (0 :: [3, 1].take j)
      ([3, 1] : List ℝ)[j]) = 3 / 4 := by
    change (∏ j : Fin 2, ppProb lineSpace [0, 1, 3] (0 :: [3, 1].take j) ([3, 1] : List ℝ)[j]) = 3 / 4
    rw [Fin.prod_univ_two]
    norm_num [ppProb, nearDist, lineSpace, List.filter_cons]
  rw [he] at this
  exact this

/-- **C102, claim refuted**: k-means++ draws with probabilities proportional to the *squared*
distances; here they would be 1/10 and 9/10. -/
theorem C102_not_squared : ∃ (space : Space ℝ ℝ) (clust elemts : List ℝ) (x : ℝ),
    (∀ a b, 0 ≤ space.dist a b) ∧ clust ≠ [] ∧
    ¬ HasProb (fun u => ppIter space clust elemts u = .ok x)
      (((elemts.filter fun e => space.copy e = x).map fun e => nearDist space clust e ^ 2).sum /
        (elemts.map fun e => nearDist space clust e ^ 2).sum) := by
  refine ⟨lineSpace, [0], [0, 1, 3], 3, fun a b => abs_nonneg _, by simp, fun h => ?_⟩
  have := HasProb.unique h (C102_ppIter lineSpace (fun a b => abs_nonneg _) [0] [0, 1, 3] (by simp) 3)
  norm_num [ppProb, nearDist, lineSpace, List.filter_cons] at this

end Distclus
