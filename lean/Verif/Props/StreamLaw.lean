import Verif.Spec.StreamLaw
import Verif.Props.Draws
import Verif.Props.Streaming
/-!
# C116: the law of the clusterings of the streaming algorithm
-/
set_option linter.unusedSectionVars false

namespace Distclus
open MeasureTheory ProbabilityTheory Spec
open scoped ENNReal

section
variable {E R : Type} [BEq ℝ] [LawfulBEq ℝ] {space : Space E ℝ} {impl : StreamImpl E ℝ R}

instance (conf : StreamingConf ℝ R) : IsProbabilityMeasure (threshold conf) := by
  unfold threshold; infer_instance

/-- The result depends on the draw only by the decision. -/
theorem process_congr (h0 : ∀ a b, 0 ≤ space.dist a b) (hw : Warm impl) {t t' : ℝ} {e : E}
    (h : t < relDist space impl e ↔ t' < relDist space impl e) :
    impl.process space t e = impl.process space t' e := by
  have hz : (impl.maxDistance == 0) = false := by simpa using hw.max.ne'
  obtain ⟨j, x, _, hn, ha⟩ := assign_eq (by norm_num : (-1 : ℝ) < 0) space impl.clust e hw.some
  have hd : (nearest space impl.clust e).2 = nearDist space impl.clust e :=
    nearest_nearDist space h0 _ hw.some e
  unfold StreamImpl.process
  rw [ha]
  simp only [StreamImpl.getRelativeDistance, hz, Bool.false_eq_true, if_false]
  rw [hn] at hd
  have hr : space.dist e x / impl.maxDistance = relDist space impl e := by rw [show space.dist e x = _ from hd]; rfl
  rw [hr]
  by_cases h1 : t < relDist space impl e
  · rw [if_pos h1, if_pos (h.1 h1)]
  · rw [if_neg h1, if_neg (fun h2 => h1 (h.2 h2))]

/-- What a step does. -/
theorem process_warm (h0 : ∀ a b, 0 ≤ space.dist a b) (hw : Warm impl) (t : ℝ) (e : E) :
    ∃ impl', impl.process space t e = some impl' ∧ Warm impl' ∧ impl'.conf = impl.conf ∧ impl'.c = impl.c ∧
      ((IsOutlier space impl e ∨ t < relDist space impl e) ∧ impl'.clust.length = impl.clust.length + 1 ∨
       ¬ (IsOutlier space impl e ∨ t < relDist space impl e) ∧ impl'.clust.length = impl.clust.length) := by
  have hz : (impl.maxDistance == 0) = false := by simpa using hw.max.ne'
  obtain ⟨impl', hp⟩ := process_total (by norm_num : (-1 : ℝ) < 0) space impl t e hw.some hw.cards
  obtain ⟨hc, hconf, _, hcase⟩ := process_cases space _ _ _ _ hp
  have hdec := C70_decision space impl impl' t e hp
  simp only [hz, Bool.false_eq_true, if_false] at hdec
  rw [nearest_nearDist space h0 _ hw.some e] at hdec
  obtain ⟨d1, d2, d3, _⟩ := hdec
  have hmax : 0 < impl'.maxDistance := by
    by_cases ho : IsOutlier space impl e
    · rw [d2 ho]; exact hw.max
    · rw [d3 ho]; split
      · rename_i h; exact hw.max.trans h
      · exact hw.max
  have hlen : impl'.clust.length = impl.clust.length + 1 ∨ impl'.clust.length = impl.clust.length := by
    rcases hcase with ⟨h, _⟩ | ⟨_, _, _, _, _, _, h, _⟩ <;> rw [h] <;> simp
  have hcards : impl'.cards.length = impl'.clust.length := by
    have := hw.cards
    rcases hcase with ⟨h, h'⟩ | ⟨_, _, _, _, _, _, h, h'⟩ <;> rw [h, h'] <;> simp [this]
  refine ⟨impl', hp, ⟨?_, hcards, hmax⟩, hconf, hc, ?_⟩
  · intro h
    have := List.length_pos_iff.2 hw.some
    rw [h] at hlen
    simp only [List.length_nil] at hlen
    omega
  · by_cases h : IsOutlier space impl e ∨ t < relDist space impl e
    · exact .inl ⟨h, d1.2 h⟩
    · refine .inr ⟨h, hlen.resolve_left fun h' => h (d1.1 h')⟩

/-- **C116 (one element).** In any state with clusters and a positive maximal distance, the draw being normal, an element
opens a cluster with probability 1 if it is an outlier, and otherwise with the probability that the draw is below its
relative distance to the nearest centre; otherwise it is merged. -/
theorem C116_element (h0 : ∀ a b, 0 ≤ space.dist a b) (hw : Warm impl) (e : E) :
    threshold impl.conf {t | ∃ impl', impl.process space t e = some impl' ∧
      impl'.clust.length = impl.clust.length + 1} = openProb space impl e ∧
    threshold impl.conf {t | ∃ impl', impl.process space t e = some impl' ∧
      impl'.clust.length = impl.clust.length} = 1 - openProb space impl e := by
  have h1 : {t | ∃ impl', impl.process space t e = some impl' ∧ impl'.clust.length = impl.clust.length + 1} =
      {t | IsOutlier space impl e ∨ t < relDist space impl e} := by
    ext t
    obtain ⟨i, hp, _, _, _, h⟩ := process_warm h0 hw t e
    simp only [Set.mem_ofPred_eq]
    constructor
    · rintro ⟨i', hp', hl⟩
      rw [hp] at hp'; cases hp'
      rcases h with h | h
      · exact h.1
      · omega
    · intro ho
      rcases h with h | h
      · exact ⟨i, hp, h.2⟩
      · exact absurd ho h.1
  have h2 : {t | ∃ impl', impl.process space t e = some impl' ∧ impl'.clust.length = impl.clust.length} =
      {t | IsOutlier space impl e ∨ t < relDist space impl e}ᶜ := by
    ext t
    obtain ⟨i, hp, _, _, _, h⟩ := process_warm h0 hw t e
    simp only [Set.mem_ofPred_eq, Set.mem_compl_iff]
    constructor
    · rintro ⟨i', hp', hl⟩
      rw [hp] at hp'; cases hp'
      rcases h with h | h
      · omega
      · exact h.1
    · intro ho
      rcases h with h | h
      · exact absurd h.1 ho
      · exact ⟨i, hp, h.2⟩
  have h3 : threshold impl.conf {t | IsOutlier space impl e ∨ t < relDist space impl e} = openProb space impl e := by
    unfold openProb
    split
    · rename_i ho; simp [ho]
    · rename_i ho; simp only [ho, false_or]; rfl
  have hm : MeasurableSet {t : ℝ | IsOutlier space impl e ∨ t < relDist space impl e} := by
    by_cases ho : IsOutlier space impl e
    · simp [ho]
    · simp only [ho, false_or]; exact measurableSet_Iio
  rw [h1, h2, prob_compl_eq_one_sub hm, h3]
  exact ⟨rfl, rfl⟩

/-! ### Sequences -/

theorem pi_succ (G : Measure ℝ) [IsProbabilityMeasure G] {n : Nat} (S : Set ℝ) (T : Set (Fin n → ℝ)) :
    (Measure.pi fun _ : Fin (n + 1) => G) {z | z 0 ∈ S ∧ (fun i => z i.succ) ∈ T} =
      G S * (Measure.pi fun _ : Fin n => G) T := by
  have h := measurePreserving_piFinSuccAbove (fun _ : Fin (n + 1) => G) 0
  rw [← Measure.prod_prod, ← h.measure_preimage_equiv]
  congr 1

theorem decisionProb_set (space : Space E ℝ) (impl : StreamImpl E ℝ R) (e : E) (b : Bool) :
    ∃ S, MeasurableSet S ∧ threshold impl.conf S = decisionProb space impl e b ∧
      ∀ t, t ∈ S ↔ ((IsOutlier space impl e ∨ t < relDist space impl e) ↔ b = true) := by
  have hm : MeasurableSet {t : ℝ | IsOutlier space impl e ∨ t < relDist space impl e} := by
    by_cases ho : IsOutlier space impl e
    · simp [ho]
    · simp only [ho, false_or]; exact measurableSet_Iio
  have h3 : threshold impl.conf {t | IsOutlier space impl e ∨ t < relDist space impl e} = openProb space impl e := by
    unfold openProb
    split
    · rename_i ho; simp [ho]
    · rename_i ho; simp only [ho, false_or]; rfl
  cases b
  · exact ⟨_, hm.compl, by rw [prob_compl_eq_one_sub hm, h3]; rfl, fun t => by simp⟩
  · exact ⟨_, hm, by rw [h3]; rfl, fun t => by simp⟩

/-- **C116 (sequence).** From such a state, with `n` elements waiting and independent normal draws, the `n` next
iterations return clusterings which grow according to given decisions with the product of the probabilities of these
decisions, each in the state left by those before it. -/
theorem C116_sequence (h0 : ∀ a b, 0 ≤ space.dist a b) : ∀ (es : List E) (bs : List Bool) (impl : StreamImpl E ℝ R),
    Warm impl → impl.c = es → bs.length = es.length →
    MeasurableSet {z : Fin es.length → ℝ | Grows space impl (List.ofFn z) bs} ∧
    (Measure.pi fun _ : Fin es.length => threshold impl.conf) {z | Grows space impl (List.ofFn z) bs} =
      pathProb space impl es bs := by
  intro es
  induction es with
  | nil =>
    intro bs impl hw hc hl
    cases bs with
    | cons b bs => simp at hl
    | nil =>
      have : {z : Fin ([] : List E).length → ℝ | Grows space impl (List.ofFn z) []} = Set.univ := by
        ext z; simp [Grows, StreamImpl.run, sizes, grow]
      rw [this]
      exact ⟨MeasurableSet.univ, by rw [measure_univ]; rfl⟩
  | cons e es ih =>
    intro bs impl hw hc hl
    cases bs with
    | nil => simp at hl
    | cons b bs =>
      set impl0 : StreamImpl E ℝ R := { impl with c := es } with hi0
      have hw0 : Warm impl0 := ⟨hw.some, hw.cards, hw.max⟩
      obtain ⟨S, hS, hSp, hSt⟩ := decisionProb_set space impl e b
      set impl1 := decided space impl0 e b with hi1
      by_cases hpos : ∃ t, t ∈ S
      · -- a draw of this decision
        have key : ∀ t ∈ S, ∃ i, impl0.process space t e = some i ∧ Warm i ∧ i.conf = impl.conf ∧ i.c = es ∧
            i.clust.length = (if b then impl.clust.length + 1 else impl.clust.length) ∧ i = impl1 := by
          intro t ht
          obtain ⟨i, hp, hwi, hci, hqi, hdec⟩ := process_warm h0 hw0 t e
          have hb := (hSt t).1 ht
          refine ⟨i, hp, hwi, hci, hqi, ?_, ?_⟩
          · rcases hdec with ⟨h1, h2⟩ | ⟨h1, h2⟩
            · rw [if_pos (hb.1 h1)]; exact h2
            · rw [if_neg (fun h => h1 (hb.2 h))]; exact h2
          · rw [hi1]
            unfold decided
            by_cases ho : IsOutlier space impl0 e
            · -- the draw does not matter
              have : ∀ t', impl0.process space t' e = impl0.process space t e := fun t' => by
                obtain ⟨j, x, _, hn, ha⟩ := assign_eq (by norm_num : (-1 : ℝ) < 0) space impl0.clust e hw0.some
                have hz : (impl0.maxDistance == 0) = false := by simpa using hw0.max.ne'
                have hd := nearest_nearDist space h0 _ hw0.some e
                unfold StreamImpl.process
                rw [ha]
                simp only [StreamImpl.getRelativeDistance, hz, Bool.false_eq_true, if_false]
                have ho' : impl0.conf.outAfter ≤ impl0.count ∧
                    impl0.conf.outRatio < space.dist e x / impl0.maxDistance := by
                  rw [hn] at hd
                  rw [show space.dist e x = _ from hd]; exact ho
                rw [if_pos ho', if_pos ho']
              rw [this, hp]; rfl
            · have hiff : t < relDist space impl0 e ↔ b = true := by
                have := hb
                constructor
                · exact fun h => this.1 (.inr h)
                · exact fun h => (this.2 h).resolve_left ho
              rw [process_congr h0 hw0 (t := if b then relDist space impl0 e - 1 else relDist space impl0 e) (t' := t), hp]
              · rfl
              · rw [hiff]; cases b <;> simp
        have hw1 : Warm impl1 ∧ impl1.conf = impl.conf ∧ impl1.c = es ∧
            impl1.clust.length = (if b then impl.clust.length + 1 else impl.clust.length) := by
          obtain ⟨t, ht⟩ := hpos
          obtain ⟨i, _, h1, h2, h3, h4, h5⟩ := key t ht
          exact h5 ▸ ⟨h1, h2, h3, h4⟩
        have hset : {z : Fin (e :: es).length → ℝ | Grows space impl (List.ofFn z) (b :: bs)} =
            {z | z 0 ∈ S ∧ (fun i : Fin es.length => z i.succ) ∈
              {z | Grows space impl1 (List.ofFn z) bs}} := by
          ext z
          simp only [Set.mem_ofPred_eq, Grows]
          rw [show List.ofFn z = z 0 :: List.ofFn (fun i : Fin es.length => z i.succ) from List.ofFn_succ]
          simp only [List.map_cons, StreamImpl.run, StreamImpl.step, StreamImpl.iterate, hc]
          obtain ⟨i, hp, hwi, _, _, hdec⟩ := process_warm h0 hw0 (z 0) e
          rw [hp]
          simp only
          constructor
          · rintro ⟨i', rs, hrun, hs⟩
            cases hr : i.run space ((List.ofFn fun i : Fin es.length => z i.succ).map .iterate) with
            | none => rw [hr] at hrun; cases hrun
            | some q =>
              rw [hr] at hrun
              simp only [Option.some.injEq, Prod.mk.injEq] at hrun
              obtain ⟨_, rfl⟩ := hrun
              simp only [sizes, grow, List.cons.injEq] at hs
              have hz : z 0 ∈ S := by
                rw [hSt]
                have h1 := hs.1
                rcases hdec with ⟨h2, h3⟩ | ⟨h2, h3⟩
                · refine ⟨fun _ => ?_, fun _ => h2⟩
                  by_contra hb
                  rw [if_neg hb] at h1
                  have : i.clust.length = impl.clust.length + 1 := h3
                  omega
                · refine ⟨fun h => absurd h h2, fun hb => ?_⟩
                  rw [if_pos hb] at h1
                  have : i.clust.length = impl.clust.length := h3
                  omega
              obtain ⟨i2, hp2, _, _, _, hl2, he2⟩ := key _ hz
              rw [hp] at hp2; cases hp2
              refine ⟨hz, q.1, q.2, by rw [← he2]; exact hr, ?_⟩
              rw [hs.2, ← he2, hl2]
          · rintro ⟨hz, i', rs, hrun, hs⟩
            obtain ⟨i2, hp2, _, _, _, hl2, he2⟩ := key _ hz
            rw [hp] at hp2; cases hp2
            rw [he2, hrun]
            refine ⟨_, _, rfl, ?_⟩
            simp only [sizes, grow, hs]
            rw [hw1.2.2.2]
        obtain ⟨hm1, hp1⟩ := ih bs impl1 hw1.1 hw1.2.2.1 (by simpa using hl)
        rw [hset]
        refine ⟨?_, ?_⟩
        · have hf : Measurable fun (z : Fin (es.length + 1) → ℝ) (i : Fin es.length) => z i.succ :=
            measurable_pi_lambda _ fun i => measurable_pi_apply i.succ
          exact (measurable_pi_apply (0 : Fin (es.length + 1)) hS).inter (hf hm1)
        · have := pi_succ (threshold impl.conf) S {z : Fin es.length → ℝ | Grows space impl1 (List.ofFn z) bs}
          rw [hw1.2.1] at hp1
          rw [hp1, hSp] at this
          exact this
      · -- the decision is impossible
        have hS0 : S = ∅ := Set.eq_empty_iff_forall_notMem.2 fun t ht => hpos ⟨t, ht⟩
        have hzero : decisionProb space impl e b = 0 := by rw [← hSp, hS0, measure_empty]
        have hset : {z : Fin (e :: es).length → ℝ | Grows space impl (List.ofFn z) (b :: bs)} = ∅ := by
          refine Set.eq_empty_iff_forall_notMem.2 fun z hz => hpos ⟨z 0, ?_⟩
          simp only [Set.mem_ofPred_eq, Grows] at hz
          rw [show List.ofFn z = z 0 :: List.ofFn (fun i : Fin es.length => z i.succ) from List.ofFn_succ] at hz
          simp only [List.map_cons, StreamImpl.run, StreamImpl.step, StreamImpl.iterate, hc] at hz
          obtain ⟨i, hp, hwi, _, _, hdec⟩ := process_warm h0 hw0 (z 0) e
          rw [hp] at hz
          simp only at hz
          obtain ⟨i', rs, hrun, hs⟩ := hz
          cases hr : i.run space ((List.ofFn fun i : Fin es.length => z i.succ).map .iterate) with
          | none => rw [hr] at hrun; cases hrun
          | some q =>
            rw [hr] at hrun
            simp only [Option.some.injEq, Prod.mk.injEq] at hrun
            obtain ⟨_, rfl⟩ := hrun
            simp only [sizes, grow, List.cons.injEq] at hs
            rw [hSt]
            have h1 := hs.1
            rcases hdec with ⟨h2, h3⟩ | ⟨h2, h3⟩
            · refine ⟨fun _ => ?_, fun _ => h2⟩
              by_contra hb
              rw [if_neg hb] at h1
              have : i.clust.length = impl.clust.length + 1 := h3
              omega
            · refine ⟨fun h => absurd h h2, fun hb => ?_⟩
              rw [if_pos hb] at h1
              have : i.clust.length = impl.clust.length := h3
              omega
        rw [hset]
        exact ⟨MeasurableSet.empty, by rw [measure_empty, pathProb, hzero, zero_mul]⟩

/-! ### The probability of opening a cluster -/

/-- **C116 (monotone).** The farther an element is of its nearest centre, the more probably it opens a cluster. -/
theorem C116_mono (hw : Warm impl) (e e' : E)
    (h : nearDist space impl.clust e ≤ nearDist space impl.clust e') : openProb space impl e ≤ openProb space impl e' := by
  have hr : relDist space impl e ≤ relDist space impl e' := div_le_div_of_nonneg_right h hw.max.le
  unfold openProb
  by_cases h1 : IsOutlier space impl e
  · have h2 : IsOutlier space impl e' := ⟨h1.1, h1.2.trans_le hr⟩
    rw [if_pos h1, if_pos h2]
  · rw [if_neg h1]
    split
    · exact prob_le_one
    · exact measure_mono (Set.Iio_subset_Iio hr)

/-- Half of the draws are below the mean. -/
theorem threshold_half (conf : StreamingConf ℝ R) (hs : conf.sigma ≠ 0) :
    threshold conf (Set.Iio conf.mu) = 1 / 2 := by
  have hv : (conf.sigma ^ 2).toNNReal ≠ 0 := by
    have : 0 < conf.sigma ^ 2 := by positivity
    exact (Real.toNNReal_pos.2 this).ne'
  set G := threshold conf with hG
  set m := conf.mu
  have h1 : G (Set.Iio m) = G (Set.Ioi m) := by
    have h2 : G.map (fun x => 2 * m - x) = G := by
      rw [hG]; unfold threshold
      rw [gaussianReal_map_const_sub]
      congr 1; ring
    conv_rhs => rw [← h2]
    rw [Measure.map_apply (by fun_prop) measurableSet_Ioi]
    congr 1
    ext x
    simp only [Set.mem_Iio, Set.mem_preimage, Set.mem_Ioi]
    constructor <;> intro h <;> linarith
  have h3 : G {m} = 0 := by
    have := gaussianReal_absolutelyContinuous m hv (s := {m}) (by simp)
    exact this
  have h4 : G (Set.Iio m) + G (Set.Ioi m) = 1 := by
    rw [← measure_union (Set.disjoint_left.2 fun x h h' => lt_asymm (Set.mem_Iio.1 h) (Set.mem_Ioi.1 h')) measurableSet_Ioi]
    have h5 : Set.Iio m ∪ Set.Ioi m = {m}ᶜ := by
      ext x; simp
    rw [h5, prob_compl_eq_one_sub (measurableSet_singleton m), h3, tsub_zero]
  rw [← h1, ← two_mul] at h4
  rw [ENNReal.eq_div_iff (by norm_num) (by norm_num)]
  exact h4

/-- **C116 (median).** At the relative distance `Mu`, an element which is not an outlier opens a cluster with probability
one half. -/
theorem C116_median (hs : impl.conf.sigma ≠ 0) (e : E) (ho : ¬ IsOutlier space impl e)
    (hr : relDist space impl e = impl.conf.mu) : openProb space impl e = 1 / 2 := by
  unfold openProb
  rw [if_neg ho, hr]
  exact threshold_half _ hs

/-- **C116 (any element).** Every element opens a cluster with a positive probability. -/
theorem C116_positive (hs : impl.conf.sigma ≠ 0) (e : E) : 0 < openProb space impl e := by
  unfold openProb
  split
  · exact one_pos
  · have hv : (impl.conf.sigma ^ 2).toNNReal ≠ 0 := by
      have : 0 < impl.conf.sigma ^ 2 := by positivity
      exact (Real.toNNReal_pos.2 this).ne'
    refine pos_iff_ne_zero.2 fun h => ?_
    have := gaussianReal_absolutelyContinuous' impl.conf.mu hv h
    simp at this

/-- **C116 (claim examined).** "An element at distance 0 of a centre is merged with it" does not have probability 1: such
an element opens a second cluster at the same place with a positive probability, at most one half when `Mu` and
`OutRatio` are not negative. -/
theorem C116_equal (hs : impl.conf.sigma ≠ 0) (hmu : 0 ≤ impl.conf.mu) (hr : 0 ≤ impl.conf.outRatio) (e : E)
    (he : nearDist space impl.clust e = 0) : 0 < openProb space impl e ∧ openProb space impl e ≤ 1 / 2 := by
  refine ⟨C116_positive hs e, ?_⟩
  have h0 : relDist space impl e = 0 := by rw [relDist, he, zero_div]
  have ho : ¬ IsOutlier space impl e := fun h => absurd h.2 (by rw [h0]; exact hr.not_gt)
  rw [openProb, if_neg ho, h0, ← threshold_half impl.conf hs]
  exact measure_mono (Set.Iio_subset_Iio hmu)

/-- **C116 (first distance).** While the maximal distance is 0, an element which is not an outlier at a positive distance
of its nearest centre opens a cluster with a probability which does not depend on the distance: that of a draw below 1. -/
theorem C116_first (h0 : ∀ a b, 0 ≤ space.dist a b) (hc : impl.clust ≠ []) (hl : impl.cards.length = impl.clust.length)
    (hm : impl.maxDistance = 0) (e : E) (he : 0 < nearDist space impl.clust e)
    (ho : ¬ (impl.conf.outAfter ≤ impl.count ∧ impl.conf.outRatio < 1)) :
    threshold impl.conf {t | ∃ impl', impl.process space t e = some impl' ∧
      impl'.clust.length = impl.clust.length + 1 ∧ impl'.maxDistance = nearDist space impl.clust e} =
    threshold impl.conf (Set.Iio 1) := by
  congr 1
  ext t
  have hz : (impl.maxDistance == 0) = true := by simpa using hm
  obtain ⟨impl', hp⟩ := process_total (by norm_num : (-1 : ℝ) < 0) space impl t e hc hl
  have hdec := C70_decision space impl impl' t e hp
  simp only [hz, if_true] at hdec
  rw [nearest_nearDist space h0 _ hc e, div_self he.ne'] at hdec
  simp only [ho, false_or, not_false_eq_true, forall_const, lt_irrefl, if_false] at hdec
  simp only [Set.mem_ofPred_eq, Set.mem_Iio]
  constructor
  · rintro ⟨i, hi, h1, _⟩
    rw [hp] at hi; cases hi
    exact hdec.1.1 h1
  · intro h
    exact ⟨impl', hp, hdec.1.2 h, hdec.2.2.1⟩

end

/-! ## The hypotheses are met -/

/-- Two centres, the maximal distance is 4, the elements 1 and 9 are waiting. -/
noncomputable def warmExample : StreamImpl ℝ ℝ Unit :=
  { maxDistance := 4, clust := [0, 4], cards := [1, 1], c := [1, 9],
    conf := {
      ctrl := { iter := 0, iterFreq := 0, timeout := 0, dataPerIter := 0, iterPerData := 0 },
      bufferSize := 100, mu := 1 / 4, sigma := 1 / 10, outRatio := 2, outAfter := 5, rgen := none }
    count := 1 }

example : Warm warmExample := ⟨by simp [warmExample], rfl, by norm_num [warmExample]⟩

example : ∀ a b, 0 ≤ lineSpace.dist a b := fun _ _ => abs_nonneg _

/-- The element 1 opens a cluster with probability one half. -/
example : openProb lineSpace warmExample 1 = 1 / 2 := by
  refine C116_median (by norm_num [warmExample]) 1 (fun h => ?_) ?_
  · exact absurd h.1 (by norm_num [warmExample])
  · norm_num [relDist, nearDist, lineSpace, warmExample, abs_of_neg]

/-- The probability that the elements 1, then 9, are both merged, or that they open a cluster each, are given by
`C116_sequence`. -/
example (bs : List Bool) (h : bs.length = 2) :=
  C116_sequence (space := lineSpace) (fun _ _ => abs_nonneg _) [1, 9] bs warmExample
    ⟨by simp [warmExample], rfl, by norm_num [warmExample]⟩ rfl h

end Distclus
