import Verif.Spec.Seeding
import Verif.Props.Draws
import Verif.Props.Loss
import Verif.Props.KMeansOpt
import Verif.Proof.Seeding
/-!
# C122: how good are the first centroids of k-means++?
-/
namespace Distclus
open Spec MeasureTheory Seeding

section
variable {E : Type}

theorem sum_positions (l : List E) (f : E → ℝ) : (l.map f).sum = ∑ i : Fin l.length, f l[i] := by
  rw [← List.sum_ofFn]
  congr 1
  apply List.ext_getElem <;> simp

/-- The sum of the distances of the data to the nearest centre. -/
theorem loss_nearDist (space : Space E ℝ) (h0 : ∀ a b, 0 ≤ space.dist a b) (c data : List E) (hc : c ≠ []) :
    totalLoss space c data 1 = some (∑ i : Fin data.length, nearDist space c data[i]) := by
  rw [C10_totalLoss (by norm_num) space c data hc 1]
  have hpow : ∀ x : ℝ, GoMath.pow x 1 = x := fun x => Real.rpow_one x
  simp only [hpow, nearest_nearDist space h0 c hc]
  rw [sum_positions]

theorem nearDist_nonneg (space : Space E ℝ) (h0 : ∀ a b, 0 ≤ space.dist a b) (c : List E) (e : E) :
    0 ≤ nearDist space c e := by
  induction c with
  | nil => exact le_rfl
  | cons x c ih =>
    cases c with
    | nil => exact h0 _ _
    | cons y c => exact le_min (h0 _ _) ih

theorem nearDist_append (space : Space E ℝ) (x e : E) (c : List E) (hc : c ≠ []) :
    nearDist space (c ++ [x]) e = min (nearDist space c e) (space.dist e x) := by
  induction c with
  | nil => exact absurd rfl hc
  | cons y c ih =>
    cases c with
    | nil => rfl
    | cons z c =>
      have := ih (by simp)
      simp only [List.cons_append, nearDist] at this ⊢
      rw [this, min_assoc]

/-- The event that the next centre is the element at position `j`. -/
def Next (space : Space E ℝ) (acc data : List E) (j : Nat) : Set ℝ :=
  {u | (0 ≤ u ∧ u < 1) ∧ weightedChoice (data.map (nearDist space acc)) u = .ok (j : Int)}

theorem next_prob (space : Space E ℝ) (h0 : ∀ a b, 0 ≤ space.dist a b) (acc data : List E) (j : Fin data.length) :
    MeasurableSet (Next space acc data j) ∧ volume (Next space acc data j) =
      ENNReal.ofReal (nearDist space acc data[j] / ∑ i : Fin data.length, nearDist space acc data[i]) := by
  have h := C102_weightedChoice (data.map (nearDist space acc))
    (fun w hw => by
      obtain ⟨e, _, rfl⟩ := List.mem_map.1 hw
      exact nearDist_nonneg space h0 acc e) j (nearDist space acc data[j]) (by simp)
  have hs : (data.map (nearDist space acc)).sum = ∑ i : Fin data.length, nearDist space acc data[i] :=
    sum_positions _ _
  rw [hs] at h
  exact ⟨h.2.1, h.2.2⟩

/-- What `PPIter` does according to the position drawn. -/
theorem ppIter_cases (space : Space E ℝ) (h0 : ∀ a b, 0 ≤ space.dist a b) (acc data : List E) (hc : acc ≠ [])
    (u : ℝ) (hu : 0 ≤ u ∧ u < 1) :
    (∃ j : Fin data.length, u ∈ Next space acc data j ∧ (∀ l : Fin data.length, u ∈ Next space acc data l → l = j) ∧
      ppIter space acc data u = .ok (space.copy data[j])) ∨
    ((∀ j : Fin data.length, u ∉ Next space acc data j) ∧ ∀ e, ppIter space acc data u ≠ .ok e) := by
  have hws : (mapLabel space acc data).2 = data.map (nearDist space acc) := by
    simp only [mapLabel]
    exact List.map_congr_left fun e _ => nearest_nearDist space h0 acc hc e
  unfold ppIter
  rw [hws]
  cases hch : weightedChoice (data.map (nearDist space acc)) u with
  | panic => right; simp [Next, hch]
  | nullSet => right; refine ⟨by simp [Next, hch], fun e => ?_⟩; simp only []; split <;> simp
  | ok i =>
    by_cases hi : 0 ≤ i ∧ i < data.length
    · left
      refine ⟨⟨i.toNat, by omega⟩, ⟨hu, by rw [hch]; congr 1; simp only []; omega⟩, fun l hl => ?_, ?_⟩
      · have := hl.2
        rw [hch] at this
        injection this with this
        ext
        simp only []
        omega
      · simp only [idx?, if_neg (show ¬ i < 0 by omega)]
        rw [List.getElem?_eq_getElem (by omega)]
        rfl
    · right
      refine ⟨fun j hj => ?_, fun e => ?_⟩
      · have := hj.2
        rw [hch] at this
        injection this with this
        have := j.2
        omega
      · simp only [idx?]
        split
        · simp
        · rename_i x hx
          split at hx
          · cases hx
          · have := (List.getElem?_eq_some_iff.1 hx).1
            omega

/-- A function of the element drawn by `PPIter`. -/
theorem ppIter_sum (space : Space E ℝ) (h0 : ∀ a b, 0 ≤ space.dist a b) (acc data : List E) (hc : acc ≠ [])
    (G : PPRes E → ENNReal) (hp : G .panic = 0) (hn : G .nullSet = 0) (u : ℝ) (hu : 0 ≤ u ∧ u < 1) :
    G (ppIter space acc data u) =
      ∑ j : Fin data.length, (Next space acc data j).indicator (fun _ => G (.ok (space.copy data[j]))) u := by
  rcases ppIter_cases space h0 acc data hc u hu with ⟨j, h1, h2, h3⟩ | ⟨h1, h2⟩
  · rw [h3, Finset.sum_eq_single j]
    · rw [Set.indicator_of_mem h1]
    · intro l _ hl
      exact Set.indicator_of_notMem (fun h => hl (h2 l h)) _
    · simp
  · rw [Finset.sum_eq_zero fun j _ => Set.indicator_of_notMem (h1 j) _]
    cases h : ppIter space acc data u with
    | panic => exact hp
    | nullSet => exact hn
    | ok e => exact absurd h (h2 e)

/-- The loss after `t` more draws. -/
noncomputable def lossAfter (space : Space E ℝ) (data : List E) (norm : ℝ) (t : Nat) (acc : List E)
    (us : Fin t → ℝ) : ENNReal :=
  ENNReal.ofReal (drawnLoss space data norm (ppLoop space data t (List.ofFn us) acc))

theorem lossAfter_succ (space : Space E ℝ) (h0 : ∀ a b, 0 ≤ space.dist a b) (data : List E) (norm : ℝ) (t : Nat)
    (acc : List E) (hc : acc ≠ []) (us : Fin (t + 1) → ℝ) (hu : 0 ≤ us 0 ∧ us 0 < 1) :
    lossAfter space data norm (t + 1) acc us =
      ∑ j : Fin data.length, (Next space acc data j).indicator
        (fun _ => lossAfter space data norm t (acc ++ [space.copy data[j]]) (Fin.tail us)) (us 0) := by
  have h := ppIter_sum space h0 acc data hc
    (fun r => match r with
      | .ok e => lossAfter space data norm t (acc ++ [e]) (Fin.tail us)
      | _ => 0) rfl rfl (us 0) hu
  simp only [] at h
  rw [← h]
  unfold lossAfter
  rw [List.ofFn_succ, ppLoop]
  cases ppIter space acc data (us 0) with
  | panic => simp [drawnLoss]
  | nullSet => simp [drawnLoss]
  | ok e => rfl

theorem lossAfter_measurable (space : Space E ℝ) (h0 : ∀ a b, 0 ≤ space.dist a b) (data : List E) (norm : ℝ) :
    ∀ (t : Nat) (acc : List E), acc ≠ [] → ∃ G : (Fin t → ℝ) → ENNReal, Measurable G ∧
      ∀ us, (∀ i, 0 ≤ us i ∧ us i < 1) → lossAfter space data norm t acc us = G us := by
  intro t
  induction t with
  | zero =>
    intro acc _
    exact ⟨fun _ => ENNReal.ofReal (drawnLoss space data norm (some (.ok acc))), measurable_const,
      fun us _ => by simp [lossAfter, ppLoop]⟩
  | succ t ih =>
    intro acc hc
    choose G hG1 hG2 using fun j : Fin data.length => ih (acc ++ [space.copy data[j]]) (by simp)
    refine ⟨fun us => ∑ j : Fin data.length, (Next space acc data j).indicator (fun _ => G j (Fin.tail us)) (us 0), ?_, ?_⟩
    · refine Finset.measurable_sum _ fun j _ => ?_
      have : (fun us : Fin (t + 1) → ℝ => (Next space acc data j).indicator (fun _ => G j (Fin.tail us)) (us 0)) =
          {us : Fin (t + 1) → ℝ | us 0 ∈ Next space acc data j}.indicator (fun us => G j (Fin.tail us)) := by
        funext us
        by_cases h : us 0 ∈ Next space acc data j
        · rw [Set.indicator_of_mem h, Set.indicator_of_mem (by exact h)]
        · rw [Set.indicator_of_notMem h, Set.indicator_of_notMem (by exact h)]
      rw [this]
      refine Measurable.indicator ?_ ?_
      · exact (hG1 j).comp (measurable_pi_lambda _ fun i => measurable_pi_apply _)
      · exact (measurable_pi_apply 0) (next_prob space h0 acc data j).1
    · intro us hus
      rw [lossAfter_succ space h0 data norm t acc hc us (hus 0)]
      refine Finset.sum_congr rfl fun j _ => ?_
      rw [hG2 j (Fin.tail us) fun i => hus i.succ]

theorem uniform_cube (n : Nat) : ∀ᵐ us ∂ uniform n, ∀ i, 0 ≤ us i ∧ us i < 1 := by
  unfold uniform
  rw [ae_all_iff]
  intro i
  have : ∀ᵐ x ∂ (volume : Measure ℝ).restrict (Set.Ico 0 1), 0 ≤ x ∧ x < 1 :=
    ae_restrict_of_forall_mem measurableSet_Ico fun x hx => hx
  exact (Measure.quasiMeasurePreserving_eval
    (fun _ : Fin n => (volume : Measure ℝ).restrict (Set.Ico 0 1)) i).ae this

theorem lossAfter_aemeasurable (space : Space E ℝ) (h0 : ∀ a b, 0 ≤ space.dist a b) (data : List E) (norm : ℝ)
    (t : Nat) (acc : List E) (hc : acc ≠ []) : AEMeasurable (lossAfter space data norm t acc) (uniform t) := by
  obtain ⟨G, h1, h2⟩ := lossAfter_measurable space h0 data norm t acc hc
  exact ⟨G, h1, (uniform_cube t).mono fun us hus => h2 us hus⟩

/-- The mean of the loss after `t` more draws, from the draws that follow the next one. -/
theorem mean_succ (space : Space E ℝ) (h0 : ∀ a b, 0 ≤ space.dist a b) (data : List E) (norm : ℝ) (t : Nat)
    (acc : List E) (hc : acc ≠ []) :
    ∫⁻ us, lossAfter space data norm (t + 1) acc us ∂ uniform (t + 1) =
      ∑ j : Fin data.length,
        ENNReal.ofReal (nearDist space acc data[j] / ∑ i : Fin data.length, nearDist space acc data[i]) *
          ∫⁻ us, lossAfter space data norm t (acc ++ [space.copy data[j]]) us ∂ uniform t := by
  set μ := (volume : Measure ℝ).restrict (Set.Ico 0 1) with hμ
  have hmp := (measurePreserving_piFinSuccAbove (fun _ : Fin (t + 1) => μ) 0).symm
  have e1 : ∫⁻ us, lossAfter space data norm (t + 1) acc us ∂ uniform (t + 1) =
      ∫⁻ z, lossAfter space data norm (t + 1) acc
        ((MeasurableEquiv.piFinSuccAbove (fun _ => ℝ) 0).symm z) ∂ μ.prod (uniform t) :=
    (hmp.lintegral_comp_emb (MeasurableEquiv.measurableEmbedding _) _).symm
  have hae : AEMeasurable (fun z : ℝ × (Fin t → ℝ) => lossAfter space data norm (t + 1) acc
        ((MeasurableEquiv.piFinSuccAbove (fun _ => ℝ) 0).symm z)) (μ.prod (uniform t)) :=
    (lossAfter_aemeasurable space h0 data norm (t + 1) acc hc).comp_quasiMeasurePreserving
      hmp.quasiMeasurePreserving
  have : SFinite (uniform t) := by unfold uniform; infer_instance
  rw [e1, lintegral_prod _ hae]
  have e2 : ∀ u, 0 ≤ u ∧ u < 1 → ∫⁻ us, lossAfter space data norm (t + 1) acc
        ((MeasurableEquiv.piFinSuccAbove (fun _ => ℝ) 0).symm (u, us)) ∂ uniform t =
      ∑ j : Fin data.length, (Next space acc data j).indicator
        (fun _ => ∫⁻ us, lossAfter space data norm t (acc ++ [space.copy data[j]]) us ∂ uniform t) u := by
    intro u hu
    have e3 : ∀ us : Fin t → ℝ, lossAfter space data norm (t + 1) acc
        ((MeasurableEquiv.piFinSuccAbove (fun _ => ℝ) 0).symm (u, us)) =
        ∑ j : Fin data.length, (Next space acc data j).indicator
          (fun _ => lossAfter space data norm t (acc ++ [space.copy data[j]]) us) u := by
      intro us
      have := lossAfter_succ space h0 data norm t acc hc
        ((MeasurableEquiv.piFinSuccAbove (fun _ => ℝ) 0).symm (u, us)) (by simpa using hu)
      have ht : Fin.tail ((MeasurableEquiv.piFinSuccAbove (fun _ => ℝ) 0).symm (u, us)) = us := by
        funext i; simp [Fin.tail, Fin.consEquiv]
      rw [ht] at this
      rw [this]
      refine Finset.sum_congr rfl fun j _ => ?_
      congr 1
    simp only [e3]
    rw [lintegral_finsetSum']
    · refine Finset.sum_congr rfl fun j _ => ?_
      by_cases h : u ∈ Next space acc data j
      · simp only [Set.indicator_of_mem h]
      · simp only [Set.indicator_of_notMem h, lintegral_zero]
    · intro j _
      by_cases h : u ∈ Next space acc data j
      · simp only [Set.indicator_of_mem h]
        exact lossAfter_aemeasurable space h0 data norm t _ (by simp)
      · simp only [Set.indicator_of_notMem h]
        exact aemeasurable_const
  rw [setLIntegral_congr_fun measurableSet_Ico fun u hu => e2 u hu]
  rw [lintegral_finsetSum']
  · refine Finset.sum_congr rfl fun j _ => ?_
    obtain ⟨hm, hv⟩ := next_prob space h0 acc data j
    rw [lintegral_indicator_const hm, Measure.restrict_apply hm, mul_comm]
    congr 1
    rw [← hv]
    congr 1
    exact Set.inter_eq_left.2 fun u hu => hu.1
  · intro j _
    exact (measurable_const.indicator (next_prob space h0 acc data j).1).aemeasurable

/-- The mean of the loss (norm 1) is that of `Seeding.expect`. -/
theorem mean_expect (space : Space E ℝ) (hm : PseudoMetric space) (data : List E) :
    ∀ (t : Nat) (acc : List E), acc ≠ [] →
      ∫⁻ us, lossAfter space data 1 t acc us ∂ uniform t =
        ENNReal.ofReal (expect (fun i j : Fin data.length => space.dist data[i] data[j]) t
          fun i => nearDist space acc data[i]) := by
  intro t
  induction t with
  | zero =>
    intro acc hc
    have : IsProbabilityMeasure (uniform 0) := by
      have : IsProbabilityMeasure ((volume : Measure ℝ).restrict (Set.Ico 0 1)) := ⟨by simp⟩
      unfold uniform; infer_instance
    have : ∀ us : Fin 0 → ℝ, lossAfter space data 1 0 acc us =
        ENNReal.ofReal (∑ i : Fin data.length, nearDist space acc data[i]) := by
      intro us
      simp [lossAfter, ppLoop, drawnLoss, loss_nearDist space hm.nonneg acc data hc]
    simp only [this, lintegral_const, measure_univ, mul_one]
    rfl
  | succ t ih =>
    intro acc hc
    rw [mean_succ space hm.nonneg data 1 t acc hc, expect, ENNReal.ofReal_sum_of_nonneg]
    · refine Finset.sum_congr rfl fun j _ => ?_
      have hp : 0 ≤ nearDist space acc data[j] / ∑ i : Fin data.length, nearDist space acc data[i] :=
        div_nonneg (nearDist_nonneg space hm.nonneg _ _)
          (Finset.sum_nonneg fun i _ => nearDist_nonneg space hm.nonneg _ _)
      rw [ENNReal.ofReal_mul hp, ih _ (by simp)]
      congr 3
      funext i
      rw [nearDist_append space _ _ acc hc, hm.copy]
    · intro j _
      refine mul_nonneg (div_nonneg (nearDist_nonneg space hm.nonneg _ _)
          (Finset.sum_nonneg fun i _ => nearDist_nonneg space hm.nonneg _ _)) (expect_nonneg ?_ _ _ ?_)
      · intro i l; exact hm.nonneg _ _
      · intro i; exact le_min (nearDist_nonneg space hm.nonneg _ _) (hm.nonneg _ _)

end

section
variable {E : Type}

theorem ppInitializer_eq (space : Space E ℝ) (data : List E) (k : Nat) (h1 : 1 ≤ k) (h2 : k ≤ data.length)
    (f : Fin data.length) (us : List ℝ) :
    ppInitializer k data space f us = ppLoop space data (k - 1) us [data[f]] := by
  unfold ppInitializer
  rw [if_neg (by omega), if_pos ((initCheck_iff _ _).2 (by omega))]
  simp

/-- **C122 (the loss is a random variable).** The loss of the centroids is a measurable function of the draws. -/
theorem C122_measurable (space : Space E ℝ) (h0 : ∀ a b, 0 ≤ space.dist a b) (data : List E) (norm : ℝ) (k : Nat)
    (h1 : 1 ≤ k) (h2 : k ≤ data.length) (f : Fin data.length) :
    AEMeasurable (fun us => ENNReal.ofReal
      (drawnLoss space data norm (ppInitializer k data space f (List.ofFn us)))) (uniform (k - 1)) := by
  simp only [ppInitializer_eq space data k h1 h2]
  exact lossAfter_aemeasurable space h0 data norm (k - 1) [data[f]] (by simp)

/-- **C122 (guarantee).** The mean of the loss (norm 1) of the centroids drawn by k-means++ is at most
`4 (1 + 1 + 1/2 + ... + 1/(k-1))` times the loss of any `k` centroids, and so at most `4 (2 + ln k)` times. -/
theorem C122_guarantee (space : Space E ℝ) (hm : PseudoMetric space) (data : List E) (k : Nat)
    (h1 : 1 ≤ k) (h2 : k ≤ data.length) (c : List E) (hc : c ≠ []) (hck : c.length ≤ k) (opt : ℝ)
    (hopt : totalLoss space c data 1 = some opt) :
    ppMean space data 1 k ≤ ENNReal.ofReal (4 * (1 + ∑ i ∈ Finset.range (k - 1), 1 / ((i : ℝ) + 1)) * opt) ∧
    4 * (1 + ∑ i ∈ Finset.range (k - 1), 1 / ((i : ℝ) + 1)) * opt ≤ 4 * (2 + Real.log k) * opt := by
  have hneg : (-1 : ℝ) < 0 := by norm_num
  rw [loss_nearDist space hm.nonneg c data hc] at hopt
  obtain rfl := Option.some.inj hopt
  constructor
  · have hlab : ∀ i : Fin data.length, ∃ (l : Fin k) (x : E), c[l.1]? = some x ∧
        nearDist space c data[i] = space.dist data[i] x := by
      intro i
      obtain ⟨j, x, hj, h⟩ := nearest_mem hneg space c data[i] hc
      refine ⟨⟨j, ?_⟩, x, hj, ?_⟩
      · have := (List.getElem?_eq_some_iff.1 hj).1; omega
      · rw [← nearest_nearDist space hm.nonneg c hc, h]
    choose a x hx hr using hlab
    have hfirst := first_le (fun i j : Fin data.length => space.dist data[i] data[j]) a
      (fun i => nearDist space c data[i]) (fun i j => hm.nonneg _ _)
      (fun i j l => by
        have := hm.triangle data[j] data[i] data[l]
        rw [hm.symm data[j] data[i]] at this
        linarith)
      (fun i => nearDist_nonneg space hm.nonneg _ _)
      (fun i j hij => by
        have e : x i = x j := by
          have := hx i
          rw [hij, hx j] at this
          exact (Option.some.inj this).symm
        rw [hr i, hr j, hm.symm data[j] (x j), e]
        exact hm.triangle _ _ _) (k - 1) (by simp; omega)
    unfold ppMean
    rw [ENNReal.div_le_iff_le_mul (Or.inl (by
      have : data.length ≠ 0 := by omega
      exact_mod_cast this)) (Or.inl (by simp))]
    have e1 : ∀ f : Fin data.length, ∫⁻ us, ENNReal.ofReal
        (drawnLoss space data 1 (ppInitializer k data space f (List.ofFn us))) ∂ uniform (k - 1) =
        ENNReal.ofReal (expect (fun i j : Fin data.length => space.dist data[i] data[j]) (k - 1)
          fun i => space.dist data[i] data[f]) := by
      intro f
      simp only [ppInitializer_eq space data k h1 h2]
      exact mean_expect space hm data (k - 1) [data[f]] (by simp)
    simp only [e1]
    rw [← ENNReal.ofReal_sum_of_nonneg fun f _ => expect_nonneg (fun i j => hm.nonneg _ _) _ _
      fun i => hm.nonneg _ _]
    have e2 : (data.length : ENNReal) = ENNReal.ofReal data.length := by simp
    rw [e2, ← ENNReal.ofReal_mul]
    · apply ENNReal.ofReal_le_ofReal
      rw [Fintype.card_fin] at hfirst
      refine hfirst.trans (le_of_eq ?_)
      rw [harm]
      ring
    · refine mul_nonneg (mul_nonneg (by norm_num) ?_)
        (Finset.sum_nonneg fun i _ => nearDist_nonneg space hm.nonneg _ _)
      have := harm_nonneg (k - 1)
      rw [harm] at this
      linarith
  · have h := harm_le (k - 1)
    rw [harm] at h
    have hk : ((k - 1 : Nat) : ℝ) + 1 = k := by exact_mod_cast (by omega : k - 1 + 1 = k)
    rw [hk] at h
    refine mul_le_mul_of_nonneg_right ?_ (Finset.sum_nonneg fun i _ => nearDist_nonneg space hm.nonneg _ _)
    linarith

/-- **C122 (what is not counted).** For draws which are not 0, `PPInitializer` returns `k` centroids, or an error when
fewer centroids have already no loss. -/
theorem C122_error (space : Space E ℝ) (h0 : ∀ a b, 0 ≤ space.dist a b) (data : List E) (k : Nat)
    (h1 : 1 ≤ k) (h2 : k ≤ data.length) (f : Fin data.length) (us : Fin (k - 1) → ℝ)
    (hu : ∀ i, 0 < us i ∧ us i < 1) :
    (∃ c, ppInitializer k data space f (List.ofFn us) = some (.ok c) ∧ c.length = k) ∨
    (ppInitializer k data space f (List.ofFn us) = some .err ∧
      ∃ c, c ≠ [] ∧ c.length < k ∧ totalLoss space c data 1 = some 0) := by
  rw [ppInitializer_eq space data k h1 h2]
  have key : ∀ (l : List ℝ) (acc : List E), acc ≠ [] → (∀ u ∈ l, 0 < u ∧ u < 1) →
      (∃ c, ppLoop space data l.length l acc = some (.ok c) ∧ c.length = acc.length + l.length) ∨
      (ppLoop space data l.length l acc = some .err ∧
        ∃ c, c ≠ [] ∧ c.length < acc.length + l.length ∧ totalLoss space c data 1 = some 0) := by
    intro l
    induction l with
    | nil => intro acc _ _; left; exact ⟨acc, rfl, rfl⟩
    | cons u l ih =>
      intro acc hc hl
      have hpos : ∀ w ∈ data.map (nearDist space acc), 0 ≤ w := fun w hw => by
        obtain ⟨e, _, rfl⟩ := List.mem_map.1 hw
        exact nearDist_nonneg space h0 acc e
      have hws : (mapLabel space acc data).2 = data.map (nearDist space acc) := by
        simp only [mapLabel]
        exact List.map_congr_left fun e _ => nearest_nearDist space h0 acc hc e
      rw [List.length_cons, ppLoop]
      rcases (List.sum_nonneg hpos).eq_or_lt with hz | hs
      · right
        have : ppIter space acc data u = .nullSet := by
          unfold ppIter
          rw [hws, (C29_null_iff _ u).2 hz.symm]
          simp only []
          rw [if_neg (by omega)]
        rw [this]
        refine ⟨rfl, acc, hc, by omega, ?_⟩
        rw [loss_nearDist space h0 acc data hc, ← sum_positions, ← hz]
      · have hu := hl u (by simp)
        obtain ⟨⟨i, hi⟩, h3⟩ := C29_weightedChoice _ u hpos hs hu.1 hu.2
        obtain ⟨w, hw, _⟩ := (h3 i).1 hi
        have hlt : i < data.length := by simpa using (List.getElem?_eq_some_iff.1 hw).1
        have : ppIter space acc data u = .ok (space.copy data[i]) := by
          unfold ppIter
          rw [hws, hi]
          simp [idx?, List.getElem?_eq_getElem hlt, if_neg (show ¬ (i : Int) < 0 by omega)]
        rw [this]
        have := ih (acc ++ [space.copy data[i]]) (by simp) fun v hv => hl v (by simp [hv])
        rw [List.length_append, List.length_singleton, show acc.length + 1 + l.length = acc.length + (l.length + 1) by omega]
          at this
        exact this
  have := key (List.ofFn us) [data[f]] (by simp) (by simpa [List.mem_ofFn] using hu)
  rw [List.length_ofFn, List.length_singleton, show 1 + (k - 1) = k by omega] at this
  exact this

end

/-- The point of the line of coordinate `a`. -/
def pt1 (a : ℝ) : Vec ℝ 1 := Vec.of ![a]

theorem dist_pt1 (a b : ℝ) : (euclidSpace ℝ 1).dist (pt1 a) (pt1 b) = |a - b| := by
  rw [euclid_dist_eq]
  simp [pt1, Vec.of, Vec.coords, Real.sqrt_sq_eq_abs]

/-- The guarantee for three points of the line and two centroids. -/
example : ppMean (euclidSpace ℝ 1) [pt1 0, pt1 1, pt1 5] 1 2 ≤ ENNReal.ofReal 8 := by
  have h0 : ∀ a b, 0 ≤ (euclidSpace ℝ 1).dist a b := (euclid_pseudoMetric 1).nonneg
  have h := (C122_guarantee (euclidSpace ℝ 1) (euclid_pseudoMetric 1) [pt1 0, pt1 1, pt1 5] 2 (by omega) (by simp)
    [pt1 0, pt1 5] (by simp) (by simp) 1 (by
      rw [loss_nearDist _ h0 _ _ (by simp), ← sum_positions]
      norm_num [nearDist, dist_pt1])).1
  norm_num at h
  simpa using h

/-- **C122 (norm 2 examined).** For the loss which k-means decreases there is no such guarantee: for every factor there
are three points of the line such that the mean of the loss (norm 2) of two centroids drawn by k-means++ is more than
this factor times the (positive) loss of other two. -/
theorem C122_norm2 (B : ℝ) : ∃ (data c : List (Vec ℝ 1)) (opt : ℝ), data.length = 3 ∧ c.length = 2 ∧ 0 < opt ∧
    totalLoss (euclidSpace ℝ 1) c data 2 = some opt ∧
    ENNReal.ofReal (B * opt) < ppMean (euclidSpace ℝ 1) data 2 2 := by
  have h0 : ∀ a b, 0 ≤ (euclidSpace ℝ 1).dist a b := (euclid_pseudoMetric 1).nonneg
  obtain ⟨L, hL, hB⟩ : ∃ L : ℝ, 2 < L ∧ B * (3 * (1 + L)) < (L - 1) ^ 2 := by
    refine ⟨3 * max B 0 + 10, by have := le_max_right B 0; linarith, ?_⟩
    have h1 := le_max_right B 0
    have h2 := le_max_left B 0
    nlinarith [mul_le_mul_of_nonneg_right h2 (show 0 ≤ 3 * (1 + (3 * max B 0 + 10)) by linarith)]
  have loss2 : ∀ c : List (Vec ℝ 1), c ≠ [] → ∀ data, totalLoss (euclidSpace ℝ 1) c data 2 =
      some (data.map fun e => nearDist (euclidSpace ℝ 1) c e ^ 2).sum := by
    intro c hc data
    rw [C10_totalLoss (by norm_num) _ c data hc 2]
    have hpow : ∀ x : ℝ, GoMath.pow x 2 = x ^ 2 := fun x => Real.rpow_two x
    simp only [hpow, nearest_nearDist _ h0 c hc]
  have a1 : |1 - L| = L - 1 := by rw [abs_sub_comm]; exact abs_of_pos (by linarith)
  have a2 : |L| = L := abs_of_pos (by linarith)
  have a3 : |L - 1| = L - 1 := abs_of_pos (by linarith)
  have a4 : |0 - L| = L := by rw [zero_sub, abs_neg, a2]
  refine ⟨[pt1 0, pt1 1, pt1 L], [pt1 0, pt1 L], 1, rfl, rfl, one_pos, ?_, ?_⟩
  · rw [loss2 _ (by simp)]
    have m1 : min L 0 = 0 := min_eq_right (by linarith)
    have m2 : min 1 (L - 1) = 1 := min_eq_left (by linarith)
    have m3 : min 0 L = 0 := min_eq_left (by linarith)
    simp [nearDist, dist_pt1, a1, a2, m1, m2, m3]
  · set data : List (Vec ℝ 1) := [pt1 0, pt1 1, pt1 L] with hdata
    have hmean : ∫⁻ us, ENNReal.ofReal (drawnLoss (euclidSpace ℝ 1) data 2
        (ppInitializer (2 : Nat) data (euclidSpace ℝ 1) (0 : Fin data.length) (List.ofFn us))) ∂ uniform (2 - 1) ≥
        ENNReal.ofReal (1 / (1 + L)) * ENNReal.ofReal ((L - 1) ^ 2) := by
      simp only [ppInitializer_eq (euclidSpace ℝ 1) data 2 (by omega) (by simp [hdata])]
      have e := mean_succ (euclidSpace ℝ 1) h0 data 2 0 [pt1 0] (by simp)
      change _ ≤ ∫⁻ us, lossAfter (euclidSpace ℝ 1) data 2 1 [pt1 0] us ∂ uniform 1
      rw [e]
      refine le_trans (le_of_eq ?_) (Finset.single_le_sum (f := fun j : Fin data.length =>
        ENNReal.ofReal (nearDist (euclidSpace ℝ 1) [pt1 0] data[j] /
          ∑ i : Fin data.length, nearDist (euclidSpace ℝ 1) [pt1 0] data[i]) *
          ∫⁻ us, lossAfter (euclidSpace ℝ 1) data 2 0 ([pt1 0] ++ [(euclidSpace ℝ 1).copy data[j]]) us ∂ uniform 0)
        (fun j _ => zero_le) (Finset.mem_univ (⟨1, by simp [hdata]⟩ : Fin data.length)))
      have : IsProbabilityMeasure (uniform 0) := by
        have : IsProbabilityMeasure ((volume : Measure ℝ).restrict (Set.Ico 0 1)) := ⟨by simp⟩
        unfold uniform; infer_instance
      have e2 : ∀ us : Fin 0 → ℝ, lossAfter (euclidSpace ℝ 1) data 2 0
          ([pt1 0] ++ [(euclidSpace ℝ 1).copy (pt1 1)]) us = ENNReal.ofReal ((L - 1) ^ 2) := by
        intro us
        have hcp : (euclidSpace ℝ 1).copy (pt1 1) = pt1 1 := rfl
        rw [hcp]
        simp [lossAfter, ppLoop, drawnLoss, loss2, hdata, nearDist, dist_pt1, a2, a3]
      have e3 : ∑ i : Fin data.length, nearDist (euclidSpace ℝ 1) [pt1 0] data[i] = 1 + L := by
        rw [← sum_positions]
        simp [hdata, nearDist, dist_pt1, a2]
      have e4 : nearDist (euclidSpace ℝ 1) [pt1 0] (pt1 1) = 1 := by
        simp [nearDist, dist_pt1]
      rw [e3]
      have e5 : ∫⁻ us, lossAfter (euclidSpace ℝ 1) data 2 0 ([pt1 0] ++ [(euclidSpace ℝ 1).copy (pt1 1)]) us
          ∂ uniform 0 = ENNReal.ofReal ((L - 1) ^ 2) := by
        simp only [e2, lintegral_const, measure_univ, mul_one]
      exact (congrArg₂ (· * ·) (congrArg (fun z => ENNReal.ofReal (z / (1 + L))) e4.symm) e5.symm)
    unfold ppMean
    rw [ENNReal.lt_div_iff_mul_lt (Or.inl (by simp [hdata])) (Or.inl (by simp))]
    refine lt_of_lt_of_le ?_ (hmean.trans (Finset.single_le_sum (f := fun f : Fin data.length =>
      ∫⁻ us, ENNReal.ofReal (drawnLoss (euclidSpace ℝ 1) data 2
        (ppInitializer (2 : Nat) data (euclidSpace ℝ 1) f (List.ofFn us))) ∂ uniform (2 - 1))
      (fun j _ => zero_le) (Finset.mem_univ (0 : Fin data.length))))
    have hlen : (data.length : ENNReal) = ENNReal.ofReal 3 := by simp [hdata]
    rw [hlen, ← ENNReal.ofReal_mul (div_nonneg zero_le_one (by linarith)),
      ← ENNReal.ofReal_mul' (by norm_num), ENNReal.ofReal_lt_ofReal_iff]
    · rw [one_div, inv_mul_eq_div, lt_div_iff₀ (by linarith)]
      linarith
    · have : L - 1 ≠ 0 := by linarith
      positivity

/-- **C122 (the other initializers).** They have no such guarantee, even for the norm 1: for every factor there are
three points of the line such that `GivenInitializer` returns two centroids whose loss is more than this factor times
the (positive) loss of other two, and `RandInitializer` returns the same when its two first draws, among the nine
possible pairs, are 0 and 1. -/
theorem C122_others (B : ℝ) : ∃ (data c bad : List (Vec ℝ 1)) (opt loss : ℝ), data.length = 3 ∧ c.length = 2 ∧
    totalLoss (euclidSpace ℝ 1) c data 1 = some opt ∧ 0 < opt ∧
    totalLoss (euclidSpace ℝ 1) bad data 1 = some loss ∧ B * opt < loss ∧
    givenInitializer 2 data (euclidSpace ℝ 1) = .ok bad ∧
    ∀ ds, randInitializer 2 data (euclidSpace ℝ 1) (0 :: 1 :: ds) = some (.ok bad) := by
  have h0 : ∀ a b, 0 ≤ (euclidSpace ℝ 1).dist a b := (euclid_pseudoMetric 1).nonneg
  obtain ⟨L, hL, hB⟩ : ∃ L : ℝ, 2 < L ∧ B < L - 1 :=
    ⟨max 2 (B + 1) + 1, by have := le_max_left 2 (B + 1); linarith, by have := le_max_right 2 (B + 1); linarith⟩
  have a1 : |1 - L| = L - 1 := by rw [abs_sub_comm]; exact abs_of_pos (by linarith)
  have a2 : |L| = L := abs_of_pos (by linarith)
  have a3 : |L - 1| = L - 1 := abs_of_pos (by linarith)
  refine ⟨[pt1 0, pt1 1, pt1 L], [pt1 0, pt1 L], [pt1 0, pt1 1], 1, L - 1, rfl, rfl, ?_, one_pos, ?_, by linarith, rfl,
    ?_⟩
  · rw [loss_nearDist _ h0 _ _ (by simp), ← sum_positions]
    have m1 : min L 0 = 0 := min_eq_right (by linarith)
    have m2 : min 1 (L - 1) = 1 := min_eq_left (by linarith)
    have m3 : min 0 L = 0 := min_eq_left (by linarith)
    simp [nearDist, dist_pt1, a1, a2, m1, m2, m3]
  · rw [loss_nearDist _ h0 _ _ (by simp), ← sum_positions]
    simp [nearDist, dist_pt1, a2, a3]
  · intro ds
    rw [randInitializer, if_neg (by omega), if_pos (by rfl)]
    have e : randLoop (euclidSpace ℝ 1) [pt1 0, pt1 1, pt1 L] 2 (0 :: 1 :: ds) [] [] =
        some (some [pt1 0, pt1 1]) := by
      have e3 : ∀ ds, randLoop (euclidSpace ℝ 1) [pt1 0, pt1 1, pt1 L] 2 ds [1, 0] [pt1 0, pt1 1] =
          some (some [pt1 0, pt1 1]) := by
        intro ds; unfold randLoop; rfl
      unfold randLoop
      simp
      unfold randLoop
      simp
      exact e3 ds
    rw [show (2 : Int).toNat = 2 from rfl, e]

/-- **C122 (iterations examined).** An iteration of k-means may increase the loss of norm 1: the centroids after the
iterations may be worse, for the loss of the guarantee, than those drawn. -/
theorem C122_iteration (s : KStrategy) (hs : s.Valid) :
    ∃ (data c c' : List (Vec ℝ 1)) (before after : ℝ), data.Nodup ∧ c.Sublist data ∧
      kmeansStep s (euclidSpace ℝ 1) data c = some c' ∧
      totalLoss (euclidSpace ℝ 1) c data 1 = some before ∧
      totalLoss (euclidSpace ℝ 1) c' data 1 = some after ∧ before < after := by
  have h0 : ∀ a b, 0 ≤ (euclidSpace ℝ 1).dist a b := (euclid_pseudoMetric 1).nonneg
  obtain ⟨m, hm, hrun, _⟩ := C121_one s hs (pt1 1) [pt1 0, pt1 1, pt1 10] (by simp)
  have hm' : m = pt1 (11 / 3) := by
    apply Vec.coords_inj
    rw [hm]
    funext i
    fin_cases i
    simp only [mean, List.map_cons, List.map_nil, List.sum_cons, List.sum_nil, Pi.smul_apply, Pi.add_apply,
      Pi.zero_apply, List.length_cons, List.length_nil, smul_eq_mul]
    norm_num [pt1, Vec.of, Vec.coords]
  subst hm'
  refine ⟨[pt1 0, pt1 1, pt1 10], [pt1 1], [pt1 (11 / 3)], 10, 38 / 3, ?_, ?_, ?_, ?_, ?_, by norm_num⟩
  · have inj : ∀ a b, pt1 a = pt1 b ↔ a = b := fun a b => by
      constructor
      · intro h
        have := congrFun (congrArg Vec.coords h) 0
        simpa [pt1, Vec.of, Vec.coords] using this
      · rintro rfl; rfl
    norm_num [List.nodup_cons, inj]
  · exact ((List.nil_sublist [pt1 0]).append (List.Sublist.refl [pt1 1])).append (List.nil_sublist [pt1 10])
  · have := hrun 0
    simp only [List.replicate_one, zero_add, kmeansRun] at this
    revert this
    cases kmeansStep s (euclidSpace ℝ 1) [pt1 0, pt1 1, pt1 10] [pt1 1] <;> simp
  · rw [loss_nearDist _ h0 _ _ (by simp), ← sum_positions]
    norm_num [nearDist, dist_pt1]
  · rw [loss_nearDist _ h0 _ _ (by simp), ← sum_positions]
    norm_num [nearDist, dist_pt1]

end Distclus
