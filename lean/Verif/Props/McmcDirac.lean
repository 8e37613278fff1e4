import Verif.Props.McmcRatio
import Verif.Props.DrawsMcmc
import Verif.Props.KMeansConv
/-!
# C143: the MCMC algorithm with the Dirac distribution
-/
set_option linter.unusedSectionVars false

namespace Distclus
open Spec

section
variable {D E F R : Type}

theorem alter_dirac (c : List E) (d : McmcDraws E F) (h : d.sample = diracSample) : alter c d = c := by
  unfold alter
  rw [h]
  exact List.ext_getElem (by simp) (by intro i h1 h2; simp [diracSample])

section
variable [Zero F] [One F] [Neg F] [LT F] [DecidableLT F] [Add F] [Sub F] [Mul F] [BEq F]

/-- The centres of size `k` come from the store when it has some. -/
theorem getKCenters_stored (p : McmcParams D E F R) (impl : McmcImpl E F) (current : Proposal E F)
    (centroids data : List E) (d : McmcDraws E F) {k : Int} {c c' : List E} (hst : impl.store k = some c)
    (h : impl.getKCenters p current centroids data d = some (k, c')) : c' = c := by
  unfold McmcImpl.getKCenters at h
  split at h
  · cases h
  · rename_i k' hk'
    split at h
    · cases h
    · rename_i c1 h1
      cases h
      simp only [CenterStore.getCenters, hst] at h1
      cases h1; rfl
    · split at h
      · cases h
      · rename_i c1 _ h1
        cases h
        simp only [CenterStore.getCenters, hst] at h1
        cases h1; rfl

end

section
variable [Zero F] [One F] [Neg F] [LT F] [DecidableLT F] [Add F] [Sub F] [Mul F] [BEq F] [GoMath F] [Div F]

/-- **C143 (proposals come from the store).** For every distribution: when the store holds centres of size
`k`, a proposal of size `k` is made by altering them and iterating k-means once; neither the current
centroids nor the last initialisation matter. -/
theorem C143_stored (p : McmcParams D E F R) (impl : McmcImpl E F) (current : Proposal E F) (centroids data : List E)
    (time : Nat) (d : McmcDraws E F) (prop : Proposal E F)
    (h : impl.propose p current centroids data time d = some prop) (c : List E) (hst : impl.store prop.k = some c) :
    kmeansStep (.par p.sysCPU) p.space data (alter c d) = some prop.centers := by
  unfold McmcImpl.propose at h
  cases hk : impl.getKCenters p current centroids data d with
  | none => rw [hk] at h; cases h
  | some kc =>
    obtain ⟨k, c'⟩ := kc
    rw [hk] at h
    simp only at h
    cases hm : mcmcStrategyIterate p (alter c' d) data with
    | none => rw [hm] at h; cases h
    | some c2 =>
      rw [hm] at h
      simp only at h
      split at h
      · cases h
        rw [← getKCenters_stored p impl current centroids data d hst hk]
        exact hm
      · cases h

/-- The calls of a run: iterations whose proposals are sampled by `Dirac`. -/
def Spec.DiracIterations (ops : List (McmcOp D E F)) : Prop :=
  ∀ op ∈ ops, ∃ d, op = .iterate d ∧ d.sample = diracSample

/-- **C143 (what is settled stays).** After any history, on data which do not change: if the centres of size
`k` in the store are left in place by an iteration of k-means, they stay the centres of size `k` in the
store for ever, and every clustering of `k` centroids accepted from then on is this one. -/
theorem C143_settled (hneg : (-1 : F) < 0) (p : McmcParams D E F R) (hcpu : 1 ≤ p.sysCPU)
    (hk1 : 1 ≤ p.conf.initK) (hk2 : p.conf.initK ≤ p.conf.maxK) (hi : InitContract p.initializer)
    (data : List E) (ops0 : List (McmcOp D E F)) (s : McmcSys E F)
    (h : McmcSys.run p (McmcSys.new p data) ops0 = some s) (hb : s.impl.buffer.pipe = [])
    (k : Int) (c : List E) (hst : s.impl.store k = some c)
    (hfix : kmeansStep (.par p.sysCPU) p.space s.impl.buffer.data c = some c)
    (ops : List (McmcOp D E F)) (hops : DiracIterations ops) (s' : McmcSys E F) (hr : s.run p ops = some s') :
    s'.impl.store k = some c ∧ s'.impl.buffer = s.impl.buffer ∧
    (((s.centroids.length : Int) = k → s.centroids = c) → (s'.centroids.length : Int) = k → s'.centroids = c) := by
  have hinv := mcmc_run_inv hneg p hcpu hk1 hk2 hi ops0 _ _ (mcmc_new_inv p data) h
  clear h
  induction ops generalizing s with
  | nil => cases hr; exact ⟨hst, rfl, fun h => h⟩
  | cons op ops ih =>
    obtain ⟨d, rfl, hd⟩ := hops op (by simp)
    unfold McmcSys.run at hr
    cases h1 : s.step p (.iterate d) with
    | none => rw [h1] at hr; cases hr
    | some s1 =>
      rw [h1] at hr
      have hinv1 := mcmc_step_inv hneg p hcpu hk1 hk2 hi s s1 _ hinv h1
      have key : s1.impl.store k = some c ∧ s1.impl.buffer = s.impl.buffer ∧
          (((s.centroids.length : Int) = k → s.centroids = c) → (s1.centroids.length : Int) = k →
            s1.centroids = c) := by
        simp only [McmcSys.step] at h1
        by_cases hrd : s.ready = true
        · rw [if_pos hrd] at h1
          cases hit : s.impl.iterate p s.centroids d with
          | none => rw [hit] at h1; cases h1; exact ⟨hst, rfl, fun h => h⟩
          | some r =>
            obtain ⟨impl', clust, fig⟩ := r
            rw [hit] at h1
            cases h1
            obtain ⟨prop, hp, _, _, _, hbuf, _, hcase⟩ := iterate_cases p _ _ _ _ _ _ hit
            obtain ⟨a1, a2, a3, a4, _⟩ := hinv.ready hrd
            obtain ⟨q1, _⟩ := propose_spec hneg p hcpu s.impl hinv.sized _ _ _ _ d a1 a2 a3 a4 prop hp
            have hb' : impl'.buffer = s.impl.buffer := by rw [hbuf, DataBuffer.apply_of_nil hb]
            have hprop : prop.k = k → prop.centers = c := by
              intro hk
              have := C143_stored p _ _ _ _ _ d prop hp c (by rw [hk]; exact hst)
              rw [alter_dirac _ _ hd, hfix] at this
              exact (Option.some.inj this).symm
            rcases hcase with ⟨_, _, _, hc, hs⟩ | ⟨_, _, _, hc, hs⟩
            · refine ⟨?_, hb', fun _ hl => ?_⟩
              · rw [hs]
                unfold CenterStore.setCenters
                split
                next hk => rw [hprop (by omega)]
                · exact hst
              · simp only at hl ⊢
                rw [hc] at hl ⊢
                exact hprop (by omega)
            · refine ⟨by rw [hs]; exact hst, hb', fun h0 hl => ?_⟩
              simp only at hl ⊢
              rw [hc] at hl ⊢
              exact h0 hl
        · rw [if_neg hrd] at h1; cases h1
      obtain ⟨e1, e2, e3⟩ := key
      obtain ⟨g1, g2, g3⟩ := ih s1 (by rw [e2]; exact hb) e1 (by rw [e2]; exact hfix)
        (fun o ho => hops o (by simp [ho])) hr hinv1
      exact ⟨g1, by rw [g2, e2], fun h0 => g3 (e3 h0)⟩

/-- **C143 (no more than one clustering for each number of clusters).** When all the sizes which a proposal can
have are settled, the centroids are for ever the settled ones of their number: the chain only chooses
among at most `min(MaxK, n)` clusterings. -/
theorem C143_frozen (hneg : (-1 : F) < 0) (p : McmcParams D E F R) (hcpu : 1 ≤ p.sysCPU)
    (hk1 : 1 ≤ p.conf.initK) (hk2 : p.conf.initK ≤ p.conf.maxK) (hi : InitContract p.initializer)
    (data : List E) (ops0 : List (McmcOp D E F)) (s : McmcSys E F)
    (h : McmcSys.run p (McmcSys.new p data) ops0 = some s) (hb : s.impl.buffer.pipe = []) (hrd : s.ready = true)
    (cs : Int → List E) (hst : ∀ k, 1 ≤ k → k ≤ p.conf.maxK → k ≤ s.impl.buffer.data.length →
      s.impl.store k = some (cs k) ∧ kmeansStep (.par p.sysCPU) p.space s.impl.buffer.data (cs k) = some (cs k))
    (hc : s.centroids = cs s.centroids.length)
    (ops : List (McmcOp D E F)) (hops : DiracIterations ops) (s' : McmcSys E F) (hr : s.run p ops = some s')
    (hrd' : s'.ready = true) :
    s'.centroids = cs s'.centroids.length ∧ 1 ≤ s'.centroids.length ∧ (s'.centroids.length : Int) ≤ p.conf.maxK ∧
      s'.centroids.length ≤ s.impl.buffer.data.length := by
  have hinv := mcmc_run_inv hneg p hcpu hk1 hk2 hi ops0 _ _ (mcmc_new_inv p data) h
  obtain ⟨a1, a2, a3, a4, _⟩ := hinv.ready hrd
  have hinv' := mcmc_run_inv hneg p hcpu hk1 hk2 hi ops _ _ hinv hr
  obtain ⟨b1, b2, b3, b4, _⟩ := hinv'.ready hrd'
  obtain ⟨f1, f2⟩ := hst s.centroids.length (by omega) (by omega) (by omega)
  have hbuf := (C143_settled hneg p hcpu hk1 hk2 hi data ops0 s h hb _ _ f1 f2 ops hops s' hr).2.1
  rw [hbuf] at b3
  obtain ⟨g1, g2⟩ := hst s'.centroids.length (by omega) (by omega) (by omega)
  refine ⟨?_, by omega, by omega, by omega⟩
  refine (C143_settled hneg p hcpu hk1 hk2 hi data ops0 s h hb _ _ g1 g2 ops hops s' hr).2.2 ?_ rfl
  intro he
  rw [← he]
  exact hc

end
end

/-! ### In exact arithmetic -/

section
variable {D E R : Type}

/-- The logarithm of what the chain follows with `Dirac`: the Gibbs measure divided by `e` for each cluster. -/
noncomputable def Spec.diracTarget (b amp : ℝ) (dim t : Nat) (k : Int) (loss : ℝ) : ℝ :=
  logTarget b amp dim t k loss - k

/-- **C143 (ratio).** With `Dirac`, after any history, the published `rho` is not the ratio of the Gibbs measure
but that of the Gibbs measure divided by `e` for each cluster. -/
theorem C143_ratio (p : McmcParams D E ℝ R) (hcpu : 1 ≤ p.sysCPU)
    (hk1 : 1 ≤ p.conf.initK) (hk2 : p.conf.initK ≤ p.conf.maxK) (hi : InitContract p.initializer)
    (hpdf : p.pdf = diracPdf) (data : List E) (ops : List (McmcOp D E ℝ)) (s : McmcSys E ℝ)
    (h : McmcSys.run p (McmcSys.new p data) ops = some s) (hr : s.ready = true) (d : McmcDraws E ℝ)
    (impl' : McmcImpl E ℝ) (clust : List E) (fig : McmcFigures ℝ)
    (hit : s.impl.iterate p s.centroids d = some (impl', clust, fig)) :
    ∃ prop, s.impl.propose p s.impl.current s.centroids s.impl.buffer.data s.impl.buffer.data.length d = some prop ∧
      fig.rho = Real.exp
        (diracTarget p.conf.b p.conf.amp s.impl.dim s.impl.buffer.data.length prop.k prop.loss -
          diracTarget p.conf.b p.conf.amp s.impl.dim s.impl.buffer.data.length s.impl.current.k s.impl.current.loss) := by
  obtain ⟨prop, hp, hrho⟩ := C83_ratio p _ _ _ _ _ _ hit
  obtain ⟨e1, t, e2⟩ := C84_constant p hcpu hk1 hk2 hi (top := fun _ => 1) (fun x t => by rw [hpdf]; rfl)
    data ops s h hr d prop hp
  refine ⟨prop, hp, ?_⟩
  rw [hrho, e1, e2]
  unfold diracTarget
  congr 1
  ring

/-- **C143 (balance).** Proposals of `Dirac` carry the number of their centroids as log-density. With the weights
`a`, `b`, `c` for removing, keeping and adding a centroid, the moves between `k` and `k + 1` centroids are
in balance with the measure of `diracTarget` exactly when `a = c`, and with the Gibbs measure exactly when
`c = e a`. -/
theorem C143_balance (conf : McmcConf ℝ R) (a b c : ℝ) (hp : conf.probaK = [a, b, c]) (ha : 0 ≤ a)
    (hb : 0 ≤ b) (hc : 0 ≤ c) (hs : 0 < a + b + c) (data : List E) (dim t : Nat) (x y : Proposal E ℝ)
    (hxp : x.pdf = x.k) (hyp : y.pdf = y.k)
    (hxy : y.k = x.k + 1) (hx : 1 ≤ x.k) (hyM : y.k ≤ conf.maxK) (hyd : y.k ≤ data.length) (m m' : ℝ)
    (hm : HasProb (fun u => nextK conf x.k data u = some y.k) m)
    (hm' : HasProb (fun u => nextK conf y.k data u = some x.k) m') :
    let π := fun z : Proposal E ℝ => Real.exp (logTarget conf.b conf.amp dim t z.k z.loss)
    let π' := fun z : Proposal E ℝ => Real.exp (diracTarget conf.b conf.amp dim t z.k z.loss)
    let α := fun u v => acceptProb (ratio conf dim u v t).2.1
    (π' x * m * α x y = π' y * m' * α y x ↔ a = c) ∧ (π x * m * α x y = π y * m' * α y x ↔ c = Real.exp 1 * a) := by
  intro π π' α
  have e1 : m = c / (a + b + c) := by
    have := (C104_nextK conf a b c hp ha hb hc hs x.k data hx (by omega) (by omega)).2.1
    rw [if_pos ⟨by omega, by omega⟩, ← hxy] at this
    exact HasProb.unique hm this
  have e2 : m' = a / (a + b + c) := by
    have := (C104_nextK conf a b c hp ha hb hc hs y.k data (by omega) hyM hyd).1
    rw [if_pos (by omega), show y.k - 1 = x.k by omega] at this
    exact HasProb.unique hm' this
  have hbal : π x * Real.exp y.pdf * α x y = π y * Real.exp x.pdf * α y x := C83_balance conf dim t x y
  have hα : 0 < α x y := by
    simp only [α, acceptProb, ratio_target]
    exact lt_min one_pos (Real.exp_pos _)
  have hyx : Real.exp y.pdf = Real.exp x.pdf * Real.exp 1 := by
    rw [hyp, hxp, hxy, ← Real.exp_add]; push_cast; rfl
  have hX : (0 : ℝ) < Real.exp x.pdf := Real.exp_pos _
  have hA : π y * α y x = π x * α x y * Real.exp 1 := by
    rw [hyx] at hbal
    have : Real.exp x.pdf * (π y * α y x) = Real.exp x.pdf * (π x * α x y * Real.exp 1) := by linarith
    exact mul_left_cancel₀ hX.ne' this
  have hπ' : ∀ z, π' z = π z * Real.exp (-(z.k : ℝ)) := by
    intro z
    simp only [π', π, diracTarget, sub_eq_add_neg, Real.exp_add]
  have hpos : 0 < π x * α x y := mul_pos (Real.exp_pos _) hα
  constructor
  · rw [hπ', hπ', e1, e2]
    have ek : Real.exp (-(x.k : ℝ)) = Real.exp (-(y.k : ℝ)) * Real.exp 1 := by
      rw [← Real.exp_add, hxy]; push_cast; congr 1; ring
    have l : π x * Real.exp (-(x.k : ℝ)) * (c / (a + b + c)) * α x y =
        (π x * α x y * Real.exp 1 * Real.exp (-(y.k : ℝ))) * (c / (a + b + c)) := by rw [ek]; ring
    have r : π y * Real.exp (-(y.k : ℝ)) * (a / (a + b + c)) * α y x =
        (π x * α x y * Real.exp 1 * Real.exp (-(y.k : ℝ))) * (a / (a + b + c)) := by rw [← hA]; ring
    rw [l, r, mul_right_inj' (by positivity), div_left_inj' hs.ne']
    exact eq_comm
  · rw [e1, e2]
    have l : π x * (c / (a + b + c)) * α x y = (π x * α x y) * (c / (a + b + c)) := by ring
    have r : π y * (a / (a + b + c)) * α y x = (π x * α x y) * (Real.exp 1 * a / (a + b + c)) := by
      rw [show π y * (a / (a + b + c)) * α y x = (π y * α y x) * (a / (a + b + c)) by ring, hA]; ring
    rw [l, r, mul_right_inj' hpos.ne', div_left_inj' hs.ne']

/-- **C143 (claim refuted).** With the default weights 1, 8, 1 no pair of numbers of clusters is in balance with
the Gibbs measure. -/
theorem C143_default (conf : McmcConf ℝ R) (hp : conf.probaK = [1, 8, 1]) (data : List E) (dim t : Nat)
    (x y : Proposal E ℝ) (hxp : x.pdf = x.k) (hyp : y.pdf = y.k) (hxy : y.k = x.k + 1) (hx : 1 ≤ x.k)
    (hyM : y.k ≤ conf.maxK) (hyd : y.k ≤ data.length) (m m' : ℝ)
    (hm : HasProb (fun u => nextK conf x.k data u = some y.k) m)
    (hm' : HasProb (fun u => nextK conf y.k data u = some x.k) m') :
    Real.exp (logTarget conf.b conf.amp dim t x.k x.loss) * m * acceptProb (ratio conf dim x y t).2.1 ≠
      Real.exp (logTarget conf.b conf.amp dim t y.k y.loss) * m' * acceptProb (ratio conf dim y x t).2.1 := by
  intro h
  have := (C143_balance conf 1 8 1 hp (by norm_num) (by norm_num) (by norm_num) (by norm_num) data dim t x y hxp hyp
    hxy hx hyM hyd m m' hm hm').2.1 h
  have h1 : (1 : ℝ) + 1 ≤ Real.exp 1 := Real.add_one_le_exp 1
  linarith

/-! ### Moves which keep the number of clusters -/

theorem mcmcLoss_total {n : Nat} (p : McmcParams D (Vec ℝ n) ℝ R) (hpar : p.conf.par = true → 1 ≤ p.conf.numCPU)
    (c data : List (Vec ℝ n)) (hc : c ≠ []) : mcmcLoss p c data = totalLoss p.space c data p.conf.norm := by
  unfold mcmcLoss
  split
  next h => exact (C10_parLoss (by norm_num) p.space c data hc p.conf.norm _ (hpar h)).2.2
  · rfl

/-- The draws of an iteration which keeps the number of clusters. -/
structure Spec.KeepsSize {E R : Type} (conf : McmcConf ℝ R) (k : Int) (data : List E) (d : McmcDraws E ℝ) : Prop where
  move : nextK conf k data d.move = some k
  sample : d.sample = diracSample
  accept : d.accept < 1

/-- **C143 (k-means).** In the Euclidean space, norm 2, `Amp` not negative, data which do not change: with `Dirac`,
the iterations which keep the number of clusters are iterations of k-means, all accepted (if the store holds
nothing for that number, or the current centroids). -/
theorem C143_kmeans {n : Nat} (p : McmcParams D (Vec ℝ n) ℝ R) (hsp : p.space = euclidSpace ℝ n)
    (hnorm : p.conf.norm = 2) (hpar : p.conf.par = true → 1 ≤ p.conf.numCPU) (hcpu : 1 ≤ p.sysCPU)
    (hk1 : 1 ≤ p.conf.initK) (hk2 : p.conf.initK ≤ p.conf.maxK) (hi : InitContract p.initializer)
    (hpdf : p.pdf = diracPdf) (hamp : 0 ≤ p.conf.amp)
    (data : List (Vec ℝ n)) (ops0 : List (McmcOp D (Vec ℝ n) ℝ)) (s : McmcSys (Vec ℝ n) ℝ)
    (h : McmcSys.run p (McmcSys.new p data) ops0 = some s) (hb : s.impl.buffer.pipe = []) (hrd : s.ready = true)
    (hl : LossIsCurrent p s)
    (hst : s.impl.store s.centroids.length = none ∨ s.impl.store s.centroids.length = some s.centroids)
    (its : List (McmcDraws (Vec ℝ n) ℝ)) (hits : ∀ d ∈ its, KeepsSize p.conf s.centroids.length s.impl.buffer.data d) :
    ∃ s', s.run p (its.map .iterate) = some s' ∧ s'.ready = true ∧ s'.impl.acc = s.impl.acc + its.length ∧
      kmeansRun (.par p.sysCPU) (euclidSpace ℝ n) (List.replicate its.length s.impl.buffer.data) s.centroids =
        some s'.centroids ∧
      (its ≠ [] → s'.impl.store s'.centroids.length = some s'.centroids) := by
  have hneg : (-1 : ℝ) < 0 := by norm_num
  induction its generalizing s ops0 with
  | nil => exact ⟨s, rfl, hrd, rfl, rfl, fun h => absurd rfl h⟩
  | cons d its ih =>
    have hinv := mcmc_run_inv hneg p hcpu hk1 hk2 hi ops0 _ _ (mcmc_new_inv p data) h
    obtain ⟨a1, a2, a3, a4, a5, t, a6⟩ := hinv.ready hrd
    obtain ⟨m1, m2, m3⟩ := hits d (by simp)
    have hc : s.centroids ≠ [] := by
      intro h0; rw [h0] at a4; simp at a4; omega
    obtain ⟨c', before, after, g1, g2, g3, g4, g5⟩ :=
      C25_loss_step (.par p.sysCPU) hcpu s.centroids s.impl.buffer.data hc
    have hc' : c' ≠ [] := by
      intro h0; rw [h0] at g2; exact hc (List.length_eq_zero_iff.1 g2.symm)
    have hgk : s.impl.getKCenters p s.impl.current s.centroids s.impl.buffer.data d =
        some (s.impl.current.k, s.centroids) := by
      unfold McmcImpl.getKCenters
      rw [← a4, m1]
      have : s.impl.store.getCenters p.space s.impl.buffer.data s.centroids.length s.centroids d.add d.del =
          some (s.centroids, false) := by
        unfold CenterStore.getCenters
        rcases hst with h0 | h0 <;> rw [h0]
        simp [genCenters]
      simp only [this]
    have hL : mcmcLoss p c' s.impl.buffer.data = some after := by
      rw [mcmcLoss_total p hpar _ _ hc', hsp, hnorm]; exact g4
    have hB : s.impl.current.loss = before := by
      have := hl hrd
      rw [mcmcLoss_total p hpar _ _ hc, hsp, hnorm, g3] at this
      exact (Option.some.inj this).symm
    have hprop : s.impl.propose p s.impl.current s.centroids s.impl.buffer.data s.impl.buffer.data.length d =
        some { k := s.impl.current.k, centers := c', loss := after, pdf := c'.length } := by
      unfold McmcImpl.propose
      rw [hgk]
      simp only [alter_dirac _ _ m2, mcmcStrategyIterate, hsp, g1, hL, hpdf, proba, probaLoop_dirac, zero_add]
    obtain ⟨impl', fig, hit, hacc⟩ := C32_improvement_accepted p hcpu hk1 hk2 hi hpdf hamp data ops0 s h hrd d m3 _ hprop
      rfl (by show after ≤ _; rw [hB]; exact g5)
    have hstep : s.step p (.iterate d) = some { s with impl := impl', centroids := c' } := by
      simp only [McmcSys.step, hrd, if_true, hit]
    obtain ⟨prop, hp, hfig, _, _, hbuf, _, hcase⟩ := iterate_cases p _ _ _ _ _ _ hit
    rw [hprop] at hp
    cases hp
    have hacc' : impl'.acc = s.impl.acc + 1 := by rw [← hacc, hfig]; rfl
    have hb' : impl'.buffer = s.impl.buffer := by rw [hbuf, DataBuffer.apply_of_nil hb]
    rcases hcase with ⟨_, _, hcur, _, hsto⟩ | ⟨_, hno, _⟩
    · have hrun1 : McmcSys.run p (McmcSys.new p data) (ops0 ++ [.iterate d]) =
          some { s with impl := impl', centroids := c' } := by
        have happ : ∀ (l : List (McmcOp D (Vec ℝ n) ℝ)) (s0 : McmcSys (Vec ℝ n) ℝ), McmcSys.run p s0 l = some s →
            McmcSys.run p s0 (l ++ [.iterate d]) = some { s with impl := impl', centroids := c' } := by
          intro l
          induction l with
          | nil => intro s0 h0; cases h0; simp only [List.nil_append, McmcSys.run, hstep]
          | cons o l ihl =>
            intro s0 h0
            simp only [List.cons_append, McmcSys.run] at h0 ⊢
            cases ho : s0.step p o with
            | none => rw [ho] at h0; cases h0
            | some s1 => rw [ho] at h0; exact ihl s1 h0
        exact happ _ _ h
      obtain ⟨s', r1, r2, r3, r4, r5⟩ := ih (ops0 ++ [.iterate d]) { s with impl := impl', centroids := c' } hrun1
        (by rw [hb']; exact hb) hrd (by
          intro _
          show mcmcLoss p c' impl'.buffer.data = some impl'.current.loss
          rw [hb', hcur]; exact hL)
        (.inr (by
          show impl'.store c'.length = some c'
          rw [hsto]; simp [CenterStore.setCenters]))
        (by
          intro d' hd'
          have := hits d' (by simp [hd'])
          show KeepsSize p.conf c'.length impl'.buffer.data d'
          rw [hb', g2]; exact this)
      refine ⟨s', ?_, r2, ?_, ?_, fun _ => ?_⟩
      · simp only [List.map_cons, McmcSys.run, hstep]; exact r1
      · rw [r3, hacc']; simp; omega
      · simp only [List.length_cons, List.replicate_succ, kmeansRun, g1]
        rw [← hb']; exact r4
      · cases its with
        | cons d' its => exact r5 (by simp)
        | nil =>
          cases r1
          show impl'.store c'.length = some c'
          rw [hsto]; simp [CenterStore.setCenters]
    · omega

/-- **C143 (a number of clusters becomes settled).** After `k ^ n` such iterations the centres of size `k` in the
store are left in place by k-means, hence settled (`C143_settled`). -/
theorem C143_settles {n : Nat} (p : McmcParams D (Vec ℝ n) ℝ R) (hsp : p.space = euclidSpace ℝ n)
    (hnorm : p.conf.norm = 2) (hpar : p.conf.par = true → 1 ≤ p.conf.numCPU) (hcpu : 1 ≤ p.sysCPU)
    (hk1 : 1 ≤ p.conf.initK) (hk2 : p.conf.initK ≤ p.conf.maxK) (hi : InitContract p.initializer)
    (hpdf : p.pdf = diracPdf) (hamp : 0 ≤ p.conf.amp)
    (data : List (Vec ℝ n)) (ops0 : List (McmcOp D (Vec ℝ n) ℝ)) (s : McmcSys (Vec ℝ n) ℝ)
    (h : McmcSys.run p (McmcSys.new p data) ops0 = some s) (hb : s.impl.buffer.pipe = []) (hrd : s.ready = true)
    (hl : LossIsCurrent p s)
    (hst : s.impl.store s.centroids.length = none ∨ s.impl.store s.centroids.length = some s.centroids)
    (its : List (McmcDraws (Vec ℝ n) ℝ)) (hits : ∀ d ∈ its, KeepsSize p.conf s.centroids.length s.impl.buffer.data d)
    (hlong : s.centroids.length ^ s.impl.buffer.data.length ≤ its.length) :
    ∃ s', s.run p (its.map .iterate) = some s' ∧ s'.centroids.length = s.centroids.length ∧
      s'.impl.store s'.centroids.length = some s'.centroids ∧
      kmeansStep (.par p.sysCPU) p.space s.impl.buffer.data s'.centroids = some s'.centroids := by
  have hinv := mcmc_run_inv (by norm_num) p hcpu hk1 hk2 hi ops0 _ _ (mcmc_new_inv p data) h
  obtain ⟨a1, a2, a3, a4, _⟩ := hinv.ready hrd
  have hpos : 0 < s.centroids.length := by omega
  have hc : s.centroids ≠ [] := List.length_pos_iff.1 hpos
  obtain ⟨s', r1, r2, r3, r4, r5⟩ := C143_kmeans p hsp hnorm hpar hcpu hk1 hk2 hi hpdf hamp data ops0 s h hb hrd hl hst
    its hits
  obtain ⟨N, out, q1, q2, q3, q4⟩ := C89_converges (.par p.sysCPU) hcpu s.centroids s.impl.buffer.data hc
  have := q4 its.length (q1.trans hlong)
  rw [r4] at this
  obtain rfl := Option.some.inj this
  refine ⟨s', r1, q2, r5 ?_, by rw [hsp]; exact q3⟩
  intro h0
  rw [h0] at hlong
  have := Nat.pow_pos (n := s.impl.buffer.data.length) hpos
  exact absurd hlong (not_le.2 (by simpa using this))

end

/-! ### Examples, and what is refuted -/

namespace DiracExample

/-- Two centroids drawn among the data; the rational line; moves which keep the number of clusters. -/
def params : McmcParams (List Nat) ℚ ℚ Unit where
  conf := { exMcmcConf [0, 1, 0] with initK := 2 }
  space := exQSpace
  sysCPU := 2
  pdf := diracPdf
  initializer := fun d k data => (randInitializer k data exQSpace d).getD .panic

attribute [local instance] exQMath

/-- What is seen after a history on the data 0, 5, 9. -/
def after (ops : List (McmcOp (List Nat) ℚ ℚ)) : Option (List ℚ) :=
  (McmcSys.run params (McmcSys.new params [0, 5, 9]) ops).map fun s => s.centroids

end DiracExample

open DiracExample in
/-- **C143 (restart, refuted).** A second `Init` draws the centroids 5 and 9 anew, from which an iteration goes to
2.5 and 9 in a new algorithm; in the one which was played before it goes back to the clustering 0, 7 of the
former run. -/
theorem C143_restart :
    after [.init [0, 1], .iterate (exDraws (1 / 2) (1 / 4))] = some [0, 7] ∧
    after [.init [1, 2]] = some [5, 9] ∧
    after [.init [1, 2], .iterate (exDraws (1 / 2) (1 / 4))] = some [5 / 2, 9] ∧
    after [.init [0, 1], .iterate (exDraws (1 / 2) (1 / 4)), .init [1, 2]] = some [5, 9] ∧
    after [.init [0, 1], .iterate (exDraws (1 / 2) (1 / 4)), .init [1, 2], .iterate (exDraws (1 / 2) (1 / 4))] =
      some [0, 7] := by
  refine ⟨?_, ?_, ?_, ?_, ?_⟩ <;> decide +kernel

section
attribute [local instance] exQMath

open DiracExample in
/-- Both clusterings are left in place by k-means, and the first one is settled after one iteration. -/
example : kmeansStep (.par 2) exQSpace [0, 5, 9] [0, 7] = some [0, 7] ∧
    kmeansStep (.par 2) exQSpace [0, 5, 9] [5 / 2, 9] = some [5 / 2, 9] ∧
    (McmcSys.run params (McmcSys.new params [0, 5, 9]) [.init [0, 1], .iterate (exDraws (1 / 2) (1 / 4))]).map
      (fun s => (s.impl.store 2, s.impl.buffer.pipe, s.impl.buffer.data, s.ready)) =
      some (some [0, 7], [], [0, 5, 9], true) := by
  refine ⟨?_, ?_, ?_⟩ <;> decide +kernel

open DiracExample in
example : DiracIterations [(.iterate (exDraws (1 / 2) (1 / 4)) : McmcOp (List Nat) ℚ ℚ)] := by
  intro op hop
  exact ⟨_, List.mem_singleton.1 hop, rfl⟩

end

/-- Draws as in `KeepsSize`. -/
example (conf : McmcConf ℝ Unit) (hp : conf.probaK = [1, 8, 1]) (hM : conf.maxK = 16) :
    KeepsSize conf 2 [(0 : ℝ), 5, 9]
      { move := 1 / 2, add := 0, add' := 0, del := 0, del' := 0, sample := diracSample, accept := 1 / 2 } := by
  refine ⟨?_, rfl, by norm_num⟩
  have : weightedChoice conf.probaK (1 / 2 : ℝ) = .ok 1 := by
    rw [hp]
    norm_num [weightedChoice, sumF, choiceLoop]
  simp only [nextK, this]
  norm_num [idx?, hM]

end Distclus
