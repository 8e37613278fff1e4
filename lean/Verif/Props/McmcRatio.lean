import Verif.Props.Mcmc
import Verif.Props.MultivT
import Mathlib.Tactic.Ring
import Mathlib.Tactic.FieldSimp
/-!
# C83, C84: the acceptance ratio of the MCMC algorithm, in exact arithmetic
-/
namespace Distclus
open Spec

/-- The logarithm of the target of the chain, up to a constant: the Gibbs measure of inverse temperature
`amp * sqrt ((dim + 3) / t)` for the loss, under the uniform prior on `k` centroids in a box of side `2 b`. -/
noncomputable def Spec.logTarget (b amp : ℝ) (dim t : Nat) (k : Int) (loss : ℝ) : ℝ :=
  -(amp * Real.sqrt ((dim + 3) / t)) * loss - dim * k * Real.log (2 * b)

section
variable {D E R : Type}

/-- The ratio in terms of the target. -/
theorem ratio_target (conf : McmcConf ℝ R) (dim t : Nat) (x y : Proposal E ℝ) :
    (ratio conf dim x y t).2.1 = Real.exp
      (logTarget conf.b conf.amp dim t y.k y.loss + x.pdf -
        (logTarget conf.b conf.amp dim t x.k x.loss + y.pdf)) := by
  unfold ratio logTarget
  change Real.exp (conf.amp * Real.sqrt ((((dim : Int) + 3 : Int) : ℝ) / (((t : Int)) : ℝ)) * (x.loss - y.loss) +
    Real.log (((2 : Int) : ℝ) * conf.b) * (((dim : Int) * (x.k - y.k) : Int) : ℝ) + (x.pdf - y.pdf)) = _
  push_cast
  congr 1
  ring

/-- **C83 (ratio).** The published `rho` is the Metropolis-Hastings ratio of the proposal for the Gibbs
target, the proposals being drawn with the log-density kept with them. -/
theorem C83_ratio (p : McmcParams D E ℝ R) (impl : McmcImpl E ℝ) (centroids : List E)
    (d : McmcDraws E ℝ) (impl' : McmcImpl E ℝ) (clust : List E) (fig : McmcFigures ℝ)
    (h : impl.iterate p centroids d = some (impl', clust, fig)) :
    ∃ prop, impl.propose p impl.current centroids impl.buffer.data impl.buffer.data.length d = some prop ∧
      fig.rho = Real.exp
        (logTarget p.conf.b p.conf.amp impl.dim impl.buffer.data.length prop.k prop.loss + impl.current.pdf -
          (logTarget p.conf.b p.conf.amp impl.dim impl.buffer.data.length impl.current.k impl.current.loss +
            prop.pdf)) := by
  obtain ⟨prop, hp, rfl, _, _, _, hrat, _⟩ := iterate_cases p _ _ _ _ _ _ h
  refine ⟨prop, hp, ?_⟩
  rw [← ratio_target, ← hrat]
  rfl

/-- The probability that a uniform draw on `[0, 1)` is below a non-negative ratio. -/
noncomputable def Spec.acceptProb (rho : ℝ) : ℝ := min 1 rho

/-- **C83 (balance).** The acceptance is in detailed balance with the Gibbs target: with `π` the target and
`q` the density kept with a proposal, `π(x) q(y) α(x,y) = π(y) q(x) α(y,x)`. -/
theorem C83_balance (conf : McmcConf ℝ R) (dim t : Nat) (x y : Proposal E ℝ) :
    let π := fun z : Proposal E ℝ => Real.exp (logTarget conf.b conf.amp dim t z.k z.loss)
    let q := fun z : Proposal E ℝ => Real.exp z.pdf
    let α := fun u v => acceptProb (ratio conf dim u v t).2.1
    π x * q y * α x y = π y * q x * α y x := by
  intro π q α
  simp only [π, q, α, acceptProb, ratio_target]
  generalize logTarget conf.b conf.amp dim t x.k x.loss = a
  generalize logTarget conf.b conf.amp dim t y.k y.loss = b
  rw [← Real.exp_add, ← Real.exp_add, mul_min_of_nonneg _ _ (Real.exp_pos _).le,
    mul_min_of_nonneg _ _ (Real.exp_pos _).le, ← Real.exp_add, ← Real.exp_add, min_comm, mul_one, mul_one]
  congr 2 <;> ring

/-! ## C84: the density kept with a proposal -/

theorem probaLoop_same {pdf : E → E → Nat → ℝ} {t : Nat} {c : ℝ} (hc : ∀ x, pdf x x t = c) :
    ∀ (x : List E) (a : ℝ), probaLoop pdf t x x a = some (a + x.length * c) := by
  intro x
  induction x with
  | nil => intro a; simp [probaLoop]
  | cons v x ih =>
    intro a
    simp only [probaLoop, ih, hc, List.length_cons, Nat.cast_add, Nat.cast_one, Option.some.injEq]
    ring

/-- **C84 (constant).** When the density at the centre depends on the time only, as for `Dirac` and
`MultivT`, the log-density kept with a proposal is `k` times this constant: it tells nothing about the
centroids drawn. -/
theorem C84_constant (p : McmcParams D E ℝ R) (hcpu : 1 ≤ p.sysCPU)
    (hk1 : 1 ≤ p.conf.initK) (hk2 : p.conf.initK ≤ p.conf.maxK) (hi : InitContract p.initializer)
    {top : Nat → ℝ} (hpdf : ∀ x t, p.pdf x x t = top t)
    (data : List E) (ops : List (McmcOp D E ℝ)) (s : McmcSys E ℝ)
    (h : McmcSys.run p (McmcSys.new p data) ops = some s) (hr : s.ready = true)
    (d : McmcDraws E ℝ) (prop : Proposal E ℝ)
    (hp : s.impl.propose p s.impl.current s.centroids s.impl.buffer.data
      s.impl.buffer.data.length d = some prop) :
    prop.pdf = prop.k * top s.impl.buffer.data.length ∧
    ∃ t, s.impl.current.pdf = s.impl.current.k * top t := by
  have hneg : (-1 : ℝ) < 0 := by norm_num
  have hinv := mcmc_run_inv hneg p hcpu hk1 hk2 hi ops _ _ (mcmc_new_inv p data) h
  obtain ⟨a1, a2, a3, a4, a5, t, a6⟩ := hinv.ready hr
  obtain ⟨q1, _, _, _, _, _, _, q2⟩ := propose_spec hneg p hcpu s.impl hinv.sized _ _ _ _ d
    a1 a2 a3 a4 prop hp
  rw [proba, probaLoop_same (fun x => hpdf x _), zero_add, Option.some.injEq] at a6 q2
  constructor
  · rw [← q2, ← q1]; simp
  · exact ⟨t, by rw [← a6, ← a4]; simp⟩

end

/-- `MultivT.Pdf` as the density of the algorithm; on points of one dimension it does not panic (C34). -/
noncomputable def multivtPdf (m : MultivT ℝ) (mu x : List ℝ) (t : Nat) : ℝ := (m.pdf Real.pi mu x t).getD 0

theorem eucl_self (x : List ℝ) : eucl x x = 0 := by
  have : (List.zipWith (fun a b => (a - b) ^ 2) x x).sum = 0 := by
    induction x with
    | nil => rfl
    | cons a x ih => simp
  unfold eucl
  rw [this, Real.sqrt_zero]

/-- The density of `MultivT` at the centre depends on the time only. -/
theorem multivtPdf_self (m : MultivT ℝ) (x y : List ℝ) (t : Nat) :
    multivtPdf m x x t = multivtPdf m y y t := by
  unfold multivtPdf
  rw [pdf_eq m x x rfl, pdf_eq m y y rfl, eucl_self, eucl_self]

theorem probaLoop_le {m : MultivT ℝ} {t : Nat} {top : ℝ}
    (htop : ∀ mu x : List ℝ, mu.length = x.length → multivtPdf m mu x t ≤ top ∧
      (multivtPdf m mu x t = top → x = mu)) :
    ∀ (x mu : List (List ℝ)) (a v : ℝ), x.length = mu.length →
      (∀ i (h1 : i < mu.length) (h2 : i < x.length), mu[i].length = x[i].length) →
      probaLoop (multivtPdf m) t x mu a = some v →
      v ≤ a + x.length * top ∧ (v = a + x.length * top → x = mu) := by
  intro x
  induction x with
  | nil =>
    intro mu a v hl _ h
    cases h
    cases mu with
    | nil => simp
    | cons => cases hl
  | cons y x ih =>
    intro mu a v hl hd h
    cases mu with
    | nil => cases hl
    | cons c mu =>
      simp only [probaLoop] at h
      have h0 := htop c y (hd 0 (by simp) (by simp))
      have := ih mu _ v (by simpa using hl)
        (fun i h1 h2 => hd (i + 1) (Nat.succ_lt_succ h1) (Nat.succ_lt_succ h2)) h
      simp only [List.length_cons, Nat.cast_add, Nat.cast_one]
      constructor
      · nlinarith [this.1, h0.1]
      · intro hv
        have h1 : multivtPdf m c y t = top := by
          have := this.1; have := h0.1; linarith
        have h2 := this.2 (by rw [h1]; linarith)
        rw [h0.2 h1, h2]

/-- **C84 (claim examined).** With `MultivT`, the log-density kept with a proposal is never that of the
centroids drawn, unless the draw left all of them in place: whatever the state, if `c` are the centroids
chosen for the proposal and the draws `alter c` move one of them, `prop.pdf` differs from the log-density
of `alter c` around `c`. -/
theorem C84_not_density {D R : Type} (dim : Nat) (nu : ℝ) (hnu : 0 ≤ nu)
    (p : McmcParams D (List ℝ) ℝ R) (hcpu : 1 ≤ p.sysCPU)
    (hk1 : 1 ≤ p.conf.initK) (hk2 : p.conf.initK ≤ p.conf.maxK) (hi : InitContract p.initializer)
    (hpdf : p.pdf = multivtPdf (MultivT.new Real.Gamma dim nu))
    (data : List (List ℝ)) (ops : List (McmcOp D (List ℝ) ℝ)) (s : McmcSys (List ℝ) ℝ)
    (h : McmcSys.run p (McmcSys.new p data) ops = some s) (hr : s.ready = true)
    (d : McmcDraws (List ℝ) ℝ) (prop : Proposal (List ℝ) ℝ)
    (hp : s.impl.propose p s.impl.current s.centroids s.impl.buffer.data
      s.impl.buffer.data.length d = some prop)
    (k : Int) (c : List (List ℝ))
    (hc : s.impl.getKCenters p s.impl.current s.centroids s.impl.buffer.data d = some (k, c))
    (hdim : ∀ i x, (d.sample i x).length = x.length) (hmove : alter c d ≠ c) :
    proba p.pdf s.impl.buffer.data.length (alter c d) c ≠ some prop.pdf := by
  have hneg : (-1 : ℝ) < 0 := by norm_num
  have hinv := mcmc_run_inv hneg p hcpu hk1 hk2 hi ops _ _ (mcmc_new_inv p data) h
  obtain ⟨a1, a2, a3, a4, a5, _, _⟩ := hinv.ready hr
  have hk := getKCenters_spec p s.impl hinv.sized _ _ _ d a1 a2 a3 a4 k c hc
  have hkk : prop.k = k := by
    unfold McmcImpl.propose at hp
    rw [hc] at hp
    simp only at hp
    split at hp
    · cases hp
    · split at hp
      · cases hp; rfl
      · cases hp
  have ht : 0 < s.impl.buffer.data.length := by omega
  have hself := (C84_constant p hcpu hk1 hk2 hi
    (top := fun t => multivtPdf (MultivT.new Real.Gamma dim nu) [] [] t)
    (fun x t => by rw [hpdf]; exact multivtPdf_self _ _ _ _) data ops s h hr d prop hp).1
  rw [hpdf]
  intro hpr
  have key := probaLoop_le (m := MultivT.new Real.Gamma dim nu) (t := s.impl.buffer.data.length)
    (top := multivtPdf (MultivT.new Real.Gamma dim nu) [] [] s.impl.buffer.data.length)
    (fun mu x hl => by
      obtain ⟨v, top, h1, h2, h3, h4⟩ := C34_maximum dim nu hnu s.impl.buffer.data.length ht mu x hl
      have e1 : multivtPdf (MultivT.new Real.Gamma dim nu) mu x s.impl.buffer.data.length = v := by
        unfold multivtPdf; rw [h1]; rfl
      have e2 : multivtPdf (MultivT.new Real.Gamma dim nu) [] [] s.impl.buffer.data.length = top := by
        rw [multivtPdf_self _ [] mu]; unfold multivtPdf; rw [h2]; rfl
      rw [e1, e2]
      exact ⟨h3, h4.1⟩)
    (alter c d) c 0 prop.pdf (by simp [alter]) (fun i h1 h2 => by simp [alter, hdim]) hpr
  refine hmove (key.2 ?_)
  rw [hself, hkk, ← hk.1]
  simp [alter]

/-! ## Examples -/

/-- The configuration of the examples: one centroid in dimension 1. -/
noncomputable def exRConf : McmcConf ℝ Unit :=
  { ctrl := { iter := 0, iterFreq := 0, timeout := 0, dataPerIter := 0, iterPerData := 0 },
    par := false, initK := 1, rgen := none, b := 1, amp := 1, r := 0, norm := 2, maxK := 1,
    probaK := [1, 2, 1], frameSize := 0, numCPU := 1 }

/-- The parameters of the examples: `MultivT` with 3 degrees of freedom in dimension 1. -/
noncomputable def exRParams : McmcParams Unit (List ℝ) ℝ Unit :=
  let space : Space (List ℝ) ℝ :=
    { dist := eucl, combine := fun a _ _ _ => a, copy := id, dim := fun _ => 1 }
  { conf := exRConf, space, sysCPU := 1, pdf := multivtPdf (MultivT.new Real.Gamma 1 3),
    initializer := fun _ k data => givenInitializer k data space }

/-- The draws of the examples move the centroid by 1. -/
noncomputable def exRDraws : McmcDraws (List ℝ) ℝ :=
  { move := 1 / 2, add := 1 / 2, add' := 1 / 2, del := 0, del' := 0,
    sample := fun _ x => x.map (· + 1), accept := 1 / 2 }

/-- The hypotheses of C84 are met after an initialisation on one datum. -/
theorem exR_meets : ∃ (s : McmcSys (List ℝ) ℝ) (prop : Proposal (List ℝ) ℝ) (k : Int),
    McmcSys.run exRParams (McmcSys.new exRParams [[0]]) [.init ()] = some s ∧ s.ready = true ∧
    s.impl.propose exRParams s.impl.current s.centroids s.impl.buffer.data
      s.impl.buffer.data.length exRDraws = some prop ∧
    s.impl.getKCenters exRParams s.impl.current s.centroids s.impl.buffer.data exRDraws =
      some (k, [[0]]) ∧
    (∀ i x, (exRDraws.sample i x).length = x.length) ∧ alter [[0]] exRDraws ≠ [[0]] := by
  have hg : exRParams.initializer () 1 [[0]] = .ok [[0]] := by
    simp [exRParams, givenInitializer, initCheck, givenLoop]
  obtain ⟨l, hl⟩ := mcmcLoss_isSome exRParams (by simp [exRParams, exRConf]) [[0]] [[0]] (by simp)
  obtain ⟨q, hq⟩ := probaLoop_isSome exRParams.pdf 1 [[0]] [[0]] (0 : ℝ) (Nat.le_refl _)
  have hb : (newDataBuffer [([0] : List ℝ)] 0).apply.data = [[0]] := rfl
  have hrun : ∃ s, McmcSys.run exRParams (McmcSys.new exRParams [[0]]) [.init ()] = some s ∧
      s.ready = true ∧ s.centroids = [[0]] ∧ s.impl.buffer.data = [[0]] ∧ s.impl.current.k = 1 ∧
      s.impl.store = CenterStore.empty := by
    have e : (McmcSys.new exRParams [[0]]).impl.init exRParams () =
        ({ McmcImpl.new exRParams [[0]] with
            buffer := (newDataBuffer [([0] : List ℝ)] 0).apply, dim := 1,
            current := { k := 1, centers := [[0]], loss := l, pdf := q }, time := 1 }, .ok [[0]]) := by
      unfold McmcImpl.init
      have h1 : exRParams.initializer () exRParams.conf.initK
          (McmcSys.new exRParams [[0]]).impl.buffer.apply.data = .ok [[0]] := hg
      have h2 : mcmcLoss exRParams [[0]] (McmcSys.new exRParams [[0]]).impl.buffer.apply.data =
        some l := hl
      have h3 : proba exRParams.pdf (McmcSys.new exRParams [[0]]).impl.buffer.apply.data.length [[0]] [[0]] =
        some q := hq
      simp only [h1, h2, h3]
      rfl
    exact ⟨⟨((McmcSys.new exRParams [[0]]).impl.init exRParams ()).1, [[0]], true⟩,
      by simp only [McmcSys.run, McmcSys.step, e], rfl, rfl, by rw [e]; exact ⟨rfl, rfl, rfl⟩⟩
  obtain ⟨s, hs, hr, hc, hd, hk, hst⟩ := hrun
  have hmv : alter [[0]] exRDraws ≠ [([0] : List ℝ)] := by
    simp [alter, exRDraws]
  have hkc : s.impl.getKCenters exRParams s.impl.current s.centroids s.impl.buffer.data exRDraws =
      some (1, [[0]]) := by
    obtain ⟨k', hk'⟩ := nextK_isSome exRConf rfl (by simp [exRConf]) 1 [([0] : List ℝ)] (1 / 2)
      (by norm_num)
    have hk1 : k' = 1 := by
      have := nextK_range exRConf 1 [([0] : List ℝ)] (1 / 2) k' (by decide) (by decide) (by decide) hk'
      simp only [List.length_singleton] at this
      omega
    subst hk1
    unfold McmcImpl.getKCenters
    rw [hc, hd, hk, hst, show exRParams.conf = exRConf from rfl,
      show exRDraws.move = 1 / 2 from rfl, hk']
    simp [CenterStore.getCenters, CenterStore.empty, genCenters]
  obtain ⟨impl', clust, fig, hit⟩ := C30_no_panic exRParams (by decide)
    (by simp [exRParams, exRConf]) (by decide) (by decide) (initContract_given _) rfl
    (by simp [exRParams, exRConf]) (fun a b => Real.sqrt_nonneg _) [[0]] [.init ()] s hs hr exRDraws
    ⟨by norm_num [exRDraws], by norm_num [exRDraws], by rw [hc]; decide⟩
  obtain ⟨prop, hp, _⟩ := iterate_cases _ _ _ _ _ _ _ hit
  exact ⟨s, prop, 1, hs, hr, hp, hkc, fun i x => by simp [exRDraws], hmv⟩

/-- The conclusion of C84 on the example: the kept density is not the one of the draw. -/
example : ∃ (s : McmcSys (List ℝ) ℝ) (prop : Proposal (List ℝ) ℝ),
    s.impl.propose exRParams s.impl.current s.centroids s.impl.buffer.data
      s.impl.buffer.data.length exRDraws = some prop ∧
    proba exRParams.pdf s.impl.buffer.data.length (alter [[0]] exRDraws) [[0]] ≠ some prop.pdf := by
  obtain ⟨s, prop, k, hs, hr, hp, hkc, hdim, hmv⟩ := exR_meets
  exact ⟨s, prop, hp, C84_not_density 1 3 (by norm_num) exRParams (by decide) (by decide) (by decide)
    (initContract_given _) rfl [[0]] _ s hs hr exRDraws prop hp k _ hkc hdim hmv⟩

/-- Two proposals of the same size and density, the second better by 1 in dimension 1 at time 4: the ratio
is `exp 1`, its inverse the other way. -/
example : (ratio exRConf 1 (⟨1, [[0]], 3, 5⟩ : Proposal (List ℝ) ℝ) ⟨1, [[1]], 2, 5⟩ 4).2.1 = Real.exp 1 ∧
    (ratio exRConf 1 (⟨1, [[1]], 2, 5⟩ : Proposal (List ℝ) ℝ) ⟨1, [[0]], 3, 5⟩ 4).2.1 = Real.exp (-1) := by
  rw [ratio_target, ratio_target]
  have : Real.sqrt ((1 + 3) / 4) = 1 := by norm_num
  constructor <;> · congr 1; simp [logTarget, exRConf, this]; try norm_num

end Distclus
