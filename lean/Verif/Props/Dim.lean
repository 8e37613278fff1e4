import Verif.Props.McmcRatio
import Verif.Model.Dtw
/-!
# C114: the dimension
-/
set_option linter.unusedSectionVars false

namespace Distclus
open Spec

section
variable {F : Type}

/-- The specification: all the points of the list have dimension `n`. -/
def Spec.AllDim (n : Nat) (ps : List (List F)) : Prop := ∀ p ∈ ps, p.length = n

/-- **C114 (vectors).** For a non-empty list of vectors of a common dimension, `Dim` is this dimension; for an empty one
it is 0. So the order of the data does not matter. -/
theorem C114_euclid (n : Nat) (ps : List (List F)) (h : AllDim n ps) :
    euclidDim ps = if ps = [] then 0 else n := by
  cases ps with
  | nil => rfl
  | cons p ps => exact h p List.mem_cons_self

/-- **C114 (series).** For series of points of a common dimension of which the first is not empty, `Dim` is this
dimension. -/
theorem C114_dtw_partial (n : Nat) (a : List (List F)) (as : List (List (List F)))
    (h : ∀ s ∈ a :: as, AllDim n s) (ha : a ≠ []) : dtwDim List.length (a :: as) = n := by
  cases a with
  | nil => exact absurd rfl ha
  | cons p a => exact h _ List.mem_cons_self p List.mem_cons_self

/-- **C114 (series).** For series of points of a common dimension, `Dim` is this dimension, but 0 when there are no
series or the first one is empty, whatever the others. -/
theorem C114_dtw (n : Nat) (as : List (List (List F))) (h : ∀ s ∈ as, AllDim n s) :
    (as = [] ∨ as.head? = some [] → dtwDim List.length as = 0) ∧
    (as ≠ [] → as.head? ≠ some [] → dtwDim List.length as = n) := by
  match as, h with
  | [], _ => simp [dtwDim]
  | [] :: _, _ => simp [dtwDim]
  | (p :: a) :: as, h => exact ⟨by simp, fun _ _ => C114_dtw_partial n (p :: a) as h (by simp)⟩

/-- **C114 (claim examined, series).** "`Dim` is the dimension of the points" does not hold if the first series is empty:
it is then 0 whatever the other series. -/
theorem C114_dtw_false : ¬ ∀ (n : Nat) (as : List (List (List ℚ))), (∀ s ∈ as, AllDim n s) → (∃ s ∈ as, s ≠ []) →
    dtwDim List.length as = n := fun h =>
  absurd (h 2 [[], [[1, 2]]] (by simp [AllDim]) ⟨[[1, 2]], by simp, by simp⟩) (by decide)

end

section
variable {D E F R : Type} [Zero F] [One F] [Neg F] [LT F] [DecidableLT F] [Add F] [Sub F] [Mul F] [BEq F]
  [GoMath F] [Div F]

/-- In any history the dimension is that of the centroids given by the last successful initialisation. -/
theorem mcmc_dim {n : Nat} (p : McmcParams D E F R) (hk1 : 1 ≤ p.conf.initK) (hi : InitContract p.initializer)
    (hd : ∀ c : List E, c ≠ [] → p.space.dim c = n) (ops : List (McmcOp D E F)) : ∀ (s s' : McmcSys E F),
    (s.ready = true → s.impl.dim = n) → McmcSys.run p s ops = some s' → s'.ready = true → s'.impl.dim = n := by
  induction ops with
  | nil => intro s s' hinv h; cases h; exact hinv
  | cons o os ih =>
    intro s s' hinv h
    unfold McmcSys.run at h
    split at h
    · cases h
    · rename_i s1 h1
      refine ih s1 s' ?_ h
      cases o with
      | push e r =>
        simp only [McmcSys.step] at h1
        split at h1
        · cases h1
        · cases h1; exact hinv
      | init d =>
        simp only [McmcSys.step] at h1
        split at h1
        · rename_i impl c hin
          cases h1
          intro _
          obtain ⟨c1, _, _, c4, _⟩ := (init_cases p s.impl impl d _ hin).2.2.2 c rfl
          have := (hi _ _ _ _ c1).1
          rw [c4, hd]
          rintro rfl
          simp at this
          omega
        · cases h1; intro h; cases h
      | iterate d =>
        simp only [McmcSys.step] at h1
        split at h1
        · rename_i hr
          split at h1
          · cases h1; intro h; cases h
          · rename_i impl clust fig hit
            cases h1
            obtain ⟨_, _, _, _, hdim, _⟩ := iterate_cases p _ _ _ _ _ _ hit
            intro _
            exact hdim.trans (hinv hr)
        · cases h1

/-- **C114 (MCMC).** On vectors of dimension `n`, with the Euclidean or the cosine distance, the dimension used by MCMC is
`n` whenever it can iterate: after any history, with any initialiser of the library and any draws. -/
theorem C114_mcmc {n : Nat} (p : McmcParams D (Vec F n) F R) (hk1 : 1 ≤ p.conf.initK)
    (hi : InitContract p.initializer)
    (hs : p.space.dim = (euclidSpace F n).dim ∨ p.space.dim = (cosinusSpace F n).dim)
    (data : List (Vec F n)) (ops : List (McmcOp D (Vec F n) F)) (s : McmcSys (Vec F n) F)
    (h : McmcSys.run p (McmcSys.new p data) ops = some s) (hr : s.ready = true) : s.impl.dim = n := by
  refine mcmc_dim p hk1 hi (fun c hc => ?_) ops _ _ (fun h => by cases h) h hr
  have : p.space.dim c = euclidDim (c.map (·.1)) := by
    rcases hs with hs | hs <;> rw [hs] <;> rfl
  rw [this, C114_euclid n]
  · rw [if_neg (by simpa using hc)]
  · intro q hq
    obtain ⟨v, _, rfl⟩ := List.mem_map.1 hq
    exact v.2

end

/-- **C114 (ratio).** So the published `rho` of an iteration after any history is the ratio of C83 for the dimension of
the data. -/
theorem C114_ratio {D R : Type} {n : Nat} (p : McmcParams D (Vec ℝ n) ℝ R) (hk1 : 1 ≤ p.conf.initK)
    (hi : InitContract p.initializer) (hs : p.space = euclidSpace ℝ n)
    (data : List (Vec ℝ n)) (ops : List (McmcOp D (Vec ℝ n) ℝ)) (s : McmcSys (Vec ℝ n) ℝ)
    (h : McmcSys.run p (McmcSys.new p data) ops = some s) (hr : s.ready = true)
    (d : McmcDraws (Vec ℝ n) ℝ) (impl' : McmcImpl (Vec ℝ n) ℝ) (clust : List (Vec ℝ n)) (fig : McmcFigures ℝ)
    (hit : s.impl.iterate p s.centroids d = some (impl', clust, fig)) :
    ∃ prop, s.impl.propose p s.impl.current s.centroids s.impl.buffer.data s.impl.buffer.data.length d = some prop ∧
      fig.rho = Real.exp
        (logTarget p.conf.b p.conf.amp n s.impl.buffer.data.length prop.k prop.loss + s.impl.current.pdf -
          (logTarget p.conf.b p.conf.amp n s.impl.buffer.data.length s.impl.current.k s.impl.current.loss +
            prop.pdf)) := by
  obtain ⟨prop, h1, h2⟩ := C83_ratio p s.impl s.centroids d impl' clust fig hit
  rw [C114_mcmc p hk1 hi (.inl (by rw [hs])) data ops s h hr] at h2
  exact ⟨prop, h1, h2⟩

/-! ## The hypotheses are met -/

example : AllDim 2 [[(1 : ℚ), 2], [3, 4]] := by simp [AllDim]

section
attribute [local instance] exQMath

/-- The plane, the Dirac distribution, the first data as centroids. -/
def exPlane : McmcParams Unit (Vec ℚ 2) ℚ Unit :=
  { conf := exMcmcConf [1, 1, 2], space := euclidSpace ℚ 2, sysCPU := 2, pdf := diracPdf,
    initializer := fun _ k data => givenInitializer k data (euclidSpace ℚ 2) }

example : (McmcSys.run exPlane (McmcSys.new exPlane [⟨[3, 4], rfl⟩, ⟨[5, 6], rfl⟩]) [.init ()]).any
    (fun s => s.ready && s.impl.dim == 2) = true := by decide +kernel

example : InitContract exPlane.initializer := initContract_given _
end

end Distclus
