import Verif.Props.KMeans
import Verif.Props.Fl64
/-!
# C107 — the order and the multiplicity of the data
-/
namespace Distclus
open Spec

section
variable {E F V : Type} [Zero F] [One F] [Neg F] [LT F] [DecidableLT F] [AddCommGroup V] [Module ℝ V]

/-- Two iterations agree when each cluster is empty in both, or has the same mean in both. -/
private theorem step_congr (hneg : (-1 : F) < 0) {space : Space E F} {φ : E → V} (hb : Barycentric space φ)
    (s s' : KStrategy) (hs : s.Valid) (hs' : s'.Valid) (c data data' : List E) (hc : c ≠ [])
    (hm : ∀ p : E → Bool, ((data.filter p) = [] ↔ (data'.filter p) = []) ∧
      mean ((data.filter p).map φ) = mean ((data'.filter p).map φ)) :
    kmeansStep s space data c = kmeansStep s' space data' c := by
  obtain ⟨o1, h1, l1, p1⟩ := iterate_spec hneg (mean_append_combine hb) (running_mean hb) s hs c
    data hc
  obtain ⟨o2, h2, l2, p2⟩ := iterate_spec hneg (mean_append_combine hb) (running_mean hb) s' hs' c
    data' hc
  simp only [kmeansStep, h1, h2, allSome_map_some, Option.some.injEq]
  apply List.ext_getElem?
  intro i
  by_cases hi : i < c.length
  · obtain ⟨m1, e1, z1, n1⟩ := p1 i c[i] (by simp)
    obtain ⟨m2, e2, z2, n2⟩ := p2 i c[i] (by simp)
    obtain ⟨g1, g2⟩ := hm fun e => (nearest space c e).1 == (i : Int)
    rw [e1, e2]
    by_cases h0 : (data.filter fun e => (nearest space c e).1 == (i : Int)) = []
    · rw [z1 h0, z2 (g1.1 h0)]
    · rw [hb.inj _ _ ((n1 h0).trans (g2.trans (n2 fun h => h0 (g1.2 h)).symm))]
  · rw [List.getElem?_eq_none (by omega), List.getElem?_eq_none (by omega)]

omit [Zero F] [One F] [Neg F] [LT F] [DecidableLT F] in
private theorem mean_perm {l l' : List V} (h : l.Perm l') : mean l = mean l' := by
  unfold mean; rw [h.length_eq, h.sum_eq]

private theorem mean_repeat (r : Nat) (hr : 0 < r) (l : List V) :
    mean (List.replicate r l).flatten = mean l := by
  have h1 : (List.replicate r l).flatten.length = r * l.length := by simp
  have h2 : (List.replicate r l).flatten.sum = (r : ℝ) • l.sum := by
    clear h1 hr
    induction r with
    | zero => simp
    | succ r ih =>
      rw [List.replicate_succ, List.flatten_cons, List.sum_append, ih]
      push_cast
      rw [add_smul, one_smul, add_comm]
  unfold mean
  rw [h1, h2, smul_smul]
  congr 1
  push_cast
  have : (r : ℝ) ≠ 0 := by exact_mod_cast hr.ne'
  by_cases hl : (l.length : ℝ) = 0
  · simp [hl]
  · field_simp

/-- **C107** (one iteration). -/
theorem C107_iterate (hneg : (-1 : F) < 0) {space : Space E F} {φ : E → V} (hb : Barycentric space φ)
    (s s' : KStrategy) (hs : s.Valid) (hs' : s'.Valid) (c data data' : List E) (hc : c ≠ [])
    (hp : data.Perm data') : kmeansStep s space data c = kmeansStep s' space data' c := by
  refine step_congr hneg hb s s' hs hs' c data data' hc fun p => ?_
  have hf := hp.filter p
  exact ⟨⟨fun h => List.nil_perm.1 (h ▸ hf), fun h => List.perm_nil.1 (h ▸ hf)⟩, mean_perm (hf.map φ)⟩

/-- **C107** (multiplicity). Each element pushed `r` times instead of once changes no centroid. -/
theorem C107_repeat (hneg : (-1 : F) < 0) {space : Space E F} {φ : E → V} (hb : Barycentric space φ)
    (s : KStrategy) (hs : s.Valid) (c data : List E) (hc : c ≠ []) (r : Nat) (hr : 0 < r) :
    kmeansStep s space (List.replicate r data).flatten c = kmeansStep s space data c := by
  refine step_congr hneg hb s s hs hs c _ data hc fun p => ?_
  have hf : (List.replicate r data).flatten.filter p = (List.replicate r (data.filter p)).flatten := by
    simp [List.filter_flatten]
  rw [hf]
  constructor
  · simp; omega
  · rw [List.map_flatten, List.map_replicate, mean_repeat r hr]

end

/-- **C107** (k-means). In exact arithmetic, after any iterations on any contents of the buffer, the centroids do
not depend on the order of the elements in the buffer, nor on the strategy. -/
theorem C107_run {n : Nat} (s s' : KStrategy) (hs : s.Valid) (hs' : s'.Valid)
    (datas datas' : List (List (Vec ℝ n))) (hp : List.Forall₂ List.Perm datas datas') (c : List (Vec ℝ n))
    (hc : c ≠ []) :
    kmeansRun s (euclidSpace ℝ n) datas c = kmeansRun s' (euclidSpace ℝ n) datas' c := by
  induction hp generalizing c with
  | nil => rfl
  | @cons d d' rest rest' h _ ih =>
    have hneg : (-1 : ℝ) < 0 := by norm_num
    have e := C107_iterate hneg (euclid_barycentric n) s s' hs hs' c d d' hc h
    obtain ⟨out, h1, h2, _⟩ := C23_iterate hneg s hs (euclidSpace ℝ n) c d hc
    have hst : kmeansStep s (euclidSpace ℝ n) d c = some out := by
      simp [kmeansStep, h1, allSome_map_some]
    have hne : out ≠ [] := by
      intro h; subst h; exact hc (List.length_eq_zero_iff.1 (by simpa using h2.symm))
    simp only [kmeansRun, ← e, hst]
    exact ih out hne

/-- **C107** (loss). The loss does not depend on the order of the data, and is multiplied with them. -/
theorem C107_loss {n : Nat} (c data data' : List (Vec ℝ n)) (hc : c ≠ []) (norm : ℝ) :
    (data.Perm data' → totalLoss (euclidSpace ℝ n) c data norm = totalLoss (euclidSpace ℝ n) c data' norm) ∧
    ∀ r : Nat, totalLoss (euclidSpace ℝ n) c (List.replicate r data).flatten norm =
      (totalLoss (euclidSpace ℝ n) c data norm).map ((r : ℝ) * ·) := by
  have hneg : (-1 : ℝ) < 0 := by norm_num
  constructor
  · intro hp
    rw [C10_totalLoss hneg _ c _ hc, C10_totalLoss hneg _ c _ hc, (hp.map _).sum_eq]
  · intro r
    rw [C10_totalLoss hneg _ c _ hc, C10_totalLoss hneg _ c _ hc, Option.map_some]
    congr 1
    induction r with
    | zero => simp
    | succ r ih =>
      rw [List.replicate_succ, List.flatten_cons, List.map_append, List.sum_append, ih]
      push_cast; ring

open Fl64 in
/-- **C107 (claim examined).** In `float64` the order matters: with 2⁵⁵, 1 and -2⁵⁵ the only centroid becomes 0,
with 2⁵⁵, -2⁵⁵ and 1 it becomes at least 1/4. -/
theorem C107_rounding_differs (c : Vec (Fl binary64) 1) :
    [pt big, pt 1, pt (-big)].Perm [pt big, pt (-big), pt 1] ∧
    KStrategy.seq.iterate sp [c] [pt big, pt 1, pt (-big)] = some [some (pt 0)] ∧
    ∃ x : Fl binary64, KStrategy.seq.iterate sp [c] [pt big, pt (-big), pt 1] = some [some (pt x)] ∧
      1 / 4 ≤ x.val := by
  refine ⟨(List.Perm.swap _ _ _).cons _, ?_, ?_⟩
  · have r : running sp [pt big, pt 1, pt (-big)] = some (pt 0) := by
      show some (sp.combine (sp.combine (pt big) (1 : Nat) (pt 1) (1 : Nat)) (2 : Nat)
        (pt (-big)) (1 : Nat)) = _
      rw [s1, s2]
    simp [KStrategy.iterate, reduce_one, r, seqBuildResult]
  · have e1 : sp.combine (pt big) (1 : Nat) (pt (-big)) (1 : Nat) = pt 0 := by
      rw [comb _ _ _ _ (by norm_num) (by norm_num) (by norm_num)]
      congr 1
      apply Fl.ext
      show binary64.rnd _ = 0
      rw [Fl.val_neg, neg_mul, binary64.neg, add_neg_cancel, binary64.zero, zero_div, binary64.zero]
    refine ⟨Fl.of binary64 (1 / 3), ?_, ?_⟩
    · have e2 : sp.combine (pt 0) (2 : Nat) (pt 1) (1 : Nat) = pt (Fl.of binary64 (1 / 3)) := by
        rw [comb _ _ _ _ (by norm_num) (by norm_num) (by norm_num)]
        congr 2
        rw [Fl.val_zero, Fl.val_one, zero_mul, Nat.cast_one, mul_one, binary64.zero, binary64.one,
          zero_add, binary64.one]
        norm_num
      have r : running sp [pt big, pt (-big), pt 1] = some (pt (Fl.of binary64 (1 / 3))) := by
        show some (sp.combine (sp.combine (pt big) (1 : Nat) (pt (-big)) (1 : Nat)) (2 : Nat)
          (pt 1) (1 : Nat)) = _
        rw [e1, e2]
      simp [KStrategy.iterate, reduce_one, r, seqBuildResult]
    · show 1 / 4 ≤ binary64.rnd (1 / 3)
      have := rnd_pow (-2) (by norm_num)
      have h2 : ((2 : ℝ) ^ (-2 : ℤ)) = 1 / 4 := by norm_num
      rw [h2] at this
      rw [← this]
      exact binary64.mono (by norm_num)

/-- The order of the first elements matters to the initialisation by the first elements. -/
example : givenInitializer 1 [0, 1] exSpace ≠ givenInitializer 1 [1, 0] exSpace := by decide

/-- Non-vacuity: two orders of the same data. -/
example : KStrategy.seq.iterate exSpace [0, 10] [1, 9, 3, 11] = KStrategy.seq.iterate exSpace [0, 10] [11, 3, 9, 1] ∧
    KStrategy.seq.iterate exSpace [0, 10] [1, 9, 3, 11] = some [some 2, some 10] := by decide

end Distclus
