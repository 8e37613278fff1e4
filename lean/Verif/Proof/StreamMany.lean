import Verif.Spec.StreamMany
import Verif.Proof.Nearest
import Verif.Proof.CtrlStream
import Verif.Model.RealMath
import Mathlib.Analysis.PSeries
import Mathlib.Algebra.BigOperators.Field
/-!
# Centres which drift: lemmas
-/
namespace Distclus
open Spec

theorem onLine_dist (x y : ℝ) : (euclidSpace ℝ 1).dist (onLine x) (onLine y) = |x - y| := by
  show Real.sqrt (0 + (x - y) * (x - y)) = _
  rw [zero_add, Real.sqrt_mul_self_eq_abs]

theorem onLine_combine (x y : ℝ) (k : Nat) :
    (euclidSpace ℝ 1).combine (onLine x) k (onLine y) 1 = onLine ((x * k + y) / (k + 1)) := by
  apply Subtype.ext
  show [(x * ((k : Int) : ℝ) + y * ((1 : Int) : ℝ)) / (((k : Int) : ℝ) + ((1 : Int) : ℝ))] = _
  simp [onLine]

section
variable {R : Type}

/-- A state which waits for nothing, whose centres are on the line, with maximal distance 1. -/
structure OnUnit (impl : StreamImpl (Vec ℝ 1) ℝ R) (xs : List ℝ) (ks : List Int) : Prop where
  clust : impl.clust = xs.map onLine
  cards : impl.cards = ks
  c : impl.c = []
  max : impl.maxDistance = 1
  size : 1 ≤ impl.conf.bufferSize
  ratio : 1 ≤ impl.conf.outRatio

/-- Whatever the draws between `a` and `b`, the elements lead from a state to the other one. -/
def Leads (a b : ℝ) (impl : StreamImpl (Vec ℝ 1) ℝ R) (es : List ℝ) (impl' : StreamImpl (Vec ℝ 1) ℝ R) : Prop :=
  ∀ ts : List ℝ, ts.length = es.length → (∀ t ∈ ts, a ≤ t ∧ t ≤ b) →
    ∃ rs, impl.run (euclidSpace ℝ 1) (feedOps (es.map onLine) ts) = some (impl', rs)

theorem Leads.nil (a b : ℝ) (impl : StreamImpl (Vec ℝ 1) ℝ R) : Leads a b impl [] impl :=
  fun _ _ _ => ⟨[], rfl⟩

theorem feedOps_append {E F : Type} : ∀ (es es' : List E) (ts ts' : List F), es.length = ts.length →
    feedOps (es ++ es') (ts ++ ts') = feedOps es ts ++ feedOps es' ts'
  | [], _, [], _, _ => rfl
  | [], _, _ :: _, _, h => by simp at h
  | _ :: _, _, [], _, h => by simp at h
  | e :: es, es', t :: ts, ts', h => by
    simp only [List.cons_append, feedOps]
    rw [feedOps_append es es' ts ts' (by simpa using h)]

theorem Leads.append {a b : ℝ} {impl impl1 impl2 : StreamImpl (Vec ℝ 1) ℝ R} {es es' : List ℝ}
    (h : Leads a b impl es impl1) (h' : Leads a b impl1 es' impl2) : Leads a b impl (es ++ es') impl2 := by
  intro ts hl ht
  have e : ts = ts.take es.length ++ ts.drop es.length := (List.take_append_drop _ _).symm
  have hl1 : (ts.take es.length).length = es.length := by
    rw [List.length_take, hl, List.length_append]; omega
  have hl2 : (ts.drop es.length).length = es'.length := by
    rw [List.length_drop, hl, List.length_append]; omega
  obtain ⟨rs, hr⟩ := h _ hl1 fun t hm => ht t (List.mem_of_mem_take hm)
  obtain ⟨rs', hr'⟩ := h' _ hl2 fun t hm => ht t (List.mem_of_mem_drop hm)
  rw [e, List.map_append, feedOps_append _ _ _ _ (by rw [List.length_map, hl1])]
  exact ⟨_, (srun_append _ hr hr').1⟩

theorem leads_one {a b : ℝ} {impl impl' : StreamImpl (Vec ℝ 1) ℝ R} {x : ℝ} (hc : impl.c = [])
    (hs : 1 ≤ impl.conf.bufferSize)
    (h : ∀ t, a ≤ t → t ≤ b → impl.process (euclidSpace ℝ 1) t (onLine x) = some impl') : Leads a b impl [x] impl' := by
  intro ts hl ht
  match ts, hl with
  | [t], _ =>
    obtain ⟨h1, h2⟩ := ht t (by simp)
    have hp : impl.push (onLine x) = ({ impl with c := [onLine x] }, false) := by
      unfold StreamImpl.push
      rw [hc, if_pos (by simp only [List.length_nil, Nat.cast_zero]; omega)]
      rfl
    have he : ({ impl with c := [] } : StreamImpl (Vec ℝ 1) ℝ R) = impl := by rw [← hc]
    refine ⟨[.push false, .iterate (some impl'.clust) impl'.maxDistance], ?_⟩
    simp only [List.map_cons, List.map_nil, feedOps, StreamImpl.run, StreamImpl.step, hp, StreamImpl.iterate]
    rw [he, h t h1 h2]

/-- The nearest centre of an element which is strictly nearer to the last one. -/
theorem nearest_last (xs : List ℝ) (c x : ℝ) (h : ∀ y ∈ xs, |x - c| < |x - y|) :
    nearest (euclidSpace ℝ 1) ((xs ++ [c]).map onLine) (onLine x) = (((xs.length : Nat) : Int), |x - c|) := by
  have hne : (xs ++ [c]).map onLine ≠ [] := by simp
  obtain ⟨c0, cs, e⟩ : ∃ c0 cs, (xs ++ [c]).map onLine = c0 :: cs := by
    cases hl : (xs ++ [c]).map onLine with
    | nil => exact absurd hl hne
    | cons c0 cs => exact ⟨c0, cs, rfl⟩
  obtain ⟨k, y, hk, hy⟩ := nearest_spec (by norm_num : (-1 : ℝ) < 0) (euclidSpace ℝ 1) c0 cs (onLine x) (fun h => h)
    (fun y _ => not_lt.2 (Real.sqrt_nonneg _))
  rw [← e] at hk hy
  rw [hk]
  have hmin := hy.minimal (onLine c) (by simp) (fun h => h)
  rw [onLine_dist] at hmin
  have hat := hy.at_label
  rw [List.getElem?_map] at hat
  by_cases hlt : k < xs.length
  · rw [List.getElem?_append_left hlt, List.getElem?_eq_getElem hlt] at hat
    cases hat
    have := h xs[k] (List.getElem_mem hlt)
    rw [onLine_dist] at hmin
    exact absurd this hmin
  · rw [List.getElem?_append_right (by omega)] at hat
    have hk0 : k = xs.length := by
      by_contra hne
      rw [List.getElem?_eq_none (by simp; omega)] at hat
      cases hat
    subst hk0
    simp only [Nat.sub_self, List.getElem?_cons_zero, Option.map_some, Option.some.injEq] at hat
    subst hat
    rw [onLine_dist]

/-- An element near the last centre, and nearer to it than to the others, is merged into it. -/
theorem leads_merge {a b : ℝ} {impl : StreamImpl (Vec ℝ 1) ℝ R} {xs : List ℝ} {c x : ℝ} {ks : List Int} {k : Nat}
    (hu : OnUnit impl (xs ++ [c]) (ks ++ [(k : Int)])) (hl : ks.length = xs.length) (h : ∀ y ∈ xs, |x - c| < |x - y|)
    (ha : |x - c| ≤ a) (ha1 : a ≤ 1) :
    ∃ impl', Leads a b impl [x] impl' ∧
      OnUnit impl' (xs ++ [(c * k + x) / (k + 1)]) (ks ++ [((k + 1 : Nat) : Int)]) ∧ impl'.conf = impl.conf := by
  have hn := nearest_last xs c x h
  have hass : assign (euclidSpace ℝ 1) impl.clust (onLine x) = some (some (onLine c), ((xs.length : Nat) : Int), |x - c|) := by
    unfold assign
    rw [hu.clust, hn]
    have : idx? ((xs ++ [c]).map onLine) ((xs.length : Nat) : Int) = some (onLine c) := by
      simp [idx?]
    simp
  let impl1 : StreamImpl (Vec ℝ 1) ℝ R :=
    { impl with
      clust := (xs ++ [(c * k + x) / (k + 1)]).map onLine
      cards := ks ++ [((k + 1 : Nat) : Int)]
      count := impl.count + 1 }
  refine ⟨impl1, leads_one hu.c hu.size fun t h1 h2 => ?_, ⟨rfl, rfl, hu.c, hu.max, hu.size, hu.ratio⟩, rfl⟩
  have hrel : impl.getRelativeDistance |x - c| = (impl, |x - c|) := by
    unfold StreamImpl.getRelativeDistance
    simp [hu.max]
  have hratio := hu.ratio
  unfold StreamImpl.process
  rw [hass]
  simp only [hrel]
  rw [if_neg (by rintro ⟨_, h3⟩; linarith), if_neg (by linarith)]
  unfold StreamImpl.updateCenter
  have i1 : idx? impl.clust ((xs.length : Nat) : Int) = some (onLine c) := by
    rw [hu.clust]; simp [idx?]
  have i2 : idx? impl.cards ((xs.length : Nat) : Int) = some (k : Int) := by
    rw [hu.cards]; simp [idx?, ← hl]
  rw [i1, i2]
  simp only [StreamImpl.updateMaxDistance, hu.max]
  rw [if_neg (by linarith)]
  simp only [Option.some.injEq, impl1]
  rw [onLine_combine, hu.clust, hu.cards]
  simp [hl, hu.max]

/-- An element far from the centres becomes one. -/
theorem leads_open {a b : ℝ} {impl : StreamImpl (Vec ℝ 1) ℝ R} {xs : List ℝ} {ks : List Int} (hu : OnUnit impl xs ks)
    (hne : xs ≠ []) {x : ℝ} (h : ∀ y ∈ xs, b < |x - y| ∧ |x - y| ≤ 1) :
    ∃ impl', Leads a b impl [x] impl' ∧ OnUnit impl' (xs ++ [x]) (ks ++ [((1 : Nat) : Int)]) ∧ impl'.conf = impl.conf := by
  obtain ⟨j, y, hj, hn⟩ := nearest_mem (by norm_num : (-1 : ℝ) < 0) (euclidSpace ℝ 1) (xs.map onLine) (onLine x)
    (by simpa using hne)
  have hy : y ∈ xs.map onLine := List.mem_of_getElem? hj
  obtain ⟨z, hz, rfl⟩ := List.mem_map.1 hy
  obtain ⟨h1, h2⟩ := h z hz
  rw [onLine_dist] at hn
  have hass : assign (euclidSpace ℝ 1) impl.clust (onLine x) = some (some (onLine z), (j : Int), |x - z|) := by
    unfold assign
    rw [hu.clust, hn]
    have : idx? (xs.map onLine) (j : Int) = some (onLine z) := by
      simp [idx?]; simpa using hj
    simp [this]
  let impl1 : StreamImpl (Vec ℝ 1) ℝ R :=
    { impl with
      clust := (xs ++ [x]).map onLine
      cards := ks ++ [((1 : Nat) : Int)]
      count := impl.count + 1 }
  refine ⟨impl1, leads_one hu.c hu.size fun t t1 t2 => ?_, ⟨rfl, rfl, hu.c, hu.max, hu.size, hu.ratio⟩, rfl⟩
  have hrel : impl.getRelativeDistance |x - z| = (impl, |x - z|) := by
    unfold StreamImpl.getRelativeDistance
    simp [hu.max]
  have hratio := hu.ratio
  unfold StreamImpl.process
  rw [hass]
  simp only [hrel]
  rw [if_neg (by rintro ⟨_, h3⟩; linarith), if_pos (by linarith)]
  unfold StreamImpl.addCenter
  simp only [StreamImpl.updateMaxDistance, hu.max]
  rw [if_neg (by linarith)]
  simp only [Option.some.injEq, impl1]
  rw [hu.clust, hu.cards]
  simp [hu.max]

/-- The last centre drifts above `u`, the others being above `u + 4 * g`. -/
theorem leads_drift {a b u g : ℝ} (hg : 0 < g) (hga : g ≤ a) (ha1 : a ≤ 1) {xs : List ℝ} {ks : List Int}
    (hl : ks.length = xs.length) (hx : ∀ y ∈ xs, u + 4 * g ≤ y) :
    ∀ (N k : Nat) (c : ℝ) (impl : StreamImpl (Vec ℝ 1) ℝ R), OnUnit impl (xs ++ [c]) (ks ++ [(k : Int)]) → 0 ≤ c →
      c ≤ u + g → u - c < g * ∑ i ∈ Finset.range N, 1 / ((k : ℝ) + 1 + i) →
      ∃ (es : List ℝ) (impl' : StreamImpl (Vec ℝ 1) ℝ R) (c' : ℝ) (k' : Int), Leads a b impl es impl' ∧
        (∀ x ∈ es, 0 ≤ x ∧ x ≤ u + 4 * g) ∧ OnUnit impl' (xs ++ [c']) (ks ++ [k']) ∧ u < c' ∧ c' ≤ u + g ∧
        impl'.conf = impl.conf := by
  intro N
  induction N with
  | zero =>
    intro k c impl hu h0 hc hs
    simp only [Finset.range_zero, Finset.sum_empty, mul_zero] at hs
    exact ⟨[], impl, c, k, Leads.nil a b impl, by simp, hu, by linarith, hc, rfl⟩
  | succ N ih =>
    intro k c impl hu h0 hc hs
    by_cases hlt : u < c
    · exact ⟨[], impl, c, k, Leads.nil a b impl, by simp, hu, hlt, hc, rfl⟩
    · have hcu : c ≤ u := not_lt.1 hlt
      have e1 : |c + g - c| = g := by rw [add_sub_cancel_left, abs_of_pos hg]
      obtain ⟨impl1, h1, h2, h3⟩ := leads_merge (b := b) (x := c + g) hu hl (fun y hy => by
        have := hx y hy
        rw [e1, lt_abs]; right; linarith) (by rw [e1]; exact hga) ha1
      have hk : (0 : ℝ) < (k : ℝ) + 1 := by positivity
      have ec : (c * k + (c + g)) / ((k : ℝ) + 1) = c + g / (k + 1) := by field_simp; ring
      rw [ec] at h2
      have hq : g / ((k : ℝ) + 1) ≤ g := div_le_self hg.le (by linarith [(Nat.cast_nonneg k : (0 : ℝ) ≤ k)])
      have hq0 : 0 < g / ((k : ℝ) + 1) := by positivity
      obtain ⟨es, impl2, c', k', g1, g2, g3, g4, g5, g6⟩ := ih (k + 1) (c + g / (k + 1)) impl1 h2 (by linarith)
        (by linarith) (by
          rw [Finset.sum_range_succ'] at hs
          have hsum : ∑ i ∈ Finset.range N, 1 / ((k : ℝ) + 1 + ((i + 1 : Nat) : ℝ)) =
              ∑ i ∈ Finset.range N, 1 / (((k + 1 : Nat) : ℝ) + 1 + i) := by
            refine Finset.sum_congr rfl fun i _ => ?_
            push_cast; congr 1; ring
          rw [hsum] at hs
          simp only [Nat.cast_zero, add_zero] at hs
          have : g * (1 / ((k : ℝ) + 1)) = g / (k + 1) := by ring
          rw [mul_add, this] at hs
          linarith)
      refine ⟨(c + g) :: es, impl2, c', k', h1.append g1, ?_, g3, g4, g5, g6.trans h3⟩
      intro x hxm
      rcases List.mem_cons.1 hxm with rfl | hxm
      · constructor <;> linarith
      · exact g2 x hxm

/-- The sums of `leads_drift` are unbounded. -/
theorem shifted_harmonic (k : Nat) (B : ℝ) : ∃ N : Nat, B < ∑ i ∈ Finset.range N, 1 / ((k : ℝ) + 1 + i) := by
  have hk : (0 : ℝ) < (k : ℝ) + 1 := by positivity
  obtain ⟨N, hN⟩ := (Real.tendsto_sum_range_one_div_nat_succ_atTop.eventually_gt_atTop (B * (k + 1))).exists
  refine ⟨N, ?_⟩
  have h1 : B < (∑ i ∈ Finset.range N, 1 / ((i : ℝ) + 1)) / (k + 1) := by rwa [lt_div_iff₀ hk]
  refine lt_of_lt_of_le h1 ?_
  rw [Finset.sum_div]
  refine Finset.sum_le_sum fun i _ => ?_
  rw [div_div]
  have hi : (0 : ℝ) ≤ i := Nat.cast_nonneg i
  have hk0 : (0 : ℝ) ≤ k := Nat.cast_nonneg k
  refine one_div_le_one_div_of_le (by positivity) ?_
  nlinarith

end
end Distclus
