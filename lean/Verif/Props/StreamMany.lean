import Verif.Proof.StreamMany
import Verif.Proof.Euclid
import Verif.Props.StreamLaw
import Verif.Props.Seeding
/-!
# C136: the number of centres of the streaming algorithm
-/
namespace Distclus
open Spec MeasureTheory ProbabilityTheory

section
variable {R : Type}

/-- A list of numbers above `b` stays away from `b`. -/
theorem above_gap {b : ℝ} : ∀ xs : List ℝ, (∀ y ∈ xs, b < y) → ∃ m, b < m ∧ ∀ y ∈ xs, m ≤ y
  | [], _ => ⟨b + 1, by linarith, by simp⟩
  | x :: xs, h => by
    obtain ⟨m, h1, h2⟩ := above_gap xs fun y hy => h y (List.mem_cons_of_mem _ hy)
    refine ⟨min m x, lt_min h1 (h x (by simp)), fun y hy => ?_⟩
    rcases List.mem_cons.1 hy with rfl | hy
    · exact min_le_right _ _
    · exact (min_le_left _ _).trans (h2 y hy)

/-- The last centre, at 0, drifts above `b`. -/
theorem leads_raise {a b : ℝ} (ha : 0 < a) (hab : a ≤ b) {impl : StreamImpl (Vec ℝ 1) ℝ R} {xs : List ℝ}
    {ks : List Int} (hl : ks.length = xs.length) (hne : xs ≠ []) (hx : ∀ y ∈ xs, b < y ∧ y ≤ 1)
    (hu : OnUnit impl (xs ++ [0]) (ks ++ [((1 : Nat) : Int)])) :
    ∃ (es : List ℝ) (impl' : StreamImpl (Vec ℝ 1) ℝ R) (xs' : List ℝ) (ks' : List Int), Leads a b impl es impl' ∧
      (∀ x ∈ es, 0 ≤ x ∧ x ≤ 1) ∧ OnUnit impl' xs' ks' ∧ ks'.length = xs'.length ∧ xs'.length = xs.length + 1 ∧
      (∀ y ∈ xs', b < y ∧ y ≤ 1) := by
  obtain ⟨m, hm, hmx⟩ := above_gap xs fun y hy => (hx y hy).1
  obtain ⟨y0, hy0⟩ := List.exists_mem_of_ne_nil xs hne
  have hm1 : m ≤ 1 := (hmx y0 hy0).trans (hx y0 hy0).2
  obtain ⟨g, hg, hga, hgm⟩ : ∃ g : ℝ, 0 < g ∧ g ≤ a ∧ b + 4 * g ≤ m :=
    ⟨min ((m - b) / 4) a, lt_min (by linarith) ha, min_le_right _ _, by
      have := min_le_left ((m - b) / 4) a
      linarith⟩
  obtain ⟨N, hN⟩ := shifted_harmonic 1 (b / g)
  obtain ⟨es, impl', c', k', h1, h2, h3, h4, h5, _⟩ := leads_drift (b := b) (u := b) hg hga (by linarith) hl
    (fun y hy => hgm.trans (hmx y hy)) N 1 0 impl hu le_rfl (by linarith) (by
      rw [div_lt_iff₀ hg] at hN
      linarith)
  refine ⟨es, impl', _, _, h1, fun x hxm => ⟨(h2 x hxm).1, by linarith [(h2 x hxm).2]⟩, h3, by simp [hl], by simp, ?_⟩
  intro y hy
  rcases List.mem_append.1 hy with hy | hy
  · exact hx y hy
  · cases List.mem_singleton.1 hy
    exact ⟨h4, by linarith⟩

/-- As many centres as wanted. -/
theorem leads_many {a b : ℝ} (ha : 0 < a) (hab : a ≤ b) (hb : b < 1) {impl : StreamImpl (Vec ℝ 1) ℝ R}
    (hu : OnUnit impl [1, 0] [1, 1]) : ∀ n : Nat,
    ∃ (es : List ℝ) (impl' : StreamImpl (Vec ℝ 1) ℝ R) (xs : List ℝ) (ks : List Int), Leads a b impl es impl' ∧
      (∀ x ∈ es, 0 ≤ x ∧ x ≤ 1) ∧ OnUnit impl' xs ks ∧ ks.length = xs.length ∧ xs.length = n + 2 ∧
      (∀ y ∈ xs, b < y ∧ y ≤ 1)
  | 0 => by
    obtain ⟨es, impl', xs, ks, h1, h2, h3, h4, h5, h6⟩ := leads_raise (xs := [1]) (ks := [1]) ha hab rfl (by simp)
      (by simpa using hb) hu
    exact ⟨es, impl', xs, ks, h1, h2, h3, h4, h5, h6⟩
  | n + 1 => by
    obtain ⟨es, impl1, xs, ks, h1, h2, h3, h4, h5, h6⟩ := leads_many ha hab hb hu n
    have hne : xs ≠ [] := by rintro rfl; simp at h5
    obtain ⟨impl2, g1, g2, _⟩ := leads_open (a := a) (b := b) h3 hne (x := 0) fun y hy => by
      obtain ⟨q1, q2⟩ := h6 y hy
      rw [zero_sub, abs_neg, abs_of_pos (by linarith)]
      exact ⟨q1, q2⟩
    obtain ⟨es', impl3, xs', ks', k1, k2, k3, k4, k5, k6⟩ := leads_raise ha hab h4 hne h6 g2
    refine ⟨es ++ [0] ++ es', impl3, xs', ks', (h1.append g1).append k1, ?_, k3, k4, by omega, k6⟩
    intro x hx
    rcases List.mem_append.1 hx with hx | hx
    · rcases List.mem_append.1 hx with hx | hx
      · exact h2 x hx
      · cases List.mem_singleton.1 hx; norm_num
    · exact k2 x hx

/-- **C136 (unbounded).** No bound on the number of centres follows from the spread of the data.  Let the draws be
between `a` and `b` with `0 < a ≤ b < 1`, so that every element at a relative distance of at most `a` is merged.  For every `n` there
are data in the interval from 0 to 1 for which the algorithm, starting with the point 1, has at least `n` centres, all
in this interval, whatever the draws are: the centres move, and leave the place where they were opened. -/
theorem C136_unbounded (conf : StreamingConf ℝ R) (hs : 1 ≤ conf.bufferSize) (hr : 1 ≤ conf.outRatio) {a b : ℝ} (ha : 0 < a)
    (hab : a ≤ b) (hb : b < 1) (n : Nat) :
    ∃ es : List ℝ, (∀ x ∈ es, 0 ≤ x ∧ x ≤ 1) ∧ ∀ ts : List ℝ, ts.length = es.length → (∀ t ∈ ts, a ≤ t ∧ t ≤ b) →
      ∃ impl0 impl rs, StreamImpl.new conf [onLine 1] = some impl0 ∧
        impl0.run (euclidSpace ℝ 1) (.init :: feedOps (es.map onLine) ts) = some (impl, rs) ∧
        n ≤ impl.clust.length ∧ impl.maxDistance = 1 ∧ ∀ c ∈ impl.clust, ∃ x, c = onLine x ∧ 0 ≤ x ∧ x ≤ 1 := by
  let impl0 : StreamImpl (Vec ℝ 1) ℝ R :=
    { maxDistance := 0, clust := [], cards := [], c := [onLine 1], conf, count := 0 }
  let impl1 : StreamImpl (Vec ℝ 1) ℝ R :=
    { maxDistance := 0, clust := [onLine 1], cards := [1], c := [], conf, count := 0 }
  let impl2 : StreamImpl (Vec ℝ 1) ℝ R :=
    { maxDistance := 1, clust := [onLine 1, onLine 0], cards := [1, 1], c := [], conf, count := 1 }
  have hnew : StreamImpl.new conf [onLine 1] = some impl0 := by
    unfold StreamImpl.new
    rw [if_neg (by simp; omega)]
  have hfirst : Leads a b impl1 [0] impl2 := leads_one rfl hs fun t h1 h2 => by
    have hn := nearest_last [] 1 0 (by simp)
    simp only [List.nil_append, List.map_cons, List.map_nil, List.length_nil, zero_sub, abs_neg, abs_one] at hn
    have hass : assign (euclidSpace ℝ 1) impl1.clust (onLine 0) = some (some (onLine 1), 0, 1) := by
      obtain ⟨j, x, hj, hn', he⟩ := assign_eq (by norm_num : (-1 : ℝ) < 0) (euclidSpace ℝ 1) [onLine 1] (onLine 0) (by simp)
      rw [hn, Prod.mk.injEq] at hn'
      obtain ⟨g1, g2⟩ := hn'
      cases g1
      cases hj
      rw [← g2] at he
      exact he
    unfold StreamImpl.process
    rw [hass]
    simp only [StreamImpl.getRelativeDistance, impl1, beq_self_eq_true, if_true, div_one]
    rw [if_neg (by rintro ⟨_, h3⟩; exact absurd h3 hr.not_gt), if_pos (by linarith)]
    simp [StreamImpl.addCenter, StreamImpl.updateMaxDistance, impl2]
  have hu : OnUnit impl2 [1, 0] [1, 1] := ⟨rfl, rfl, rfl, rfl, hs, hr⟩
  obtain ⟨es, impl, xs, ks, h1, h2, h3, h4, h5, h6⟩ := leads_many ha hab hb hu n
  refine ⟨[0] ++ es, ?_, fun ts hl ht => ?_⟩
  · intro x hx
    rcases List.mem_append.1 hx with hx | hx
    · cases List.mem_singleton.1 hx; norm_num
    · exact h2 x hx
  · obtain ⟨rs, hrun⟩ := (hfirst.append h1) ts hl ht
    refine ⟨impl0, impl, .init (some [onLine 1]) :: rs, hnew, ?_, ?_, h3.max, ?_⟩
    · have hi : impl0.step (euclidSpace ℝ 1) .init = some (impl1, .init (some [onLine 1])) := by
        simp [StreamImpl.step, StreamImpl.init, StreamImpl.addCenter, StreamImpl.updateMaxDistance, impl0, impl1]
      rw [StreamImpl.run, hi]
      simp only
      rw [hrun]
    · rw [h3.clust, List.length_map]; omega
    · intro c hc
      rw [h3.clust] at hc
      obtain ⟨x, hx, rfl⟩ := List.mem_map.1 hc
      exact ⟨x, rfl, by linarith [(h6 x hx).1], (h6 x hx).2⟩

/-- **C136 (probability).** With independent normal draws, this happens with a positive probability. -/
theorem C136_probability (conf : StreamingConf ℝ R) (hs : 1 ≤ conf.bufferSize) (hr : 1 ≤ conf.outRatio)
    (hsig : conf.sigma ≠ 0) (n : Nat) :
    ∃ es : List ℝ, (∀ x ∈ es, 0 ≤ x ∧ x ≤ 1) ∧
      0 < (Measure.pi fun _ : Fin es.length => threshold conf) {z | ∃ impl0 impl rs,
        StreamImpl.new conf [onLine 1] = some impl0 ∧
        impl0.run (euclidSpace ℝ 1) (.init :: feedOps (es.map onLine) (List.ofFn z)) = some (impl, rs) ∧
        n ≤ impl.clust.length} := by
  obtain ⟨es, h1, h2⟩ := C136_unbounded conf hs hr (a := 1 / 4) (b := 1 / 2) (by norm_num) (by norm_num) (by norm_num) n
  refine ⟨es, h1, ?_⟩
  have hp : 0 < threshold conf (Set.Icc (1 / 4) (1 / 2)) := by
    have : (conf.sigma ^ 2).toNNReal ≠ 0 := by
      rw [Ne, Real.toNNReal_eq_zero, not_le]; positivity
    refine pos_iff_ne_zero.2 fun h => ?_
    have := gaussianReal_absolutelyContinuous' conf.mu this h
    rw [Real.volume_Icc] at this
    norm_num at this
  refine lt_of_lt_of_le ?_ (measure_mono (s := Set.univ.pi fun _ => Set.Icc (1 / 4 : ℝ) (1 / 2)) ?_)
  · rw [Measure.pi_pi]
    exact pos_iff_ne_zero.2 (Finset.prod_ne_zero_iff.2 fun _ _ => hp.ne')
  · intro z hz
    obtain ⟨impl0, impl, rs, g1, g2, g3, _⟩ := h2 (List.ofFn z) (by simp) (by
      intro t ht
      obtain ⟨i, rfl⟩ := List.mem_ofFn.1 ht
      exact hz i (Set.mem_univ i))
    exact ⟨impl0, impl, rs, g1, g2, g3⟩

end

section
variable {E R : Type} {space : Space E ℝ}

/-- **C136 (negative ratio).** `OutRatio` may be negative.  Then, `OutAfter` elements having been processed and the maximal distance being positive, every
element opens a centre whatever the draws and the distances, even an element equal to a centre. -/
theorem C136_negative_ratio (h0 : ∀ a b, 0 ≤ space.dist a b) : ∀ (es : List E) (ts : List ℝ) (impl : StreamImpl E ℝ R),
    Warm impl → impl.c = [] → 1 ≤ impl.conf.bufferSize → impl.conf.outRatio < 0 → impl.conf.outAfter ≤ impl.count →
    ts.length = es.length →
    ∃ impl' rs, impl.run space (feedOps es ts) = some (impl', rs) ∧ impl'.clust = impl.clust ++ es ∧
      impl'.cards = impl.cards ++ es.map (fun _ => 1) ∧ impl'.maxDistance = impl.maxDistance
  | [], _, impl, _, _, _, _, _, _ => ⟨impl, [], rfl, by simp, by simp, rfl⟩
  | e :: es, [], _, _, _, _, _, _, hl => by simp at hl
  | e :: es, t :: ts, impl, hw, hc, hs, hr, ho, hl => by
    have hz : (impl.maxDistance == 0) = false := by simpa using hw.max.ne'
    obtain ⟨impl1, hp⟩ := process_total (by norm_num : (-1 : ℝ) < 0) space impl t e hw.some hw.cards
    obtain ⟨p1, p2, p3, p4⟩ := process_cases space _ _ _ _ hp
    have hdec := C70_decision space impl impl1 t e hp
    simp only [hz, Bool.false_eq_true, if_false] at hdec
    rw [nearest_nearDist space h0 _ hw.some e] at hdec
    obtain ⟨d1, d2, _, _⟩ := hdec
    have hout : impl.conf.outAfter ≤ impl.count ∧ impl.conf.outRatio < nearDist space impl.clust e / impl.maxDistance :=
      ⟨ho, lt_of_lt_of_le hr (div_nonneg (nearDist_nonneg space h0 _ _) hw.max.le)⟩
    have hlen := d1.2 (.inl hout)
    have hmax := d2 hout
    have hcl : impl1.clust = impl.clust ++ [e] ∧ impl1.cards = impl.cards ++ [1] := by
      rcases p4 with h | ⟨j, center, card, _, _, _, h, _⟩
      · exact h
      · rw [h, List.length_set] at hlen; omega
    have hpush : impl.push e = ({ impl with c := [e] }, false) := by
      unfold StreamImpl.push
      rw [hc, if_pos (by simp only [List.length_nil, Nat.cast_zero]; omega)]
      rfl
    have he : ({ impl with c := [] } : StreamImpl E ℝ R) = impl := by rw [← hc]
    obtain ⟨impl2, rs, q1, q2, q3, q4⟩ := C136_negative_ratio h0 es ts impl1
      ⟨by rw [hcl.1]; simp, by rw [hcl.1, hcl.2]; simp [hw.cards], by rw [hmax]; exact hw.max⟩ (p1.trans hc)
      (by rw [p2]; exact hs) (by rw [p2]; exact hr) (by rw [p2, p3]; omega) (by simpa using hl)
    refine ⟨impl2, .push false :: .iterate (some impl1.clust) impl1.maxDistance :: rs, ?_, ?_, ?_, by rw [q4, hmax]⟩
    · simp only [feedOps, StreamImpl.run, StreamImpl.step, hpush, StreamImpl.iterate]
      rw [he, hp]
      simp only
      rw [q1]
    · rw [q2, hcl.1]; simp
    · rw [q3, hcl.2]; simp

end

section
variable {R : Type} {n : Nat}

/-- **C136 (repeat).** With a ratio and draws which are not negative, the maximal distance being positive, elements which
are equal to centres open none and move none, however many they are. -/
theorem C136_repeat : ∀ (es : List (Vec ℝ n)) (ts : List ℝ) (impl : StreamImpl (Vec ℝ n) ℝ R),
    Warm impl → (∀ k ∈ impl.cards, 0 < k) → impl.c = [] → 1 ≤ impl.conf.bufferSize → 0 ≤ impl.conf.outRatio →
    (∀ t ∈ ts, 0 ≤ t) → ts.length = es.length → (∀ e ∈ es, e ∈ impl.clust) →
    ∃ impl' rs, impl.run (euclidSpace ℝ n) (feedOps es ts) = some (impl', rs) ∧ impl'.clust = impl.clust
  | [], _, impl, _, _, _, _, _, _, _, _ => ⟨impl, [], rfl, rfl⟩
  | e :: es, [], _, _, _, _, _, _, _, hl, _ => by simp at hl
  | e :: es, t :: ts, impl, hw, hk, hc, hs, hr, ht, hl, hm => by
    have h0 : ∀ a b : Vec ℝ n, 0 ≤ (euclidSpace ℝ n).dist a b := fun _ _ => Real.sqrt_nonneg _
    have hz : (impl.maxDistance == 0) = false := by simpa using hw.max.ne'
    obtain ⟨impl1, hp⟩ := process_total (by norm_num : (-1 : ℝ) < 0) (euclidSpace ℝ n) impl t e hw.some hw.cards
    obtain ⟨p1, p2, p3, p4⟩ := process_cases (euclidSpace ℝ n) _ _ _ _ hp
    have hdec := C70_decision (euclidSpace ℝ n) impl impl1 t e hp
    have hnd : (nearest (euclidSpace ℝ n) impl.clust e).2 = 0 := by
      refine le_antisymm ?_ ?_
      · have := nearest_le (euclidSpace ℝ n) h0 impl.clust e e (hm e (by simp))
        rwa [(C40_metric n e e e).2.1.2 rfl] at this
      · rw [nearest_nearDist _ h0 _ hw.some]
        exact nearDist_nonneg _ h0 _ _
    simp only [hz, Bool.false_eq_true, if_false, hnd, zero_div] at hdec
    obtain ⟨d1, _, d3, _⟩ := hdec
    have hno : ¬ (impl.conf.outAfter ≤ impl.count ∧ impl.conf.outRatio < 0) := fun h => absurd h.2 hr.not_gt
    have ht0 : ¬ t < 0 := (ht t (by simp)).not_gt
    have hmax : impl1.maxDistance = impl.maxDistance := by
      rw [d3 hno, if_neg hw.max.not_gt]
    have hcl : impl1.clust = impl.clust ∧ impl1.cards.length = impl.cards.length ∧ ∀ k ∈ impl1.cards, 0 < k := by
      rcases p4 with h | ⟨j, center, card, g1, g2, g3, g4, g5⟩
      · have := d1.1 (by rw [h.1]; simp)
        exact absurd this (by simp [hno, ht0])
      · obtain ⟨j', x, hx, hn⟩ := nearest_mem (by norm_num : (-1 : ℝ) < 0) (euclidSpace ℝ n) impl.clust e hw.some
        rw [hn] at g1 hnd
        cases Int.ofNat.inj g1
        rw [g2] at hx
        cases hx
        cases (C40_metric n e center e).2.1.1 hnd
        have hcard : (0 : ℝ) < card := by exact_mod_cast hk card (List.mem_of_getElem? g3)
        have hsame : (euclidSpace ℝ n).combine e card e 1 = e := by
          apply Vec.coords_inj
          rw [euclid_combine_coords, ← add_smul, smul_smul, inv_mul_cancel₀ (by push_cast; positivity), one_smul]
        refine ⟨?_, by rw [g5, List.length_set], ?_⟩
        · rw [g4, hsame]
          apply List.ext_getElem?
          intro i
          by_cases hi : i = j
          · subst hi
            rw [List.getElem?_set_self (List.getElem?_eq_some_iff.1 g2).1, g2]
          · rw [List.getElem?_set_ne (Ne.symm hi)]
        · intro k hkm
          rw [g5] at hkm
          rcases List.mem_or_eq_of_mem_set hkm with h | h
          · exact hk k h
          · have := hk card (List.mem_of_getElem? g3); omega
    have hpush : impl.push e = ({ impl with c := [e] }, false) := by
      unfold StreamImpl.push
      rw [hc, if_pos (by simp only [List.length_nil, Nat.cast_zero]; omega)]
      rfl
    have he : ({ impl with c := [] } : StreamImpl (Vec ℝ n) ℝ R) = impl := by rw [← hc]
    obtain ⟨impl2, rs, q1, q2⟩ := C136_repeat es ts impl1
      ⟨by rw [hcl.1]; exact hw.some, by rw [hcl.1, hcl.2.1]; exact hw.cards, by rw [hmax]; exact hw.max⟩ hcl.2.2
      (p1.trans hc) (by rw [p2]; exact hs) (by rw [p2]; exact hr) (fun t' h' => ht t' (List.mem_cons_of_mem _ h'))
      (by simpa using hl) (fun e' h' => by rw [hcl.1]; exact hm e' (List.mem_cons_of_mem _ h'))
    refine ⟨impl2, .push false :: .iterate (some impl1.clust) impl1.maxDistance :: rs, ?_, q2.trans hcl.1⟩
    simp only [feedOps, StreamImpl.run, StreamImpl.step, hpush, StreamImpl.iterate]
    rw [he, hp]
    simp only
    rw [q1]

end

/-! ## The hypotheses are met -/

namespace StreamManyExample

/-- A configuration with the given outlier ratio. -/
noncomputable def conf (ratio : ℝ) : StreamingConf ℝ Unit :=
  { ctrl := { iter := 0, iterFreq := 0, timeout := 0, dataPerIter := 0, iterPerData := 0 }
    bufferSize := 100, mu := 1 / 2, sigma := 1 / 10, outRatio := ratio, outAfter := 5, rgen := none }

/-- A thousand centres in the unit interval with draws between 0.4 and 0.6. -/
example := C136_unbounded (conf 2) (by simp [conf]) (by norm_num [conf]) (a := 4 / 10) (b := 6 / 10) (by norm_num)
  (by norm_num) (by norm_num) 1000

example := C136_probability (conf 2) (by simp [conf]) (by norm_num [conf]) (by norm_num [conf]) 1000

/-- Two centres, the maximal distance is 4. -/
noncomputable def state (ratio : ℝ) : StreamImpl (Vec ℝ 1) ℝ Unit :=
  { maxDistance := 4, clust := [onLine 0, onLine 4], cards := [3, 4], c := [], conf := conf ratio, count := 6 }

theorem state_warm (ratio : ℝ) : Warm (state ratio) := ⟨by simp [state], rfl, by norm_num [state]⟩

/-- With the ratio -1, the element 4 opens three centres at 4, whatever the draws. -/
example : ∃ impl' rs, (state (-1)).run (euclidSpace ℝ 1) (feedOps [onLine 4, onLine 4, onLine 4] [7, 8, 9]) =
    some (impl', rs) ∧ impl'.clust = [onLine 0, onLine 4, onLine 4, onLine 4, onLine 4] := by
  obtain ⟨i, rs, h1, h2, _⟩ := C136_negative_ratio (space := euclidSpace ℝ 1) (fun _ _ => Real.sqrt_nonneg _)
    [onLine 4, onLine 4, onLine 4] [7, 8, 9] (state (-1)) (state_warm _) rfl (by simp [state, conf])
    (by norm_num [state, conf]) (by simp [state, conf]) rfl
  exact ⟨i, rs, h1, h2⟩

/-- With the ratio 2, it opens none. -/
example : ∃ impl' rs, (state 2).run (euclidSpace ℝ 1) (feedOps [onLine 4, onLine 4, onLine 0] [0, 8, 9]) =
    some (impl', rs) ∧ impl'.clust = [onLine 0, onLine 4] :=
  C136_repeat _ _ (state 2) (state_warm _) (by simp [state]) rfl (by simp [state, conf]) (by norm_num [state, conf])
    (by simp) rfl (by simp [state])

end StreamManyExample
end Distclus
