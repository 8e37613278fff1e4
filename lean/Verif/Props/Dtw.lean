import Verif.Proof.Interp
import Mathlib.Order.WithBot
import Mathlib.Algebra.Order.Monoid.WithTop
/-!
# C44, C45, C46, C47, C48, C49: dynamic time warping

The accumulated costs live in a linear order with a greatest element (`math.Inf(1)`). The only law
on the addition is that it is monotone, so the theorems also hold for rounded additions; NaN is
excluded.
-/

set_option linter.unusedSectionVars false

namespace Distclus
open Spec

/-- Naturals as points, with `|x - y|` in `ℕ ∪ {∞}` as distance, used for examples. -/
def natSpace : Space Nat (WithTop Nat) where
  dist a b := ((a - b + (b - a) : Nat) : WithTop Nat)
  combine a w b v := (a * w.toNat + b * v.toNat) / (w.toNat + v.toNat)
  copy a := a
  dim _ := 1

/-- The window in force: the length of the second series when none is given. -/
def band (window : Int) (l2 : Nat) : Nat := if window = 0 then l2 else window.toNat

/-- The distance of the points at two positions of two series (`⊤` beyond the ends). -/
def pairDist {P F : Type} [Top F] (space : Space P F) (s1 s2 : List P) (i j : Nat) : F :=
  match s1[i]?, s2[j]? with
  | some p, some q => space.dist p q
  | _, _ => ⊤

section
variable {P F : Type}

theorem CostConf.new_ok [Top F] [Add F] [LE F] [DecidableLE F] (s1 s2 : List P) (space : Space P F)
    (window : Int) (hw : 0 ≤ window) (h1 : s1 ≠ []) (h2 : s2 ≠ [])
    (hr : s1.length ≤ s2.length + band window s2.length) :
    CostOk (CostConf.new s1 s2 space window) (band window s2.length)
      (min (2 * band window s2.length + 1) s2.length) := by
  have p1 := List.length_pos_iff.2 h1
  have p2 := List.length_pos_iff.2 h2
  have hb : (if window = 0 then (s2.length : Int) else window) = (band window s2.length : Int) := by
    unfold band; split <;> omega
  constructor
  · simp only [CostConf.new]; exact hb
  · rfl
  · simp only [CostConf.new, hb]; split <;> omega
  · rfl
  · exact p1
  · exact p2
  · exact hr

/-! ### C46: banded storage -/

section
variable [Top F] [Add F] [LE F] [DecidableLE F]

/-- **C46** (storage). In the band, the storage index is in range of the allocated matrix; writing
the cost of a cell succeeds, reading it back returns the value written and leaves the other cells
of the band unchanged; a cell outside the window reads as infinity.  The values are arbitrary. -/
theorem C46_storage (s1 s2 : List P) (space : Space P F) (window : Int) (hw : 0 ≤ window)
    (h1 : s1 ≠ []) (h2 : s2 ≠ []) (hr : s1.length ≤ s2.length + band window s2.length)
    (values : List F) :
    let c := CostConf.new s1 s2 space window
    (values.length : Int) = c.stride0 * c.stride1 →
    ∀ i j : Nat, i < s1.length → j < s2.length →
      (Within (band window s2.length) i j → (∃ x, c.get values i j = some x) ∧
        ∀ v, ∃ values', setIdx? values (c.ravel i j) v = some values' ∧
          values'.length = values.length ∧ c.get values' i j = some v ∧
          ∀ a b : Nat, a < s1.length → b < s2.length → (a, b) ≠ (i, j) →
            c.get values' a b = c.get values a b) ∧
      (¬ Within (band window s2.length) i j → c.get values i j = some ⊤) := by
  intro c hlen i j hi hj
  have hok := CostConf.new_ok s1 s2 space window hw h1 h2 hr
  set W := band window s2.length
  set S := min (2 * W + 1) s2.length
  have hl : values.length = s1.length * S := by
    rw [hok.stride0, hok.stride1] at hlen
    have : c.s1.length = s1.length := rfl
    rw [this] at hlen
    exact_mod_cast hlen
  constructor
  · intro hwin
    have hlt : i * S + bandCol W i j < s1.length * S := ravel_lt hok hi hj hwin
    have hget : ∀ vs : List F, c.get vs i j = vs[i * S + bandCol W i j]? := by
      intro vs
      unfold CostConf.get
      rw [inWindow_iff hok, ravel_eq hok hwin, idx?_nat]; simp [hwin]
    refine ⟨⟨_, by rw [hget, List.getElem?_eq_getElem (by omega)]⟩, fun v =>
      ⟨values.set (i * S + bandCol W i j) v, ?_, by simp, ?_, ?_⟩⟩
    · unfold setIdx?
      rw [ravel_eq hok hwin, if_neg (by omega), Int.toNat_natCast, if_pos (by omega)]
    · rw [hget, List.getElem?_set_self (by omega)]
    · intro a b ha hb hne
      unfold CostConf.get
      rw [inWindow_iff hok]
      by_cases hab : Within W a b
      · simp only [hab, decide_true, if_true]
        rw [ravel_eq hok hab, idx?_nat, idx?_nat, List.getElem?_set_ne]
        intro he
        have := ravel_inj hok hj hwin hb hab he
        exact hne (by rw [this.1, this.2])
      · simp [hab]
  · intro hwin
    unfold CostConf.get
    rw [inWindow_iff hok]; simp [hwin]

end

section
variable [LinearOrder F] [OrderTop F] [Add F] [Zero F]

theorem cellDist_new (s1 s2 : List P) (space : Space P F) (window : Int) :
    cellDist (CostConf.new s1 s2 space window) = pairDist space s1 s2 := rfl

/-- **C46** (content). The whole computation stays in range, and every cell of the band ends with the
cost of a cheapest warping path to it inside the window. -/
theorem C46_matrix (hadd : ∀ a b x : F, a ≤ b → a + x ≤ b + x) (s1 s2 : List P)
    (space : Space P F) (window : Int) (hw : 0 ≤ window) (h1 : s1 ≠ []) (h2 : s2 ≠ [])
    (hr : s1.length ≤ s2.length + band window s2.length) :
    let c := CostConf.new s1 s2 space window
    let ok := Within (band window s2.length)
    let d := pairDist space s1 s2
    ∃ values, c.computeCumCost = some values ∧
      ∀ i j : Nat, i < s1.length → j < s2.length →
        (¬ ok i j ∧ c.get values i j = some ⊤) ∨
        (ok i j ∧ ∃ v, c.get values i j = some v ∧
          (∃ p, Warp ok i j p ∧ pathCost d p = some v) ∧
          ∀ p, Warp ok i j p → ∃ x, pathCost d p = some x ∧ v ≤ x) := by
  intro c ok d
  have hok := CostConf.new_ok s1 s2 space window hw h1 h2 hr
  obtain ⟨values, hv, hs⟩ := compute_stored hok
  refine ⟨values, hv, fun i j hi hj => ?_⟩
  have hg := get_final hok hs (a := i) (b := j) hi hj
  by_cases hwin : ok i j
  · right
    rw [if_pos hwin] at hg
    obtain ⟨p, _, hp2, hp3⟩ := pathLoop_spec hok hs (i + j + 1) i j (by omega) hi hj hwin
    exact ⟨hwin, _, hg, ⟨p, hp2, hp3⟩, fun q hq => ideal_le hadd _ d hq⟩
  · left
    rw [if_neg hwin] at hg
    exact ⟨hwin, hg⟩

/-! ### C44, C45: distance and path -/

/-- **C44, C45.** For non-empty series whose last pair is inside the window, `NewDTWWindow` does not
panic; the reported path is a warping path inside the window from the last pair to the first one,
the reported distance is its accumulated cost, and no warping path inside the window is cheaper. -/
theorem C44_C45_dtw (hadd : ∀ a b x : F, a ≤ b → a + x ≤ b + x) (s1 s2 : List P)
    (space : Space P F) (window : Int) (hw : 0 ≤ window) (h1 : s1 ≠ []) (h2 : s2 ≠ [])
    (hlast : Within (band window s2.length) (s1.length - 1) (s2.length - 1)) :
    let ok := Within (band window s2.length)
    let d := pairDist space s1 s2
    ∃ dtw p, newDTWWindow s1 s2 space window = some dtw ∧ dtw.s1 = s1 ∧ dtw.s2 = s2 ∧
      dtw.space = space ∧
      dtw.path = p.map (fun x : Nat × Nat => (⟨x.1, x.2⟩ : Ends)) ∧
      Warp ok (s1.length - 1) (s2.length - 1) p ∧ pathCost d p = some dtw.dist ∧
      ∀ q, Warp ok (s1.length - 1) (s2.length - 1) q →
        ∃ x, pathCost d q = some x ∧ dtw.dist ≤ x := by
  intro ok d
  have p1 := List.length_pos_iff.2 h1
  have p2 := List.length_pos_iff.2 h2
  have hok := CostConf.new_ok s1 s2 space window hw h1 h2 (by unfold Within at hlast; omega)
  obtain ⟨values, hv, hs⟩ := compute_stored hok
  have hi : s1.length - 1 < s1.length := by omega
  have hj : s2.length - 1 < s2.length := by omega
  have hg := get_final hok hs (a := s1.length - 1) (b := s2.length - 1) hi hj
  rw [if_pos hlast] at hg
  obtain ⟨p, hp1, hp2, hp3⟩ := pathLoop_spec hok hs (s1.length + s2.length) (s1.length - 1)
    (s2.length - 1) (by omega) hi hj hlast
  have e1 : (s1.length : Int) - 1 = ((s1.length - 1 : Nat) : Int) := by omega
  have e2 : (s2.length : Int) - 1 = ((s2.length - 1 : Nat) : Int) := by omega
  have hpath : (CostConf.new s1 s2 space window).computePath values = some (toEnds p) := by
    unfold CostConf.computePath
    have q1 : (CostConf.new s1 s2 space window).s1 = s1 := rfl
    have q2 : (CostConf.new s1 s2 space window).s2 = s2 := rfl
    simp only [q1, q2, e1, e2]
    rw [if_neg (by omega)]
    exact hp1
  refine ⟨⟨s1, s2, space, toEnds p, ideal _ d (s1.length - 1) (s2.length - 1)⟩, p, ?_, rfl, rfl, rfl,
    rfl, hp2, hp3, fun q hq => ideal_le hadd _ d hq⟩
  unfold newDTWWindow
  simp only [hv, hpath, e1, e2]
  rw [hg]
  rfl

/-- A warping path of [1,2,4] and [1,3,4], and the distance and path computed. -/
example : (newDTWWindow [1, 2, 4] [1, 3, 4] natSpace 1).map (fun d => (d.dist, d.path)) =
    some (1, [⟨2, 2⟩, ⟨1, 1⟩, ⟨0, 0⟩]) := by decide

/-- The hypotheses of C44 are met by that example. -/
example : (∀ a b x : WithTop Nat, a ≤ b → a + x ≤ b + x) ∧ Within (band 1 3) 2 2 :=
  ⟨fun _ _ x h => by gcongr, by unfold Within band; decide⟩

/-! ### C49 -/

theorem Spec.Warp.imp {ok ok' : Nat → Nat → Prop} {i j : Nat} {p : List (Nat × Nat)}
    (h : Warp ok i j p) (hi : ∀ a b, a ≤ i → b ≤ j → ok a b → ok' a b) : Warp ok' i j p := by
  induction h with
  | start h0 => exact .start (hi 0 0 (by omega) (by omega) h0)
  | right _ ho ih => exact .right (ih fun a b ha hb => hi a b (by omega) (by omega)) (hi _ _ (by omega) (by omega) ho)
  | down _ ho ih => exact .down (ih fun a b ha hb => hi a b (by omega) (by omega)) (hi _ _ (by omega) (by omega) ho)
  | diag _ ho ih => exact .diag (ih fun a b ha hb => hi a b (by omega) (by omega)) (hi _ _ (by omega) (by omega) ho)

theorem Spec.Warp.bounds {ok : Nat → Nat → Prop} {i j : Nat} {p : List (Nat × Nat)}
    (h : Warp ok i j p) : ∀ x ∈ p, x.1 ≤ i ∧ x.2 ≤ j := by
  induction h with
  | start _ => simp
  | right _ _ ih => intro x hx; rcases List.mem_cons.1 hx with rfl | hx
                    · simp
                    · have := ih x hx; omega
  | down _ _ ih => intro x hx; rcases List.mem_cons.1 hx with rfl | hx
                   · simp
                   · have := ih x hx; omega
  | diag _ _ ih => intro x hx; rcases List.mem_cons.1 hx with rfl | hx
                   · simp
                   · have := ih x hx; omega

/-- **C49** (window). A larger window never gives a larger distance. -/
theorem C49_window_mono (hadd : ∀ a b x : F, a ≤ b → a + x ≤ b + x) (s1 s2 : List P)
    (space : Space P F) (w w' : Int) (hw : 0 ≤ w) (hw' : 0 ≤ w') (h1 : s1 ≠ []) (h2 : s2 ≠ [])
    (hle : band w s2.length ≤ band w' s2.length)
    (hlast : Within (band w s2.length) (s1.length - 1) (s2.length - 1)) :
    ∃ d d', newDTWWindow s1 s2 space w = some d ∧ newDTWWindow s1 s2 space w' = some d' ∧
      d'.dist ≤ d.dist := by
  have hlast' : Within (band w' s2.length) (s1.length - 1) (s2.length - 1) := by
    unfold Within at *; omega
  obtain ⟨d, p, e, _, _, _, _, hp, hc, _⟩ := C44_C45_dtw hadd s1 s2 space w hw h1 h2 hlast
  obtain ⟨d', p', e', _, _, _, _, _, _, hmin⟩ := C44_C45_dtw hadd s1 s2 space w' hw' h1 h2 hlast'
  refine ⟨d, d', e, e', ?_⟩
  obtain ⟨x, hx, hle'⟩ := hmin p (hp.imp fun a b _ _ hab => by unfold Within at *; omega)
  rw [hc] at hx
  cases hx
  exact hle'

theorem pathCost_nonneg (hpos : ∀ a b : F, 0 ≤ a → 0 ≤ b → 0 ≤ a + b) (d : Nat → Nat → F)
    (hd : ∀ i j, 0 ≤ d i j) : ∀ (p : List (Nat × Nat)) (v : F), pathCost d p = some v → 0 ≤ v := by
  intro p
  induction p with
  | nil => intro v h; cases h
  | cons x p ih =>
    intro v h
    cases p with
    | nil => simp only [pathCost, Option.some.injEq] at h; rw [← h]; exact hd _ _
    | cons y p =>
      rw [pathCost, Option.map_eq_some_iff] at h
      · obtain ⟨u, hu, rfl⟩ := h
        exact hpos _ _ (ih u hu) (hd _ _)
      · simp

theorem diag_warp (W : Nat) (d : Nat → Nat → F) (h00 : (0 : F) + 0 = 0) : ∀ n,
    (∀ i ≤ n, d i i = 0) → ∃ p, Warp (Within W) n n p ∧ pathCost d p = some 0 := by
  intro n
  induction n with
  | zero => intro h; exact ⟨_, .start (by unfold Within; omega), by simp [pathCost, h 0 (by omega)]⟩
  | succ n ih =>
    intro h
    obtain ⟨p, hp, hc⟩ := ih fun i hi => h i (by omega)
    refine ⟨_, .diag hp (by unfold Within; omega), ?_⟩
    rw [pathCost_cons _ hc hp.ne_nil]
    simp only
    rw [h (n + 1) (le_refl _), h00]

/-- **C49** (identity and sign). With a non-negative point distance that is 0 on equal points, the
distance of a series to itself is 0, and distances are non-negative. -/
theorem C49_identity (hadd : ∀ a b x : F, a ≤ b → a + x ≤ b + x) (h00 : (0 : F) + 0 = 0)
    (hpos : ∀ a b : F, 0 ≤ a → 0 ≤ b → 0 ≤ a + b) (space : Space P F)
    (hd : ∀ p q, 0 ≤ space.dist p q) (hself : ∀ p, space.dist p p = 0) (window : Int)
    (hw : 0 ≤ window) :
    (∀ s : List P, s ≠ [] → ∃ d, newDTWWindow s s space window = some d ∧ d.dist = 0) ∧
    (∀ s1 s2 : List P, s1 ≠ [] → s2 ≠ [] →
      Within (band window s2.length) (s1.length - 1) (s2.length - 1) →
      ∃ d, newDTWWindow s1 s2 space window = some d ∧ 0 ≤ d.dist) := by
  have hd' : ∀ (s1 s2 : List P) i j, 0 ≤ pairDist space s1 s2 i j := by
    intro s1 s2 i j
    unfold pairDist
    split
    · exact hd _ _
    · exact le_top
  have nonneg : ∀ s1 s2 : List P, s1 ≠ [] → s2 ≠ [] →
      Within (band window s2.length) (s1.length - 1) (s2.length - 1) →
      ∃ d, newDTWWindow s1 s2 space window = some d ∧ 0 ≤ d.dist := by
    intro s1 s2 h1 h2 hl
    obtain ⟨d, p, e, _, _, _, _, _, hc, _⟩ := C44_C45_dtw hadd s1 s2 space window hw h1 h2 hl
    exact ⟨d, e, pathCost_nonneg hpos _ (hd' s1 s2) p _ hc⟩
  refine ⟨fun s h => ?_, nonneg⟩
  have hl : Within (band window s.length) (s.length - 1) (s.length - 1) := by
    unfold Within; omega
  obtain ⟨d, p, e, _, _, _, _, _, _, hmin⟩ := C44_C45_dtw hadd s s space window hw h h hl
  obtain ⟨d', e', hnn⟩ := nonneg s s h h hl
  rw [e] at e'; cases e'
  refine ⟨d, e, le_antisymm ?_ hnn⟩
  have p1 := List.length_pos_iff.2 h
  obtain ⟨q, hq, hqc⟩ := diag_warp (band window s.length) (pairDist space s s) h00 (s.length - 1)
    (by
      intro i hi
      unfold pairDist
      rw [List.getElem?_eq_getElem (by omega)]
      exact hself _)
  obtain ⟨x, hx, hle⟩ := hmin q hq
  rw [hqc] at hx; cases hx
  exact hle

/-- The hypotheses of C49 are met by `natSpace`. -/
example : ((0 : WithTop Nat) + 0 = 0) ∧ (∀ a b : WithTop Nat, 0 ≤ a → 0 ≤ b → 0 ≤ a + b) ∧
    (∀ p q, 0 ≤ natSpace.dist p q) ∧ ∀ p, natSpace.dist p p = 0 :=
  ⟨by simp, fun _ _ _ _ => bot_le, fun _ _ => bot_le, fun p => by simp [natSpace]⟩

end

/-! ### C50, C51: interpolation -/

/-- **C51.** For indexes starting at 0, a last index that is not negative and a positive factor,
`Interpolate` does not panic; the result has `lastIndex/factor + 1` points, the first one is that of
the series and the `i`-th one is the point of the series at position `i * factor`, or the
combination of the two points around it, weighted by the (positive) gaps to the other one. -/
theorem C51_interpolate (space : Space P F) (s : List P) (idx : List Int) (shrink : Int)
    (hs : 0 < shrink) (hlen : idx.length = s.length) (lastIdx : Int) (hfirst : idx[0]? = some 0)
    (hlast : idx[s.length - 1]? = some lastIdx) (hnn : 0 ≤ lastIdx) :
    ∃ r, interpolate space s idx shrink = some r ∧ (r.length : Int) = lastIdx / shrink + 1 ∧
      r[0]? = s[0]? ∧
      ∀ (i : Nat) (p : P), 1 ≤ i → r[i]? = some p → PointAt space s idx (i * shrink) p :=
  interpolate_spec space s idx shrink hs hlen lastIdx 0 hfirst hs hlast hnn

example : interpolate natSpace [0, 10, 40] [0, 2, 5] 1 = some [0, 5, 10, 20, 30, 40] := by decide

/-- A null factor panics. -/
theorem C51_null_factor (space : Space P F) (s : List P) (idx : List Int) :
    interpolate space s idx 0 = none := by
  unfold interpolate; split <;> simp

/-- **C50.** `Resize` to `size ≥ 1` points of a series of at least two points: exactly `size` points,
the first one is that of the series, and so is the last one for `size ≥ 2`; the `i`-th point is at
position `i * (len - 1)` when the points of the series are at the multiples of `size - 1`. -/
theorem C50_resize (space : Space P F) (s : List P) (hs : 2 ≤ s.length) (size : Int)
    (hsize : 1 ≤ size) :
    ∃ r, resize space s size = some r ∧ (r.length : Int) = size ∧ r[0]? = s[0]? ∧
      (2 ≤ size → r[r.length - 1]? = s[s.length - 1]?) ∧
      ∀ (i : Nat) (p : P), 1 ≤ i → r[i]? = some p →
        ∃ (j : Nat) (a b : P), s[j]? = some a ∧ s[j + 1]? = some b ∧
          (j : Int) * (size - 1) < i * ((s.length : Int) - 1) ∧
          (i : Int) * ((s.length : Int) - 1) ≤ (j + 1) * (size - 1) ∧
          p = if ((j : Int) + 1) * (size - 1) = i * ((s.length : Int) - 1) then b
            else space.combine a ((j + 1) * (size - 1) - i * ((s.length : Int) - 1)) b
              (i * ((s.length : Int) - 1) - j * (size - 1)) := by
  set idx := (List.range s.length).map fun (i : Nat) => (i : Int) * (size - 1) with hidx
  have hget : ∀ (j : Nat) (v : Int), idx[j]? = some v → v = (j : Int) * (size - 1) ∧ j < s.length := by
    intro j v hv
    simp only [hidx, List.getElem?_map, Option.map_eq_some_iff, List.getElem?_eq_some_iff] at hv
    obtain ⟨a, ⟨hj, rfl⟩, rfl⟩ := hv
    simp at hj
    simp [hj]
  have hget' : ∀ j : Nat, j < s.length → idx[j]? = some ((j : Int) * (size - 1)) := by
    intro j hj
    simp [hidx, hj]
  have hm : (0 : Int) < (s.length : Int) - 1 := by omega
  have hl : ((s.length - 1 : Nat) : Int) * (size - 1) = ((s.length : Int) - 1) * (size - 1) := by
    congr 1; omega
  obtain ⟨r, h1, h2, h3, h4⟩ := interpolate_spec space s idx ((s.length : Int) - 1) hm
    (by simp [hidx]) (((s.length : Int) - 1) * (size - 1)) 0 (by rw [hget' 0 (by omega)]; simp) hm
    (by rw [hget' _ (by omega), hl]) (by apply Int.mul_nonneg <;> omega)
  rw [Int.mul_ediv_cancel_left _ (by omega)] at h2
  have hpt : ∀ (i : Nat) (p : P), 1 ≤ i → r[i]? = some p →
        ∃ (j : Nat) (a b : P), s[j]? = some a ∧ s[j + 1]? = some b ∧
          (j : Int) * (size - 1) < i * ((s.length : Int) - 1) ∧
          (i : Int) * ((s.length : Int) - 1) ≤ (j + 1) * (size - 1) ∧
          p = if ((j : Int) + 1) * (size - 1) = i * ((s.length : Int) - 1) then b
            else space.combine a ((j + 1) * (size - 1) - i * ((s.length : Int) - 1)) b
              (i * ((s.length : Int) - 1) - j * (size - 1)) := by
    intro i p hi hp
    obtain ⟨j, a, b, x, y, ha, hb, hx, hy, q1, q2, q3⟩ := h4 i p hi hp
    obtain ⟨rfl, _⟩ := hget j a ha
    obtain ⟨rfl, _⟩ := hget (j + 1) b hb
    push_cast at q2 q3
    exact ⟨j, x, y, hx, hy, q1, q2, q3⟩
  refine ⟨r, h1, by omega, h3, ?_, hpt⟩
  intro h2s
  have hr : r.length - 1 < r.length := by omega
  obtain ⟨j, a, b, hx, hy, q1, q2, q3⟩ := hpt (r.length - 1) r[r.length - 1] (by omega) (by simp)
  have e : ((r.length - 1 : Nat) : Int) = size - 1 := by omega
  rw [e] at q1 q2 q3
  have hj1 : j + 1 < s.length := (List.getElem?_eq_some_iff.1 hy).1
  have hj : (j : Int) + 1 = (s.length : Int) - 1 := by
    have hp : 0 < size - 1 := by omega
    have q2' : ((s.length : Int) - 1) * (size - 1) ≤ (j + 1) * (size - 1) := by
      rw [mul_comm]; exact q2
    have := le_of_mul_le_mul_right q2' hp
    omega
  rw [hj, if_pos (mul_comm _ _)] at q3
  rw [List.getElem?_eq_getElem hr, q3, ← hy]
  congr 1
  omega

example : resize natSpace [0, 10, 40] 5 = some [0, 5, 10, 25, 40] := by decide

/-- Resizing to one point keeps the first one only; resizing to none, or a series of one point,
panics. -/
theorem C50_edge_cases (space : Space P F) (a b : P) (s : List P) :
    resize space (a :: b :: s) 1 = some [a] ∧ resize space (a :: b :: s) 0 = none ∧
    ∀ n, resize space [a] n = none := by
  refine ⟨?_, ?_, ?_⟩
  · obtain ⟨r, h1, h2, h3, _⟩ := C50_resize space (a :: b :: s) (by simp) 1 (by omega)
    rw [h1]
    cases r with
    | nil => simp at h2
    | cons x r =>
      simp only [List.getElem?_cons_zero, Option.some.injEq] at h3
      have : r = [] := by simpa using h2
      rw [h3, this]
  · unfold resize interpolate
    have e : (((a :: b :: s).length : Int) - 1) = (((a :: b :: s).length - 1 : Nat) : Int) := by simp
    rw [e, idx?_nat]
    simp only [List.length_cons, Nat.add_sub_cancel, List.getElem?_map,
      List.getElem?_range (show s.length + 1 < s.length + 1 + 1 by omega), Option.map_some]
    rw [if_neg (by omega)]
    have : ((s.length + 1 : Nat) : Int) * (0 - 1) = -((s.length + 1 : Nat) : Int) := by ring
    rw [this, Int.neg_tdiv, Int.tdiv_self (by omega)]
    simp
  · intro n
    unfold resize interpolate
    simp [idx?]

/-! ### C47: panics -/

theorem shrinkLongest_spec (s1 s2 : List P) (space : Space P F) (window : Int) (h1 : s1 ≠ [])
    (h2 : s2 ≠ []) :
    ∃ r1 r2, shrinkLongest s1 s2 space window = some (r1, r2) ∧ r1 ≠ [] ∧ r2 ≠ [] ∧
      (window ≤ 0 → r1 = s1 ∧ r2 = s2) ∧
      (0 < window → r1.length ≤ r2.length + window ∧ r2.length ≤ r1.length + window) := by
  have p1 := List.length_pos_iff.2 h1
  have p2 := List.length_pos_iff.2 h2
  unfold shrinkLongest
  simp only
  by_cases c1 : window > 0 ∧ (s1.length : Int) > s2.length + window
  · rw [if_pos c1]
    obtain ⟨r, e, hl, _⟩ := C50_resize space s1 (by omega) (s2.length + window) (by omega)
    rw [e]
    refine ⟨r, s2, rfl, ?_, h2, fun h => by omega, fun _ => by omega⟩
    intro h; subst h; simp at hl; omega
  · rw [if_neg c1]
    by_cases c2 : window > 0 ∧ (s2.length : Int) > s1.length + window
    · rw [if_pos c2]
      obtain ⟨r, e, hl, _⟩ := C50_resize space s2 (by omega) (s1.length + window) (by omega)
      rw [e]
      refine ⟨s1, r, rfl, h1, ?_, fun h => by omega, fun _ => by omega⟩
      intro h; subst h; simp at hl; omega
    · rw [if_neg c2]
      exact ⟨s1, s2, rfl, h1, h2, fun _ => ⟨rfl, rfl⟩, fun _ => by omega⟩

section
variable [LinearOrder F] [OrderTop F] [Add F] [Zero F]

theorem rowsLoop_none (c : CostConf P F) (r : Nat)
    (hr : ∀ values, c.rowLoop r (c.right r - c.left r + 1).toNat (c.left r) values = none) :
    ∀ (n i : Nat) (values : List F), i ≤ r → r < i + n → c.rowsLoop n i values = none := by
  intro n
  induction n with
  | zero => intro i values h1 h2; omega
  | succ n ih =>
    intro i values h1 h2
    rw [CostConf.rowsLoop]
    rcases Nat.eq_or_lt_of_le h1 with rfl | h
    · rw [hr]
    · split
      · rfl
      · rename_i v' _
        have := ih (i + 1) v' h (by omega)
        simpa using this

/-- `NewDTWWindow` panics exactly when the window is negative or the first series is longer than the
second one plus the window in force (non-empty series). -/
theorem C47_newDTW_panics (s1 s2 : List P) (space : Space P F) (window : Int)
    (h1 : s1 ≠ []) (h2 : s2 ≠ [])
    (h : window < 0 ∨ s2.length + band window s2.length < s1.length) :
    newDTWWindow s1 s2 space window = none := by
  have p1 := List.length_pos_iff.2 h1
  have p2 := List.length_pos_iff.2 h2
  have key : (CostConf.new s1 s2 space window).computeCumCost = none := by
    unfold CostConf.computeCumCost
    by_cases hw : window < 0
    · rw [if_pos]
      have e0 : (CostConf.new s1 s2 space window).stride0 = s1.length := rfl
      have e1 : (CostConf.new s1 s2 space window).stride1 = 2 * window + 1 := by
        simp only [CostConf.new]
        rw [if_neg (show ¬ window = 0 by omega), if_pos (by omega)]
      rw [e0, e1]
      nlinarith
    · have hlt : s2.length + band window s2.length < s1.length := h.resolve_left hw
      split
      · rfl
      · have hwin : (CostConf.new s1 s2 space window).window = band window s2.length := by
          simp only [CostConf.new]; unfold band; split <;> omega
        have hs2 : (CostConf.new s1 s2 space window).s2 = s2 := rfl
        have hs1 : (CostConf.new s1 s2 space window).s1 = s1 := rfl
        refine rowsLoop_none _ (s2.length + band window s2.length) ?_ s1.length 0 _ (by omega)
          (by omega)
        intro values
        have hl : (CostConf.new s1 s2 space window).left
            ((s2.length + band window s2.length : Nat) : Int) = (s2.length : Int) := by
          unfold CostConf.left CostConf.inWindow
          rw [hwin, if_neg]
          · omega
          · simp only [Bool.and_eq_true, decide_eq_true_eq]; omega
        have hr : (CostConf.new s1 s2 space window).right
            ((s2.length + band window s2.length : Nat) : Int) =
            s2.length + band window s2.length + band window s2.length := by
          unfold CostConf.right CostConf.inWindow
          rw [hwin, hs2, if_neg]
          · omega
          · simp only [Bool.and_eq_true, decide_eq_true_eq]; omega
        rw [hl, hr]
        obtain ⟨n, hn⟩ : ∃ n, ((s2.length : Int) + band window s2.length + band window s2.length -
            s2.length + 1).toNat = n + 1 := ⟨2 * band window s2.length, by omega⟩
        rw [hn, CostConf.rowLoop]
        have : (CostConf.new s1 s2 space window).cell values
            ((s2.length + band window s2.length : Nat) : Int) (s2.length : Int) = none := by
          unfold CostConf.cell
          rw [hs2, idx?_nat, idx?_nat, List.getElem?_eq_none (l := s2) (le_refl _)]
          split
          · rename_i h; cases h
          · rfl
        rw [this]
  unfold newDTWWindow
  simp only [key]

/-- **C47** (`Dist`). On non-empty series of points of a common dimension `Dist` panics exactly when
the window is negative, or there is no window and the first series is more than twice as long as
the second one. -/
theorem C47_dist_panics_iff (hadd : ∀ a b x : F, a ≤ b → a + x ≤ b + x) (sp : DtwSpace P F)
    (a b : List P) (ha : a ≠ []) (hb : b ≠ []) :
    sp.dist a b = none ↔ sp.window < 0 ∨ (sp.window = 0 ∧ 2 * b.length < a.length) := by
  obtain ⟨r1, r2, e, n1, n2, hle, hpos⟩ := shrinkLongest_spec a b sp.inner sp.window ha hb
  unfold DtwSpace.dist
  rw [e]
  simp only [Option.map_eq_none_iff]
  have p1 := List.length_pos_iff.2 n1
  have p2 := List.length_pos_iff.2 n2
  constructor
  · intro hnone
    by_contra hc
    have hl : Within (band sp.window r2.length) (r1.length - 1) (r2.length - 1) := by
      unfold Within band
      by_cases hw : sp.window = 0
      · obtain ⟨rfl, rfl⟩ := hle (by omega)
        rw [if_pos hw]; omega
      · have := hpos (by omega)
        rw [if_neg hw]; omega
    obtain ⟨d, p, hd, _⟩ := C44_C45_dtw hadd r1 r2 sp.inner sp.window (by omega) n1 n2 hl
    rw [hd] at hnone
    cases hnone
  · intro h
    obtain ⟨rfl, rfl⟩ := hle (by omega)
    apply C47_newDTW_panics r1 r2 sp.inner sp.window n1 n2
    rcases h with h | ⟨h, h'⟩
    · exact Or.inl h
    · right; unfold band; rw [if_pos h]; omega

/-- **C47, witness.** Without a window, a series of three points against one of one point panics;
the other way round it does not. -/
theorem C47_never_panics_false :
    (DtwSpace.mk 0 natSpace).dist [0, 5, 9] [0] = none ∧
    (DtwSpace.mk 0 natSpace).dist [0] [0, 5, 9] = some 14 := by decide

/-! ### C48: symmetry -/

theorem Spec.Warp.swap {ok ok' : Nat → Nat → Prop} (hok : ∀ a b, ok a b → ok' b a) {i j : Nat}
    {p : List (Nat × Nat)} (h : Warp ok i j p) : Warp ok' j i (p.map Prod.swap) := by
  induction h with
  | start h0 => exact .start (hok _ _ h0)
  | right _ ho ih => exact .down ih (hok _ _ ho)
  | down _ ho ih => exact .right ih (hok _ _ ho)
  | diag _ ho ih => exact .diag ih (hok _ _ ho)

theorem pathCost_swap (d d' : Nat → Nat → F) (h : ∀ a b, d a b = d' b a) :
    ∀ p : List (Nat × Nat), pathCost d' (p.map Prod.swap) = pathCost d p := by
  intro p
  induction p with
  | nil => rfl
  | cons x p ih =>
    cases p with
    | nil => simp [pathCost, h]
    | cons y p =>
      simp only [List.map_cons] at ih ⊢
      rw [pathCost, ih]
      · conv_rhs => rw [pathCost.eq_3 _ _ _ (by simp)]
        simp [h]
      · simp

theorem newDTW_symm (hadd : ∀ a b x : F, a ≤ b → a + x ≤ b + x) (space : Space P F)
    (hsym : ∀ p q, space.dist p q = space.dist q p) (s1 s2 : List P) (window : Int)
    (hw : 0 ≤ window) (h1 : s1 ≠ []) (h2 : s2 ≠ [])
    (hlast : Within (band window s2.length) (s1.length - 1) (s2.length - 1))
    (hlast' : Within (band window s1.length) (s2.length - 1) (s1.length - 1))
    (hsame : ∀ a b, a ≤ s1.length - 1 → b ≤ s2.length - 1 →
      (Within (band window s2.length) a b ↔ Within (band window s1.length) b a)) :
    ∃ d d', newDTWWindow s1 s2 space window = some d ∧ newDTWWindow s2 s1 space window = some d' ∧
      d.dist = d'.dist := by
  obtain ⟨d, p, e, _, _, _, _, hp, hc, hmin⟩ := C44_C45_dtw hadd s1 s2 space window hw h1 h2 hlast
  obtain ⟨d', p', e', _, _, _, _, hp', hc', hmin'⟩ :=
    C44_C45_dtw hadd s2 s1 space window hw h2 h1 hlast'
  refine ⟨d, d', e, e', le_antisymm ?_ ?_⟩
  · have hw' : Warp (Within (band window s2.length)) (s1.length - 1) (s2.length - 1)
        (p'.map Prod.swap) :=
      (hp'.imp (ok' := fun a b => Within (band window s2.length) b a)
        fun a b ha hb h => (hsame b a hb ha).2 h).swap fun _ _ h => h
    obtain ⟨x, hx, hle⟩ := hmin _ hw'
    rw [pathCost_swap (pairDist space s2 s1) (pairDist space s1 s2) ?_ p', hc'] at hx
    · cases hx; exact hle
    · intro a b; unfold pairDist
      cases s2[a]? <;> cases s1[b]? <;> simp [hsym]
  · have hw' : Warp (Within (band window s1.length)) (s2.length - 1) (s1.length - 1)
        (p.map Prod.swap) :=
      (hp.imp (ok' := fun a b => Within (band window s1.length) b a)
        fun a b ha hb h => (hsame a b ha hb).1 h).swap fun _ _ h => h
    obtain ⟨x, hx, hle⟩ := hmin' _ hw'
    rw [pathCost_swap (pairDist space s1 s2) (pairDist space s2 s1) ?_ p, hc] at hx
    · cases hx; exact hle
    · intro a b; unfold pairDist
      cases s1[a]? <;> cases s2[b]? <;> simp [hsym]

/-- **C48** (guarded). For a symmetric point distance `Dist` is symmetric with a positive window, and
without window for series whose lengths differ by at most one; it does not panic then. -/
theorem C48_symmetric_partial (hadd : ∀ a b x : F, a ≤ b → a + x ≤ b + x) (sp : DtwSpace P F)
    (hsym : ∀ p q, sp.inner.dist p q = sp.inner.dist q p) (a b : List P) (ha : a ≠ []) (hb : b ≠ [])
    (h : 0 < sp.window ∨
      (sp.window = 0 ∧ a.length ≤ b.length + 1 ∧ b.length ≤ a.length + 1)) :
    ∃ v, sp.dist a b = some v ∧ sp.dist b a = some v := by
  obtain ⟨r1, r2, e, n1, n2, hle, hpos⟩ := shrinkLongest_spec a b sp.inner sp.window ha hb
  have p1 := List.length_pos_iff.2 n1
  have p2 := List.length_pos_iff.2 n2
  have hswap : shrinkLongest b a sp.inner sp.window = some (r2, r1) := by
    unfold shrinkLongest at e ⊢
    simp only at e ⊢
    by_cases c1 : sp.window > 0 ∧ (a.length : Int) > b.length + sp.window
    · rw [if_pos c1, Option.map_eq_some_iff] at e
      obtain ⟨r, hr, hr'⟩ := e
      rw [if_neg (by omega), if_pos c1, hr]
      cases hr'; rfl
    · rw [if_neg c1] at e
      by_cases c2 : sp.window > 0 ∧ (b.length : Int) > a.length + sp.window
      · rw [if_pos c2, Option.map_eq_some_iff] at e
        obtain ⟨r, hr, hr'⟩ := e
        rw [if_pos c2, hr]
        cases hr'; rfl
      · rw [if_neg c2] at e
        rw [if_neg c2, if_neg c1]
        cases e; rfl
  obtain ⟨d, d', q1, q2, q3⟩ := newDTW_symm hadd sp.inner hsym r1 r2 sp.window (by omega) n1 n2
    (by
      unfold Within band
      rcases h with h | ⟨h, h'⟩
      · have := hpos h; rw [if_neg (by omega)]; omega
      · obtain ⟨rfl, rfl⟩ := hle (by omega); rw [if_pos h]; omega)
    (by
      unfold Within band
      rcases h with h | ⟨h, h'⟩
      · have := hpos h; rw [if_neg (by omega)]; omega
      · obtain ⟨rfl, rfl⟩ := hle (by omega); rw [if_pos h]; omega)
    (by
      intro x y hx hy
      unfold Within band
      rcases h with h | ⟨h, h'⟩
      · rw [if_neg (by omega), if_neg (by omega)]; omega
      · obtain ⟨rfl, rfl⟩ := hle (by omega); rw [if_pos h, if_pos h]; omega)
  refine ⟨d.dist, ?_, ?_⟩
  · simp [DtwSpace.dist, e, q1]
  · simp [DtwSpace.dist, hswap, q2, q3]

/-- **C48, witness.** Without a window the distance is not symmetric: 9 one way, 4 the other. -/
theorem C48_symmetric_false :
    (∀ p q, natSpace.dist p q = natSpace.dist q p) ∧
    (DtwSpace.mk 0 natSpace).dist [0, 0, 0, 0, 0, 5] [0, 5, 9] = some 9 ∧
    (DtwSpace.mk 0 natSpace).dist [0, 5, 9] [0, 0, 0, 0, 0, 5] = some 4 :=
  ⟨fun p q => by simp only [natSpace]; rw [Nat.add_comm], by decide, by decide⟩

end
end
end Distclus
