import Verif.Proof.DtwNan
import Verif.Proof.Nan
import Verif.Spec.DtwMetric
import Verif.Props.DtwCombine
/-!
# C148: series with a NaN in the DTW space
-/
namespace Distclus
open Spec

section
variable {P F : Type} [Top F] [Add F] [LE F] [DecidableLE F] [Zero F]

/-- What `NewDTWWindow` returns when nothing is known of the comparisons. -/
theorem dtw_any (s1 s2 : List P) (space : Space P F) (window : Int) (hw : 0 ≤ window) (h1 : s1 ≠ [])
    (h2 : s2 ≠ []) (hr : s1.length ≤ s2.length + band window s2.length) :
    ∃ dtw p, newDTWWindow s1 s2 space window = some dtw ∧ dtw.s1 = s1 ∧ dtw.s2 = s2 ∧ dtw.space = space ∧
      dtw.path = p.map (fun x : Nat × Nat => (⟨x.1, x.2⟩ : Ends)) ∧
      Warp (fun _ _ => True) (s1.length - 1) (s2.length - 1) p ∧
      dtw.dist = if Within (band window s2.length) (s1.length - 1) (s2.length - 1)
        then ideal (band window s2.length) (pairDist space s1 s2) (s1.length - 1) (s2.length - 1) else ⊤ := by
  have p1 := List.length_pos_iff.2 h1
  have p2 := List.length_pos_iff.2 h2
  have hok := CostConf.new_ok s1 s2 space window hw h1 h2 hr
  obtain ⟨values, hv, hs⟩ := compute_stored hok
  have hi : s1.length - 1 < s1.length := by omega
  have hj : s2.length - 1 < s2.length := by omega
  have hg := get_final hok hs (a := s1.length - 1) (b := s2.length - 1) hi hj
  obtain ⟨p, hp1, hp2⟩ := pathLoop_any hok hs (s1.length + s2.length) (s1.length - 1)
    (s2.length - 1) (by omega) hi hj
  have e1 : (s1.length : Int) - 1 = ((s1.length - 1 : Nat) : Int) := by omega
  have e2 : (s2.length : Int) - 1 = ((s2.length - 1 : Nat) : Int) := by omega
  have hpath : (CostConf.new s1 s2 space window).computePath values = some (toEnds p) := by
    unfold CostConf.computePath
    have q1 : (CostConf.new s1 s2 space window).s1 = s1 := rfl
    have q2 : (CostConf.new s1 s2 space window).s2 = s2 := rfl
    simp only [q1, q2, e1, e2]
    rw [if_neg (by omega)]
    exact hp1
  refine ⟨⟨s1, s2, space, toEnds p, if Within (band window s2.length) (s1.length - 1) (s2.length - 1)
      then ideal (band window s2.length) (pairDist space s1 s2) (s1.length - 1) (s2.length - 1) else ⊤⟩,
    p, ?_, rfl, rfl, rfl, rfl, hp2, rfl⟩
  unfold newDTWWindow
  simp only [hv, hpath, e1, e2]
  rw [hg]
  rfl

/-- **C148.** Whatever the numbers, NaN or not, `NewDTWWindow` returns for all the lengths for which
it returns without NaN, and its path goes from the last points to the first ones, one step of at most 1
in each series at a time. No law of the addition or of the comparison is used. -/
theorem C148_returns (s1 s2 : List P) (space : Space P F) (window : Int) (hw : 0 ≤ window) (h1 : s1 ≠ [])
    (h2 : s2 ≠ []) (hr : s1.length ≤ s2.length + band window s2.length) :
    ∃ dtw p, newDTWWindow s1 s2 space window = some dtw ∧
      dtw.path = p.map (fun x : Nat × Nat => (⟨x.1, x.2⟩ : Ends)) ∧
      Warp (fun _ _ => True) (s1.length - 1) (s2.length - 1) p := by
  obtain ⟨d, p, e, _, _, _, hp, hwp, _⟩ := dtw_any s1 s2 space window hw h1 h2 hr
  exact ⟨d, p, e, hp, hwp⟩

/-- **C148.** The average of such series is computed without panic and has the usual length. -/
theorem C148_dba (s1 s2 : List P) (space : Space P F) (window : Int) (hw : 0 ≤ window) (h1 : s1 ≠ [])
    (h2 : s2 ≠ []) (hr : s1.length ≤ s2.length + band window s2.length)
    (w1 w2 : Int) (hw1 : 0 ≤ w1) (hw2 : 0 ≤ w2) (hw12 : 0 < w1 + w2) :
    ∃ d r, newDTWWindow s1 s2 space window = some d ∧ d.dba w1 w2 = some r ∧
      (r.length : Int) =
        (((s1.length : Int) - 1) * w1 + ((s2.length : Int) - 1) * w2) / (w1 + w2) + 1 := by
  obtain ⟨d, p, e, e1, e2, e3, hpath, hp, _⟩ := dtw_any s1 s2 space window hw h1 h2 hr
  have l1 := List.length_pos_iff.2 h1
  have l2 := List.length_pos_iff.2 h2
  obtain ⟨ps, is, hd, hlen, his, hpt⟩ := dbaPoints_spec d w1 w2 p.reverse (by
    intro x hx
    have := hp.bounds x (List.mem_reverse.1 hx)
    rw [e1, e2]; omega)
  have hplen : 0 < p.length := List.length_pos_iff.2 hp.ne_nil
  obtain ⟨t, ht⟩ := hp.head
  have hfirst : p.reverse[0]? = some (0, 0) := by
    rw [← List.head?_eq_getElem?, List.head?_reverse]; exact hp.last
  have hlst : p.reverse[p.length - 1]? = some (s1.length - 1, s2.length - 1) := by
    rw [List.getElem?_reverse (by omega), ht]
    simp
  rw [List.length_reverse] at hlen
  have hge : (0 : Int) ≤ ((s1.length : Int) - 1) * w1 + ((s2.length : Int) - 1) * w2 := by
    apply Int.add_nonneg <;> apply Int.mul_nonneg <;> omega
  obtain ⟨r, hr1, hr2, _, _⟩ := interpolate_spec space ps is (w1 + w2) hw12
    (by rw [his]; simp [hlen])
    (((s1.length : Int) - 1) * w1 + ((s2.length : Int) - 1) * w2) 0
    (by rw [his, List.getElem?_map, hfirst]; simp) hw12
    (by
      rw [his, List.getElem?_map, hlen, hlst]
      simp only [Option.map_some, Option.some.injEq]
      rw [Int.natCast_sub (by omega), Int.natCast_sub (by omega)]; rfl) hge
  refine ⟨d, r, e, ?_, hr2⟩
  unfold DTW.dba
  rw [hpath, ← List.map_reverse, hd]
  simp only [e3]
  exact hr1

variable {nan : F → Prop}

/-- **C148.** A bad point in either series: the distance is NaN or `+Inf`, whatever the window. -/
theorem C148_lost (h : NanCosts F nan) (space : Space P F) (bad : P → Prop)
    (hb : ∀ p q, bad p ∨ bad q → nan (space.dist p q)) (s1 s2 : List P) (window : Int) (hw : 0 ≤ window)
    (h1 : s1 ≠ []) (h2 : s2 ≠ []) (hr : s1.length ≤ s2.length + band window s2.length)
    (hx : (∃ p ∈ s1, bad p) ∨ ∃ q ∈ s2, bad q) :
    ∃ dtw, newDTWWindow s1 s2 space window = some dtw ∧ (dtw.dist = ⊤ ∨ nan dtw.dist) := by
  obtain ⟨d, p, e, _, _, _, _, _, hd⟩ := dtw_any s1 s2 space window hw h1 h2 hr
  refine ⟨d, e, ?_⟩
  rw [hd]
  have p1 := List.length_pos_iff.2 h1
  have p2 := List.length_pos_iff.2 h2
  refine Lost.band ?_
  rcases hx with ⟨p, hp, hbad⟩ | ⟨q, hq, hbad⟩
  · obtain ⟨k, hk, rfl⟩ := List.getElem_of_mem hp
    refine ideal_row_lost h _ _ k (s2.length - 1) (fun j hj => ?_) _ (by omega) _ le_rfl
    unfold pairDist
    rw [List.getElem?_eq_getElem hk, List.getElem?_eq_getElem (show j < s2.length by omega)]
    exact hb _ _ (Or.inl hbad)
  · obtain ⟨k, hk, rfl⟩ := List.getElem_of_mem hq
    refine ideal_col_lost h _ _ k (s1.length - 1) (fun i hi => ?_) _ le_rfl _ (by omega)
    unfold pairDist
    rw [List.getElem?_eq_getElem hk, List.getElem?_eq_getElem (show i < s1.length by omega)]
    exact hb _ _ (Or.inr hbad)

/-- **C148.** Without window, or with a window as long as the second series, it is NaN. -/
theorem C148_nan (h : NanCosts F nan) (space : Space P F) (bad : P → Prop)
    (hb : ∀ p q, bad p ∨ bad q → nan (space.dist p q)) (s1 s2 : List P) (window : Int) (hw : 0 ≤ window)
    (h1 : s1 ≠ []) (h2 : s2 ≠ []) (hr : s1.length ≤ s2.length + band window s2.length)
    (hwide : s2.length ≤ band window s2.length + 1)
    (hx : (∃ p ∈ s1, bad p) ∨ ∃ q ∈ s2, bad q) :
    ∃ dtw, newDTWWindow s1 s2 space window = some dtw ∧ nan dtw.dist := by
  obtain ⟨d, p, e, _, _, _, _, _, hd⟩ := dtw_any s1 s2 space window hw h1 h2 hr
  refine ⟨d, e, ?_⟩
  have p1 := List.length_pos_iff.2 h1
  have p2 := List.length_pos_iff.2 h2
  have hwi : Within (band window s2.length) (s1.length - 1) (s2.length - 1) := by unfold Within; omega
  rw [hd, if_pos hwi]
  rcases hx with ⟨p, hp, hbad⟩ | ⟨q, hq, hbad⟩
  · obtain ⟨k, hk, rfl⟩ := List.getElem_of_mem hp
    refine ideal_row_nan h _ _ k (s2.length - 1) (by omega) (fun j hj => ?_) _ (by omega) _ le_rfl hwi
    unfold pairDist
    rw [List.getElem?_eq_getElem hk, List.getElem?_eq_getElem (show j < s2.length by omega)]
    exact hb _ _ (Or.inl hbad)
  · obtain ⟨k, hk, rfl⟩ := List.getElem_of_mem hq
    refine ideal_col_nan h _ _ k (s1.length - 1) (s2.length - 1) (by omega) (fun i hi => ?_) _ le_rfl _ le_rfl
      (by omega) hwi
    unfold pairDist
    rw [List.getElem?_eq_getElem hk, List.getElem?_eq_getElem (show i < s1.length by omega)]
    exact hb _ _ (Or.inr hbad)

end

/-! ### IEEE numbers -/

instance XReal.instTop : Top XReal := ⟨XReal.posInf⟩
instance XReal.instLE : LE XReal := ⟨fun a b => a < b ∨ (a == b) = true⟩
noncomputable instance XReal.instDecidableLE : DecidableLE XReal := fun _ _ => Classical.propDecidable _

theorem XReal.nanCosts : NanCosts XReal isNaN where
  le_left {a} b ha := by
    obtain rfl : a = XReal.nan := ha
    cases b <;> exact fun h => h.elim (fun h => h.elim) (fun h => Bool.noConfusion h)
  le_right a {b} hb := by
    obtain rfl : b = XReal.nan := hb
    cases a <;> exact fun h => h.elim (fun h => h.elim) (fun h => Bool.noConfusion h)
  add_left b ha := XReal.nanLaws.add_left b ha
  add_right a {_} hb := XReal.nanLaws.add_right a hb
  top_add b := by
    cases b
    · exact Or.inr rfl
    · exact Or.inr rfl
    · exact Or.inl rfl
    · exact Or.inl rfl

/-- **C148.** A NaN coordinate of a point of one of two series of Euclidean vectors, which are not
resized: `Dist` returns NaN or `+Inf`; NaN without window. -/
theorem C148_euclid {n : Nat} (window : Int) (x y : List (Vec XReal n)) (hx : x ≠ []) (hy : y ≠ [])
    (hf : NoResize window x.length y.length) (hn : (∃ p ∈ x, HasNaN p) ∨ ∃ q ∈ y, HasNaN q) :
    ∃ v, (DtwSpace.mk window (euclidSpace XReal n)).dist x y = some v ∧ (v = XReal.posInf ∨ v = XReal.nan) ∧
      (window = 0 → v = XReal.nan) := by
  have p1 := List.length_pos_iff.2 hx
  have p2 := List.length_pos_iff.2 hy
  have hs : shrinkLongest x y (euclidSpace XReal n) window = some (x, y) := by
    unfold shrinkLongest
    unfold NoResize at hf
    simp only
    rw [if_neg (by omega), if_neg (by omega)]
  have hb : ∀ p q : Vec XReal n, HasNaN p ∨ HasNaN q → isNaN ((euclidSpace XReal n).dist p q) :=
    fun p q h => (euclid_taints XReal.nanLaws n).dist h
  have hw : 0 ≤ window := by unfold NoResize at hf; omega
  have hr : x.length ≤ y.length + band window y.length := by
    unfold NoResize at hf; unfold band; split <;> omega
  obtain ⟨d, e, hd⟩ := C148_lost XReal.nanCosts (euclidSpace XReal n) HasNaN hb x y window hw hx hy hr hn
  refine ⟨d.dist, ?_, hd, fun h0 => ?_⟩
  · unfold DtwSpace.dist
    rw [hs]
    simp only [e, Option.map_some]
  · obtain ⟨d', e', hd'⟩ := C148_nan XReal.nanCosts (euclidSpace XReal n) HasNaN hb x y window hw hx hy hr
      (by unfold band; rw [if_pos h0]; omega) hn
    rw [e] at e'
    cases e'
    exact hd'

/-! ### Witnesses -/

namespace Ex148

/-- The natural numbers, `+Inf` and NaN: a part of `float64` closed under what the DTW costs need. -/
inductive Num where
  | num : Nat → Num
  | inf : Num
  | nan : Num
deriving DecidableEq

def Num.add : Num → Num → Num
  | num a, num b => num (a + b)
  | nan, _ => nan
  | _, nan => nan
  | _, _ => inf

def Num.le : Num → Num → Bool
  | num a, num b => decide (a ≤ b)
  | num _, inf => true
  | inf, inf => true
  | _, _ => false

instance : Top Num := ⟨.inf⟩
instance : Zero Num := ⟨.num 0⟩
instance : Add Num := ⟨Num.add⟩
instance : LE Num := ⟨fun a b => Num.le a b = true⟩
instance : DecidableLE Num := fun a b => inferInstanceAs (Decidable (Num.le a b = true))

theorem laws : NanCosts Num (· = .nan) where
  le_left {a} b ha := by subst ha; cases b <;> exact Bool.noConfusion
  le_right a {b} hb := by subst hb; cases a <;> exact Bool.noConfusion
  add_left b ha := by subst ha; cases b <;> rfl
  add_right a {_} hb := by subst hb; cases a <;> rfl
  top_add b := by cases b <;> first | exact Or.inl rfl | exact Or.inr rfl

/-- Points on a line, `none` being the one with a NaN coordinate. -/
def line : Space (Option Nat) Num where
  dist
    | some a, some b => .num (a - b + (b - a))
    | _, _ => .nan
  combine
    | some a, w, some b, v => some ((a * w.toNat + b * v.toNat) / (w + v).toNat)
    | _, _, _, _ => none
  copy := id
  dim := fun _ => 1

theorem line_bad : ∀ p q, p = none ∨ q = none → line.dist p q = .nan := by
  rintro (_ | p) (_ | q) h
  · rfl
  · rfl
  · rfl
  · simp at h

end Ex148
open Ex148

/-- **C148.** The distance is not symmetric: with the window 1, NaN one way and `+Inf` the other way. -/
theorem C148_not_symmetric :
    (DtwSpace.mk 1 line).dist [some 0, none, some 0] [some 0, some 0, some 0] = some .nan ∧
    (DtwSpace.mk 1 line).dist [some 0, some 0, some 0] [some 0, none, some 0] = some .inf := by decide

/-- **C148.** With a NaN the path may leave the window: positions 2 and 0 are matched with the window 1. -/
theorem C148_leaves_window :
    (newDTWWindow [some 0, none, some 0] [some 0, some 0] line 1).map (·.path) =
      some [⟨2, 1⟩, ⟨2, 0⟩, ⟨1, 0⟩, ⟨0, 0⟩] ∧ ¬ Within (band 1 2) 2 0 := by decide

/-- **C148.** A series which is resized may lose its NaN: the distance is then an ordinary number, here 0
(the claim that a NaN is never ignored, refuted). -/
theorem C148_skipped :
    (DtwSpace.mk 1 line).dist [some 0, none, some 0, none, some 0] [some 0, some 0] = some (.num 0) := by decide

/-- **C148.** The same point further in the series is not lost. -/
theorem C148_not_skipped :
    (DtwSpace.mk 1 line).dist [some 0, some 0, none, some 0, some 0] [some 0, some 0] = some .nan := by decide

example : ∃ v, (DtwSpace.mk 0 (euclidSpace XReal 1)).dist [⟨[XReal.nan], rfl⟩] [⟨[XReal.fin 1], rfl⟩] = some v ∧
    v = XReal.nan := by
  obtain ⟨v, h, _, h0⟩ := C148_euclid (n := 1) 0 [⟨[XReal.nan], rfl⟩] [⟨[XReal.fin 1], rfl⟩] (by simp) (by simp)
    (Or.inr ⟨rfl, by show 1 ≤ 2 * 1; omega⟩) (Or.inl ⟨_, List.mem_singleton.2 rfl, XReal.nan, by simp, rfl⟩)
  exact ⟨v, h, h0 rfl⟩

example : ∃ dtw, newDTWWindow [some 0, none, some 0] [some 0, some 0, some 0] line 0 = some dtw ∧
    dtw.dist = .nan :=
  C148_nan laws line (· = none) line_bad _ _ 0 le_rfl (by simp) (by simp) (by decide) (by decide) (Or.inl (by simp))

end Distclus
