import Verif.Spec.Ieee
import Verif.Proof.FlEuclid
import Verif.Proof.XReal
import Verif.Proof.Hom
/-!
# Numbers without overflow: lemmas
-/
namespace Distclus
open Spec

section
variable {f : Format}

theorem Format.round_rnd (x : ℝ) : f.round (.fin (f.r.rnd x)) = f.round (.fin x) := by
  have h1 := f.one_lt_top
  simp only [Format.round, f.r.idem]
  by_cases h : |f.r.rnd x| < f.top
  · rw [if_pos h, if_pos h]
  · rw [if_neg h, if_neg h]
    have e : 0 < f.r.rnd x ↔ 0 < x := by
      constructor
      · intro hp
        by_contra hc
        have := f.r.mono (not_lt.1 hc)
        rw [f.r.zero] at this
        linarith
      · intro hp
        have h0 := f.r.mono hp.le
        rw [f.r.zero] at h0
        rcases eq_or_lt_of_le h0 with h0 | h0
        · exact absurd (by rw [← h0, abs_zero]; linarith) h
        · exact h0
    simp only [e]

theorem Format.of_rnd (x : ℝ) : Ieee.of f (.fin (f.r.rnd x)) = Ieee.of f (.fin x) := Subtype.ext (Format.round_rnd x)

theorem Fl.toIeee_of (x : ℝ) : Fl.toIeee f (Fl.of f.r x) = Ieee.of f (.fin x) := Format.of_rnd x

theorem Fl.toIeee_val {x : Fl f.r} (h : |x.val| < f.top) : (Fl.toIeee f x).1 = .fin x.val := by
  show f.round (.fin x.val) = _
  have : f.r.rnd x.val = x.val := x.2
  simp only [Format.round, this, if_pos h]

theorem Fl.toIeee_add {x y : Fl f.r} (hx : |x.val| < f.top) (hy : |y.val| < f.top) :
    Fl.toIeee f x + Fl.toIeee f y = Fl.toIeee f (x + y) := by
  show Ieee.of f ((Fl.toIeee f x).1 + (Fl.toIeee f y).1) = _
  rw [Fl.toIeee_val hx, Fl.toIeee_val hy]
  exact (Fl.toIeee_of (x.val + y.val)).symm

theorem Fl.toIeee_sub {x y : Fl f.r} (hx : |x.val| < f.top) (hy : |y.val| < f.top) :
    Fl.toIeee f x - Fl.toIeee f y = Fl.toIeee f (x - y) := by
  show Ieee.of f ((Fl.toIeee f x).1 - (Fl.toIeee f y).1) = _
  rw [Fl.toIeee_val hx, Fl.toIeee_val hy]
  show Ieee.of f (.fin (x.val + -y.val)) = _
  rw [← sub_eq_add_neg]
  exact (Fl.toIeee_of (x.val - y.val)).symm

theorem Fl.toIeee_mul {x y : Fl f.r} (hx : |x.val| < f.top) (hy : |y.val| < f.top) :
    Fl.toIeee f x * Fl.toIeee f y = Fl.toIeee f (x * y) := by
  show Ieee.of f ((Fl.toIeee f x).1 * (Fl.toIeee f y).1) = _
  rw [Fl.toIeee_val hx, Fl.toIeee_val hy]
  exact (Fl.toIeee_of (x.val * y.val)).symm

theorem Fl.toIeee_div {x y : Fl f.r} (hx : |x.val| < f.top) (hy : |y.val| < f.top) (h0 : y.val ≠ 0) :
    Fl.toIeee f x / Fl.toIeee f y = Fl.toIeee f (x / y) := by
  show Ieee.of f ((Fl.toIeee f x).1 / (Fl.toIeee f y).1) = _
  rw [Fl.toIeee_val hx, Fl.toIeee_val hy]
  show Ieee.of f (XReal.div (.fin x.val) (.fin y.val)) = _
  simp only [XReal.div, if_neg h0]
  exact (Fl.toIeee_of (x.val / y.val)).symm

theorem Fl.toIeee_sqrt {x : Fl f.r} (hx : |x.val| < f.top) (h0 : 0 ≤ x.val) :
    GoMath.sqrt (Fl.toIeee f x) = Fl.toIeee f (GoMath.sqrt x) := by
  show Ieee.of f (GoMath.sqrt (Fl.toIeee f x).1) = _
  rw [Fl.toIeee_val hx]
  show Ieee.of f (if x.val < 0 then .nan else .fin (Real.sqrt x.val)) = _
  rw [if_neg (not_lt.2 h0)]
  exact (Fl.toIeee_of (Real.sqrt x.val)).symm

theorem Fl.toIeee_ofInt (n : Int) : (GoMath.ofInt n : Ieee f) = Fl.toIeee f (GoMath.ofInt n) :=
  (Fl.toIeee_of (n : ℝ)).symm

theorem Fl.toIeee_zero : Fl.toIeee f 0 = 0 := rfl

theorem Fl.toIeee_neg_one : Fl.toIeee f (-1) = -1 := by
  have h1 := f.one_lt_top
  show Ieee.of f (.fin (-1)) = Ieee.of f (-(Ieee.of f 1).1)
  have : (Ieee.of f (1 : XReal)).1 = .fin 1 := Fl.toIeee_val (f := f) (x := 1) (by
    show |(1 : ℝ)| < f.top
    rw [abs_one]; exact h1)
  rw [this]
  rfl

theorem Fl.toIeee_lt {x y : Fl f.r} (hx : |x.val| < f.top) (hy : |y.val| < f.top) :
    Fl.toIeee f x < Fl.toIeee f y ↔ x < y := by
  show (Fl.toIeee f x).1 < (Fl.toIeee f y).1 ↔ _
  rw [Fl.toIeee_val hx, Fl.toIeee_val hy, Fl.lt_iff]
  exact Iff.rfl

theorem Rounding.rnd_abs_le (r : Rounding) {x B : ℝ} (hB : r.rnd B = B) (h : |x| ≤ B) : |r.rnd x| ≤ B := by
  obtain ⟨h1, h2⟩ := abs_le.1 h
  rw [abs_le]
  constructor
  · have := r.mono h1
    rw [r.neg, hB] at this
    exact this
  · have := r.mono h2
    rw [hB] at this
    exact this

theorem Rounding.Scales.pow {r : Rounding} (h : r.Scales) (k : Nat) : r.rnd (2 ^ k) = 2 ^ k := by
  have := h k 1 le_rfl
  rwa [r.one, mul_one] at this

theorem Rounding.Scales.mul {r : Rounding} (h : r.Scales) {N : Nat} (hc : r.CountsTo N) (k : Nat) {m : Nat} (hm : m ≤ N) :
    r.rnd (2 ^ k * m) = 2 ^ k * m := by
  rcases Nat.eq_zero_or_pos m with rfl | h0
  · simp [r.zero]
  · rw [h k m (by exact_mod_cast h0), hc m hm]

/-! ### Distances -/

section
variable {k n N : Nat}

theorem Spec.Room.pow_lt (hr : Room f k n N) (h : 1 ≤ n) : (2 : ℝ) ^ (2 * k + 2) < f.top := by
  refine lt_of_le_of_lt ?_ hr.squares
  have : (1 : ℝ) ≤ n := by exact_mod_cast h
  nlinarith [show (0 : ℝ) < 2 ^ (2 * k + 2) by positivity]

theorem Spec.Room.coord_lt (hr : Room f k n N) (h : 1 ≤ n) {x : ℝ} (hx : |x| ≤ 2 ^ k) : |x| < f.top := by
  refine lt_of_le_of_lt hx (lt_of_le_of_lt ?_ (hr.pow_lt h))
  exact pow_le_pow_right₀ (by norm_num) (by omega)

/-- One term of the sum of squares. -/
theorem Spec.Room.sq (hr : Room f k n N) (h : 1 ≤ n) {a b : Fl f.r} (ha : |a.val| ≤ 2 ^ k) (hb : |b.val| ≤ 2 ^ k) :
    (Fl.toIeee f a - Fl.toIeee f b) * (Fl.toIeee f a - Fl.toIeee f b) = Fl.toIeee f ((a - b) * (a - b)) ∧
      0 ≤ ((a - b) * (a - b)).val ∧ ((a - b) * (a - b)).val ≤ 2 ^ (2 * k + 2) := by
  have hd : |(a - b).val| ≤ 2 ^ (k + 1) := by
    rw [Fl.val_sub]
    refine f.r.rnd_abs_le (hr.scales.pow _) ?_
    have := abs_sub a.val b.val
    rw [pow_succ]; linarith [abs_sub_le a.val 0 b.val, abs_sub_comm (0 : ℝ) b.val, abs_sub_comm a.val 0, sub_zero a.val,
      sub_zero b.val]
  have hlt : |(a - b).val| < f.top := lt_of_le_of_lt hd (lt_of_le_of_lt
    (pow_le_pow_right₀ (by norm_num) (by omega)) (hr.pow_lt h))
  refine ⟨?_, ?_, ?_⟩
  · rw [Fl.toIeee_sub (hr.coord_lt h ha) (hr.coord_lt h hb), Fl.toIeee_mul hlt hlt]
  · rw [Fl.val_mul]; exact f.r.rnd_nonneg (mul_self_nonneg _)
  · rw [Fl.val_mul]
    refine (le_abs_self _).trans (f.r.rnd_abs_le (hr.scales.pow _) ?_)
    rw [abs_mul_self, ← abs_mul_abs_self]
    calc |(a - b).val| * |(a - b).val| ≤ 2 ^ (k + 1) * 2 ^ (k + 1) := mul_le_mul hd hd (abs_nonneg _) (by positivity)
      _ = 2 ^ (2 * k + 2) := by rw [← pow_add]; congr 1; omega

theorem Spec.Room.sum (hr : Room f k n N) : ∀ (l : List (Fl f.r × Fl f.r)) (s : Fl f.r) (i : Nat), i + l.length ≤ n →
    (∀ ab ∈ l, |ab.1.val| ≤ 2 ^ k ∧ |ab.2.val| ≤ 2 ^ k) → 0 ≤ s.val → s.val ≤ 2 ^ (2 * k + 2) * i →
    (l.map fun ab => (Fl.toIeee f ab.1, Fl.toIeee f ab.2)).foldl (fun s ab => s + (ab.1 - ab.2) * (ab.1 - ab.2))
        (Fl.toIeee f s) =
      Fl.toIeee f (l.foldl (fun s ab => s + (ab.1 - ab.2) * (ab.1 - ab.2)) s) ∧
    0 ≤ (l.foldl (fun s ab => s + (ab.1 - ab.2) * (ab.1 - ab.2)) s).val ∧
    (l.foldl (fun s ab => s + (ab.1 - ab.2) * (ab.1 - ab.2)) s).val ≤ 2 ^ (2 * k + 2) * n
  | [], s, i, hi, _, h0, hs => by
    refine ⟨rfl, h0, hs.trans ?_⟩
    have : (i : ℝ) ≤ n := by exact_mod_cast (by simpa using hi : i ≤ n)
    exact mul_le_mul_of_nonneg_left this (by positivity)
  | ab :: l, s, i, hi, hb, h0, hs => by
    rw [List.length_cons] at hi
    have hn : 1 ≤ n := by omega
    obtain ⟨e1, e2, e3⟩ := hr.sq hn (hb ab (by simp)).1 (hb ab (by simp)).2
    have hle : ∀ m : Nat, m ≤ n → (2 : ℝ) ^ (2 * k + 2) * m < f.top := fun m hm => by
      refine lt_of_le_of_lt ?_ hr.squares
      have : (m : ℝ) ≤ n := by exact_mod_cast hm
      exact mul_le_mul_of_nonneg_left this (by positivity)
    have hs' : |s.val| < f.top := by rw [abs_of_nonneg h0]; exact lt_of_le_of_lt hs (hle i (by omega))
    have hq : |((ab.1 - ab.2) * (ab.1 - ab.2)).val| < f.top := by
      rw [abs_of_nonneg e2]; exact lt_of_le_of_lt e3 (hr.pow_lt hn)
    simp only [List.map_cons, List.foldl_cons]
    rw [e1, Fl.toIeee_add hs' hq]
    refine hr.sum l _ (i + 1) (by omega) (fun x hx => hb x (by simp [hx])) ?_ ?_
    · rw [Fl.val_add]; exact f.r.rnd_nonneg (add_nonneg h0 e2)
    · rw [Fl.val_add, ← hr.scales.mul hr.counts (2 * k + 2) (show i + 1 ≤ N by have := hr.dim; omega)]
      refine f.r.mono ?_
      push_cast
      linarith

theorem Spec.Room.dist (hr : Room f k n N) {p q : Vec (Fl f.r) n} (hp : Box k p) (hq : Box k q) :
    (euclidSpace (Ieee f) n).dist (p.toIeee f) (q.toIeee f) = Fl.toIeee f ((euclidSpace (Fl f.r) n).dist p q) ∧
      0 ≤ ((euclidSpace (Fl f.r) n).dist p q).val ∧ ((euclidSpace (Fl f.r) n).dist p q).val < f.top := by
  obtain ⟨h1, h2, h3⟩ := hr.sum (List.zip p.1 q.1) 0 0 (by
    rw [List.length_zip, p.2, q.2]; simp) (fun ab hab => by
      obtain ⟨ha, hb⟩ := List.of_mem_zip hab
      exact ⟨hp _ ha, hq _ hb⟩) le_rfl (by simp [Fl.val_zero])
  have hz : List.zip (p.1.map (Fl.toIeee f)) (q.1.map (Fl.toIeee f)) =
      (List.zip p.1 q.1).map fun ab => (Fl.toIeee f ab.1, Fl.toIeee f ab.2) := by
    rw [List.zip_map]; rfl
  set S := (List.zip p.1 q.1).foldl (fun s ab => s + (ab.1 - ab.2) * (ab.1 - ab.2)) (0 : Fl f.r) with hS
  have hlt : S.val < f.top := lt_of_le_of_lt h3 hr.squares
  have hd : (euclidSpace (Fl f.r) n).dist p q = GoMath.sqrt S := rfl
  refine ⟨?_, ?_, ?_⟩
  · show GoMath.sqrt (List.foldl _ _ (List.zip (p.1.map (Fl.toIeee f)) (q.1.map (Fl.toIeee f)))) = _
    rw [hz, hd, ← Fl.toIeee_sqrt (by rw [abs_of_nonneg h2]; exact hlt) h2, ← h1]
    rfl
  · rw [hd, Fl.val_sqrt]; exact f.r.rnd_nonneg (Real.sqrt_nonneg _)
  · rw [hd, Fl.val_sqrt]
    rcases le_or_gt 1 S.val with hS1 | hS1
    · refine lt_of_le_of_lt (f.r.mono (show Real.sqrt S.val ≤ S.val from ?_)) ?_
      · rw [Real.sqrt_le_left h2]; nlinarith
      · rw [show f.r.rnd S.val = S.val from S.2]; exact hlt
    · refine lt_of_le_of_lt (f.r.mono (show Real.sqrt S.val ≤ 1 from ?_)) ?_
      · rw [Real.sqrt_le_left (by norm_num)]; linarith
      · rw [f.r.one]; exact f.one_lt_top

theorem Spec.Room.nearestLoop (hr : Room f k n N) {e : Vec (Fl f.r) n} (he : Box k e) : ∀ (c : List (Vec (Fl f.r) n))
    (i : Nat) (l : Int) (m : Fl f.r), (∀ x ∈ c, Box k x) → |m.val| < f.top →
    Distclus.nearestLoop (euclidSpace (Ieee f) n) (e.toIeee f) (c.map (Vec.toIeee f)) i l (Fl.toIeee f m) =
      ((Distclus.nearestLoop (euclidSpace (Fl f.r) n) e c i l m).1,
        Fl.toIeee f (Distclus.nearestLoop (euclidSpace (Fl f.r) n) e c i l m).2)
  | [], _, _, _, _, _ => rfl
  | x :: c, i, l, m, hc, hm => by
    obtain ⟨h1, h2, h3⟩ := hr.dist he (hc x (by simp))
    have hd : |((euclidSpace (Fl f.r) n).dist e x).val| < f.top := by rw [abs_of_nonneg h2]; exact h3
    have hc' : ∀ y ∈ c, Box k y := fun y hy => hc y (by simp [hy])
    have h0 : Fl.toIeee f m < 0 ↔ m < 0 := by
      rw [← Fl.toIeee_zero]
      refine Fl.toIeee_lt hm ?_
      rw [Fl.val_zero, abs_zero]; linarith [f.one_lt_top]
    simp only [List.map_cons, Distclus.nearestLoop, h1, h0, Fl.toIeee_lt hd hm]
    split
    · exact hr.nearestLoop he c _ _ _ hc' hd
    · exact hr.nearestLoop he c _ _ _ hc' hm

theorem Spec.Room.nearest (hr : Room f k n N) (c : List (Vec (Fl f.r) n)) {e : Vec (Fl f.r) n} (he : Box k e)
    (hc : ∀ x ∈ c, Box k x) :
    Distclus.nearest (euclidSpace (Ieee f) n) (c.map (Vec.toIeee f)) (e.toIeee f) =
      ((Distclus.nearest (euclidSpace (Fl f.r) n) c e).1, Fl.toIeee f (Distclus.nearest (euclidSpace (Fl f.r) n) c e).2) := by
  have := hr.nearestLoop he c 0 (-1) (-1) hc (by
    rw [Fl.val_neg, Fl.val_one, abs_neg, abs_one]; exact f.one_lt_top)
  rw [Fl.toIeee_neg_one] at this
  exact this

/-! ### Combinations -/

theorem Spec.Room.mean1 (hr : Room f k n N) {a b : Fl f.r} {w v : Int} (ha : |a.val| ≤ 2 ^ k) (hb : |b.val| ≤ 2 ^ k)
    (hw : 0 < w) (hv : 0 < v) (hN : w + v ≤ N) :
    (Fl.toIeee f a * GoMath.ofInt w + Fl.toIeee f b * GoMath.ofInt v) / (GoMath.ofInt w + GoMath.ofInt v) =
      Fl.toIeee f ((a * GoMath.ofInt w + b * GoMath.ofInt v) / (GoMath.ofInt w + GoMath.ofInt v)) ∧
    |((a * GoMath.ofInt w + b * GoMath.ofInt v) / (GoMath.ofInt w + GoMath.ofInt v)).val| ≤ 2 ^ k := by
  obtain ⟨w, rfl⟩ := Int.eq_ofNat_of_zero_le hw.le
  obtain ⟨v, rfl⟩ := Int.eq_ofNat_of_zero_le hv.le
  have hw' : 0 < w := by exact_mod_cast hw
  have hv' : 0 < v := by exact_mod_cast hv
  have hN' : w + v ≤ N := by exact_mod_cast hN
  have hkpos : (0 : ℝ) < 2 ^ k := by positivity
  have hk1 : (1 : ℝ) ≤ 2 ^ k := one_le_pow₀ (by norm_num)
  have ow : (GoMath.ofInt (w : Int) : Fl f.r).val = w := by
    rw [Fl.val_ofInt]; exact_mod_cast hr.counts w (by omega)
  have ov : (GoMath.ofInt (v : Int) : Fl f.r).val = v := by
    rw [Fl.val_ofInt]; exact_mod_cast hr.counts v (by omega)
  have hwr : (0 : ℝ) < w := by exact_mod_cast hw'
  have hvr : (0 : ℝ) < v := by exact_mod_cast hv'
  have osum : ((GoMath.ofInt (w : Int) : Fl f.r) + GoMath.ofInt (v : Int)).val = w + v := by
    rw [Fl.val_add, ow, ov]
    have := hr.counts (w + v) hN'
    push_cast at this
    exact this
  have big : ∀ m : Nat, m ≤ N → (2 : ℝ) ^ k * m < f.top := fun m hm => by
    refine lt_of_le_of_lt ?_ hr.sums
    have : (m : ℝ) ≤ N := by exact_mod_cast hm
    exact mul_le_mul_of_nonneg_left this hkpos.le
  have small : ∀ m : Nat, m ≤ N → |(m : ℝ)| < f.top := fun m hm => by
    rw [abs_of_nonneg (by positivity)]
    refine lt_of_le_of_lt ?_ (big m hm)
    nlinarith [show (0 : ℝ) ≤ m by positivity]
  have ca : |a.val| < f.top := by
    refine lt_of_le_of_lt ha (lt_of_le_of_lt ?_ (big 1 (by omega)))
    simp
  have cb : |b.val| < f.top := by
    refine lt_of_le_of_lt hb (lt_of_le_of_lt ?_ (big 1 (by omega)))
    simp
  have pa : |(a * GoMath.ofInt (w : Int)).val| ≤ 2 ^ k * w := by
    rw [Fl.val_mul, ow]
    refine f.r.rnd_abs_le (hr.scales.mul hr.counts k (by omega)) ?_
    rw [abs_mul, abs_of_pos hwr]
    exact mul_le_mul_of_nonneg_right ha hwr.le
  have pb : |(b * GoMath.ofInt (v : Int)).val| ≤ 2 ^ k * v := by
    rw [Fl.val_mul, ov]
    refine f.r.rnd_abs_le (hr.scales.mul hr.counts k (by omega)) ?_
    rw [abs_mul, abs_of_pos hvr]
    exact mul_le_mul_of_nonneg_right hb hvr.le
  have ps : |(a * GoMath.ofInt (w : Int) + b * GoMath.ofInt (v : Int)).val| ≤ 2 ^ k * ((w + v : Nat) : ℝ) := by
    rw [Fl.val_add]
    refine f.r.rnd_abs_le (hr.scales.mul hr.counts k hN') ((abs_add_le _ _).trans ?_)
    push_cast
    linarith
  constructor
  · rw [Fl.toIeee_ofInt, Fl.toIeee_ofInt, Fl.toIeee_mul ca (by rw [ow]; exact small w (by omega)),
      Fl.toIeee_mul cb (by rw [ov]; exact small v (by omega)),
      Fl.toIeee_add (lt_of_le_of_lt pa (big w (by omega))) (lt_of_le_of_lt pb (big v (by omega))),
      Fl.toIeee_add (by rw [ow]; exact small w (by omega)) (by rw [ov]; exact small v (by omega)),
      Fl.toIeee_div (lt_of_le_of_lt ps (big _ hN')) ?_ ?_]
    · rw [osum]
      have := small (w + v) hN'
      push_cast at this
      exact this
    · rw [osum]; positivity
  · rw [Fl.val_div, osum]
    refine f.r.rnd_abs_le (hr.scales.pow k) ?_
    have hpos : (0 : ℝ) < w + v := by positivity
    rw [abs_div, abs_of_pos hpos, div_le_iff₀ hpos]
    push_cast at ps
    exact ps

theorem Spec.Room.combine (hr : Room f k n N) {p q : Vec (Fl f.r) n} {w v : Int} (hp : Box k p) (hq : Box k q)
    (hw : 0 < w) (hv : 0 < v) (hN : w + v ≤ N) :
    (euclidSpace (Ieee f) n).combine (p.toIeee f) w (q.toIeee f) v =
      ((euclidSpace (Fl f.r) n).combine p w q v).toIeee f ∧ Box k ((euclidSpace (Fl f.r) n).combine p w q v) := by
  have key : ∀ (a b : List (Fl f.r)), (∀ x ∈ a, |x.val| ≤ 2 ^ k) → (∀ x ∈ b, |x.val| ≤ 2 ^ k) →
      pointCombine (a.map (Fl.toIeee f)) w (b.map (Fl.toIeee f)) v = (pointCombine a w b v).map (Fl.toIeee f) ∧
      ∀ x ∈ pointCombine a w b v, |x.val| ≤ 2 ^ k := by
    intro a
    induction a with
    | nil => intro b _ _; exact ⟨by simp [pointCombine], by simp [pointCombine]⟩
    | cons x a ih =>
      intro b ha hb
      cases b with
      | nil => exact ⟨by simp [pointCombine], by simp [pointCombine]⟩
      | cons y b =>
        obtain ⟨i1, i2⟩ := ih b (fun z hz => ha z (by simp [hz])) fun z hz => hb z (by simp [hz])
        obtain ⟨m1, m2⟩ := hr.mean1 (ha x (by simp)) (hb y (by simp)) hw hv hN
        unfold pointCombine at i1 i2 ⊢
        refine ⟨?_, fun z hz => ?_⟩
        · simp only [List.map_cons, List.zipWith_cons_cons]
          rw [m1, i1]
        · rw [List.zipWith_cons_cons] at hz
          rcases List.mem_cons.1 hz with rfl | hz
          · exact m2
          · exact i2 z hz
  obtain ⟨h1, h2⟩ := key p.1 q.1 hp hq
  exact ⟨Subtype.ext h1, h2⟩

theorem Spec.Room.homOn (hr : Room f k n N) :
    HomOn (euclidSpace (Fl f.r) n) (euclidSpace (Ieee f) n) (Vec.toIeee f) (Box k) N :=
  ⟨fun ha hb hw hv hN => hr.combine ha hb hw hv hN, fun ha => ⟨rfl, ha⟩, fun hc he => by rw [hr.nearest _ he hc]⟩

end
end

/-! ### `float64` -/

theorem binary64_scales : binary64.Scales := by
  intro k x hx
  have hx0 : 0 < x := by linarith
  have hl0 : 0 ≤ Int.log 2 x := le_log_of_le hx0 (by simpa using hx)
  have hlog : Int.log 2 (2 ^ k * x) = Int.log 2 x + k := by
    have hp : (0 : ℝ) < 2 ^ k * x := by positivity
    refine le_antisymm (log_le_of_lt hp ?_) (le_log_of_le hp ?_)
    · rw [show Int.log 2 x + (k : ℤ) + 1 = (k : ℤ) + (Int.log 2 x + 1) by ring, zpow_add₀ (by norm_num), zpow_natCast]
      exact mul_lt_mul_of_pos_left (lt_log x) (by positivity)
    · rw [show Int.log 2 x + (k : ℤ) = (k : ℤ) + Int.log 2 x by ring, zpow_add₀ (by norm_num), zpow_natCast]
      exact mul_le_mul_of_nonneg_left (log_le x hx0) (by positivity)
  have h1 : ulpExp 53 (-1074) x = Int.log 2 x - 52 := by
    unfold ulpExp; rw [abs_of_pos hx0]; push_cast; omega
  have h2 : ulpExp 53 (-1074) (2 ^ k * x) = Int.log 2 x - 52 + k := by
    unfold ulpExp; rw [abs_of_pos (by positivity), hlog]; push_cast; omega
  show roundTo 53 (-1074) (2 ^ k * x) = 2 ^ k * roundTo 53 (-1074) x
  unfold roundTo
  rw [h1, h2, zpow_add₀ (by norm_num : (2 : ℝ) ≠ 0), zpow_natCast,
    show 2 ^ k * x / ((2 : ℝ) ^ (Int.log 2 x - 52) * 2 ^ k) = x / (2 : ℝ) ^ (Int.log 2 x - 52) by
      have := two_zpow_pos (Int.log 2 x - 52)
      field_simp]
  ring

/-- `float64`: 53 digits, exponents up to 1023. -/
noncomputable def float64 : Format := ⟨binary64, 2 ^ 1024, one_lt_pow₀ (by norm_num) (by norm_num)⟩

end Distclus
