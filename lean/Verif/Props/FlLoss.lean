import Verif.Proof.FlLoss
import Verif.Props.Fl64
/-!
# C139: the losses, rounded
-/
namespace Distclus
open Spec
section
variable {E F : Type} [Zero F] [Add F] [GoMath F] [One F] [Neg F] [LT F] [DecidableLT F]

/-- **C139.** `TotalLoss` adds, in some order, the powers of the distances of the elements to their
nearest centroids, each of them once.  No law of arithmetic is used. -/
theorem C139_total (hneg : (-1 : F) < 0) (space : Space E F) (c data : List E) (hc : c ≠ []) (norm : F) :
    ∃ x vs, totalLoss space c data norm = some x ∧
      vs.Perm (data.map fun e => GoMath.pow (nearest space c e).2 norm) ∧ SumOf vs x := by
  obtain ⟨st, h, hst⟩ := reduceLoss_state hneg space c data hc norm
  obtain ⟨vs, hp, hs⟩ := hst.sumState.total (lossPairs_range hneg space c hc norm data)
  exact ⟨_, vs, by simp [totalLoss, h], by simpa [lossPairs, Function.comp_def] using hp, hs⟩

/-- **C139.** So does `ParTotalLoss`, for any degree, perhaps in another order. -/
theorem C139_parTotal (hneg : (-1 : F) < 0) (space : Space E F) (c data : List E) (hc : c ≠ []) (norm : F)
    (degree : Int) (hd : 1 ≤ degree) :
    ∃ x vs, parTotalLoss space c data norm degree = some x ∧
      vs.Perm (data.map fun e => GoMath.pow (nearest space c e).2 norm) ∧ SumOf vs x := by
  obtain ⟨st, h, hst⟩ := parLoss_sumState hneg space c data hc norm degree hd
  obtain ⟨vs, hp, hs⟩ := hst.total (lossPairs_range hneg space c hc norm data)
  exact ⟨_, vs, by simp [parTotalLoss, h], by simpa [lossPairs, Function.comp_def] using hp, hs⟩
end

/-! ### Rounding -/

theorem SumOf.perm_fl {r : Rounding} {ws vs : List (Fl r)} {x : Fl r} (h : SumOf vs x) (hp : vs.Perm ws)
    (h0 : ∀ v ∈ ws, 0 ≤ v.val) :
    (1 - r.u) ^ (ws.length - 1) * (ws.map Fl.val).sum ≤ x.val ∧
      x.val ≤ (1 + r.u) ^ (ws.length - 1) * (ws.map Fl.val).sum := by
  have := SumOf.fl h fun v hv => h0 v (hp.mem_iff.1 hv)
  rwa [hp.length_eq, (hp.map Fl.val).sum_eq] at this

/-- **C139.** With rounding: both losses are the exact sum of the powers computed, up to one relative
error less than there are elements. -/
theorem C139_rounding {E : Type} {r : Rounding} (space : Space E (Fl r)) (c data : List E) (hc : c ≠ [])
    (norm : Fl r) (degree : Int) (hd : 1 ≤ degree)
    (h0 : ∀ e ∈ data, 0 ≤ (GoMath.pow (nearest space c e).2 norm).val) :
    ∃ x y, totalLoss space c data norm = some x ∧ parTotalLoss space c data norm degree = some y ∧
      ∀ z ∈ [x, y],
        (1 - r.u) ^ (data.length - 1) * (data.map fun e => (GoMath.pow (nearest space c e).2 norm).val).sum ≤ z.val ∧
        z.val ≤ (1 + r.u) ^ (data.length - 1) *
          (data.map fun e => (GoMath.pow (nearest space c e).2 norm).val).sum := by
  obtain ⟨x, vs, hx, hp, hs⟩ := C139_total Fl.neg_one_lt_zero space c data hc norm
  obtain ⟨y, ws, hy, hq, ht⟩ := C139_parTotal Fl.neg_one_lt_zero space c data hc norm degree hd
  refine ⟨x, y, hx, hy, ?_⟩
  have h0' : ∀ v ∈ data.map fun e => GoMath.pow (nearest space c e).2 norm, 0 ≤ v.val := by
    simp only [List.mem_map]
    rintro _ ⟨e, he, rfl⟩
    exact h0 e he
  have a := SumOf.perm_fl hs hp h0'
  have b := SumOf.perm_fl ht hq h0'
  simp only [List.length_map, List.map_map, Function.comp_def] at a b
  simp only [List.mem_cons, List.not_mem_nil, or_false]
  rintro z (rfl | rfl)
  · exact a
  · exact b

/-- **C139.** Hence the sequential loss and the parallel one differ by the rounding only. -/
theorem C139_seq_par {E : Type} {r : Rounding} (space : Space E (Fl r)) (c data : List E) (hc : c ≠ [])
    (norm : Fl r) (degree : Int) (hd : 1 ≤ degree)
    (h0 : ∀ e ∈ data, 0 ≤ (GoMath.pow (nearest space c e).2 norm).val) :
    ∃ x y, totalLoss space c data norm = some x ∧ parTotalLoss space c data norm degree = some y ∧
      |x.val - y.val| ≤ ((1 + r.u) ^ (data.length - 1) - (1 - r.u) ^ (data.length - 1)) *
        (data.map fun e => (GoMath.pow (nearest space c e).2 norm).val).sum := by
  obtain ⟨x, y, hx, hy, h⟩ := C139_rounding space c data hc norm degree hd h0
  refine ⟨x, y, hx, hy, ?_⟩
  have a := h x (by simp)
  have b := h y (by simp)
  rw [abs_le]
  constructor <;> nlinarith [a.1, a.2, b.1, b.2]

/-- The square of one distance, rounded, against the exact one. -/
theorem fl_best {r : Rounding} {n : Nat} (c : List (Vec (Fl r) n)) (hc : c ≠ []) (norm : Fl r)
    (hn : norm.val = 2) (e : Vec (Fl r) n) :
    0 ≤ (GoMath.pow (nearest (euclidSpace (Fl r) n) c e).2 norm).val ∧
    (1 - r.u) ^ (n + 6) * (⨅ i : Fin c.length, sqDist e.real c[i].real) - (n + 1) * r.η ≤
      (GoMath.pow (nearest (euclidSpace (Fl r) n) c e).2 norm).val ∧
    (GoMath.pow (nearest (euclidSpace (Fl r) n) c e).2 norm).val ≤
      (1 + r.u) ^ (n + 6) * ((⨅ i : Fin c.length, sqDist e.real c[i].real) + (n + 1) * r.η) := by
  have hu0 := r.u_nonneg
  have hu1 : 0 ≤ 1 - r.u := by linarith [r.u_le_one]
  have hη := r.η_nonneg
  obtain ⟨k, x, h, hk, hmin, _⟩ := C03_assign_nearest_linear Fl.neg_one_lt_zero
    (euclidSpace (Fl r) n) c e hc (fun y => (C98_dist e y).2.1)
  have hd : (nearest (euclidSpace (Fl r) n) c e).2 = (euclidSpace (Fl r) n).dist e x := by
    unfold assign at h
    generalize nearest (euclidSpace (Fl r) n) c e = p at h ⊢
    obtain ⟨a, b⟩ := p
    dsimp only at h
    split at h
    · split at h
      · simp only [Option.some.injEq, Prod.mk.injEq] at h; exact h.2.2
      · cases h
    · simp at h
  rw [hd]
  obtain ⟨x0, x1, _⟩ := fl_dist_err e x
  have hxm := best_le c e.real x (List.mem_of_getElem? hk)
  obtain ⟨y, hy, hbest⟩ := best_mem c hc e.real
  obtain ⟨y0, _, y2⟩ := fl_dist_err e y
  have hle := pow_le_pow_left₀ x0 (Fl.le_iff.1 (hmin y hy)) 2
  rw [← hbest] at y2
  set B := ⨅ i : Fin c.length, sqDist e.real c[i].real
  have hB : 0 ≤ B := by rw [hbest]; exact sqDist_nonneg _ _
  set d := (euclidSpace (Fl r) n).dist e x
  have hv : (GoMath.pow d norm).val = r.rnd (d.val ^ 2) := by
    show r.rnd (d.val ^ norm.val) = _
    rw [hn, Real.rpow_two]
  rw [hv]
  have he := abs_le.1 (r.err (d.val ^ 2))
  rw [abs_of_nonneg (sq_nonneg _)] at he
  have hnn : 0 ≤ r.rnd (d.val ^ 2) := by
    rw [← r.zero]; exact r.mono (sq_nonneg _)
  refine ⟨hnn, ?_, ?_⟩
  · have h1 : (1 - r.u) ^ (n + 5) * B ≤ d.val ^ 2 + n * r.η := by
      have : (1 - r.u) ^ (n + 5) * B ≤ (1 - r.u) ^ (n + 5) * sqDist e.real x.real := by gcongr
      linarith
    have h2 : (1 - r.u) * ((1 - r.u) ^ (n + 5) * B) ≤ (1 - r.u) * (d.val ^ 2 + n * r.η) := by gcongr
    have h3 : (1 - r.u) ^ (n + 6) * B = (1 - r.u) * ((1 - r.u) ^ (n + 5) * B) := by ring
    have h4 : 0 ≤ r.u * (n * r.η) := by positivity
    rw [h3]
    nlinarith [he.1]
  · have h1 : d.val ^ 2 ≤ (1 + r.u) ^ (n + 5) * (B + n * r.η) := hle.trans y2
    have h2 : (1 + r.u) * d.val ^ 2 ≤ (1 + r.u) * ((1 + r.u) ^ (n + 5) * (B + n * r.η)) := by gcongr
    have h3 : (1 + r.u) ^ (n + 6) * (B + (n + 1) * r.η) =
        (1 + r.u) * ((1 + r.u) ^ (n + 5) * (B + n * r.η)) + (1 + r.u) ^ (n + 6) * r.η := by ring
    have h4 : r.η ≤ (1 + r.u) ^ (n + 6) * r.η := by
      have : 1 ≤ (1 + r.u) ^ (n + 6) := one_le_pow₀ (by linarith)
      nlinarith
    rw [h3]
    nlinarith [he.2]

/-- **C139.** For the Euclidean space and norm 2: both losses are the exact loss, up to the rounding
of the distances, of their squares and of the sum. -/
theorem C139_euclid {r : Rounding} {n : Nat} (c data : List (Vec (Fl r) n)) (hc : c ≠ []) (norm : Fl r)
    (hn : norm.val = 2) (degree : Int) (hd : 1 ≤ degree) :
    ∃ x y, totalLoss (euclidSpace (Fl r) n) c data norm = some x ∧
      parTotalLoss (euclidSpace (Fl r) n) c data norm degree = some y ∧
      ∀ z ∈ [x, y],
        (1 - r.u) ^ (data.length + n + 5) * exactLoss c data - data.length * ((n + 1) * r.η) ≤ z.val ∧
        z.val ≤ (1 + r.u) ^ (data.length + n + 5) * (exactLoss c data + data.length * ((n + 1) * r.η)) := by
  obtain ⟨x, y, hx, hy, h⟩ := C139_rounding (euclidSpace (Fl r) n) c data hc norm degree hd
    (fun e _ => (fl_best c hc norm hn e).1)
  refine ⟨x, y, hx, hy, fun z hz => ?_⟩
  obtain ⟨h1, h2⟩ := h z hz
  have hu0 := r.u_nonneg
  have hu1 : 0 ≤ 1 - r.u := by linarith [r.u_le_one]
  have hη := r.η_nonneg
  have low : ∀ l : List (Vec (Fl r) n), (1 - r.u) ^ (n + 6) * exactLoss c l - l.length * ((n + 1) * r.η) ≤
      (l.map fun e => (GoMath.pow (nearest (euclidSpace (Fl r) n) c e).2 norm).val).sum := by
    intro l
    induction l with
    | nil => simp [exactLoss]
    | cons e l ih =>
      have := (fl_best c hc norm hn e).2.1
      simp only [exactLoss, List.map_cons, List.sum_cons, List.length_cons, Nat.cast_add, Nat.cast_one] at ih ⊢
      linarith
  have upp : ∀ l : List (Vec (Fl r) n),
      (l.map fun e => (GoMath.pow (nearest (euclidSpace (Fl r) n) c e).2 norm).val).sum ≤
        (1 + r.u) ^ (n + 6) * (exactLoss c l + l.length * ((n + 1) * r.η)) := by
    intro l
    induction l with
    | nil => simp [exactLoss]
    | cons e l ih =>
      have := (fl_best c hc norm hn e).2.2
      simp only [exactLoss, List.map_cons, List.sum_cons, List.length_cons, Nat.cast_add, Nat.cast_one] at ih ⊢
      linarith
  rcases Nat.eq_zero_or_pos data.length with h0 | hpos
  · have : data = [] := List.length_eq_zero_iff.1 h0
    subst this
    simp [exactLoss] at h1 h2 ⊢
    exact ⟨h1, h2⟩
  have e : data.length + n + 5 = (data.length - 1) + (n + 6) := by omega
  rw [e, pow_add _ _ (n + 6), pow_add _ _ (n + 6)]
  set S := (data.map fun e => (GoMath.pow (nearest (euclidSpace (Fl r) n) c e).2 norm).val).sum
  set K := (data.length : ℝ) * ((n + 1) * r.η) with hK
  have hK0 : 0 ≤ K := by positivity
  have a := mul_le_mul_of_nonneg_left (low data) (pow_nonneg hu1 (data.length - 1))
  have b := mul_le_mul_of_nonneg_left (upp data) (pow_nonneg (by linarith : 0 ≤ 1 + r.u) (data.length - 1))
  have p1 : (1 - r.u) ^ (data.length - 1) ≤ 1 := pow_le_one₀ hu1 (by linarith)
  have p2 : (1 - r.u) ^ (data.length - 1) * K ≤ K := by nlinarith
  rw [← hK] at a b
  constructor
  · rw [mul_sub] at a
    rw [mul_assoc]
    linarith
  · rw [mul_assoc]
    linarith

theorem exactLoss_nonneg {r : Rounding} {n : Nat} (c data : List (Vec (Fl r) n)) : 0 ≤ exactLoss c data := by
  unfold exactLoss
  apply List.sum_nonneg
  simp only [List.mem_map]
  rintro _ ⟨e, _, rfl⟩
  exact Real.iInf_nonneg fun i => sqDist_nonneg _ _

/-- **C139** for `float64`, in readable constants. -/
theorem C139_binary64 {n : Nat} (c data : List (Vec (Fl binary64) n)) (hc : c ≠ []) (norm : Fl binary64)
    (hn : norm.val = 2) (degree : Int) (hd : 1 ≤ degree) (hq : data.length + n + 5 ≤ 2 ^ 51) :
    ∃ x y, totalLoss (euclidSpace (Fl binary64) n) c data norm = some x ∧
      parTotalLoss (euclidSpace (Fl binary64) n) c data norm degree = some y ∧
      ∀ z ∈ [x, y], |z.val - exactLoss c data| ≤
        (data.length + n + 5) * 2 ^ (-52 : ℤ) * exactLoss c data + data.length * ((n + 1) * 2 ^ (-1074 : ℤ)) := by
  obtain ⟨x, y, hx, hy, h⟩ := C139_euclid c data hc norm hn degree hd
  refine ⟨x, y, hx, hy, fun z hz => ?_⟩
  obtain ⟨h1, h2⟩ := h z hz
  obtain ⟨hu, hη⟩ := C98_binary64
  have hu0 := binary64.u_nonneg
  have hη0 := binary64.η_nonneg
  have hL := exactLoss_nonneg c data
  set L := exactLoss c data
  set q := data.length + n + 5 with hqd
  have hq' : (q : ℝ) ≤ 2 ^ (51 : ℤ) := by exact_mod_cast hq
  have e0 : ((data.length : ℝ) + n + 5) = (q : ℝ) := by rw [hqd]; push_cast; ring
  have e1 : (q : ℝ) * 2 ^ (-52 : ℤ) = 2 * (q * binary64.u) := by
    rw [hu, show (-52 : ℤ) = 1 + -53 by norm_num, zpow_add₀ (by norm_num)]
    norm_num; ring
  have e2 : (2 : ℝ) ^ (-1074 : ℤ) = 2 * binary64.η := by
    rw [hη, show (-1074 : ℤ) = 1 + -1075 by norm_num, zpow_add₀ (by norm_num)]
    norm_num
  rw [e0, e1, e2]
  set a : ℝ := q * binary64.u with ha
  have ha4 : a ≤ 1 / 4 := by
    rw [ha, hu]
    calc (q : ℝ) * 2 ^ (-53 : ℤ) ≤ 2 ^ (51 : ℤ) * 2 ^ (-53 : ℤ) := by gcongr
      _ = 1 / 4 := by rw [← zpow_add₀ (by norm_num)]; norm_num
  have ha0 : 0 ≤ a := by positivity
  obtain ⟨p1, p2⟩ := pow_bounds hu0 (q := q) (by linarith) binary64.u_le_one
  rw [← ha] at p1 p2
  have p3 : 1 / (1 - a) ≤ 1 + 2 * a := by
    rw [div_le_iff₀ (by linarith)]
    nlinarith
  have hK : 0 ≤ (data.length : ℝ) * ((n + 1) * binary64.η) := by positivity
  set K := (data.length : ℝ) * ((n + 1) * binary64.η) with hKd
  have e3 : (data.length : ℝ) * ((n + 1) * (2 * binary64.η)) = 2 * K := by rw [hKd]; ring
  rw [e3, abs_le]
  have k1 : (1 - a) * L ≤ (1 - binary64.u) ^ q * L := by gcongr
  have k2 : (1 + binary64.u) ^ q * (L + K) ≤ (1 + 2 * a) * (L + K) := by
    have := p2.trans p3
    gcongr
  constructor
  · nlinarith [mul_nonneg ha0 hL]
  · nlinarith [mul_nonneg ha0 hK]

/-! ### The two losses are not equal -/

namespace FlLossExample
open Fl64

noncomputable def three : Fl binary64 := ⟨3, by exact_mod_cast binary64_int 3 (by norm_num)⟩
noncomputable def pts : List (Vec (Fl binary64) 1) := [pt big, pt three, pt three]

theorem sum_down : big + three = big := by
  apply Fl.ext
  show binary64.rnd (2 ^ (55 : ℤ) + 3) = 2 ^ (55 : ℤ)
  rw [binary64_eq 55 (2 ^ 52) (by norm_num) (by norm_num) (by norm_num) (by norm_num [abs_lt])]
  norm_num

noncomputable def six : Fl binary64 := ⟨6, by exact_mod_cast binary64_int 6 (by norm_num)⟩

theorem sum_six : three + three = six := by
  apply Fl.ext
  show binary64.rnd (3 + 3) = 6
  rw [show (3 : ℝ) + 3 = ((6 : ℤ) : ℝ) by norm_num, binary64_int 6 (by norm_num)]
  norm_num

theorem sum_up : (big + six).val = 2 ^ (55 : ℤ) + 8 := by
  show binary64.rnd (2 ^ (55 : ℤ) + 6) = _
  rw [binary64_eq 55 (2 ^ 52 + 1) (by norm_num) (by norm_num) (by norm_num) (by norm_num [abs_lt])]
  norm_num

theorem zero_add' (x : Fl binary64) : 0 + x = x := by
  apply Fl.ext
  show binary64.rnd (0 + x.val) = _
  rw [zero_add]; exact x.2

theorem dist_of (x : Fl binary64) (hx : 0 ≤ x.val) (hs : binary64.rnd (x.val * x.val) = x.val * x.val) :
    sp.dist (pt x) (pt 0) = x := by
  apply Fl.ext
  show binary64.rnd (Real.sqrt (binary64.rnd (0 + binary64.rnd (binary64.rnd (x.val - 0) *
    binary64.rnd (x.val - 0))))) = _
  rw [sub_zero, show binary64.rnd x.val = x.val from x.2, zero_add, hs, hs, Real.sqrt_mul_self hx]
  exact x.2

theorem dist_big : sp.dist (pt big) (pt 0) = big := by
  refine dist_of big (by rw [v_big]; positivity) ?_
  rw [v_big, ← zpow_add₀ (by norm_num)]
  exact rnd_pow _ (by norm_num)

theorem dist_three : sp.dist (pt three) (pt 0) = three := by
  refine dist_of three (by show (0 : ℝ) ≤ 3; norm_num) ?_
  show binary64.rnd ((3 : ℝ) * 3) = 3 * 3
  rw [show (3 : ℝ) * 3 = ((9 : ℤ) : ℝ) by norm_num, binary64_int 9 (by norm_num)]

theorem pow_one' (x : Fl binary64) : GoMath.pow x 1 = x := by
  apply Fl.ext
  show binary64.rnd (x.val ^ (1 : ℝ)) = _
  rw [Real.rpow_one]; exact x.2

theorem near (e : Vec (Fl binary64) 1) : nearest sp [pt 0] e = (0, sp.dist e (pt 0)) := by
  have h := nearest_range Fl.neg_one_lt_zero sp [pt 0] (by simp) e
  simp only [List.length_cons, List.length_nil] at h
  obtain ⟨k, x, ha, hk, _⟩ := C03_assign_nearest_linear Fl.neg_one_lt_zero sp [pt 0] e (by simp)
    (fun y => (C98_dist e y).2.1)
  have hk0 : k = 0 := by
    have := (List.getElem?_eq_some_iff.1 hk).1
    simpa using this
  subst hk0
  simp only [List.getElem?_cons_zero, Option.some.injEq] at hk
  subst hk
  unfold assign at ha
  generalize nearest sp [pt 0] e = p at ha h ⊢
  obtain ⟨a, b⟩ := p
  dsimp only at ha h
  have : a = 0 := by omega
  subst this
  simp [idx?] at ha
  rw [ha]

theorem reduce (l : List (Vec (Fl binary64) 1)) : (reduceLoss sp [pt 0] l 1).map (·.1) =
    some [(l.map fun e => sp.dist e (pt 0)).foldl (· + ·) 0] := by
  have hm : members (lossPairs sp [pt 0] 1 l) 0 = l.map fun e => sp.dist e (pt 0) := by
    induction l with
    | nil => rfl
    | cons e l ih =>
      simp only [members, lossPairs, near, pow_one', List.map_cons] at ih ⊢
      rw [List.filter_cons_of_pos (by simp), List.map_cons, ih]
  obtain ⟨st, h, hst⟩ := reduceLoss_state Fl.neg_one_lt_zero sp [pt 0] l (by simp) 1
  have h0 := hst.loss 0 (by simp)
  rw [hm] at h0
  rw [h]
  have h1 := hst.len1
  match st, h0, h1 with
  | ([x], _), h0, _ => simpa using h0

theorem seq_loss : totalLoss sp [pt 0] pts 1 = some big := by
  have h := reduce pts
  simp only [pts, List.map_cons, List.map_nil, dist_big, dist_three, List.foldl_cons, List.foldl_nil,
    zero_add', sum_down, Option.map_eq_some_iff] at h
  obtain ⟨st, h1, h2⟩ := h
  simp [totalLoss, pts, h1, h2, sumF, zero_add']

theorem par_loss : parTotalLoss sp [pt 0] pts 1 2 = some (big + six) := by
  have hp : par pts.length 2 = some [⟨0, 1, 0⟩, ⟨1, 3, 1⟩] := by
    show par 3 2 = _
    decide
  have h1 := reduce (slice pts 0 1)
  have h2 := reduce (slice pts 1 3)
  rw [show slice pts 0 1 = [pt big] from rfl] at h1
  rw [show slice pts 1 3 = [pt three, pt three] from rfl] at h2
  simp only [List.map_cons, List.map_nil, dist_big, dist_three, List.foldl_cons, List.foldl_nil,
    zero_add', sum_six, Option.map_eq_some_iff] at h1 h2
  obtain ⟨⟨a, a'⟩, h1, rfl⟩ := h1
  obtain ⟨⟨b, b'⟩, h2, rfl⟩ := h2
  obtain ⟨sa, ha, hsa⟩ := reduceLoss_state Fl.neg_one_lt_zero sp [pt 0] [pt big] (by simp) 1
  obtain ⟨sb, hb, hsb⟩ := reduceLoss_state Fl.neg_one_lt_zero sp [pt 0] [pt three, pt three] (by simp) 1
  rw [h1] at ha; cases ha
  rw [h2] at hb; cases hb
  have la := hsa.len2
  have lb := hsb.len2
  match a', b', la, lb, h1, h2 with
  | [x], [y], _, _, h1, h2 =>
    simp [parTotalLoss, parLoss, hp, show slice pts 0 1 = [pt big] from rfl,
      show slice pts 1 3 = [pt three, pt three] from rfl, h1, h2, allSome, lossAggregate, lossAggregateLoop,
      addLists, addLoop, sumF, zero_add']

/-- The theorems apply to these points. -/
example : ∃ x y, totalLoss sp [pt 0] pts 1 = some x ∧ parTotalLoss sp [pt 0] pts 1 2 = some y ∧
    |x.val - y.val| ≤ ((1 + binary64.u) ^ 2 - (1 - binary64.u) ^ 2) * (2 ^ (55 : ℤ) + 6) := by
  obtain ⟨x, y, hx, hy, h⟩ := C139_seq_par sp [pt 0] pts (by simp) 1 2 (by norm_num) (by
    intro e _
    rw [near, pow_one']
    exact (C98_dist e (pt 0)).2.1)
  refine ⟨x, y, hx, hy, ?_⟩
  simp only [near, pow_one', pts, List.map_cons, List.map_nil, dist_big, dist_three, List.length_cons,
    List.length_nil, List.sum_cons, List.sum_nil] at h
  have e : big.val + (three.val + (three.val + 0)) = 2 ^ (55 : ℤ) + 6 := by
    show (2 : ℝ) ^ (55 : ℤ) + (3 + (3 + 0)) = _
    norm_num
  rw [e] at h
  exact h

/-- Norm 2 is represented. -/
example : ∃ norm : Fl binary64, norm.val = 2 := ⟨⟨2, by exact_mod_cast binary64_int 2 (by norm_num)⟩, rfl⟩
end FlLossExample

open FlLossExample Fl64 in
/-- **C139 (claim examined).** "The parallel loss is the sequential one" fails in `float64`: with one
centroid at 0, the data 2⁵⁵, 3, 3 and norm 1, the sequential loss is 2⁵⁵ and the parallel one, of degree
2, is 2⁵⁵ + 8; the exact loss is 2⁵⁵ + 6. -/
theorem C139_differ : ∃ x y, totalLoss sp [pt 0] pts 1 = some x ∧ parTotalLoss sp [pt 0] pts 1 2 = some y ∧
    x.val = 2 ^ (55 : ℤ) ∧ y.val = 2 ^ (55 : ℤ) + 8 ∧ x ≠ y := by
  refine ⟨_, _, seq_loss, par_loss, rfl, sum_up, fun h => ?_⟩
  have := congrArg Fl.val h
  rw [sum_up, v_big] at this
  linarith
end Distclus
