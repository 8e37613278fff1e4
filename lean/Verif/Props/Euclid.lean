import Verif.Proof.Euclid
import Verif.Proof.BufferHeap
import Verif.Model.EuclidHeap
import Verif.Model.XReal
import Mathlib.Analysis.InnerProductSpace.PiL2
/-!
# C40 – C43: Euclidean and cosine spaces
-/
set_option linter.unusedSectionVars false
namespace Distclus

section
variable {F : Type} [Zero F] [One F] [Add F] [Sub F] [Mul F] [Div F] [GoMath F]

theorem sumSq?_eq (p q : List F) (s : F) :
    sumSq? p q s = if p.length ≤ q.length then
      some ((List.zip p q).foldl (fun s ab => s + (ab.1 - ab.2) * (ab.1 - ab.2)) s) else none := by
  induction p generalizing q s with
  | nil => simp [sumSq?]
  | cons a p ih => cases q <;> simp [sumSq?, ih]

theorem combineLoop?_eq (w v t : F) (p q : List F) :
    combineLoop? w v t p q = if p.length ≤ q.length then
      some (List.zipWith (fun a b => (a * w + b * v) / t) p q) else none := by
  induction p generalizing q with
  | nil => simp [combineLoop?]
  | cons a p ih =>
    cases q with
    | nil => simp [combineLoop?]
    | cons b q =>
      simp only [combineLoop?, ih, List.length_cons, Nat.add_le_add_iff_right]
      split <;> rename_i h <;> split at h <;> simp_all

theorem zip_take_left (p q : List F) : List.zip p q = List.zip p (q.take p.length) := by
  induction p generalizing q with
  | nil => simp
  | cons a p ih =>
    cases q with
    | nil => simp
    | cons b q => simp only [List.zip_cons_cons, List.length_cons, List.take_succ_cons]; rw [← ih]

/-- **C42** (panic). `Dist` and `Combine` panic iff the first point is longer than the second. -/
theorem C42_panics_iff (p q : List F) (w v : Int) :
    (pointDist? p q = none ↔ q.length < p.length) ∧
    (pointCombine? p w q v = none ↔ q.length < p.length) := by
  constructor
  · simp [pointDist?, sumSq?_eq]
  · simp [pointCombine?, combineLoop?_eq]

/-- **C42** (surplus ignored). When the first point is not longer, the surplus coordinates of the
second one are ignored. -/
theorem C42_surplus_ignored (p q : List F) (w v : Int) (h : p.length ≤ q.length) :
    pointDist? p q = pointDist? p (q.take p.length) ∧
    pointCombine? p w q v = pointCombine? p w (q.take p.length) v ∧
    ∃ r, pointCombine? p w q v = some r ∧ r.length = p.length := by
  refine ⟨?_, ?_, ?_⟩
  · simp only [pointDist?, sumSq?_eq, h, if_true, List.length_take, Nat.le_min, Nat.le_refl,
      true_and]
    rw [← zip_take_left]
  · simp only [pointCombine?, combineLoop?_eq, h, if_true, List.length_take, Nat.le_min,
      Nat.le_refl, true_and, ← List.map_uncurry_zip_eq_zipWith]
    rw [← zip_take_left]
  · simp only [pointCombine?, combineLoop?_eq, h, if_true]
    exact ⟨_, rfl, by simp [h]⟩

/-- On points of a common dimension there is no panic and the code computes the functions of
`euclidSpace` and `cosinusSpace`. -/
theorem euclid_total {n : Nat} (p q : Vec F n) (w v : Int) :
    pointDist? p.1 q.1 = some ((euclidSpace F n).dist p q) ∧
    pointCombine? p.1 w q.1 v = some ((euclidSpace F n).combine p w q v).1 := by
  have h : p.1.length ≤ q.1.length := by rw [p.2, q.2]
  constructor
  · simp [pointDist?, sumSq?_eq, h, euclidSpace, pointDist]
  · simp [pointCombine?, combineLoop?_eq, h, euclidSpace, pointCombine]

theorem scalarLoop?_eq (p q : List F) (s : F) :
    scalarLoop? p q s = if p.length ≤ q.length then
      some ((List.zip p q).foldl (fun s ab => s + ab.1 * ab.2) s) else none := by
  induction p generalizing q s with
  | nil => simp [scalarLoop?]
  | cons a p ih => cases q <;> simp [scalarLoop?, ih]

theorem cosinus_total {n : Nat} (p q : Vec F n) :
    cosDist? p.1 q.1 = some ((cosinusSpace F n).dist p q) := by
  have h : p.1.length ≤ q.1.length := by rw [p.2, q.2]
  simp [cosDist?, cosinus?, norm?, scalarProduct?, scalarLoop?_eq, h, cosinusSpace, cosDist,
    scalarProduct]

/-- **C42** (asymmetry). In one direction a distance, in the other a panic. -/
theorem C42_not_symmetric : ∃ p q : List F, (pointDist? p q).isSome ∧ pointDist? q p = none :=
  ⟨[], [0], by simp [pointDist?, sumSq?], by simp [pointDist?, sumSq?]⟩

end

section
variable {F : Type} [Zero F] [One F] [Add F] [Sub F] [Mul F] [Div F] [GoMath F] [Inhabited F]

theorem combineHeapLoop_spec (w1 w2 t : F) (p q : Slice) (n0 : Nat) (P Q : List F) (n : Nat) :
    ∀ (i : Nat) (h : Heap F), p.arr < n0 → q.arr < n0 → n0 < h.length →
      h.read p = P → h.read q = Q → (h.getD n0 []).length = i + n → i + n = P.length →
      (i + n ≤ Q.length →
        ∃ h', combineHeapLoop w1 w2 t p q n0 n i h = some h' ∧ h'.length = h.length ∧
          (∀ a, a ≠ n0 → h'.getD a [] = h.getD a []) ∧
          h'.getD n0 [] = (h.getD n0 []).take i ++
            List.zipWith (fun a b => (a * w1 + b * w2) / t) (P.drop i) (Q.drop i)) ∧
      (i ≤ Q.length → Q.length < i + n → combineHeapLoop w1 w2 t p q n0 n i h = none) := by
  induction n with
  | zero =>
    intro i h hp hq h0 hP hQ hlen hPl
    refine ⟨?_, by intro h1 h2; omega⟩
    intro _
    refine ⟨h, rfl, rfl, fun _ _ => rfl, ?_⟩
    rw [List.take_of_length_le (by omega), List.drop_eq_nil_of_le (by omega : P.length ≤ i)]
    simp
  | succ n ih =>
    intro i h hp hq h0 hP hQ hlen hPl
    have hi : i < P.length := by omega
    have hfail : ¬ i < Q.length → combineHeapLoop w1 w2 t p q n0 (n + 1) i h = none := by
      intro hq'
      unfold combineHeapLoop
      rw [hP, hQ, List.getElem?_eq_getElem hi, List.getElem?_eq_none (by omega)]
    by_cases hiQ : i < Q.length
    · set v := (P[i] * w1 + Q[i] * w2) / t with hv
      have hread : ∀ s : Slice, s.arr < n0 → (h.write n0 i v).read s = h.read s := by
        intro s hs
        rw [Heap.read, Heap.read, getD_write_ne _ _ _ _ _ (by omega)]
      have hstep : combineHeapLoop w1 w2 t p q n0 (n + 1) i h =
          combineHeapLoop w1 w2 t p q n0 n (i + 1) (h.write n0 i v) := by
        conv_lhs => unfold combineHeapLoop
        rw [hP, hQ, List.getElem?_eq_getElem hi, List.getElem?_eq_getElem hiQ]
      obtain ⟨i1, i2⟩ := ih (i + 1) (h.write n0 i v) hp hq (by rw [length_write]; exact h0)
        (by rw [hread p hp, hP]) (by rw [hread q hq, hQ])
        (by rw [getD_write_eq, List.length_set]; omega) (by omega)
      rw [hstep]
      constructor
      · intro hle
        obtain ⟨h', e1, e2, e3, e4⟩ := i1 (by omega)
        refine ⟨h', e1, by rw [e2, length_write], ?_, ?_⟩
        · intro a ha
          rw [e3 a ha, getD_write_ne _ _ _ _ _ (Ne.symm ha)]
        · rw [e4, getD_write_eq, List.take_add_one, List.take_set_of_le (Nat.le_refl _),
            List.getElem?_set_self (by omega), List.drop_eq_getElem_cons hi,
            List.drop_eq_getElem_cons hiQ, List.zipWith_cons_cons, List.append_assoc]
          rfl
      · intro h1 h2
        exact i2 (by omega) (by omega)
    · exact ⟨by intro h1; omega, fun _ _ => hfail hiQ⟩

/-- **C41** (no aliasing, no mutation). `Combine` writes its result in a new array and leaves every
existing array, in particular its operands, unchanged; the result is the one of the value-level
model, including the panic. -/
theorem C41_fresh (h : Heap F) (p q : Slice) (w v : Int) (hp : p.arr < h.length)
    (hq : q.arr < h.length) (hpl : p.off + p.len ≤ (h.getD p.arr []).length) :
    match pointCombine? (h.read p) w (h.read q) v with
    | none => pointCombineHeap h p w q v = none
    | some r => ∃ h' s, pointCombineHeap h p w q v = some (h', s) ∧ h'.read s = r ∧
        s.arr = h.length ∧ ∀ a, a < h.length → h'.getD a [] = h.getD a [] := by
  have hlp : (h.read p).length = p.len := by
    rw [Heap.read, List.length_take, List.length_drop]; omega
  set h0 : Heap F := h ++ [List.replicate p.len 0] with hh0
  have hold : ∀ a, a < h.length → h0.getD a [] = h.getD a [] := by
    intro a ha
    simp [hh0, List.getD_eq_getElem?_getD, List.getElem?_append_left ha]
  have hrd : ∀ s : Slice, s.arr < h.length → h0.read s = h.read s := by
    intro s hs; rw [Heap.read, Heap.read, hold _ hs]
  have hnew : h0.getD h.length [] = List.replicate p.len 0 := by
    simp [hh0, List.getD_eq_getElem?_getD]
  obtain ⟨s1, s2⟩ := combineHeapLoop_spec (GoMath.ofInt w : F) (GoMath.ofInt v)
    (GoMath.ofInt w + GoMath.ofInt v) p q h.length (h.read p) (h.read q) p.len 0 h0 hp hq
    (by simp [hh0]) (hrd p hp) (hrd q hq) (by rw [hnew]; simp) (by rw [hlp]; omega)
  simp only [pointCombine?, combineLoop?_eq, hlp]
  by_cases hle : p.len ≤ (h.read q).length
  · simp only [hle, if_true]
    obtain ⟨h', e1, e2, e3, e4⟩ := s1 (by omega)
    refine ⟨h', ⟨h.length, 0, p.len⟩, ?_, ?_, rfl, ?_⟩
    · simp only [pointCombineHeap]
      rw [← hh0, e1]
    · rw [Heap.read]
      simp only [List.drop_zero]
      rw [e4]
      simp only [List.take_zero, List.nil_append, List.drop_zero]
      rw [List.take_of_length_le]
      rw [List.length_zipWith, hlp]; omega
    · intro a ha
      rw [e3 a (by omega), hold a ha]
  · simp only [hle, if_false]
    simp only [pointCombineHeap]
    rw [← hh0, s2 (by omega) (by omega)]

/-- **C41** (`Copy`). A copy has the same content, in a new array. -/
theorem C41_copy_fresh (h : Heap F) (p : Slice)
    (hpl : p.off + p.len ≤ (h.getD p.arr []).length) :
    (pointCopyHeap h p).1.read (pointCopyHeap h p).2 = h.read p ∧
    (pointCopyHeap h p).2.arr = h.length ∧
    ∀ a, a < h.length → (pointCopyHeap h p).1.getD a [] = h.getD a [] := by
  have hlp : (h.read p).length = p.len := by
    rw [Heap.read, List.length_take, List.length_drop]; omega
  refine ⟨?_, rfl, ?_⟩
  · have hn : (pointCopyHeap h p).1.getD h.length [] = h.read p := by
      simp [pointCopyHeap, List.getD_eq_getElem?_getD]
    have e : (pointCopyHeap h p).1.read (pointCopyHeap h p).2 =
        (((pointCopyHeap h p).1.getD h.length []).drop 0).take p.len := rfl
    rw [e, hn, List.drop_zero, List.take_of_length_le (by omega)]
  · intro a ha
    simp [pointCopyHeap, List.getD_eq_getElem?_getD, List.getElem?_append_left ha]

end

/-! ### Exact arithmetic -/

/-- The point as an element of the standard Euclidean space. -/
noncomputable def Vec.toE {n : Nat} (a : Vec ℝ n) : EuclideanSpace ℝ (Fin n) :=
  WithLp.toLp 2 a.coords

theorem toE_inj {n : Nat} {a b : Vec ℝ n} (h : a.toE = b.toE) : a = b :=
  Vec.coords_inj (WithLp.toLp_injective 2 h)

theorem euclid_dist_toE {n : Nat} (a b : Vec ℝ n) :
    (euclidSpace ℝ n).dist a b = dist a.toE b.toE := by
  rw [euclid_dist_eq, EuclideanSpace.dist_eq]
  congr 1
  apply Finset.sum_congr rfl
  intro i _
  rw [Real.dist_eq, sq_abs]
  rfl

/-- **C40.** The Euclidean distance is a metric. -/
theorem C40_metric (n : Nat) (a b c : Vec ℝ n) :
    let d := (euclidSpace ℝ n).dist
    0 ≤ d a b ∧ (d a b = 0 ↔ a = b) ∧ d a b = d b a ∧ d a c ≤ d a b + d b c := by
  simp only [euclid_dist_toE]
  refine ⟨dist_nonneg, ?_, dist_comm _ _, dist_triangle _ _ _⟩
  rw [dist_eq_zero]
  exact ⟨toE_inj, fun h => by rw [h]⟩

/-- Non-vacuity: the distance takes non-trivial values. -/
example : (euclidSpace ℝ 2).dist ⟨[0, 0], rfl⟩ ⟨[3, 4], rfl⟩ = 5 := by
  have : (euclidSpace ℝ 2).dist ⟨[0, 0], rfl⟩ ⟨[3, 4], rfl⟩ = Real.sqrt (5 * 5) := by
    simp only [euclidSpace, pointDist, GoMath.sqrt]
    congr 1
    norm_num
  rw [this, Real.sqrt_mul_self (by norm_num)]

/-- **C41** (weighted mean). With positive weights `Combine` is the weighted mean, lies
coordinatewise between its operands, is symmetric when both elements and weights are swapped, and
merging in any grouping gives the same result. -/
theorem C41_combine {n : Nat} (a b c : Vec ℝ n) (w v u : Int) (hw : 0 < w) (hv : 0 < v)
    (hu : 0 < u) :
    let comb := (euclidSpace ℝ n).combine
    (∀ i, (comb a w b v).coords i = (w * a.coords i + v * b.coords i) / (w + v)) ∧
    (∀ i, min (a.coords i) (b.coords i) ≤ (comb a w b v).coords i ∧
      (comb a w b v).coords i ≤ max (a.coords i) (b.coords i)) ∧
    comb a w b v = comb b v a w ∧
    comb (comb a w b v) (w + v) c u = comb a w (comb b v c u) (v + u) := by
  have hw' : (0 : ℝ) < w := by exact_mod_cast hw
  have hv' : (0 : ℝ) < v := by exact_mod_cast hv
  have hu' : (0 : ℝ) < u := by exact_mod_cast hu
  have hco : ∀ (a b : Vec ℝ n) (w v : Int) (i : Fin n),
      ((euclidSpace ℝ n).combine a w b v).coords i =
        (w * a.coords i + v * b.coords i) / (w + v) := by
    intro a b w v i
    rw [euclid_combine_coords]
    simp only [Pi.smul_apply, Pi.add_apply, smul_eq_mul]
    rw [div_eq_inv_mul]
  refine ⟨fun i => hco a b w v i, ?_, ?_, ?_⟩
  · intro i
    simp only [hco]
    have h1 := min_le_left (a.coords i) (b.coords i)
    have h2 := min_le_right (a.coords i) (b.coords i)
    have h3 := le_max_left (a.coords i) (b.coords i)
    have h4 := le_max_right (a.coords i) (b.coords i)
    constructor
    · rw [le_div_iff₀ (by linarith)]
      nlinarith
    · rw [div_le_iff₀ (by linarith)]
      nlinarith
  · apply Vec.coords_inj
    funext i
    simp only [hco]
    congr 1 <;> ring
  · apply Vec.coords_inj
    funext i
    simp only [hco, Int.cast_add]
    have h1 : (w : ℝ) + v ≠ 0 := by linarith
    have h2 : (v : ℝ) + u ≠ 0 := by linarith
    have h3 : (w : ℝ) + v + u ≠ 0 := by linarith
    have h4 : (w : ℝ) + (v + u) ≠ 0 := by linarith
    field_simp
    ring

example : ((euclidSpace ℝ 1).combine ⟨[1], rfl⟩ 1 ⟨[4], rfl⟩ 2).1 = [3] := by
  simp [euclidSpace, pointCombine, GoMath.ofInt]; norm_num

/-! ### Cosine -/

theorem cosinus_dist_toE {n : Nat} (a b : Vec ℝ n) :
    (cosinusSpace ℝ n).dist a b = 1 - inner ℝ a.toE b.toE / (‖a.toE‖ * ‖b.toE‖) := by
  have hn : ∀ a : Vec ℝ n, Real.sqrt (scalarProduct a.1 a.1) = ‖a.toE‖ := by
    intro a
    rw [scalarProduct_eq, EuclideanSpace.norm_eq]
    congr 1
    apply Finset.sum_congr rfl
    intro i _
    rw [Real.norm_eq_abs, sq_abs, sq]
    rfl
  simp only [cosinusSpace, cosDist, GoMath.sqrt, hn]
  rw [div_div]
  congr 2
  rw [scalarProduct_eq, PiLp.inner_apply]
  apply Finset.sum_congr rfl
  intro i _
  simp [Vec.toE, mul_comm]

/-- **C43.** For non-zero vectors the cosine distance lies in `[0, 2]`, is symmetric, invariant under
positive scaling of either vector, and zero iff the vectors are positively collinear. -/
theorem C43_cosine {n : Nat} (a b : Vec ℝ n) (ha : a.coords ≠ 0) (hb : b.coords ≠ 0) :
    let d := (cosinusSpace ℝ n).dist
    (0 ≤ d a b ∧ d a b ≤ 2) ∧ d a b = d b a ∧
    (∀ (r : ℝ) (a' : Vec ℝ n), 0 < r → a'.coords = r • a.coords → d a' b = d a b) ∧
    (d a b = 0 ↔ ∃ r : ℝ, 0 < r ∧ b.coords = r • a.coords) := by
  have hz : ∀ a : Vec ℝ n, a.coords ≠ 0 → a.toE ≠ 0 := by
    intro a ha h
    exact ha (WithLp.toLp_injective 2 (by rw [WithLp.toLp_zero]; exact h))
  have hsmul : ∀ (r : ℝ) (a a' : Vec ℝ n), a'.coords = r • a.coords ↔ a'.toE = r • a.toE := by
    intro r a a'
    constructor
    · intro h; simp only [Vec.toE, h, WithLp.toLp_smul]
    · intro h
      apply WithLp.toLp_injective 2
      rw [WithLp.toLp_smul]; exact h
  have ha' := hz a ha
  have hb' := hz b hb
  have hna : (0 : ℝ) < ‖a.toE‖ := norm_pos_iff.2 ha'
  have hnb : (0 : ℝ) < ‖b.toE‖ := norm_pos_iff.2 hb'
  simp only [cosinus_dist_toE]
  refine ⟨?_, ?_, ?_, ?_⟩
  · have h := abs_real_inner_div_norm_mul_norm_le_one a.toE b.toE
    rw [abs_le] at h
    constructor <;> linarith [h.1, h.2]
  · rw [real_inner_comm, mul_comm ‖b.toE‖]
  · intro r x hr hx
    rw [hsmul] at hx
    rw [hx, norm_smul, inner_smul_left, Real.norm_eq_abs, abs_of_pos hr]
    simp only [conj_trivial]
    rw [mul_assoc, mul_div_mul_left _ _ hr.ne']
  · rw [sub_eq_zero, eq_comm, real_inner_div_norm_mul_norm_eq_one_iff]
    simp only [hsmul]
    constructor
    · rintro ⟨_, r, hr, h⟩; exact ⟨r, hr, h⟩
    · rintro ⟨r, hr, h⟩; exact ⟨ha', r, hr, h⟩

example : Vec.coords (⟨[1, 0], rfl⟩ : Vec ℝ 2) ≠ 0 := by
  intro h
  have := congrFun h 0
  simp [Vec.coords] at this

theorem scalar_zero_fin (l : List XReal) (hl : ∀ x ∈ l, ∃ r, x = XReal.fin r) (z : List XReal)
    (hz : ∀ x ∈ z, x = 0) :
    scalarProduct z l = XReal.fin 0 := by
  unfold scalarProduct
  have : ∀ (zl : List (XReal × XReal)), (∀ p ∈ zl, p.1 = 0 ∧ ∃ r, p.2 = XReal.fin r) →
      zl.foldl (fun s ab => s + ab.1 * ab.2) (0 : XReal) = XReal.fin 0 := by
    intro zl
    induction zl with
    | nil => intro _; rfl
    | cons p zl ih =>
      intro h
      obtain ⟨h1, r, h2⟩ := h p (List.mem_cons_self)
      have e : (0 : XReal) + p.1 * p.2 = 0 := by
        rw [h1, h2]
        change XReal.fin (0 + 0 * r) = XReal.fin 0
        congr 1; ring
      rw [List.foldl_cons, e]
      exact ih (fun q hq => h q (List.mem_cons_of_mem _ hq))
  apply this
  intro p hp
  have := List.of_mem_zip hp
  exact ⟨hz _ this.1, hl _ this.2⟩

/-- **C43** (zero vector). With IEEE special values, the cosine distance from a zero vector to any
vector of finite coordinates is NaN. -/
theorem C43_zero_nan {n : Nat} (z v : Vec XReal n) (hz : ∀ x ∈ z.1, x = 0)
    (hv : ∀ x ∈ v.1, ∃ r, x = XReal.fin r) :
    (cosinusSpace XReal n).dist z v = XReal.nan := by
  have hz' : ∀ x ∈ z.1, ∃ r, x = XReal.fin r := fun x hx => ⟨0, hz x hx⟩
  simp only [cosinusSpace, cosDist]
  rw [scalar_zero_fin v.1 hv z.1 hz, scalar_zero_fin z.1 hz' z.1 hz]
  have hs : (GoMath.sqrt (XReal.fin 0) : XReal) = XReal.fin 0 := by
    simp [GoMath.sqrt]
  have hd : (XReal.fin 0 / XReal.fin 0 : XReal) = XReal.nan := by
    change XReal.div _ _ = _
    simp [XReal.div, XReal.infOf]
  rw [hs, hd]
  have hn : ∀ x : XReal, XReal.nan / x = XReal.nan := by
    intro x; cases x <;> rfl
  rw [hn]
  rfl

end Distclus
