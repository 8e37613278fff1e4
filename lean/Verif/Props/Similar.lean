import Verif.Props.KMeans
import Verif.Props.KMeansInit
import Verif.Props.Streaming
import Mathlib.Analysis.Convex.StrictConvexBetween
import Mathlib.Analysis.InnerProductSpace.Convex
/-!
# C106 — the clusterings do not depend on the coordinates

A similarity of ratio `s` is any function from points to points, perhaps of another dimension, which
multiplies the Euclidean distances by `s`: translations, rotations, reflections, changes of the unit, the
addition of constant coordinates and their compositions.  Nothing else is supposed of the function.  Exact
arithmetic.
-/
namespace Distclus

namespace Spec

/-- `f` multiplies the Euclidean distances by `s`. -/
structure Similarity {n m : Nat} (f : Vec ℝ n → Vec ℝ m) (s : ℝ) : Prop where
  pos : 0 < s
  dist : ∀ p q, (euclidSpace ℝ m).dist (f p) (f q) = s * (euclidSpace ℝ n).dist p q

end Spec

open Spec

section
variable {n m : Nat} {f : Vec ℝ n → Vec ℝ m} {s : ℝ}

theorem toE_of {n : Nat} (x : Fin n → ℝ) : (Vec.of x).toE = WithLp.toLp 2 x := by
  unfold Vec.toE
  congr 1
  funext i
  simp [Vec.coords, Vec.of]

/-- A similarity is affine. -/
theorem similarity_affine (h : Similarity f s) :
    ∃ (M : (Fin n → ℝ) →ₗ[ℝ] (Fin m → ℝ)) (t : Fin m → ℝ), ∀ p, (f p).coords = M p.coords + t := by
  let g : EuclideanSpace ℝ (Fin n) → EuclideanSpace ℝ (Fin m) := fun x => s⁻¹ • (f (Vec.of x.ofLp)).toE
  have hg : Isometry g := by
    refine Isometry.of_dist_eq fun x y => ?_
    simp only [g]
    rw [dist_smul₀, ← euclid_dist_toE, h.dist, euclid_dist_toE, toE_of, toE_of, ← mul_assoc,
      Real.norm_of_nonneg (inv_nonneg.2 h.pos.le), inv_mul_cancel₀ h.pos.ne', one_mul]
  let A := hg.affineIsometryOfStrictConvexSpace
  refine ⟨s • ((WithLp.linearEquiv 2 ℝ (Fin m → ℝ)).toLinearMap ∘ₗ A.linearIsometry.toLinearMap ∘ₗ
    (WithLp.linearEquiv 2 ℝ (Fin n → ℝ)).symm.toLinearMap), (s • A 0).ofLp, fun p => ?_⟩
  have h1 : (f p).toE = s • A p.toE := by
    have : A p.toE = s⁻¹ • (f p).toE := by
      show g p.toE = _
      simp only [g]
      congr 2
      congr 1
      exact toE_inj (toE_of _)
    rw [this, smul_smul, mul_inv_cancel₀ h.pos.ne', one_smul]
  have h2 : A p.toE = A.linearIsometry p.toE + A 0 := by
    have := A.map_vadd 0 p.toE
    simpa using this
  have h3 := congrArg WithLp.ofLp h1
  rw [h2] at h3
  simpa [Vec.toE] using h3

/-- A similarity carries weighted means to weighted means. -/
theorem similarity_combine (h : Similarity f s) (a b : Vec ℝ n) (w v : Int) (hw : 0 < w) (hv : 0 < v) :
    (euclidSpace ℝ m).combine (f a) w (f b) v = f ((euclidSpace ℝ n).combine a w b v) := by
  obtain ⟨M, t, hM⟩ := similarity_affine h
  apply Vec.coords_inj
  rw [(euclid_barycentric m).combine _ _ _ _ hw hv, hM, hM, hM,
    (euclid_barycentric n).combine _ _ _ _ hw hv]
  have : ((w : ℝ) + v) ≠ 0 := by
    have : (0 : ℝ) < (w : ℝ) + v := by exact_mod_cast (by omega : 0 < w + v)
    exact this.ne'
  rw [map_smul, map_add, map_smul, map_smul]
  have ht : t = ((w : ℝ) + v)⁻¹ • ((w : ℝ) • t + (v : ℝ) • t) := by
    rw [← add_smul, smul_smul, inv_mul_cancel₀ this, one_smul]
  conv_rhs => rw [ht]
  rw [← smul_add]
  congr 1
  simp only [smul_add]
  abel

theorem similarity_mean {M : (Fin n → ℝ) →ₗ[ℝ] (Fin m → ℝ)} {t : Fin m → ℝ}
    (hM : ∀ p, (f p).coords = M p.coords + t) (ms : List (Vec ℝ n)) (hne : ms ≠ []) :
    mean ((ms.map f).map Vec.coords) = M (mean (ms.map Vec.coords)) + t := by
  have hs : ∀ l : List (Vec ℝ n), ((l.map f).map Vec.coords).sum =
      M (l.map Vec.coords).sum + (l.length : ℝ) • t := by
    intro l
    induction l with
    | nil => simp
    | cons a l ih =>
      simp only [List.map_cons, List.sum_cons, List.length_cons, ih, hM, map_add]
      push_cast
      rw [add_smul, one_smul]
      abel
  have hl : (ms.length : ℝ) ≠ 0 := by
    simpa using hne
  unfold mean
  rw [hs, map_smul, smul_add, smul_smul]
  simp [hl]

/-! ### Nearest centroid -/

theorem nearestLoop_similar (h : Similarity f s) (e : Vec ℝ n) : ∀ (c : List (Vec ℝ n)) (i : Nat) (label : Int)
    (min : ℝ), nearestLoop (euclidSpace ℝ m) (f e) (c.map f) i label (s * min) =
      ((nearestLoop (euclidSpace ℝ n) e c i label min).1,
        s * (nearestLoop (euclidSpace ℝ n) e c i label min).2)
  | [], i, label, min => rfl
  | c :: cs, i, label, min => by
    simp only [List.map_cons, nearestLoop, h.dist]
    have h1 : s * min < 0 ↔ min < 0 := by
      constructor
      · intro hh; by_contra hc; exact absurd hh (not_lt.2 (mul_nonneg h.pos.le (not_lt.1 hc)))
      · exact mul_neg_of_pos_of_neg h.pos
    have h2 : s * (euclidSpace ℝ n).dist e c < s * min ↔ (euclidSpace ℝ n).dist e c < min :=
      mul_lt_mul_iff_right₀ h.pos
    simp only [h1, h2]
    split
    · exact nearestLoop_similar h e cs _ _ _
    · exact nearestLoop_similar h e cs _ _ _

/-- **C106** (`nearest`, `Assign`, `Predict`). The image of an element has the label of the element, and the
distance is multiplied by the ratio. -/
theorem C106_nearest (h : Similarity f s) (c : List (Vec ℝ n)) (hc : c ≠ []) (e : Vec ℝ n) :
    nearest (euclidSpace ℝ m) (c.map f) (f e) =
      ((nearest (euclidSpace ℝ n) c e).1, s * (nearest (euclidSpace ℝ n) c e).2) := by
  cases c with
  | nil => exact absurd rfl hc
  | cons c cs =>
    simp only [nearest, List.map_cons, nearestLoop, show (-1 : ℝ) < 0 by norm_num, true_or, if_true, h.dist]
    exact nearestLoop_similar h e cs _ _ _

/-! ### k-means -/

/-- **C106** (one iteration of k-means). -/
theorem C106_iterate (h : Similarity f s) (st : KStrategy) (hst : st.Valid) (c data : List (Vec ℝ n))
    (hc : c ≠ []) :
    kmeansStep st (euclidSpace ℝ m) (data.map f) (c.map f) =
      (kmeansStep st (euclidSpace ℝ n) data c).map (List.map f) := by
  have hneg : (-1 : ℝ) < 0 := by norm_num
  obtain ⟨M, t, hM⟩ := similarity_affine h
  obtain ⟨o1, h1, l1, p1⟩ := iterate_spec hneg (mean_append_combine (euclid_barycentric n))
    (running_mean (euclid_barycentric n)) st hst c data hc
  obtain ⟨o2, h2, l2, p2⟩ := iterate_spec hneg (mean_append_combine (euclid_barycentric m))
    (running_mean (euclid_barycentric m)) st hst (c.map f) (data.map f) (by simpa using hc)
  simp only [kmeansStep, h1, h2, allSome_map_some, Option.map_some, Option.some.injEq]
  apply List.ext_getElem?
  intro i
  by_cases hi : i < c.length
  · obtain ⟨m1, e1, z1, n1⟩ := p1 i c[i] (by simp)
    obtain ⟨m2, e2, z2, n2⟩ := p2 i (f c[i])
      (by rw [List.getElem?_map, List.getElem?_eq_getElem hi]; rfl)
    have hfil : (data.map f).filter (fun e => (nearest (euclidSpace ℝ m) (c.map f) e).1 == (i : Int)) =
        (data.filter fun e => (nearest (euclidSpace ℝ n) c e).1 == (i : Int)).map f := by
      rw [List.filter_map]
      congr 2
      funext e
      simp [C106_nearest h c hc]
    rw [hfil] at z2 n2
    rw [e2, List.getElem?_map, e1, Option.map_some, Option.some.injEq]
    by_cases hms : (data.filter fun e => (nearest (euclidSpace ℝ n) c e).1 == (i : Int)) = []
    · rw [z2 (by rw [hms]; rfl), z1 hms]
    · apply Vec.coords_inj
      rw [n2 (by simpa using hms), similarity_mean hM _ hms, hM, n1 hms]
  · rw [List.getElem?_eq_none (by rw [l2, List.length_map]; omega),
      List.getElem?_eq_none (by rw [List.length_map, l1]; omega)]

/-- **C106** (k-means). Running k-means on the images of the data and of the centroids gives the images of the
centroids obtained with the original data, for each strategy and after any iterations on any data. -/
theorem C106_kmeans (h : Similarity f s) (st : KStrategy) (hst : st.Valid) (datas : List (List (Vec ℝ n)))
    (c : List (Vec ℝ n)) (hc : c ≠ []) :
    ∃ out, kmeansRun st (euclidSpace ℝ n) datas c = some out ∧
      kmeansRun st (euclidSpace ℝ m) (datas.map (List.map f)) (c.map f) = some (out.map f) := by
  induction datas generalizing c with
  | nil => exact ⟨c, rfl, rfl⟩
  | cons data rest ih =>
    obtain ⟨out, h1, h2⟩ := C23_run (by norm_num : (-1 : ℝ) < 0) st hst (euclidSpace ℝ n) [data] c hc
    have hstep : kmeansStep st (euclidSpace ℝ n) data c = some out := by
      simp only [kmeansRun] at h1
      split at h1 <;> simp_all
    have hne : out ≠ [] := by
      intro h; subst h; exact hc (List.length_eq_zero_iff.1 (by simpa using h2.symm))
    obtain ⟨o, h3, h4⟩ := ih out hne
    refine ⟨o, by simp [kmeansRun, hstep, h3], ?_⟩
    simp [kmeansRun, C106_iterate h st hst c data hc, hstep, h4]

/-- **C106** (loss). The loss is multiplied by the power of the ratio. -/
theorem C106_loss (h : Similarity f s) (c data : List (Vec ℝ n)) (hc : c ≠ []) (norm : ℝ) :
    ∃ x, totalLoss (euclidSpace ℝ n) c data norm = some x ∧
      totalLoss (euclidSpace ℝ m) (c.map f) (data.map f) norm = some (s ^ norm * x) := by
  have hneg : (-1 : ℝ) < 0 := by norm_num
  refine ⟨_, C10_totalLoss hneg _ c data hc norm, ?_⟩
  rw [C10_totalLoss hneg _ _ _ (by simpa using hc) norm]
  congr 1
  rw [List.map_map]
  have h0 : ∀ e, 0 ≤ (nearest (euclidSpace ℝ n) c e).2 := by
    intro e
    cases c with
    | nil => exact absurd rfl hc
    | cons c0 cs =>
      obtain ⟨k, x, hk, hx⟩ := nearest_spec hneg (euclidSpace ℝ n) c0 cs e (fun h => h)
        (fun z _ => not_lt.2 (by rw [euclid_dist_toE]; exact dist_nonneg))
      rw [hk]
      show 0 ≤ (euclidSpace ℝ n).dist e x
      rw [euclid_dist_toE]; exact dist_nonneg
  induction data with
  | nil => simp
  | cons a l ih =>
    simp only [List.map_cons, List.sum_cons, Function.comp, C106_nearest h c hc] at ih ⊢
    rw [ih, mul_add]
    congr 1
    exact Real.mul_rpow h.pos.le (h0 a)

theorem euclid_copy (e : Vec ℝ n) : (euclidSpace ℝ n).copy e = e := rfl

/-! ### Initialisation -/

/-- The image of the outcome of an initializer. -/
def InitRes.mapE {E E' : Type} (f : E → E') : InitRes E → InitRes E'
  | .panic => .panic
  | .err => .err
  | .ok c => .ok (c.map f)

/-- **C106** (first elements). -/
theorem C106_given (f : Vec ℝ n → Vec ℝ m) (k : Int) (elemts : List (Vec ℝ n)) :
    givenInitializer k (elemts.map f) (euclidSpace ℝ m) =
      (givenInitializer k elemts (euclidSpace ℝ n)).mapE f := by
  by_cases hk : 1 ≤ k ∧ k ≤ elemts.length
  · rw [(C26_given k elemts _).1 hk, (C26_given k (elemts.map f) _).1 (by simpa using hk)]
    simp [InitRes.mapE, euclid_copy, ← List.map_take]
  · rw [(C26_given k elemts _).2 hk, (C26_given k (elemts.map f) _).2 (by simpa using hk)]
    rfl

theorem randLoop_map (f : Vec ℝ n → Vec ℝ m) (elemts : List (Vec ℝ n)) (k : Nat) :
    ∀ (draws chosen : List Nat) (acc : List (Vec ℝ n)),
      randLoop (euclidSpace ℝ m) (elemts.map f) k draws chosen (acc.map f) =
        (randLoop (euclidSpace ℝ n) elemts k draws chosen acc).map (Option.map (List.map f)) := by
  intro draws
  induction draws with
  | nil =>
    intro chosen acc
    rw [randLoop, randLoop, List.length_map]
    split <;> rfl
  | cons d ds ih =>
    intro chosen acc
    rw [randLoop, randLoop, List.length_map]
    by_cases h1 : acc.length < k
    · simp only [h1, if_true]
      by_cases h2 : d ∈ chosen
      · simp only [h2, if_true]; exact ih chosen acc
      · simp only [h2, if_false, List.getElem?_map]
        cases elemts[d]? with
        | none => rfl
        | some e =>
          simp only [Option.map_some]
          rw [← ih]
          simp [euclid_copy]
    · simp [h1]

theorem initCheck_map {E E' : Type} (f : E → E') (k : Int) (elemts : List E) :
    initCheck k (elemts.map f) = initCheck k elemts := by simp [initCheck]

/-- **C106** (random initialisation), with the same draws. -/
theorem C106_rand (f : Vec ℝ n → Vec ℝ m) (k : Int) (elemts : List (Vec ℝ n)) (draws : List Nat) :
    randInitializer k (elemts.map f) (euclidSpace ℝ m) draws =
      (randInitializer k elemts (euclidSpace ℝ n) draws).map (InitRes.mapE f) := by
  unfold randInitializer
  rw [initCheck_map]
  split
  · rfl
  split
  · have := randLoop_map f elemts k.toNat draws [] []
    rw [List.map_nil] at this
    rw [this]
    rcases randLoop (euclidSpace ℝ n) elemts k.toNat draws [] [] with _ | _ | c <;> rfl
  · rfl

theorem sumF_mul (s : ℝ) (l : List ℝ) : sumF (l.map (s * ·)) = s * sumF l := by
  have : ∀ (l : List ℝ) (a : ℝ), (l.map (s * ·)).foldl (· + ·) (s * a) = s * l.foldl (· + ·) a := by
    intro l
    induction l with
    | nil => intro a; rfl
    | cons x l ih => intro a; simp only [List.map_cons, List.foldl_cons, ← mul_add, ih]
  have h := this l 0
  rwa [mul_zero] at h

theorem choiceLoop_mul (hs : 0 < s) : ∀ (l : List ℝ) (cur : ℝ) (i : Int),
    choiceLoop (l.map (s * ·)) (s * cur) i = choiceLoop l cur i := by
  intro l
  induction l with
  | nil => intro cur i; simp [choiceLoop, hs]
  | cons x l ih =>
    intro cur i
    simp only [List.map_cons, choiceLoop, ← mul_sub, ih]
    simp [hs]

theorem weightedChoice_mul (hs : 0 < s) (l : List ℝ) (u : ℝ) :
    weightedChoice (l.map (s * ·)) u = weightedChoice l u := by
  simp only [weightedChoice]
  rw [sumF_mul, show u * (s * sumF l) = s * (u * sumF l) by ring, choiceLoop_mul hs]
  have : (s * sumF l == 0) = (sumF l == 0) := by
    by_cases h : sumF l = 0 <;> simp [h, hs.ne']
  simp only [this]

theorem ppLoop_similar (h : Similarity f s) (elemts : List (Vec ℝ n)) : ∀ (k : Nat) (us : List ℝ)
    (acc : List (Vec ℝ n)), acc ≠ [] →
    ppLoop (euclidSpace ℝ m) (elemts.map f) k us (acc.map f) =
      (ppLoop (euclidSpace ℝ n) elemts k us acc).map (InitRes.mapE f) := by
  intro k
  induction k with
  | zero => intro us acc _; rfl
  | succ k ih =>
    intro us acc hacc
    cases us with
    | nil => rfl
    | cons u us =>
      have hw : (mapLabel (euclidSpace ℝ m) (acc.map f) (elemts.map f)).2 =
          (mapLabel (euclidSpace ℝ n) acc elemts).2.map (s * ·) := by
        simp [mapLabel, Function.comp_def, C106_nearest h acc hacc]
      simp only [ppLoop, ppIter, hw, weightedChoice_mul h.pos, List.length_map]
      cases weightedChoice (mapLabel (euclidSpace ℝ n) acc elemts).2 u with
      | panic => rfl
      | nullSet => by_cases h0 : elemts.length = 0 <;> simp [h0, InitRes.mapE]
      | ok i =>
        have hi : idx? (elemts.map f) i = (idx? elemts i).map f := by
          unfold idx?; split <;> simp
        simp only [hi]
        cases idx? elemts i with
        | none => rfl
        | some e =>
          simp only [Option.map_some]
          have := ih us (acc ++ [(euclidSpace ℝ n).copy e]) (by simp)
          rw [← this]
          simp [euclid_copy]

/-- **C106** (k-means++), with the same draws. -/
theorem C106_pp (h : Similarity f s) (k : Int) (elemts : List (Vec ℝ n)) (first : Nat) (us : List ℝ) :
    ppInitializer k (elemts.map f) (euclidSpace ℝ m) first us =
      (ppInitializer k elemts (euclidSpace ℝ n) first us).map (InitRes.mapE f) := by
  unfold ppInitializer
  rw [initCheck_map]
  split
  · rfl
  split
  · rw [List.getElem?_map]
    cases elemts[first]? with
    | none => rfl
    | some e => exact ppLoop_similar h elemts _ us [e] (by simp)
  · rfl

/-! ### Streaming -/

/-- The image of a state of the streaming algorithm. -/
def StreamImpl.mapE {R : Type} (f : Vec ℝ n → Vec ℝ m) (s : ℝ) (i : StreamImpl (Vec ℝ n) ℝ R) :
    StreamImpl (Vec ℝ m) ℝ R where
  maxDistance := s * i.maxDistance
  clust := i.clust.map f
  cards := i.cards
  c := i.c.map f
  conf := i.conf
  count := i.count

/-- The image of a call. -/
def StreamOp.mapE (f : Vec ℝ n → Vec ℝ m) : StreamOp (Vec ℝ n) ℝ → StreamOp (Vec ℝ m) ℝ
  | .push e => .push (f e)
  | .init => .init
  | .iterate t => .iterate t

/-- The image of the result of a call: the centres are mapped, the figure `maxDistance` is multiplied. -/
def StreamRes.mapE (f : Vec ℝ n → Vec ℝ m) (s : ℝ) : StreamRes (Vec ℝ n) ℝ → StreamRes (Vec ℝ m) ℝ
  | .push err => .push err
  | .init c => .init (c.map (List.map f))
  | .iterate c d => .iterate (c.map (List.map f)) (s * d)

theorem idx_map {α β : Type} (g : α → β) (l : List α) (i : Int) : idx? (l.map g) i = (idx? l i).map g := by
  unfold idx?; split <;> simp

theorem assign_similar (h : Similarity f s) (c : List (Vec ℝ n)) (hc : c ≠ []) (e : Vec ℝ n) :
    assign (euclidSpace ℝ m) (c.map f) (f e) =
      (assign (euclidSpace ℝ n) c e).map fun r => (r.1.map f, r.2.1, s * r.2.2) := by
  simp only [assign, C106_nearest h c hc, idx_map]
  split
  · cases idx? c (nearest (euclidSpace ℝ n) c e).1 <;> rfl
  · rfl

theorem updateMax_similar {R : Type} (h : Similarity f s) (i : StreamImpl (Vec ℝ n) ℝ R) (d : ℝ) :
    (i.mapE f s).updateMaxDistance (s * d) = (i.updateMaxDistance d).mapE f s := by
  unfold StreamImpl.updateMaxDistance
  have : (i.mapE f s).maxDistance < s * d ↔ i.maxDistance < d := mul_lt_mul_iff_right₀ h.pos
  by_cases hd : i.maxDistance < d
  · rw [if_pos hd, if_pos (this.2 hd)]; rfl
  · rw [if_neg hd, if_neg (fun x => hd (this.1 x))]

theorem addCenter_similar {R : Type} (h : Similarity f s) (i : StreamImpl (Vec ℝ n) ℝ R) (e : Vec ℝ n) (d : ℝ) :
    (i.mapE f s).addCenter (f e) (s * d) = (i.addCenter e d).mapE f s := by
  unfold StreamImpl.addCenter
  rw [← updateMax_similar h]
  simp [StreamImpl.mapE]

/-- The states met after a successful `Init`. -/
structure StreamOk {R : Type} (i : StreamImpl (Vec ℝ n) ℝ R) : Prop where
  clust : i.clust ≠ []
  cards : ∀ x ∈ i.cards, 0 < x

theorem updateMax_ok {R : Type} {i : StreamImpl (Vec ℝ n) ℝ R} (hi : StreamOk i) (d : ℝ) :
    StreamOk (i.updateMaxDistance d) := by
  unfold StreamImpl.updateMaxDistance; split
  · exact ⟨hi.clust, hi.cards⟩
  · exact hi

theorem addCenter_ok {R : Type} {i : StreamImpl (Vec ℝ n) ℝ R} (hi : ∀ x ∈ i.cards, 0 < x) (e : Vec ℝ n) (d : ℝ) :
    StreamOk (i.addCenter e d) := by
  refine updateMax_ok ⟨by simp, ?_⟩ d
  intro x hx
  rcases List.mem_append.1 hx with hx | hx
  · exact hi x hx
  · simp at hx; omega

theorem idx_mem {α : Type} {l : List α} {i : Int} {a : α} (h : idx? l i = some a) : a ∈ l := by
  unfold idx? at h
  split at h
  · cases h
  · exact List.mem_of_getElem? h

theorem updateCenter_similar {R : Type} (h : Similarity f s) (i : StreamImpl (Vec ℝ n) ℝ R) (hi : StreamOk i)
    (label : Int) (e : Vec ℝ n) (d : ℝ) :
    (i.mapE f s).updateCenter label (f e) (s * d) (euclidSpace ℝ m) =
      (i.updateCenter label e d (euclidSpace ℝ n)).map (StreamImpl.mapE f s) ∧
    ∀ j, i.updateCenter label e d (euclidSpace ℝ n) = some j → StreamOk j := by
  unfold StreamImpl.updateCenter
  have e1 : idx? (i.mapE f s).clust label = (idx? i.clust label).map f := idx_map f _ _
  have e2 : (i.mapE f s).cards = i.cards := rfl
  rw [e1, e2]
  cases h1 : idx? i.clust label with
  | none => simp
  | some center =>
    cases h2 : idx? i.cards label with
    | none => simp
    | some card =>
      have hcard := hi.cards card (idx_mem h2)
      simp only [Option.map_some]
      constructor
      · rw [← updateMax_similar h]
        congr 2
        simp [StreamImpl.mapE, similarity_combine h center e card 1 hcard one_pos, List.map_set]
      · intro j hj
        cases hj
        refine updateMax_ok ⟨?_, ?_⟩ d
        · intro hh
          have := congrArg List.length hh
          simp only [List.length_set, List.length_nil] at this
          exact hi.clust (List.length_eq_zero_iff.1 this)
        · intro x hx
          rcases List.mem_or_eq_of_mem_set hx with hx | hx
          · exact hi.cards x hx
          · omega

theorem relative_similar {R : Type} (h : Similarity f s) (i : StreamImpl (Vec ℝ n) ℝ R) (d : ℝ) :
    (i.mapE f s).getRelativeDistance (s * d) =
      ((i.getRelativeDistance d).1.mapE f s, (i.getRelativeDistance d).2) := by
  have e : ((i.mapE f s).maxDistance == 0) = (i.maxDistance == 0) := by
    have : (i.mapE f s).maxDistance = s * i.maxDistance := rfl
    rw [this]
    by_cases h0 : i.maxDistance = 0 <;> simp [h0, h.pos.ne']
  simp only [StreamImpl.getRelativeDistance, e]
  by_cases h0 : (i.maxDistance == 0) = true
  · simp only [h0, if_true]
    exact Prod.ext rfl (mul_div_mul_left _ _ h.pos.ne')
  · simp only [h0]
    exact Prod.ext rfl (mul_div_mul_left _ _ h.pos.ne')

theorem process_similar {R : Type} (h : Similarity f s) (i : StreamImpl (Vec ℝ n) ℝ R) (hi : StreamOk i)
    (t : ℝ) (e : Vec ℝ n) :
    (i.mapE f s).process (euclidSpace ℝ m) t (f e) =
      (i.process (euclidSpace ℝ n) t e).map (StreamImpl.mapE f s) ∧
    ∀ j, i.process (euclidSpace ℝ n) t e = some j → StreamOk j := by
  unfold StreamImpl.process
  rw [show (i.mapE f s).clust = i.clust.map f from rfl, assign_similar h _ hi.clust]
  cases assign (euclidSpace ℝ n) i.clust e with
  | none => simp
  | some r =>
    obtain ⟨x, label, d⟩ := r
    simp only [Option.map_some, relative_similar h]
    have hg : StreamOk (i.getRelativeDistance d).1 := by
      unfold StreamImpl.getRelativeDistance
      simp only
      split
      · exact ⟨hi.clust, hi.cards⟩
      · exact hi
    generalize (i.getRelativeDistance d).1 = g at hg ⊢
    generalize (i.getRelativeDistance d).2 = rel
    have e1 : (g.mapE f s).conf = g.conf := rfl
    have e2 : (g.mapE f s).count = g.count := rfl
    rw [e1, e2]
    have hr : (if g.conf.outAfter ≤ g.count ∧ g.conf.outRatio < rel then
          some ((g.mapE f s).addOutlier (f e))
        else if t < rel then some ((g.mapE f s).addCenter (f e) (s * d))
        else (g.mapE f s).updateCenter label (f e) (s * d) (euclidSpace ℝ m)) =
        (if g.conf.outAfter ≤ g.count ∧ g.conf.outRatio < rel then some (g.addOutlier e)
        else if t < rel then some (g.addCenter e d)
        else g.updateCenter label e d (euclidSpace ℝ n)).map (StreamImpl.mapE f s) := by
      split
      · simp [StreamImpl.addOutlier, StreamImpl.mapE]
      · split
        · rw [addCenter_similar h, Option.map_some]
        · exact (updateCenter_similar h g hg label e d).1
    have hok : ∀ j, (if g.conf.outAfter ≤ g.count ∧ g.conf.outRatio < rel then some (g.addOutlier e)
        else if t < rel then some (g.addCenter e d)
        else g.updateCenter label e d (euclidSpace ℝ n)) = some j → StreamOk j := by
      intro j
      split
      · intro hj; cases hj
        refine ⟨by simp [StreamImpl.addOutlier], ?_⟩
        intro x hx
        rcases List.mem_append.1 hx with hx | hx
        · exact hg.cards x hx
        · simp at hx; omega
      · split
        · intro hj; cases hj; exact addCenter_ok hg.cards _ _
        · exact (updateCenter_similar h g hg label e d).2 j
    rw [hr]
    generalize (if g.conf.outAfter ≤ g.count ∧ g.conf.outRatio < rel then some (g.addOutlier e)
        else if t < rel then some (g.addCenter e d)
        else g.updateCenter label e d (euclidSpace ℝ n)) = o at hok ⊢
    cases o with
    | none => simp
    | some j =>
      refine ⟨rfl, fun j' hj => ?_⟩
      cases hj
      exact ⟨(hok j rfl).clust, (hok j rfl).cards⟩

theorem step_similar {R : Type} (h : Similarity f s) (i : StreamImpl (Vec ℝ n) ℝ R) (hi : StreamOk i)
    (op : StreamOp (Vec ℝ n) ℝ) :
    (i.mapE f s).step (euclidSpace ℝ m) (op.mapE f) =
      (i.step (euclidSpace ℝ n) op).map (fun r => (r.1.mapE f s, r.2.mapE f s)) ∧
    ∀ r, i.step (euclidSpace ℝ n) op = some r → StreamOk r.1 := by
  cases op with
  | push e =>
    simp only [StreamImpl.step, StreamOp.mapE, StreamImpl.push]
    have e1 : (i.mapE f s).c.length = i.c.length := List.length_map _
    have e2 : (i.mapE f s).conf = i.conf := rfl
    rw [e1, e2]
    split
    · constructor
      · simp [StreamImpl.mapE, StreamRes.mapE]
      · intro r hr; cases hr; exact ⟨hi.clust, hi.cards⟩
    · constructor
      · simp [StreamRes.mapE]
      · intro r hr; cases hr; exact hi
  | init =>
    simp only [StreamImpl.step, StreamOp.mapE, StreamImpl.init]
    have e1 : (i.mapE f s).c = i.c.map f := rfl
    rw [e1]
    cases i.c with
    | nil => exact ⟨by simp [StreamRes.mapE], fun r hr => by cases hr; exact hi⟩
    | cons e q =>
      constructor
      · have := addCenter_similar h { i with c := q } e 0
        rw [mul_zero] at this
        simp only [List.map_cons, Option.map_some, StreamRes.mapE, ← this]
        simp [StreamImpl.mapE]
      · intro r hr; cases hr; exact addCenter_ok (i := { i with c := q }) hi.cards e 0
  | iterate t =>
    simp only [StreamImpl.step, StreamOp.mapE, StreamImpl.iterate]
    have e1 : (i.mapE f s).c = i.c.map f := rfl
    rw [e1]
    cases i.c with
    | nil => exact ⟨by simp [StreamRes.mapE, StreamImpl.mapE], fun r hr => by cases hr; exact hi⟩
    | cons e q =>
      have hq : StreamOk { i with c := q } := ⟨hi.clust, hi.cards⟩
      obtain ⟨p1, p2⟩ := process_similar h { i with c := q } hq t e
      have e2 : ({ i with c := q } : StreamImpl (Vec ℝ n) ℝ R).mapE f s = { i.mapE f s with c := q.map f } := rfl
      rw [e2] at p1
      simp only [List.map_cons, p1]
      cases hp : StreamImpl.process { i with c := q } (euclidSpace ℝ n) t e with
      | none => simp
      | some j =>
        simp only [Option.map_some]
        exact ⟨rfl, fun r hr => by cases hr; exact p2 j hp⟩

theorem run_similar {R : Type} (h : Similarity f s) (ops : List (StreamOp (Vec ℝ n) ℝ)) :
    ∀ (i : StreamImpl (Vec ℝ n) ℝ R), StreamOk i →
    StreamImpl.run (euclidSpace ℝ m) (i.mapE f s) (ops.map (StreamOp.mapE f)) =
      (StreamImpl.run (euclidSpace ℝ n) i ops).map fun r => (r.1.mapE f s, r.2.map (StreamRes.mapE f s)) := by
  induction ops with
  | nil => intro i _; rfl
  | cons op ops ih =>
    intro i hi
    obtain ⟨h1, h2⟩ := step_similar h i hi op
    simp only [List.map_cons, StreamImpl.run, h1]
    cases hs : i.step (euclidSpace ℝ n) op with
    | none => rfl
    | some r =>
      simp only [Option.map_some, ih r.1 (h2 r hs)]
      cases StreamImpl.run (euclidSpace ℝ n) r.1 ops <;> rfl

/-- **C106** (streaming). An algorithm created on at least one element and initialised: whatever the following
calls to `Push`, `Init` and `Iterate`, the same calls on the images of the elements, with the same random
thresholds, return the same errors, the images of the centres, and the figure `maxDistance` multiplied by the
ratio. -/
theorem C106_streaming {R : Type} (h : Similarity f s) (conf : StreamingConf ℝ R) (elemts : List (Vec ℝ n))
    (hne : elemts ≠ []) (i : StreamImpl (Vec ℝ n) ℝ R) (hi : StreamImpl.new conf elemts = some i)
    (ops : List (StreamOp (Vec ℝ n) ℝ)) :
    ∃ i' : StreamImpl (Vec ℝ m) ℝ R, StreamImpl.new conf (elemts.map f) = some i' ∧
      (StreamImpl.run (euclidSpace ℝ m) i' (.init :: ops.map (StreamOp.mapE f))).map (·.2) =
        (StreamImpl.run (euclidSpace ℝ n) i (.init :: ops)).map fun r => r.2.map (StreamRes.mapE f s) := by
  obtain ⟨e, q, rfl⟩ := List.exists_cons_of_ne_nil hne
  unfold StreamImpl.new at hi ⊢
  rw [List.length_map]
  split at hi
  · cases hi
  · rename_i hb
    cases hi
    rw [if_neg hb]
    refine ⟨_, rfl, ?_⟩
    simp only [StreamImpl.run, StreamImpl.step, StreamImpl.init, List.map_cons]
    have hok : StreamOk (StreamImpl.addCenter (F := ℝ) { maxDistance := 0, clust := [], cards := [], c := q, conf, count := 0 } e 0) :=
      addCenter_ok (by simp) _ _
    have hadd := addCenter_similar h (R := R)
      { maxDistance := 0, clust := [], cards := [], c := q, conf, count := 0 } e 0
    rw [mul_zero] at hadd
    have hmap : (StreamImpl.mapE f s { maxDistance := 0, clust := [], cards := [], c := q, conf := conf, count := 0 } :
        StreamImpl (Vec ℝ m) ℝ R) =
        { maxDistance := 0, clust := [], cards := [], c := q.map f, conf := conf, count := 0 } := by
      simp [StreamImpl.mapE]
    rw [hmap] at hadd
    rw [hadd, run_similar h ops _ hok]
    cases StreamImpl.run (euclidSpace ℝ n) _ ops <;> simp [StreamRes.mapE]

/-- Not so when `Iterate` comes before `Init`: without centre the distance is -1, whatever the points and the
unit, and it becomes the figure `maxDistance`. -/
theorem C106_streaming_needs_init {R : Type} (conf : StreamingConf ℝ R) (hb : 1 ≤ conf.bufferSize)
    (ho : 0 < conf.outAfter) (e : Vec ℝ n) (t : ℝ) (ht : t < 1) :
    ∃ i : StreamImpl (Vec ℝ n) ℝ R, StreamImpl.new conf [e] = some i ∧
      (StreamImpl.run (euclidSpace ℝ n) i [.iterate t]).map (·.2) = some [.iterate (some [e]) (-1)] := by
  refine ⟨_, by unfold StreamImpl.new; rw [if_neg (by simp; omega)], ?_⟩
  have h0 : ¬ (conf.outAfter ≤ 0) := by omega
  simp [StreamImpl.run, StreamImpl.step, StreamImpl.iterate, StreamImpl.process, assign, nearest, nearestLoop,
    StreamImpl.getRelativeDistance, StreamImpl.addCenter, StreamImpl.updateMaxDistance, h0, ht]

/-- A change of unit and of origin is a similarity: the hypotheses can be met with any ratio. -/
theorem affine_similarity (n : Nat) (s : ℝ) (hs : 0 < s) (t : Fin n → ℝ) :
    Similarity (fun p : Vec ℝ n => Vec.of fun i => s * p.coords i + t i) s := by
  refine ⟨hs, fun p q => ?_⟩
  rw [euclid_dist_eq, euclid_dist_eq]
  have hc : ∀ (x : Fin n → ℝ) (i : Fin n), (Vec.of x).coords i = x i := by
    intro x i; simp [Vec.coords, Vec.of]
  simp only [hc]
  have : (∑ i, (s * p.coords i + t i - (s * q.coords i + t i)) ^ 2) =
      s ^ 2 * ∑ i, (p.coords i - q.coords i) ^ 2 := by
    rw [Finset.mul_sum]; exact Finset.sum_congr rfl fun i _ => by ring
  rw [this, Real.sqrt_mul (sq_nonneg s), Real.sqrt_sq hs.le]

/-- The hypothesis is met by a translation followed by a change of unit in the plane, which moves the points. -/
example : Similarity (fun p : Vec ℝ 2 => Vec.of fun i => 2 * p.coords i + 3) 2 ∧
    (Vec.of fun i => 2 * (Vec.of (n := 2) fun _ => (0 : ℝ)).coords i + 3).coords 0 = (3 : ℝ) :=
  ⟨affine_similarity 2 2 (by norm_num) fun _ => 3, by simp [Vec.coords, Vec.of]⟩

end
end Distclus
