import Verif.Proof.Closed
import Verif.Proof.Ieee
import Verif.Proof.Nan
import Verif.Props.Fl
import Verif.Props.Streaming
/-!
# C131: finite data stay finite (examined)

`float64` with rounding, overflow, infinities and NaN (`Ieee f`).  Far enough from the overflow, what is computed is what
the arithmetic without overflow (`Fl r`) computes: distances, labels, combinations, and k-means for any number of
iterations; the centroids stay in the box of the data; so do the centres of streaming.  Near the overflow this fails.
-/
namespace Distclus
open Spec

section
variable {f : Format} {k n N : Nat}

theorem Ieee.neg_one_lt : (-1 : Ieee f) < 0 := by
  rw [← Fl.toIeee_neg_one, ← Fl.toIeee_zero, Fl.toIeee_lt]
  · exact Fl.neg_one_lt_zero
  · rw [Fl.val_neg, Fl.val_one, abs_neg, abs_one]; exact f.one_lt_top
  · rw [Fl.val_zero, abs_zero]; linarith [f.one_lt_top]

/-- **C131, distances and labels.** The distance between two points of the box is a finite number, the one which is
computed without overflow; the nearest of centroids in the box is the same one, at the same distance. -/
theorem C131_distances (hr : Room f k n N) :
    (∀ p q : Vec (Fl f.r) n, Box k p → Box k q →
      ((euclidSpace (Ieee f) n).dist (p.toIeee f) (q.toIeee f)).1 = .fin ((euclidSpace (Fl f.r) n).dist p q).val) ∧
    (∀ (c : List (Vec (Fl f.r) n)) (e : Vec (Fl f.r) n), (∀ x ∈ c, Box k x) → Box k e →
      assign (euclidSpace (Ieee f) n) (c.map (Vec.toIeee f)) (e.toIeee f) =
        (assign (euclidSpace (Fl f.r) n) c e).map fun r => (r.1.map (Vec.toIeee f), r.2.1, Fl.toIeee f r.2.2)) := by
  refine ⟨fun p q hp hq => ?_, fun c e hc he => ?_⟩
  · obtain ⟨h1, h2, h3⟩ := hr.dist hp hq
    rw [h1, Fl.toIeee_val (by rw [abs_of_nonneg h2]; exact h3)]
  · unfold assign
    simp only [hr.nearest c he hc, PSpace.idxMap]
    split
    · cases idx? c (nearest (euclidSpace (Fl f.r) n) c e).1 <;> rfl
    · rfl

/-- **C131, combinations.** The combination of two points of the box, of total weight at most `N`, is finite, the one
which is computed without overflow, and in the box. -/
theorem C131_combine (hr : Room f k n N) (p q : Vec (Fl f.r) n) (w v : Int) (hp : Box k p) (hq : Box k q) (hw : 0 < w)
    (hv : 0 < v) (hN : w + v ≤ N) :
    (euclidSpace (Ieee f) n).combine (p.toIeee f) w (q.toIeee f) v =
      ((euclidSpace (Fl f.r) n).combine p w q v).toIeee f ∧
    (cosinusSpace (Ieee f) n).combine (p.toIeee f) w (q.toIeee f) v =
      ((cosinusSpace (Fl f.r) n).combine p w q v).toIeee f ∧
    Box k ((euclidSpace (Fl f.r) n).combine p w q v) :=
  let h := hr.combine hp hq hw hv hN
  ⟨h.1, h.1, h.2⟩

theorem Spec.Room.finite (hr : Room f k n N) {p : Vec (Fl f.r) n} (hp : Box k p) : IeeeFinite (p.toIeee f) := by
  intro x hx
  obtain ⟨y, hy, rfl⟩ := List.mem_map.1 hx
  have hn : 1 ≤ n := by rw [← p.2]; exact List.length_pos_of_mem hy
  exact ⟨y.val, Fl.toIeee_val (hr.coord_lt hn (hp y hy))⟩

/-- **C131, k-means.** Any number of iterations in the Euclidean space, on at most `N` data of the box, the data growing
as they may, with each strategy: the centroids are those which are computed without overflow, they are in the box, every
coordinate is a finite number. -/
theorem C131_kmeans (hr : Room f k n N) (s : KStrategy) (hs : s.Valid) (datas : List (List (Vec (Fl f.r) n)))
    (c : List (Vec (Fl f.r) n)) (hc : c ≠ []) (hcb : ∀ x ∈ c, Box k x)
    (hd : ∀ d ∈ datas, d.length ≤ N ∧ ∀ e ∈ d, Box k e) :
    ∃ out, kmeansRun s (euclidSpace (Fl f.r) n) datas c = some out ∧
      kmeansRun s (euclidSpace (Ieee f) n) (datas.map (List.map (Vec.toIeee f))) (c.map (Vec.toIeee f)) =
        some (out.map (Vec.toIeee f)) ∧
      out.length = c.length ∧ (∀ x ∈ out, Box k x) ∧ ∀ x ∈ out.map (Vec.toIeee f), IeeeFinite x := by
  obtain ⟨out, h1, h2, h3, h4⟩ := hr.homOn.run Fl.neg_one_lt_zero s hs datas c hc hcb hd
  refine ⟨out, h1, h2, h3, h4, fun x hx => ?_⟩
  obtain ⟨y, hy, rfl⟩ := List.mem_map.1 hx
  exact hr.finite (h4 y hy)

theorem Spec.Room.closed (hr : Room f k n N) (space : Space (Vec (Ieee f) n) (Ieee f))
    (hs : space.combine = (euclidSpace (Ieee f) n).combine ∧ space.copy = (euclidSpace (Ieee f) n).copy) :
    ClosedTo space (fun e => ∃ p : Vec (Fl f.r) n, Box k p ∧ e = p.toIeee f) N := by
  refine ⟨?_, ?_⟩
  · rintro a b w v ⟨p, hp, rfl⟩ ⟨q, hq, rfl⟩ hw hv hN
    obtain ⟨h1, h2⟩ := hr.combine hp hq hw hv hN
    exact ⟨_, h2, by rw [hs.1]; exact h1⟩
  · rintro a ⟨p, hp, rfl⟩
    exact ⟨p, hp, by rw [hs.2]; rfl⟩

/-- **C131, k-means, whatever the distance.** In every space which combines and copies as the Euclidean one does — the
cosine one, whose distances may be NaN —, the centroids stay in the box and finite. -/
theorem C131_kmeans_any (hr : Room f k n N) (space : Space (Vec (Ieee f) n) (Ieee f))
    (hsp : space.combine = (euclidSpace (Ieee f) n).combine ∧ space.copy = (euclidSpace (Ieee f) n).copy)
    (s : KStrategy) (hs : s.Valid) (datas : List (List (Vec (Fl f.r) n))) (c : List (Vec (Fl f.r) n)) (hc : c ≠ [])
    (hcb : ∀ x ∈ c, Box k x) (hd : ∀ d ∈ datas, d.length ≤ N ∧ ∀ e ∈ d, Box k e) :
    ∃ out : List (Vec (Fl f.r) n), kmeansRun s space (datas.map (List.map (Vec.toIeee f))) (c.map (Vec.toIeee f)) =
        some (out.map (Vec.toIeee f)) ∧
      out.length = c.length ∧ (∀ x ∈ out, Box k x) ∧ ∀ x ∈ out.map (Vec.toIeee f), IeeeFinite x := by
  obtain ⟨out, h1, h2, h3⟩ := (hr.closed space hsp).run Ieee.neg_one_lt s hs (datas.map (List.map (Vec.toIeee f)))
    (c.map (Vec.toIeee f)) (by simpa using hc) (fun x hx => by
      obtain ⟨y, hy, rfl⟩ := List.mem_map.1 hx
      exact ⟨y, hcb y hy, rfl⟩) (fun d hdm => by
      obtain ⟨d', hd', rfl⟩ := List.mem_map.1 hdm
      obtain ⟨g1, g2⟩ := hd d' hd'
      refine ⟨by rw [List.length_map]; exact g1, fun e he => ?_⟩
      obtain ⟨y, hy, rfl⟩ := List.mem_map.1 he
      exact ⟨y, g2 y hy, rfl⟩)
  have key : ∀ l : List (Vec (Ieee f) n), (∀ x ∈ l, ∃ p : Vec (Fl f.r) n, Box k p ∧ x = p.toIeee f) →
      ∃ l' : List (Vec (Fl f.r) n), l = l'.map (Vec.toIeee f) ∧ ∀ x ∈ l', Box k x := by
    intro l
    induction l with
    | nil => exact fun _ => ⟨[], rfl, by simp⟩
    | cons x l ih =>
      intro h
      obtain ⟨p, hp, rfl⟩ := h x (by simp)
      obtain ⟨l', rfl, hl⟩ := ih fun y hy => h y (by simp [hy])
      exact ⟨p :: l', rfl, by simpa using ⟨hp, hl⟩⟩
  obtain ⟨o, rfl, ho⟩ := key out h3
  refine ⟨o, h1, by simpa using h2, ho, fun x hx => ?_⟩
  obtain ⟨y, hy, rfl⟩ := List.mem_map.1 hx
  exact hr.finite (ho y hy)

/-- `C131_kmeans_any` applies to the cosine space. -/
theorem C131_cosine : (cosinusSpace (Ieee f) n).combine = (euclidSpace (Ieee f) n).combine ∧
    (cosinusSpace (Ieee f) n).copy = (euclidSpace (Ieee f) n).copy := ⟨rfl, rfl⟩

/-- **C131, streaming.** In any history in which at most `N` elements are consumed, the initial and pushed elements being
in the box, every centre is in the box and finite; in the Euclidean space the maximal distance is a finite number too. -/
theorem C131_streaming {R : Type} (hr : Room f k n N) (space : Space (Vec (Ieee f) n) (Ieee f))
    (hsp : space.combine = (euclidSpace (Ieee f) n).combine ∧ space.copy = (euclidSpace (Ieee f) n).copy)
    (conf : StreamingConf (Ieee f) R) (data : List (Vec (Ieee f) n)) (impl0 impl : StreamImpl (Vec (Ieee f) n) (Ieee f) R)
    (h0 : StreamImpl.new conf data = some impl0) (hd : ∀ e ∈ data, ∃ p : Vec (Fl f.r) n, Box k p ∧ e = p.toIeee f)
    (ops : List (StreamOp (Vec (Ieee f) n) (Ieee f)))
    (hop : ∀ e, StreamOp.push e ∈ ops → ∃ p : Vec (Fl f.r) n, Box k p ∧ e = p.toIeee f)
    (rs : List (StreamRes (Vec (Ieee f) n) (Ieee f))) (h : impl0.run space ops = some (impl, rs))
    (hN : consumptions rs ≤ N) :
    (∀ x ∈ impl.clust, IeeeFinite x ∧ ∃ p : Vec (Fl f.r) n, Box k p ∧ x = p.toIeee f) ∧
    (space = euclidSpace (Ieee f) n → ∃ y : ℝ, impl.maxDistance.1 = .fin y) := by
  have h1 := f.one_lt_top
  have hnew : ∀ D : Ieee f → Prop, D 0 → StreamIn (fun e => ∃ p : Vec (Fl f.r) n, Box k p ∧ e = p.toIeee f) D 0 impl0 := by
    intro D hD
    unfold StreamImpl.new at h0
    split at h0
    · cases h0
    · cases h0
      exact ⟨by simp, hd, by simp, hD⟩
  refine ⟨fun x hx => ?_, fun he => ?_⟩
  · obtain ⟨p, hp, rfl⟩ := (StreamIn.run (hr.closed space hsp) (D := fun _ => True) (fun _ _ => trivial) trivial trivial ops 0
      impl0 impl rs (hnew _ trivial) hop h (by omega)).clust x hx
    exact ⟨hr.finite hp, p, hp, rfl⟩
  · subst he
    refine (StreamIn.run (hr.closed _ hsp) (D := fun d => ∃ y : ℝ, d.1 = .fin y) ?_ ⟨0, ?_⟩ ⟨-1, ?_⟩ ops 0
      impl0 impl rs (hnew _ ⟨0, ?_⟩) hop h (by omega)).max
    · rintro a b ⟨p, hp, rfl⟩ ⟨q, hq, rfl⟩
      exact ⟨_, (C131_distances hr).1 p q hp hq⟩
    · rw [← Fl.toIeee_zero]
      exact Fl.toIeee_val (by rw [Fl.val_zero, abs_zero]; linarith)
    · rw [← Fl.toIeee_neg_one, Fl.toIeee_val (by rw [Fl.val_neg, Fl.val_one, abs_neg, abs_one]; exact h1), Fl.val_neg,
        Fl.val_one]
    · rw [← Fl.toIeee_zero]
      exact Fl.toIeee_val (by rw [Fl.val_zero, abs_zero]; linarith)

end

/-- **C131, `float64`.** There is room for coordinates up to 2⁴⁸⁴, 2⁵³ coordinates and 2⁵³ elements. -/
theorem C131_float64 {k n N : Nat} (hk : k ≤ 484) (hn : n ≤ N) (hN : N ≤ 2 ^ 53) : Room float64 k n N where
  scales := binary64_scales
  counts m hm := C100_counts m (hm.trans hN)
  dim := hn
  sums := by
    have h1 : (2 : ℝ) ^ k ≤ 2 ^ 484 := pow_le_pow_right₀ (by norm_num) hk
    have h2 : (N : ℝ) ≤ 2 ^ 53 := by exact_mod_cast hN
    calc (2 : ℝ) ^ k * N ≤ 2 ^ 484 * 2 ^ 53 := mul_le_mul h1 h2 (by positivity) (by positivity)
      _ = 2 ^ 537 := by rw [← pow_add]
      _ < 2 ^ 1024 := pow_lt_pow_right₀ (by norm_num) (by norm_num)
  squares := by
    have h1 : (2 : ℝ) ^ (2 * k + 2) ≤ 2 ^ 970 := pow_le_pow_right₀ (by norm_num) (by omega)
    have h2 : (n : ℝ) ≤ 2 ^ 53 := by exact_mod_cast hn.trans hN
    calc (2 : ℝ) ^ (2 * k + 2) * n ≤ 2 ^ 970 * 2 ^ 53 := mul_le_mul h1 h2 (by positivity) (by positivity)
      _ = 2 ^ 1023 := by rw [← pow_add]
      _ < 2 ^ 1024 := pow_lt_pow_right₀ (by norm_num) (by norm_num)

/-! ### NaN -/

instance {f : Format} : FloatOrder (Ieee f) where
  isNaN x := isNaN x.1
  nan_not_lt h := FloatOrder.nan_not_lt (F := XReal) h
  not_lt_nan h := FloatOrder.not_lt_nan (F := XReal) h
  irrefl a := FloatOrder.irrefl (F := XReal) a.1
  trans h1 h2 := FloatOrder.trans (F := XReal) h1 h2
  cotrans c hc h := FloatOrder.cotrans (F := XReal) c.1 hc h

theorem Ieee.isNaN_of {f : Format} {x : XReal} (h : isNaN x) : isNaN (Ieee.of f x) := by
  cases (show x = XReal.nan from h)
  rfl

/-- **C131, NaN.** NaN is absorbing for the operations of `Ieee f`, so that what is said of data with a NaN (C126) holds
with rounding and overflow. -/
theorem C131_nan (f : Format) : NanLaws (Ieee f) where
  add_left b h := Ieee.isNaN_of (XReal.nanLaws.add_left b.1 h)
  add_right a _ h := Ieee.isNaN_of (XReal.nanLaws.add_right a.1 h)
  sub_left b h := Ieee.isNaN_of (XReal.nanLaws.sub_left b.1 h)
  sub_right a _ h := Ieee.isNaN_of (XReal.nanLaws.sub_right a.1 h)
  mul_left b h := Ieee.isNaN_of (XReal.nanLaws.mul_left b.1 h)
  mul_right a _ h := Ieee.isNaN_of (XReal.nanLaws.mul_right a.1 h)
  div_left b h := Ieee.isNaN_of (XReal.nanLaws.div_left b.1 h)
  sqrt h := Ieee.isNaN_of (XReal.nanLaws.sqrt h)
  exp h := Ieee.isNaN_of (XReal.nanLaws.exp h)
  beq := by
    intro a h
    have h0 : a.1 = XReal.nan := h
    show XReal.beq a.1 _ = false
    rw [h0]; rfl

/-! ### The claim fails near the overflow -/

namespace IeeeExample

/-- The point of the line whose coordinate is `2 ^ k`. -/
noncomputable def pow (k : Nat) : Vec (Ieee float64) 1 := ⟨[Ieee.of float64 (.fin (2 ^ k))], rfl⟩

theorem of_pow {k : Nat} (hk : k < 1024) : (Ieee.of float64 (.fin (2 ^ k))).1 = .fin (2 ^ k) := by
  show float64.round (.fin (2 ^ k)) = _
  have h : float64.r.rnd (2 ^ k) = 2 ^ k := binary64_scales.pow k
  have h1 : |float64.r.rnd (2 ^ k)| < float64.top := by
    rw [h, abs_of_pos (by positivity)]
    exact pow_lt_pow_right₀ (by norm_num) hk
  rw [h] at h1
  simp only [Format.round, h, if_pos h1]

theorem of_big {k : Nat} (hk : 1024 ≤ k) : (Ieee.of float64 (.fin (2 ^ k))).1 = .posInf := by
  show float64.round (.fin (2 ^ k)) = _
  have h : float64.r.rnd (2 ^ k) = 2 ^ k := binary64_scales.pow k
  have h1 : ¬ |float64.r.rnd (2 ^ k)| < float64.top := by
    rw [h, abs_of_pos (by positivity), not_lt]
    exact pow_le_pow_right₀ (by norm_num) hk
  simp only [Format.round, if_neg h1, if_pos (show (0 : ℝ) < 2 ^ k by positivity)]

theorem of_one : (GoMath.ofInt 1 : Ieee float64).1 = .fin 1 := by
  have := of_pow (k := 0) (by norm_num)
  simp only [pow_zero] at this
  show (Ieee.of float64 (.fin ((1 : Int) : ℝ))).1 = _
  rw [Int.cast_one]; exact this

/-- An iteration on one element twice, with one centroid. -/
theorem step_two {E F : Type} [Zero F] [One F] [Neg F] [LT F] [DecidableLT F] (hneg : (-1 : F) < 0) {space : Space E F}
    (s : KStrategy) (hs : s.Valid) (p c : E) (hcopy : space.copy p = p) :
    kmeansStep s space [p, p] [c] = some [space.combine p 1 p 1] := by
  let P : List E → E → Prop := fun ms m => (ms = [p] → m = p) ∧ (ms = [p, p] → m = space.combine p 1 p 1)
  have hcomb : CombineOk space P := by
    intro a b x y ha hb hx hy
    match a, b, ha, hb with
    | [a], [b], _, _ =>
      refine ⟨fun h => by simp at h, fun h => ?_⟩
      simp only [List.cons_append, List.nil_append, List.cons.injEq, and_true] at h
      obtain ⟨rfl, rfl⟩ := h
      rw [hx.1 rfl, hy.1 rfl]; rfl
    | a :: a' :: l, b :: l', _, _ =>
      exact ⟨fun h => by simp at h, fun h => by simp at h⟩
    | [a], b :: b' :: l', _, _ =>
      exact ⟨fun h => by simp at h, fun h => by simp at h⟩
  obtain ⟨out, g1, g2, g3⟩ := iterate_spec hneg hcomb (fun ms m hm => ⟨by
    rintro rfl; cases hm; exact hcopy, by rintro rfl; cases hm; rw [← hcopy]; simp only [List.foldl, hcopy]⟩) s hs [c] [p, p]
    (by simp)
  obtain ⟨m, hm, -, h⟩ := g3 0 c rfl
  have hf : ([p, p].filter fun e => (nearest space [c] e).1 == ((0 : Nat) : Int)) = [p, p] := by
    rw [List.filter_eq_self]
    intro e _
    have := nearest_range hneg space [c] (by simp) e
    simp only [List.length_cons, List.length_nil] at this
    simp; omega
  rw [hf] at h
  match out, g2, hm, g1 with
  | [x], _, hm, g1 =>
    cases hm
    rw [kmeansStep, g1, ← (h (by simp)).2 rfl]
    rfl

end IeeeExample

open IeeeExample in
/-- **C131 (claim examined): the mean overflows.** The mean of 2¹⁰²³ and itself is 2¹⁰²³, a `float64`; `Combine` returns
`+Inf`, and so does an iteration of k-means on these two data. -/
theorem C131_mean_overflow : IeeeFinite (pow 1023) ∧
    (∃ m, (euclidSpace (Ieee float64) 1).combine (pow 1023) 1 (pow 1023) 1 = m ∧ m.1.map Subtype.val = [XReal.posInf]) ∧
    ∀ (s : KStrategy), s.Valid → ∀ c, ∃ m,
      kmeansStep s (euclidSpace (Ieee float64) 1) [pow 1023, pow 1023] [c] = some [m] ∧
        m.1.map Subtype.val = [XReal.posInf] := by
  have hcomb : ((euclidSpace (Ieee float64) 1).combine (pow 1023) 1 (pow 1023) 1).1.map Subtype.val = [XReal.posInf] := by
    show [(Ieee.of float64 (_ / _)).1] = _
    have hp : ((Ieee.of float64 (.fin (2 ^ 1023)) : Ieee float64) * GoMath.ofInt 1).1 = .fin (2 ^ 1023) := by
      show (Ieee.of float64 (XReal.mul (Ieee.of float64 (.fin (2 ^ 1023))).1 (GoMath.ofInt 1 : Ieee float64).1)).1 = _
      rw [of_pow (by norm_num), of_one]
      show (Ieee.of float64 (.fin (2 ^ 1023 * 1))).1 = _
      rw [mul_one, of_pow (by norm_num)]
    have hs : ((Ieee.of float64 (.fin (2 ^ 1023)) : Ieee float64) * GoMath.ofInt 1 +
        Ieee.of float64 (.fin (2 ^ 1023)) * GoMath.ofInt 1).1 = .posInf := by
      show (Ieee.of float64 (XReal.add ((Ieee.of float64 (.fin (2 ^ 1023)) : Ieee float64) * GoMath.ofInt 1).1
        ((Ieee.of float64 (.fin (2 ^ 1023)) : Ieee float64) * GoMath.ofInt 1).1)).1 = _
      rw [hp]
      show (Ieee.of float64 (.fin (2 ^ 1023 + 2 ^ 1023))).1 = _
      rw [show (2 : ℝ) ^ 1023 + 2 ^ 1023 = 2 ^ 1024 by exact (mul_two _).symm, of_big le_rfl]
    have hw : ((GoMath.ofInt 1 : Ieee float64) + GoMath.ofInt 1).1 = .fin 2 := by
      show (Ieee.of float64 (XReal.add (GoMath.ofInt 1 : Ieee float64).1 (GoMath.ofInt 1 : Ieee float64).1)).1 = _
      rw [of_one]
      show (Ieee.of float64 (.fin (1 + 1))).1 = _
      have := of_pow (k := 1) (by norm_num)
      rw [pow_one] at this
      rw [show (1 : ℝ) + 1 = 2 by norm_num]; exact this
    rw [hs, hw]
    show [(Ieee.of float64 (if (2 : ℝ) < 0 then XReal.negInf else XReal.posInf)).1] = _
    rw [if_neg (by norm_num)]
    rfl
  refine ⟨fun x hx => ?_, ⟨_, rfl, hcomb⟩, fun s hs c => ⟨_, ?_, hcomb⟩⟩
  · rw [show x = Ieee.of float64 (.fin (2 ^ 1023)) by simpa [pow] using hx]
    exact ⟨_, of_pow (by norm_num)⟩
  · exact step_two Ieee.neg_one_lt s hs _ _ rfl

namespace IeeeExample

theorem zero_sub_pow {k : Nat} (hk : k < 1024) : ((0 : Ieee float64) - Ieee.of float64 (.fin (2 ^ k))).1 = .fin (-(2 ^ k)) := by
  show (Ieee.of float64 (XReal.add (0 : Ieee float64).1 (XReal.neg (Ieee.of float64 (.fin (2 ^ k))).1))).1 = _
  have h0 : (0 : Ieee float64).1 = .fin 0 := by
    rw [← Fl.toIeee_zero]
    exact Fl.toIeee_val (by rw [Fl.val_zero, abs_zero]; linarith [float64.one_lt_top])
  rw [of_pow hk, h0]
  show float64.round (.fin (0 + -(2 ^ k))) = _
  have h : float64.r.rnd (-(2 ^ k)) = -(2 ^ k) := by
    rw [float64.r.neg]; exact congrArg _ (binary64_scales.pow k)
  have h1 : |float64.r.rnd (-(2 ^ k))| < float64.top := by
    rw [h, abs_neg, abs_of_pos (by positivity)]
    exact pow_lt_pow_right₀ (by norm_num) hk
  rw [zero_add]
  rw [h] at h1
  simp only [Format.round, h, if_pos h1]

theorem pow_sub_pow {k : Nat} (hk : k + 1 < 1024) :
    (Ieee.of float64 (.fin (2 ^ (k + 1))) - Ieee.of float64 (.fin (2 ^ k))).1 = .fin (2 ^ k) := by
  show (Ieee.of float64 (XReal.add (Ieee.of float64 (.fin (2 ^ (k + 1)))).1 (XReal.neg (Ieee.of float64 (.fin (2 ^ k))).1))).1 = _
  rw [of_pow hk, of_pow (by omega)]
  show (Ieee.of float64 (.fin (2 ^ (k + 1) + -(2 ^ k)))).1 = _
  rw [show (2 : ℝ) ^ (k + 1) + -(2 ^ k) = 2 ^ k by ring, of_pow (by omega)]

/-- The distance on the line, if the square of the difference overflows. -/
theorem dist_big {x y : Ieee float64} {z : ℝ} {k : Nat} (h : (x - y).1 = .fin z) (hz : z * z = 2 ^ k) (hk : 1024 ≤ k) :
    ((euclidSpace (Ieee float64) 1).dist ⟨[x], rfl⟩ ⟨[y], rfl⟩).1 = .posInf := by
  show (Ieee.of float64 (GoMath.sqrt (0 + (x - y) * (x - y) : Ieee float64).1)).1 = _
  have h2 : ((x - y) * (x - y)).1 = .posInf := by
    show (Ieee.of float64 (XReal.mul (x - y).1 (x - y).1)).1 = _
    rw [h]
    show (Ieee.of float64 (.fin (z * z))).1 = _
    rw [hz, of_big hk]
  have h0 : (0 : Ieee float64).1 = .fin 0 := by
    rw [← Fl.toIeee_zero]
    exact Fl.toIeee_val (by rw [Fl.val_zero, abs_zero]; linarith [float64.one_lt_top])
  have h3 : (0 + (x - y) * (x - y) : Ieee float64).1 = .posInf := by
    show (Ieee.of float64 (XReal.add (0 : Ieee float64).1 ((x - y) * (x - y)).1)).1 = _
    rw [h0, h2]; rfl
  rw [h3]; rfl

/-- The point of the line whose coordinate is 0. -/
noncomputable def zero : Vec (Ieee float64) 1 := ⟨[0], rfl⟩

end IeeeExample

open IeeeExample in
/-- **C131 (claim examined): the distance overflows.** The distance between 0 and 2⁵¹² is 2⁵¹², a `float64`; `Dist` returns
`+Inf`. -/
theorem C131_dist_overflow : IeeeFinite (pow 512) ∧
    ((euclidSpace (Ieee float64) 1).dist zero (pow 512)).1 = .posInf :=
  ⟨fun x hx => by
      rw [show x = Ieee.of float64 (.fin (2 ^ 512)) by simpa [pow] using hx]
      exact ⟨_, of_pow (by norm_num)⟩,
    dist_big (k := 1024) (zero_sub_pow (by norm_num)) (by rw [neg_mul_neg, ← pow_add]) le_rfl⟩

open IeeeExample in
/-- **C131 (claim examined): the label.** 2⁵¹³ is nearer to 2⁵¹⁴ than 0 is; both distances being computed as `+Inf`, the
label of 2⁵¹⁴ is that of 0. -/
theorem C131_label_overflow :
    (nearest (euclidSpace (Ieee float64) 1) [zero, pow 513] (pow 514)).1 = 0 ∧
    |(2 : ℝ) ^ 514 - 2 ^ 513| < |(2 : ℝ) ^ 514 - 0| := by
  have d1 : ((euclidSpace (Ieee float64) 1).dist (pow 514) zero).1 = .posInf := by
    refine dist_big (k := 1028) (z := 2 ^ 514) ?_ (by rw [← pow_add]) (by norm_num)
    show (Ieee.of float64 (XReal.add (Ieee.of float64 (.fin (2 ^ 514))).1 (XReal.neg (0 : Ieee float64).1))).1 = _
    have h0 : (0 : Ieee float64).1 = .fin 0 := by
      rw [← Fl.toIeee_zero]
      exact Fl.toIeee_val (by rw [Fl.val_zero, abs_zero]; linarith [float64.one_lt_top])
    rw [of_pow (by norm_num), h0]
    show (Ieee.of float64 (.fin (2 ^ 514 + -0))).1 = _
    rw [neg_zero, add_zero, of_pow (by norm_num)]
  have d2 : ((euclidSpace (Ieee float64) 1).dist (pow 514) (pow 513)).1 = .posInf :=
    dist_big (k := 1026) (z := 2 ^ 513) (pow_sub_pow (by norm_num)) (by rw [← pow_add]) (by norm_num)
  constructor
  · have l0 : ¬ (euclidSpace (Ieee float64) 1).dist (pow 514) zero < 0 := by
      show ¬ XReal.lt ((euclidSpace (Ieee float64) 1).dist (pow 514) zero).1 (0 : Ieee float64).1
      rw [d1]
      cases (0 : Ieee float64).1 <;> exact id
    have l1 : ¬ (euclidSpace (Ieee float64) 1).dist (pow 514) (pow 513) < (euclidSpace (Ieee float64) 1).dist (pow 514) zero := by
      show ¬ XReal.lt ((euclidSpace (Ieee float64) 1).dist (pow 514) (pow 513)).1
        ((euclidSpace (Ieee float64) 1).dist (pow 514) zero).1
      rw [d1, d2]; exact id
    simp only [nearest, nearestLoop]
    rw [if_pos (Or.inl Ieee.neg_one_lt), if_neg (by rintro (h | h); exacts [l0 h, l1 h])]
    rfl
  · have h : ∀ x : ℝ, x * 2 - x = x := fun x => by ring
    rw [sub_zero, show (2 : ℝ) ^ 514 - 2 ^ 513 = 2 ^ 513 from h _, abs_of_pos (by positivity),
      abs_of_pos (by positivity)]
    exact pow_lt_pow_right₀ (by norm_num) (by norm_num)

namespace IeeeExample

/-! ### Examples -/

/-- The hypotheses of `C131_kmeans` are met: a thousand iterations of k-means on four data of the plane, with three
goroutines. -/
example (x : Fin 4 → Vec (Fl float64.r) 2) (hx : ∀ i, Box 484 (x i)) : ∃ m m' : Vec (Ieee float64) 2,
    kmeansRun (.par 3) (euclidSpace (Ieee float64) 2)
      ((List.replicate 1000 [x 0, x 1, x 2, x 3]).map (List.map (Vec.toIeee float64))) ([x 0, x 3].map (Vec.toIeee float64)) =
      some [m, m'] ∧ IeeeFinite m ∧ IeeeFinite m' := by
  obtain ⟨out, -, h1, h2, -, h3⟩ := C131_kmeans (C131_float64 (k := 484) (n := 2) (N := 4) le_rfl (by norm_num) (by norm_num))
    (.par 3) (show 1 ≤ 3 by norm_num) (List.replicate 1000 [x 0, x 1, x 2, x 3]) [x 0, x 3] (by simp) (by
      intro y hy
      simp only [List.mem_cons, List.not_mem_nil, or_false] at hy
      rcases hy with rfl | rfl <;> exact hx _) (by
      intro d hd
      rw [List.eq_of_mem_replicate hd]
      refine ⟨le_rfl, fun y hy => ?_⟩
      simp only [List.mem_cons, List.not_mem_nil, or_false] at hy
      rcases hy with rfl | rfl | rfl | rfl <;> exact hx _)
  match out, h2, h1, h3 with
  | [m, m'], _, h1, h3 => exact ⟨_, _, h1, h3 _ (by simp), h3 _ (by simp)⟩

/-- The hypotheses of `C131_streaming` are met: a stream of three elements in the cosine space, whatever the draws are. -/
example (x : Fin 3 → Vec (Fl float64.r) 2) (hx : ∀ i, Box 484 (x i)) (conf : StreamingConf (Ieee float64) Nat) (hb : conf.bufferSize = 7)
    (t t' : Ieee float64) : ∃ impl0 impl : StreamImpl (Vec (Ieee float64) 2) (Ieee float64) Nat, ∃ rs,
    StreamImpl.new conf [(x 0).toIeee float64, (x 1).toIeee float64] = some impl0 ∧
      impl0.run (cosinusSpace (Ieee float64) 2) [.init, .iterate t, .push ((x 2).toIeee float64), .iterate t'] = some (impl, rs) ∧
      ∀ m ∈ impl.clust, IeeeFinite m := by
  have hcopy : ∀ a, (cosinusSpace (Ieee float64) 2).copy a = a := fun _ => rfl
  obtain ⟨impl0, h0⟩ : ∃ impl0, StreamImpl.new conf [(x 0).toIeee float64, (x 1).toIeee float64] = some impl0 := by
    unfold StreamImpl.new
    rw [if_neg (by rw [hb]; simp)]
    exact ⟨_, rfl⟩
  have hc : impl0.c = [(x 0).toIeee float64, (x 1).toIeee float64] := by
    unfold StreamImpl.new at h0
    split at h0
    · cases h0
    · cases h0; rfl
  obtain ⟨i1, h1⟩ : ∃ i1, impl0.run (cosinusSpace (Ieee float64) 2) [.init] =
      some (i1, [.init (some [(x 0).toIeee float64])]) := by
    simp [StreamImpl.run, StreamImpl.step, StreamImpl.init, hc]
  have hall : ∃ r, impl0.run (cosinusSpace (Ieee float64) 2)
      [.init, .iterate t, .push ((x 2).toIeee float64), .iterate t'] = some r := by
    obtain ⟨r, hr⟩ := C35_no_panic Ieee.neg_one_lt hcopy conf _ impl0 i1 h0 [.init] _ h1 [(x 0).toIeee float64] (by simp)
      [.iterate t, .push ((x 2).toIeee float64), .iterate t']
    unfold StreamImpl.run at h1 ⊢
    revert h1
    cases hs : impl0.step (cosinusSpace (Ieee float64) 2) .init with
    | none => intro h1; cases h1
    | some q =>
      intro h1
      simp only [StreamImpl.run, Option.some.injEq, Prod.mk.injEq] at h1
      simp only
      rw [h1.1, hr]
      exact ⟨_, rfl⟩
  obtain ⟨⟨impl, rs⟩, h⟩ := hall
  have hN : consumptions rs ≤ 2 ^ 53 := by
    have := (C35_stream hcopy conf _ impl0 impl h0 _ rs h).1
    have h3 : ∀ rs : List (StreamRes (Vec (Ieee float64) 2) (Ieee float64)),
        (accepted [.init, .iterate t, .push ((x 2).toIeee float64), .iterate t'] rs).length ≤ 1 := by
      intro rs
      match rs with
      | [] | [_] | [_, _] => simp [accepted]
      | [_, _, r] => cases r with
        | push b => cases b <;> simp [accepted]
        | _ => simp [accepted]
      | _ :: _ :: r :: r' :: _ => cases r with
        | push b => cases b <;> cases r' <;> simp [accepted]
        | _ => cases r' <;> simp [accepted]
    have := h3 rs
    simp only [List.length_append, List.length_cons, List.length_nil] at *
    omega
  refine ⟨impl0, impl, rs, h0, h, fun m hm => ((C131_streaming (C131_float64 (k := 484) (n := 2) (N := 2 ^ 53) le_rfl (by norm_num) le_rfl)
    _ C131_cosine conf _ impl0 impl h0 ?_ _ ?_ rs h hN).1 m hm).1⟩
  · intro e he
    simp only [List.mem_cons, List.not_mem_nil, or_false] at he
    rcases he with rfl | rfl
    · exact ⟨x 0, hx 0, rfl⟩
    · exact ⟨x 1, hx 1, rfl⟩
  · intro e he
    simp at he
    exact ⟨x 2, hx 2, he⟩

end IeeeExample
end Distclus
