import Verif.Proof.KMeansConv
import Verif.Props.CtrlKMeans
import Mathlib.Data.Fintype.Pigeonhole
import Mathlib.Data.Fintype.BigOperators
/-!
# C89: k-means converges
-/
namespace Distclus
open Ctrl Algo Spec

/-- **C89 (strict).** In exact Euclidean arithmetic an iteration which changes a centroid strictly decreases the loss. -/
theorem C89_strict {n : Nat} (s : KStrategy) (hs : s.Valid) (c c' data : List (Vec ℝ n)) (hc : c ≠ [])
    (h : kmeansStep s (euclidSpace ℝ n) data c = some c') (hd : c' ≠ c) :
    ∃ before after, totalLoss (euclidSpace ℝ n) c data 2 = some before ∧
      totalLoss (euclidSpace ℝ n) c' data 2 = some after ∧ after < before := by
  obtain ⟨d, _⟩ := List.exists_mem_of_ne_nil c hc
  obtain ⟨out, h1, h2, _, h4, h5, h6⟩ := kmeans_halves s hs c data hc d
  obtain rfl : out = c' := by rw [h1] at h; exact Option.some.inj h
  have hne : out ≠ [] := by
    intro h; subst h; exact hc (List.length_eq_zero_iff.1 (by simpa using h2.symm))
  exact ⟨_, _, loss_eq_sum c data hc, loss_eq_sum out data hne,
    h4.trans_lt (lt_of_le_of_ne h5 fun he => hd (h6 he))⟩

/-- **C89 (stationary clusterings).** The clusterings which an iteration leaves unchanged are those where each
centroid with at least one element assigned to it is the mean of these elements. -/
theorem C89_stationary {n : Nat} (s : KStrategy) (hs : s.Valid) (c data : List (Vec ℝ n)) (hc : c ≠ []) :
    kmeansStep s (euclidSpace ℝ n) data c = some c ↔
      ∀ (l : Nat) (x : Vec ℝ n), c[l]? = some x →
        let ms := data.filter fun e => (nearest (euclidSpace ℝ n) c e).1 == (l : Int)
        ms ≠ [] → x.coords = mean (ms.map Vec.coords) := by
  obtain ⟨d, _⟩ := List.exists_mem_of_ne_nil c hc
  obtain ⟨out, h1, h2, h3, _⟩ := kmeans_halves s hs c data hc d
  rw [h1, Option.some.injEq]
  constructor
  · rintro rfl l x hx ms hne
    obtain ⟨m, hm, _, hmean⟩ := h3 l x hx
    rw [hx] at hm
    cases hm
    exact hmean hne
  · intro h
    apply List.ext_getElem h2
    intro i hi1 hi2
    obtain ⟨m, hm, hz, hmean⟩ := h3 i c[i] (by simp)
    have : m = c[i] := by
      by_cases he : (data.filter fun e => (nearest (euclidSpace ℝ n) c e).1 == (i : Int)) = []
      · exact hz he
      · exact (euclid_barycentric n).inj _ _ ((hmean he).trans (h i c[i] (by simp) he).symm)
    rw [← this]
    rw [List.getElem?_eq_getElem hi1] at hm
    exact Option.some.inj hm

/-- **C89.** In exact Euclidean arithmetic, on data which do not change, k-means reaches after at most
`k ^ n` iterations (`k` centroids, `n` elements) a clustering which no further iteration changes. -/
theorem C89_converges {n : Nat} (s : KStrategy) (hs : s.Valid) (c data : List (Vec ℝ n)) (hc : c ≠ []) :
    ∃ N out, N ≤ c.length ^ data.length ∧ out.length = c.length ∧
      kmeansStep s (euclidSpace ℝ n) data out = some out ∧
      ∀ m, N ≤ m → kmeansRun s (euclidSpace ℝ n) (List.replicate m data) c = some out := by
  obtain ⟨d, _⟩ := List.exists_mem_of_ne_nil c hc
  obtain ⟨C, hC0, hlen, hstep, hrun⟩ := kmeans_states s hs c data hc
  have hneg : (-1 : ℝ) < 0 := by norm_num
  have hne : ∀ t, C t ≠ [] := fun t h => by
    have := hlen t; rw [h] at this; exact hc (List.length_eq_zero_iff.1 this.symm)
  -- a stationary step gives the result
  have key : ∀ t, t ≤ c.length ^ data.length → C (t + 1) = C t →
      ∃ N out, N ≤ c.length ^ data.length ∧ out.length = c.length ∧
      kmeansStep s (euclidSpace ℝ n) data out = some out ∧
      ∀ m, N ≤ m → kmeansRun s (euclidSpace ℝ n) (List.replicate m data) c = some out := by
    intro t ht he
    have hst : kmeansStep s (euclidSpace ℝ n) data (C t) = some (C t) := by rw [hstep t, he]
    have hconst : ∀ m, C (t + m) = C t := by
      intro m
      induction m with
      | zero => rfl
      | succ m ih =>
        have h := hstep (t + m)
        rw [ih, hst] at h
        exact (Option.some.inj h).symm
    refine ⟨t, C t, ht, hlen t, hst, fun m hm => ?_⟩
    obtain ⟨r, rfl⟩ := Nat.exists_eq_add_of_le hm
    rw [hrun, hconst]
  set sp := euclidSpace ℝ n
  -- two clusterings with the same assignment
  have hlab : ∀ t (e : Vec ℝ n), 0 ≤ (nearest sp (C t) e).1 ∧ (nearest sp (C t) e).1 < c.length :=
    fun t e => by
      have := nearest_range hneg sp (C t) (hne t) e
      rw [hlen t] at this
      exact this
  let f : Fin (c.length ^ data.length + 1) → (Fin data.length → Fin c.length) := fun t i =>
    ⟨(nearest sp (C t) data[i]).1.toNat, by have := hlab t data[i]; omega⟩
  obtain ⟨a, b, hab, hf⟩ := Fintype.exists_ne_map_eq_of_card_lt f (by simp)
  have hsame : ∀ e ∈ data, (nearest sp (C a) e).1 = (nearest sp (C b) e).1 := by
    intro e he
    obtain ⟨i, hi, rfl⟩ := List.getElem_of_mem he
    have h := congrArg Fin.val (congrFun hf ⟨i, hi⟩)
    simp only [f] at h
    have h1 := hlab a data[i]
    have h2 := hlab b data[i]
    simp only [Fin.getElem_fin] at h
    omega
  -- losses
  let L : Nat → ℝ := fun t => (data.map fun e => (nearest sp (C t) e).2 ^ 2).sum
  let J : Nat → ℝ := fun t => (data.map fun e => sp.dist e
    ((C (t + 1)).getD (nearest sp (C t) e).1.toNat d) ^ 2).sum
  have hh : ∀ t, L (t + 1) ≤ J t ∧ J t ≤ L t ∧ (J t = L t → C (t + 1) = C t) := by
    intro t
    obtain ⟨out, h1, _, _, h4, h5, h6⟩ := kmeans_halves s hs (C t) data (hne t) d
    rw [hstep t] at h1
    cases h1
    exact ⟨h4, h5, h6⟩
  have hmeans : ∀ t (l : Nat), l < c.length →
      let ms := data.filter fun e => (nearest sp (C t) e).1 == (l : Int)
      ms ≠ [] → ((C (t + 1)).getD l d).coords = mean (ms.map Vec.coords) := by
    intro t l hl ms hms
    obtain ⟨out, h1, _, h3, _⟩ := kmeans_halves s hs (C t) data (hne t) d
    rw [hstep t] at h1
    cases h1
    obtain ⟨m, hm, _, hmean⟩ := h3 l ((C t)[l]'(by rw [hlen t]; exact hl))
      (List.getElem?_eq_getElem _)
    rw [← hmean hms]
    simp [hm]
  have hJ : J a = J b := by
    show List.sum _ = List.sum _
    congr 1
    apply List.map_congr_left
    intro e he
    have hl := hlab b e
    have h1 := hsame e he
    rw [h1]
    congr 2
    apply (euclid_barycentric n).inj
    have hfil : (data.filter fun x => (nearest sp (C a) x).1 == (((nearest sp (C b) e).1.toNat : Nat) : Int)) =
        data.filter fun x => (nearest sp (C b) x).1 == (((nearest sp (C b) e).1.toNat : Nat) : Int) :=
      List.filter_congr fun x hx => by rw [hsame x hx]
    have hmem : e ∈ data.filter fun x => (nearest sp (C b) x).1 == (((nearest sp (C b) e).1.toNat : Nat) : Int) :=
      List.mem_filter.2 ⟨he, by simp; omega⟩
    have e1 := hmeans a (nearest sp (C b) e).1.toNat (by omega) (by rw [hfil]; exact List.ne_nil_of_mem hmem)
    have e2 := hmeans b (nearest sp (C b) e).1.toNat (by omega) (List.ne_nil_of_mem hmem)
    rw [e1, e2, hfil]
  have hmono : ∀ m t, L (t + m) ≤ L t := by
    intro m
    induction m with
    | zero => intro t; exact le_refl _
    | succ m ih => intro t; exact ((hh (t + m)).1.trans (hh (t + m)).2.1).trans (ih t)
  have fin : ∀ i j : Nat, i < j → J i = J j → C (j + 1) = C j := by
    intro i j hij he
    apply (hh j).2.2
    apply le_antisymm (hh j).2.1
    obtain ⟨r, rfl⟩ := Nat.exists_eq_add_of_lt hij
    have h1 := hmono r (i + 1)
    rw [show i + 1 + r = i + r + 1 by omega] at h1
    exact (h1.trans (hh i).1).trans he.le
  rcases lt_or_gt_of_ne (fun h => hab (Fin.ext h) : (a : Nat) ≠ b) with h | h
  · exact key b (by omega) (fin a b h hJ)
  · exact key a (by omega) (fin b a h hJ.symm)

/-- **C89 (through the controller).** One client, an implementation which is k-means on a buffer without window,
a configuration with `Iter` at least `k ^ n` for `k` centroids and `n` elements: the centroids observed after `Batch`
are stationary for all the data pushed. -/
theorem C89_batch {n : Nat} {conf : Conf} {s : Algo (List (Vec ℝ n))} (alg : KStrategy) (ha : alg.Valid)
    {ini : List (Vec ℝ n) → List (Vec ℝ n) → Prop} {k : Nat} (hk : 0 < k) (hini : ∀ D c, ini D c → c.length = k)
    (hc : Limited conf) (h : OneClient conf s)
    (hP : Batching s.log) {data : List (Vec ℝ n)} {t : Nat} {c : Option (List (Vec ℝ n))}
    {l1 l2 : List (Event (List (Vec ℝ n)))} {st : Notes (Vec ℝ n)}
    (hl : s.log = l1 ++ .ret t (.centroids c) :: l2)
    (hp : played (session l2).2 = true) (hv : followsL (session l2).2 ≠ some .running) (hC : Cold l2)
    (hB : Buffered ini (kmeansStep alg (euclidSpace ℝ n)) (newDataBuffer data 0) l2 st)
    (hN : k ^ (data ++ st.pushed).length ≤ conf.iter) :
    ∃ (D out : List (Vec ℝ n)), D.Perm (data ++ st.pushed) ∧ c = some out ∧ out.length = k ∧
      ∀ (l : Nat) (x : Vec ℝ n), out[l]? = some x →
        let ms := D.filter fun e => (nearest (euclidSpace ℝ n) out e).1 == (l : Int)
        ms ≠ [] → x.coords = mean (ms.map Vec.coords) := by
  obtain ⟨D, S, c0, h1, h2, h3, h4⟩ := C87_kmeans alg (euclidSpace ℝ n) hc h hP hl hp hv hC hB
  have hk0 := hini _ _ h3
  have hne : c0 ≠ [] := by
    rintro rfl
    simp at hk0
    omega
  obtain ⟨N, out, q1, q2, q3, q4⟩ := C89_converges alg ha c0 D hne
  have hD : D.Perm (data ++ st.pushed) := h2.trans h1
  have hout : out ≠ [] := by
    intro h; subst h; exact hne (List.length_eq_zero_iff.1 (by simpa using q2.symm))
  rw [hk0, hD.length_eq] at q1
  exact ⟨D, out, hD, h4.trans (q4 _ (by omega)), q2.trans hk0,
    (C89_stationary alg ha out D hout).1 q3⟩

/-- Exact arithmetic is needed: with a rounding mean (integer division in `Combine`) an iteration may increase the
distances, from 1 to 3 in total on four elements. -/
theorem C89_rounding :
    kmeansStep .seq exSpace [1, 1, 1, 0] [1] = some [0] ∧
      (mapLabel exSpace [1] [1, 1, 1, 0]).2.sum = 1 ∧
      (mapLabel exSpace [0] [1, 1, 1, 0]).2.sum = 3 := by decide

/-- An iteration which changes the centroid: the hypotheses of `C89_strict` are met. -/
example : ∃ c', kmeansStep .seq (euclidSpace ℝ 1) [Vec.of fun _ => 1] [Vec.of fun _ => 0] = some c' ∧
    c' ≠ [Vec.of fun _ => 0] := by
  have hc : ([Vec.of fun _ => 0] : List (Vec ℝ 1)) ≠ [] := by simp
  obtain ⟨out, h1, _, h3, _⟩ := kmeans_halves .seq trivial [Vec.of fun _ => 0] [Vec.of fun _ => 1] hc
    (Vec.of fun _ => 0)
  refine ⟨out, h1, ?_⟩
  rintro rfl
  obtain ⟨m, hm, _, hmean⟩ := h3 0 _ rfl
  cases hm
  have hr := nearest_range (by norm_num : (-1 : ℝ) < 0) (euclidSpace ℝ 1) [Vec.of fun _ => 0] hc
    (Vec.of fun _ => 1)
  have h0 : (nearest (euclidSpace ℝ 1) [Vec.of fun _ => 0] (Vec.of fun _ => 1)).1 = 0 := by
    simp only [List.length_singleton] at hr; omega
  have hf : (([Vec.of fun _ => 1] : List (Vec ℝ 1)).filter fun e =>
      (nearest (euclidSpace ℝ 1) [Vec.of fun _ => 0] e).1 == ((0 : Nat) : Int)) = [Vec.of fun _ => 1] := by
    rw [List.filter_cons_of_pos (by rw [h0]; rfl), List.filter_nil]
  rw [hf] at hmean
  have := congrFun (hmean (by simp)) 0
  simp only [mean, List.map_cons, List.map_nil, List.sum_cons, List.sum_nil, List.length_singleton] at this
  simp [Vec.of, Vec.coords] at this

end Distclus
