import Verif.Props.McmcInf
import Verif.Props.FlCos
import Verif.Props.FlChoice
/-!
# C152: negative distances in the initialisations and in mcmc

With rounding the cosine distance of a vector to itself may be negative (C140).
-/
set_option linter.unusedSectionVars false

namespace Distclus
open Spec

/-! ### mcmc -/

section
variable {f : Format} {D E R : Type}

/-- **C152, `math.Pow`.** A negative number to a power which is not an integer is NaN. -/
theorem C152_power (x y : Ieee f) {a b : ℝ} (hx : x.1 = .fin a) (ha : a < 0) (hy : y.1 = .fin b) (hb : ∀ n : Int, b ≠ n) :
    (GoMath.pow x y).1 = .nan := by
  show f.round (XReal.pow x.1 y.1) = _
  rw [hx, hy]
  have h0 : ¬ (a = 0 ∧ b < 0) := fun h => by rw [h.1] at ha; exact lt_irrefl _ ha
  have h1 : a < 0 ∧ ¬ ∃ n : Int, b = n := ⟨ha, fun ⟨n, hn⟩ => hb n hn⟩
  simp only [XReal.pow, if_neg h0, if_pos h1]
  rfl

/-- The last centroid is at a negative distance: the distance returned is that one, or NaN. -/
theorem nearestLoop_last (space : Space E (Ieee f)) (e x : E) (hx : space.dist e x < 0) : ∀ (cs : List E) (i : Nat) (l : Int)
    (m : Ieee f), (nearestLoop space e (cs ++ [x]) i l m).2 = space.dist e x ∨ isNaN (nearestLoop space e (cs ++ [x]) i l m).2
  | [], i, l, m => by
    simp only [List.nil_append, nearestLoop]
    split
    · exact .inl rfl
    · rename_i h
      rw [not_or] at h
      refine .inr ?_
      by_contra hn
      rcases FloatOrder.cotrans m hn hx with h' | h'
      · exact h.2 h'
      · exact h.1 h'
  | c :: cs, i, l, m => by
    simp only [List.cons_append, nearestLoop]
    split
    · exact nearestLoop_last space e x hx cs _ _ _
    · exact nearestLoop_last space e x hx cs _ _ _

/-- **C152, the loss.** With a norm which is not an integer, the loss is NaN if the last centroid is at a negative
distance of a datum. -/
theorem C152_loss (p : McmcParams D E (Ieee f) R) {b : ℝ} (hn : p.conf.norm.1 = .fin b) (hb : ∀ n : Int, b ≠ n)
    (cs data : List E) (x e : E) (hm : e ∈ data) {a : ℝ} (hx : (p.space.dist e x).1 = .fin a) (ha : a < 0) (loss : Ieee f)
    (hl : mcmcLoss p (cs ++ [x]) data = some loss) : isNaN loss := by
  refine mcmcLoss_absorbs (B := fun x : Ieee f => isNaN x)
    ⟨fun b h => (C131_nan f).add_left b h, fun a _ h => (C131_nan f).add_right a h⟩ Ieee.neg_one_lt p _ _ (fun _ => ?_) hm _ hl
  have hlt : p.space.dist e x < 0 := by rw [Ieee.lt_zero_iff, hx]; exact ha
  rcases nearestLoop_last p.space e x hlt cs 0 (-1) (-1) with h | h
  · show (GoMath.pow (nearestLoop p.space e (cs ++ [x]) 0 (-1) (-1)).2 p.conf.norm).1 = .nan
    rw [h]
    exact C152_power _ _ hx ha hn hb
  · show (GoMath.pow (nearestLoop p.space e (cs ++ [x]) 0 (-1) (-1)).2 p.conf.norm).1 = .nan
    have h' : (nearestLoop p.space e (cs ++ [x]) 0 (-1) (-1)).2.1 = .nan := h
    show f.round (XReal.pow _ _) = _
    rw [h', hn]
    have : ¬ b = 0 := fun h => hb 0 (by rw [h, Int.cast_zero])
    simp only [XReal.pow, if_neg this]
    rfl

/-- **C152, mcmc.** With a norm which is not an integer, if the last initial centroid is at a negative distance of a
datum (for example of itself), then nothing is accepted until the next `Init`. -/
theorem C152_frozen (p : McmcParams D E (Ieee f) R) {b : ℝ} (hn : p.conf.norm.1 = .fin b) (hb : ∀ n : Int, b ≠ n)
    (impl : McmcImpl E (Ieee f)) (d : D) (impl' : McmcImpl E (Ieee f)) (cs : List E) (x e : E)
    (hi : impl.init p d = (impl', .ok (cs ++ [x]))) (hm : e ∈ impl.buffer.apply.data) {a : ℝ}
    (hx : (p.space.dist e x).1 = .fin a) (ha : a < 0) (ops : List (McmcOp D E (Ieee f))) (s s' : McmcSys E (Ieee f))
    (hs : s.impl = impl') (hop : ∀ op ∈ ops, ∀ d, op ≠ .init d) (hr : s.run p ops = some s') :
    isNaN impl'.current.loss ∧ s'.centroids = s.centroids ∧ s'.impl.acc = s.impl.acc ∧ s'.impl.store = s.impl.store := by
  have hnan : isNaN impl'.current.loss := by
    obtain ⟨_, _, _, h⟩ := init_cases p _ _ _ _ hi
    obtain ⟨_, _, _, _, _, hl, _⟩ := h _ rfl
    exact C152_loss p hn hb cs _ x e hm hx ha _ hl
  obtain ⟨h1, _, h3, h4⟩ := C126_mcmc_frozen (C131_nan f) p ops s s' (by rw [hs]; exact hnan) hop hr
  exact ⟨hnan, h1, h3, h4⟩

end

/-! ### k-means++ -/

section
variable {r : Rounding} {E : Type}

theorem sum_negative : ∀ (l : List (Fl r)) (s : Fl r), (∀ x ∈ l, x.val ≤ 0) → s.val ≤ 0 →
    (s.val < 0 ∨ ∃ x ∈ l, x.val < 0) → (l.foldl (· + ·) s).val < 0
  | [], s, _, _, h => by
    rcases h with h | ⟨x, hx, _⟩
    · exact h
    · cases hx
  | y :: l, s, hl, hs, h => by
    have hy := hl y List.mem_cons_self
    have hle : (s + y).val ≤ s.val := by
      rw [Fl.val_add]
      calc r.rnd (s.val + y.val) ≤ r.rnd s.val := r.mono (by linarith)
        _ = s.val := s.2
    have hle' : (s + y).val ≤ y.val := by
      rw [Fl.val_add]
      calc r.rnd (s.val + y.val) ≤ r.rnd y.val := r.mono (by linarith)
        _ = y.val := y.2
    refine sum_negative l _ (fun x hx => hl x (List.mem_cons_of_mem _ hx)) (hle.trans hs) ?_
    rcases h with h | ⟨x, hx, hi⟩
    · exact .inl (lt_of_le_of_lt hle h)
    · rcases List.mem_cons.1 hx with rfl | hx
      · exact .inl (lt_of_le_of_lt hle' hi)
      · exact .inr ⟨x, hx, hi⟩

/-- **C152, `PPIter`.** If no element is at a positive distance of the centroids and one is at a negative distance,
`PPIter` panics, whatever is drawn; without rounding it would return the error of a null set. -/
theorem C152_ppIter (space : Space E (Fl r)) (clust data : List E) (h0 : ∀ x ∈ data, (nearest space clust x).2.val ≤ 0)
    (hlt : ∃ x ∈ data, (nearest space clust x).2.val < 0) (u : Fl r) (hu : 0 ≤ u.val) :
    ppIter space clust data u = .panic := by
  have hs : (sumF (mapLabel space clust data).2).val < 0 := by
    refine sum_negative _ 0 (fun y hy => ?_) (le_of_eq Fl.val_zero) (.inr ?_)
    · obtain ⟨z, hz, rfl⟩ := List.mem_map.1 hy; exact h0 z hz
    · obtain ⟨z, hz, h⟩ := hlt
      exact ⟨_, List.mem_map.2 ⟨z, hz, rfl⟩, h⟩
  unfold ppIter
  rw [C29_not_positive _ u (by
    rw [beq_eq_false_iff_ne]
    intro h
    rw [h, Fl.val_zero] at hs
    exact lt_irrefl _ hs) (by
    rw [Fl.lt_iff, Fl.val_zero, Fl.val_mul, not_lt]
    calc r.rnd (u.val * _) ≤ r.rnd 0 := r.mono (mul_nonpos_of_nonneg_of_nonpos hu hs.le)
      _ = 0 := r.zero)]
  rfl

end

/-! ### Witnesses -/

open FlCosExample in
/-- **C152 (claim examined): on equal data k-means++ returns an error.** In the cosine space, on data which are all
(2, 3), `PPInitializer` panics as soon as two centroids are asked for, whatever is drawn. -/
theorem C152_equal (n : Nat) (k : Int) (hk : 2 ≤ k) (hkn : k ≤ n) (first : Nat) (u : Fl binary64) (hu : 0 ≤ u.val)
    (us : List (Fl binary64)) : ppInitializer k (List.replicate n v) cs first (u :: us) = some .panic := by
  have hd : (nearest cs [v] v).2.val < 0 := by
    have : (nearest cs [v] v).2 = cs.dist v v := by simp [nearest, nearestLoop, Fl.neg_one_lt_zero]
    rw [this, vv]
    have : (0 : ℝ) < 2 ^ (-52 : ℤ) := by positivity
    linarith
  unfold ppInitializer
  rw [if_neg (by omega), if_pos (by simp [initCheck]; omega)]
  cases hf : (List.replicate n v)[first]? with
  | none => rfl
  | some e =>
    have he : e = v := List.eq_of_mem_replicate (List.mem_of_getElem? hf)
    subst he
    obtain ⟨j, hj⟩ : ∃ j, k.toNat - 1 = j + 1 := ⟨k.toNat - 2, by omega⟩
    simp only [hj, ppLoop]
    rw [C152_ppIter cs [v] (List.replicate n v) (fun x hx => by rw [List.eq_of_mem_replicate hx]; exact hd.le)
      ⟨v, List.mem_replicate.2 ⟨by omega, rfl⟩, hd⟩ u hu]

namespace CosNegExample
open FlCosExample

theorem small {f : Format} (ht : (100 : ℝ) < f.top) {x : Fl f.r} (h : |x.val| ≤ 100) : |x.val| < f.top := lt_of_le_of_lt h ht

/-- The cosine distance of a vector of two coordinates to itself, if all the intermediate results are small. -/
theorem cos_self {f : Format} (ht : (100 : ℝ) < f.top) (p : Vec (Fl f.r) 2) (x y : Fl f.r) (hp : p.1 = [x, y])
    (hx : |x.val| ≤ 100) (hy : |y.val| ≤ 100) (hxx : |(x * x).val| ≤ 100) (hyy : |(y * y).val| ≤ 100)
    (h0 : |(0 + x * x).val| ≤ 100) (b1 : |(scalarProduct p.1 p.1).val| ≤ 100) (b1' : 0 ≤ (scalarProduct p.1 p.1).val)
    (b2 : |(GoMath.sqrt (scalarProduct p.1 p.1)).val| ≤ 100) (hne : (GoMath.sqrt (scalarProduct p.1 p.1)).val ≠ 0)
    (b3 : |(scalarProduct p.1 p.1 / GoMath.sqrt (scalarProduct p.1 p.1)).val| ≤ 100)
    (b4 : |(scalarProduct p.1 p.1 / GoMath.sqrt (scalarProduct p.1 p.1) / GoMath.sqrt (scalarProduct p.1 p.1)).val| ≤ 100)
    (b5 : |((cosinusSpace (Fl f.r) 2).dist p p).val| ≤ 100) :
    ((cosinusSpace (Ieee f) 2).dist (p.toIeee f) (p.toIeee f)).1 = .fin ((cosinusSpace (Fl f.r) 2).dist p p).val := by
  have a0 : |(0 : Fl f.r).val| ≤ 100 := by rw [Fl.val_zero]; norm_num
  have a1 : |(1 : Fl f.r).val| ≤ 100 := by rw [Fl.val_one]; norm_num
  have hsp : scalarProduct (p.toIeee f).1 (p.toIeee f).1 = Fl.toIeee f (scalarProduct p.1 p.1) := by
    show scalarProduct (p.1.map _) (p.1.map _) = _
    rw [hp]
    show (0 + Fl.toIeee f x * Fl.toIeee f x) + Fl.toIeee f y * Fl.toIeee f y = Fl.toIeee f (0 + x * x + y * y)
    rw [Fl.toIeee_mul (small ht hx) (small ht hx), Fl.toIeee_mul (small ht hy) (small ht hy), ← Fl.toIeee_zero,
      Fl.toIeee_add (small ht a0) (small ht hxx), Fl.toIeee_add (small ht h0) (small ht hyy)]
  have h1 : (1 : Ieee f) = Fl.toIeee f 1 := by
    show Ieee.of f (.fin 1) = Ieee.of f (.fin (1 : Fl f.r).val)
    rw [Fl.val_one]
  have key : (cosinusSpace (Ieee f) 2).dist (p.toIeee f) (p.toIeee f) = Fl.toIeee f ((cosinusSpace (Fl f.r) 2).dist p p) := by
    show 1 - scalarProduct (p.toIeee f).1 (p.toIeee f).1 / GoMath.sqrt (scalarProduct (p.toIeee f).1 (p.toIeee f).1) /
      GoMath.sqrt (scalarProduct (p.toIeee f).1 (p.toIeee f).1) = Fl.toIeee f (1 - scalarProduct p.1 p.1 /
        GoMath.sqrt (scalarProduct p.1 p.1) / GoMath.sqrt (scalarProduct p.1 p.1))
    rw [hsp, h1, Fl.toIeee_sqrt (small ht b1) b1', Fl.toIeee_div (small ht b1) (small ht b2) hne,
      Fl.toIeee_div (small ht b3) (small ht b2) hne, Fl.toIeee_sub (small ht a1) (small ht b4)]
  rw [key, Fl.toIeee_val (small ht b5)]

/-- The vector (2, 3), as numbers with overflow. -/
noncomputable def vi : Vec (Ieee float64) 2 := Vec.toIeee float64 v

theorem vi_vi : ((cosinusSpace (Ieee float64) 2).dist vi vi).1 = .fin (-2 ^ (-52 : ℤ)) := by
  have hs : (scalarProduct v.1 v.1).val = ((13 : ℤ) : ℝ) := by
    rw [v, prod _ _ _ _ _ _ _ _ (by norm_num) (by norm_num) (by norm_num)]; norm_num
  have hn := nv
  have hq : (scalarProduct v.1 v.1 / GoMath.sqrt (scalarProduct v.1 v.1)).val = (8118979690322420 : ℤ) * 2 ^ (-51 : ℤ) := by
    rw [Fl.val_div, hs, hn, Int.cast_ofNat (R := ℝ) (n := 13), div1]
  have hqq : (scalarProduct v.1 v.1 / GoMath.sqrt (scalarProduct v.1 v.1) / GoMath.sqrt (scalarProduct v.1 v.1)).val =
      (2 ^ 52 + 1 : ℤ) * 2 ^ (-52 : ℤ) := by rw [Fl.val_div, hq, hn, div2]
  have e4 : (int 2 (by norm_num) * int 2 (by norm_num)).val = ((4 : ℤ) : ℝ) := by
    show binary64.rnd (((2 : ℤ) : ℝ) * ((2 : ℤ) : ℝ)) = _
    rw [← Int.cast_mul, binary64_int _ (by norm_num)]; norm_num
  have e9 : (int 3 (by norm_num) * int 3 (by norm_num)).val = ((9 : ℤ) : ℝ) := by
    show binary64.rnd (((3 : ℤ) : ℝ) * ((3 : ℤ) : ℝ)) = _
    rw [← Int.cast_mul, binary64_int _ (by norm_num)]; norm_num
  have e04 : ((0 : Fl binary64) + int 2 (by norm_num) * int 2 (by norm_num)).val = ((4 : ℤ) : ℝ) := by
    rw [Fl.val_add, e4, Fl.val_zero, zero_add, binary64_int _ (by norm_num)]
  have ht : (100 : ℝ) < float64.top := by
    show (100 : ℝ) < 2 ^ 1024
    calc (100 : ℝ) < 2 ^ 7 := by norm_num
      _ ≤ 2 ^ 1024 := pow_le_pow_right₀ (by norm_num) (by norm_num)
  have h := cos_self (f := float64) ht v (int 2 (by norm_num)) (int 3 (by norm_num)) rfl
    (by show |((2 : ℤ) : ℝ)| ≤ 100; norm_num) (by show |((3 : ℤ) : ℝ)| ≤ 100; norm_num)
    (e4 ▸ (by norm_num : |((4 : ℤ) : ℝ)| ≤ 100)) (e9 ▸ (by norm_num : |((9 : ℤ) : ℝ)| ≤ 100))
    (e04 ▸ (by norm_num : |((4 : ℤ) : ℝ)| ≤ 100)) (hs ▸ (by norm_num : |((13 : ℤ) : ℝ)| ≤ 100))
    (hs ▸ (by norm_num : (0 : ℝ) ≤ ((13 : ℤ) : ℝ))) (hn ▸ by norm_num [abs_le]) (hn ▸ by norm_num)
    (hq ▸ by norm_num [abs_le]) (hqq ▸ by norm_num [abs_le]) (vv ▸ by norm_num [abs_le])
  exact h.trans (congrArg XReal.fin vv)

end CosNegExample

open CosNegExample in
/-- **C152 (claim examined): mcmc works with every norm on finite data.** In the cosine space, with a norm which is not
an integer, if (2, 3) is among the data and is the last initial centroid, nothing is accepted until the next `Init`. -/
theorem C152_cosine {D R : Type} (p : McmcParams D (Vec (Ieee float64) 2) (Ieee float64) R)
    (hp : p.space = cosinusSpace (Ieee float64) 2) {b : ℝ} (hn : p.conf.norm.1 = .fin b) (hb : ∀ n : Int, b ≠ n)
    (impl : McmcImpl (Vec (Ieee float64) 2) (Ieee float64)) (d : D) (impl' : McmcImpl (Vec (Ieee float64) 2) (Ieee float64))
    (c : List (Vec (Ieee float64) 2)) (hi : impl.init p d = (impl', .ok (c ++ [vi]))) (hm : vi ∈ impl.buffer.apply.data)
    (ops : List (McmcOp D (Vec (Ieee float64) 2) (Ieee float64))) (s s' : McmcSys (Vec (Ieee float64) 2) (Ieee float64))
    (hs : s.impl = impl') (hop : ∀ op ∈ ops, ∀ d, op ≠ .init d) (hr : s.run p ops = some s') :
    isNaN impl'.current.loss ∧ s'.centroids = s.centroids ∧ s'.impl.acc = s.impl.acc ∧ s'.impl.store = s.impl.store :=
  C152_frozen p hn hb impl d impl' c vi vi hi hm (by rw [hp]; exact vi_vi)
    (by have : (0 : ℝ) < 2 ^ (-52 : ℤ) := by positivity
        linarith) ops s s' hs hop hr


open CosNegExample McmcStuckExample in
/-- `Init` succeeds there: with `InitK = 1` and the first datum as centroid, (2, 3) first, mcmc is stuck. -/
example (pi : Ieee float64) (conf : McmcConf (Ieee float64) Nat) {b : ℝ} (hn : conf.norm.1 = .fin b) (hb : ∀ n : Int, b ≠ n)
    (data : List (Vec (Ieee float64) 2)) (p : McmcParams Unit (Vec (Ieee float64) 2) (Ieee float64) Nat)
    (hp : p = { params 2 pi conf with space := cosinusSpace (Ieee float64) 2 }) :
    ∃ impl', (McmcImpl.new p (vi :: data)).init p () = (impl', .ok [vi]) ∧ isNaN impl'.current.loss := by
  subst hp
  obtain ⟨st, h1, -⟩ := reduceLoss_state Ieee.neg_one_lt (cosinusSpace (Ieee float64) 2) [vi] (vi :: data) (by simp) conf.norm
  generalize hq : ({ params 2 pi conf with space := cosinusSpace (Ieee float64) 2 } : McmcParams Unit (Vec (Ieee float64) 2)
    (Ieee float64) Nat) = p
  have hdat : (McmcImpl.new p (vi :: data)).buffer.apply.data = vi :: data := by rw [← hq]; rfl
  have hl : mcmcLoss p [vi] (vi :: data) = some (sumF st.1) := by
    rw [← hq]
    simp only [mcmcLoss, params, Bool.false_eq_true, if_false, totalLoss]
    exact congrArg (Option.map fun r => sumF r.1) h1
  have hin : p.initializer () p.conf.initK (vi :: data) = .ok [vi] := by
    rw [← hq]
    show firsts () 1 (vi :: data) = _
    simp [firsts]
  have hi : ((McmcImpl.new p (vi :: data)).init p ()).2 = .ok [vi] := by
    unfold McmcImpl.init
    simp only [hdat, hin, hl, proba, probaLoop]
  have hpair : (McmcImpl.new p (vi :: data)).init p () = (((McmcImpl.new p (vi :: data)).init p ()).1, .ok [vi]) :=
    Prod.ext rfl hi
  refine ⟨_, hpair, ?_⟩
  exact (C152_cosine p (by rw [← hq]) (by rw [← hq]; exact hn) hb _ () _ [] hpair (by rw [hdat]; simp) []
    ⟨((McmcImpl.new p (vi :: data)).init p ()).1, [vi], true⟩ _ rfl (by simp) rfl).1

end Distclus
