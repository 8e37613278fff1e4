import Verif.Proof.Infinite
import Verif.Proof.Nan
import Verif.Proof.XReal
/-!
# Points with an infinite coordinate, over the extended reals
-/
set_option linter.unusedSectionVars false
namespace Distclus
namespace XReal
open Spec

theorem infDiv : InfDiv XReal posInf where
  nan := by
    intro d hd x hx
    cases d with
    | nan => cases x <;> exact hx
    | negInf => exact hd posInf trivial
    | fin r => exact hd posInf trivial
    | posInf => cases x <;> exact hx
  zero := by
    intro d hd h0
    cases d with
    | nan => exact hd.elim
    | negInf => exact (h0 trivial).elim
    | fin r => rfl
    | posInf => exact hd.elim
  keep := by
    intro m h0 hi
    cases m with
    | nan => exact hi.elim
    | negInf => exact h0.elim
    | fin r =>
      have : (0 : ℝ) < r := h0
      show XReal.div posInf (fin r) = posInf
      simp [XReal.div, not_lt.2 this.le]
    | posInf => exact hi.elim
  ne := rfl
  pos := by
    intro m h0
    cases m with
    | fin r =>
      have h : (0 : ℝ) < r := h0
      show XReal.beq (fin r) (fin 0) = false
      simp [XReal.beq, h.ne']
    | _ => rfl

/-- The square of a difference of coordinates. -/
noncomputable abbrev sq (ab : XReal × XReal) : XReal := (ab.1 - ab.2) * (ab.1 - ab.2)

theorem sq_fin (a b : ℝ) : sq (fin a, fin b) = fin ((a - b) * (a - b)) := by
  show XReal.mul (XReal.add (fin a) (XReal.neg (fin b))) (XReal.add (fin a) (XReal.neg (fin b))) = _
  simp [XReal.neg, XReal.add, XReal.mul, sub_eq_add_neg]

/-- Sums of squares: finite and not negative while the terms are. -/
theorem sumSq_fin : ∀ (l : List (XReal × XReal)) (s : ℝ), 0 ≤ s → (∀ ab ∈ l, ∃ a b, ab = (fin a, fin b)) →
    ∃ r, 0 ≤ r ∧ l.foldl (fun s ab => s + sq ab) (fin s) = fin r
  | [], s, hs, _ => ⟨s, hs, rfl⟩
  | ab :: l, s, hs, h => by
    obtain ⟨a, b, rfl⟩ := h ab (by simp)
    obtain ⟨r, hr, e⟩ := sumSq_fin l (s + (a - b) * (a - b)) (add_nonneg hs (mul_self_nonneg _)) fun x hx => h x (by simp [hx])
    refine ⟨r, hr, ?_⟩
    rw [List.foldl_cons, sq_fin]
    exact e

/-- The squares are finite and not negative, infinite, or NaN. -/
def Term (x : XReal) : Prop := (∃ r, 0 ≤ r ∧ x = fin r) ∨ x = posInf ∨ x = nan

/-- A sum with an infinite term and no NaN is infinite. -/
theorem sumSq_inf : ∀ (l : List (XReal × XReal)) (s : XReal), ((∃ r, 0 ≤ r ∧ s = fin r) ∨ s = posInf) →
    (∀ ab ∈ l, (∃ r, 0 ≤ r ∧ sq ab = fin r) ∨ sq ab = posInf) → (s = posInf ∨ ∃ ab ∈ l, sq ab = posInf) →
    l.foldl (fun s ab => s + sq ab) s = posInf
  | [], s, _, _, h => by
    rcases h with h | ⟨ab, hab, _⟩
    · exact h
    · cases hab
  | ab :: l, s, hs, hl, h => by
    have hadd : ((∃ r, 0 ≤ r ∧ s + sq ab = fin r) ∨ s + sq ab = posInf) ∧ (s = posInf ∨ sq ab = posInf → s + sq ab = posInf) := by
      rcases hs with ⟨r, hr, rfl⟩ | rfl <;> rcases hl ab (by simp) with ⟨q, hq, e⟩ | e <;> rw [e]
      · exact ⟨Or.inl ⟨r + q, add_nonneg hr hq, rfl⟩, by rintro (h | h) <;> cases h⟩
      · exact ⟨Or.inr rfl, fun _ => rfl⟩
      · exact ⟨Or.inr rfl, fun _ => rfl⟩
      · exact ⟨Or.inr rfl, fun _ => rfl⟩
    rw [List.foldl_cons]
    refine sumSq_inf l _ hadd.1 (fun x hx => hl x (by simp [hx])) ?_
    rcases h with h | ⟨x, hx, hxs⟩
    · exact Or.inl (hadd.2 (Or.inl h))
    · rcases List.mem_cons.1 hx with rfl | hx
      · exact Or.inl (hadd.2 (Or.inr hxs))
      · exact Or.inr ⟨x, hx, hxs⟩

/-- A sum with an infinite or NaN term is infinite or NaN. -/
theorem sumSq_wild : ∀ (l : List (XReal × XReal)) (s : XReal), Term s → (∀ ab ∈ l, Term (sq ab)) →
    ((s = posInf ∨ s = nan) ∨ ∃ ab ∈ l, sq ab = posInf ∨ sq ab = nan) →
    l.foldl (fun s ab => s + sq ab) s = posInf ∨ l.foldl (fun s ab => s + sq ab) s = nan
  | [], s, _, _, h => by
    rcases h with h | ⟨ab, hab, _⟩
    · exact h
    · cases hab
  | ab :: l, s, hs, hl, h => by
    have hadd : Term (s + sq ab) ∧ ((s = posInf ∨ s = nan) ∨ (sq ab = posInf ∨ sq ab = nan) →
        s + sq ab = posInf ∨ s + sq ab = nan) := by
      rcases hs with ⟨r, hr, rfl⟩ | rfl | rfl <;> rcases hl ab (by simp) with ⟨q, hq, e⟩ | e | e <;> rw [e]
      · exact ⟨Or.inl ⟨r + q, add_nonneg hr hq, rfl⟩, by rintro ((h | h) | (h | h)) <;> cases h⟩
      · exact ⟨Or.inr (Or.inl rfl), fun _ => Or.inl rfl⟩
      · exact ⟨Or.inr (Or.inr rfl), fun _ => Or.inr rfl⟩
      · exact ⟨Or.inr (Or.inl rfl), fun _ => Or.inl rfl⟩
      · exact ⟨Or.inr (Or.inl rfl), fun _ => Or.inl rfl⟩
      · exact ⟨Or.inr (Or.inr rfl), fun _ => Or.inr rfl⟩
      · exact ⟨Or.inr (Or.inr rfl), fun _ => Or.inr rfl⟩
      · exact ⟨Or.inr (Or.inr rfl), fun _ => Or.inr rfl⟩
      · exact ⟨Or.inr (Or.inr rfl), fun _ => Or.inr rfl⟩
    rw [List.foldl_cons]
    refine sumSq_wild l _ hadd.1 (fun x hx => hl x (by simp [hx])) ?_
    rcases h with h | ⟨x, hx, hxs⟩
    · exact Or.inl (hadd.2 (Or.inl h))
    · rcases List.mem_cons.1 hx with rfl | hx
      · exact Or.inl (hadd.2 (Or.inr hxs))
      · exact Or.inr ⟨x, hx, hxs⟩

theorem mem_zip_left {α β : Type} : ∀ (p : List α) (q : List β), p.length = q.length → ∀ x ∈ p, ∃ y ∈ q, (x, y) ∈ List.zip p q
  | [], _, _, _, hx => by cases hx
  | a :: p, [], h, _, _ => by cases h
  | a :: p, b :: q, h, x, hx => by
    rcases List.mem_cons.1 hx with rfl | hx
    · exact ⟨b, by simp, by simp⟩
    · obtain ⟨y, hy, hm⟩ := mem_zip_left p q (by simpa using h) x hx
      exact ⟨y, by simp [hy], by simp [hm]⟩

theorem mem_zip_right {α β : Type} (p : List α) (q : List β) (h : p.length = q.length) (y : β) (hy : y ∈ q) :
    ∃ x ∈ p, (x, y) ∈ List.zip p q := by
  obtain ⟨x, hx, hm⟩ := mem_zip_left q p h.symm y hy
  refine ⟨x, hx, ?_⟩
  rw [← List.zip_swap]
  exact List.mem_map.2 ⟨(y, x), hm, rfl⟩

theorem zip_of_zipWith {α β γ : Type} (g : α → β → γ) : ∀ (p : List α) (q : List β) {z : γ}, z ∈ List.zipWith g p q →
    ∃ x ∈ p, ∃ y ∈ q, (x, y) ∈ List.zip p q ∧ z = g x y
  | [], _, _, h => by simp at h
  | _ :: _, [], _, h => by simp at h
  | a :: p, b :: q, z, h => by
    rw [List.zipWith_cons_cons] at h
    rcases List.mem_cons.1 h with rfl | h
    · exact ⟨a, by simp, b, by simp, by simp, rfl⟩
    · obtain ⟨x, hx, y, hy, hm, e⟩ := zip_of_zipWith g p q h
      exact ⟨x, by simp [hx], y, by simp [hy], by simp [hm], e⟩

/-- The weighted mean of two coordinates. -/
noncomputable abbrev wm (w v : Int) (x y : XReal) : XReal :=
  (x * GoMath.ofInt w + y * GoMath.ofInt v) / (GoMath.ofInt w + GoMath.ofInt v)

theorem wm_fin {w v : Int} (hw : 0 < w) (hv : 0 < v) (a b : ℝ) : ∃ r, wm w v (fin a) (fin b) = fin r := by
  have h : (w : ℝ) + v ≠ 0 := by
    have : (0 : ℝ) < w := by exact_mod_cast hw
    have : (0 : ℝ) < v := by exact_mod_cast hv
    positivity
  refine ⟨(a * w + b * v) / (w + v), ?_⟩
  show XReal.div (fin (a * w + b * v)) (fin ((w : ℝ) + v)) = _
  simp [XReal.div, h]

theorem wm_inf {w v : Int} (hw : 0 < w) (hv : 0 < v) {x y : XReal} (hx : (∃ r, x = fin r) ∨ x = posInf)
    (hy : (∃ r, y = fin r) ∨ y = posInf) (h : x = posInf ∨ y = posInf) : wm w v x y = posInf := by
  have h1 : (0 : ℝ) < w := by exact_mod_cast hw
  have h2 : (0 : ℝ) < v := by exact_mod_cast hv
  have m1 : ∀ u : Int, (0 : ℝ) < u → XReal.mul posInf (fin u) = posInf := fun u hu => by simp [XReal.mul, infOf, hu]
  have hd : XReal.div posInf (fin ((w : ℝ) + v)) = posInf := by
    simp [XReal.div, not_lt.2 (add_pos h1 h2).le]
  rcases hx with ⟨a, rfl⟩ | rfl <;> rcases hy with ⟨b, rfl⟩ | rfl
  · rcases h with h | h <;> cases h
  · show XReal.div (XReal.add (fin (a * w)) (XReal.mul posInf (fin v))) (fin ((w : ℝ) + v)) = posInf
    rw [m1 v h2]; exact hd
  · show XReal.div (XReal.add (XReal.mul posInf (fin w)) (fin (b * v))) (fin ((w : ℝ) + v)) = posInf
    rw [m1 w h1]; exact hd
  · show XReal.div (XReal.add (XReal.mul posInf (fin w)) (XReal.mul posInf (fin v))) (fin ((w : ℝ) + v)) = posInf
    rw [m1 w h1, m1 v h2]; exact hd

theorem sq_one_inf {x y : XReal} (h : ((∃ r, x = fin r) ∧ y = posInf) ∨ (x = posInf ∧ ∃ r, y = fin r)) : sq (x, y) = posInf := by
  rcases h with ⟨⟨r, rfl⟩, rfl⟩ | ⟨rfl, r, rfl⟩ <;> rfl

theorem euclid_strays (n : Nat) : Strays (euclidSpace XReal n) FinitePoint InfPoint posInf := by
  have zl : ∀ (p q : Vec XReal n), p.1.length = q.1.length := fun p q => by rw [p.2, q.2]
  have zm : ∀ (p q : Vec XReal n) {ab : XReal × XReal}, ab ∈ List.zip p.1 q.1 → ab.1 ∈ p.1 ∧ ab.2 ∈ q.1 :=
    fun p q ab h => List.of_mem_zip h
  have sqrtInf : GoMath.sqrt (posInf : XReal) = posInf := rfl
  have top : ∀ x : XReal, ¬ posInf < x := fun x h => by cases x <;> exact h
  have cls : ∀ {x y : XReal}, ((∃ r, x = fin r) ∨ x = posInf) → ((∃ r, y = fin r) ∨ y = posInf) → Term (sq (x, y)) := by
    rintro x y (⟨a, rfl⟩ | rfl) (⟨b, rfl⟩ | rfl)
    · exact Or.inl ⟨_, mul_self_nonneg (a - b), sq_fin a b⟩
    · exact Or.inr (Or.inl rfl)
    · exact Or.inr (Or.inl rfl)
    · exact Or.inr (Or.inr rfl)
  have dgood : ∀ {a b : Vec XReal n}, FinitePoint a → FinitePoint b → ∃ r, 0 ≤ r ∧ (euclidSpace XReal n).dist a b = fin r := by
    intro a b ha hb
    obtain ⟨r, hr, e⟩ := sumSq_fin (List.zip a.1 b.1) 0 le_rfl fun ab hab => by
      obtain ⟨h1, h2⟩ := zm a b hab
      obtain ⟨x, hx⟩ := ha _ h1
      obtain ⟨y, hy⟩ := hb _ h2
      exact ⟨x, y, Prod.ext hx hy⟩
    refine ⟨Real.sqrt r, Real.sqrt_nonneg _, ?_⟩
    show GoMath.sqrt (List.foldl _ (fin 0) _) = _
    rw [e]
    show (if r < 0 then nan else fin (Real.sqrt r)) = _
    rw [if_neg (not_lt.2 hr)]
  have dinf : ∀ {a b : Vec XReal n}, (FinitePoint a ∧ InfPoint b) ∨ (InfPoint a ∧ FinitePoint b) →
      (euclidSpace XReal n).dist a b = posInf := by
    intro a b h
    have : (List.zip a.1 b.1).foldl (fun s ab => s + sq ab) (fin 0) = posInf := by
      refine sumSq_inf _ _ (Or.inl ⟨0, le_rfl, rfl⟩) (fun ab hab => ?_) (Or.inr ?_)
      · obtain ⟨x, y⟩ := ab
        obtain ⟨h1, h2⟩ := zm a b hab
        rcases h with ⟨ha, hb⟩ | ⟨ha, hb⟩
        · obtain ⟨r, rfl⟩ := ha x h1
          rcases hb.1 y h2 with ⟨q, rfl⟩ | rfl
          · exact Or.inl ⟨_, mul_self_nonneg (r - q), sq_fin r q⟩
          · exact Or.inr rfl
        · obtain ⟨r, rfl⟩ := hb y h2
          rcases ha.1 x h1 with ⟨q, rfl⟩ | rfl
          · exact Or.inl ⟨_, mul_self_nonneg (q - r), sq_fin q r⟩
          · exact Or.inr rfl
      · rcases h with ⟨ha, hb⟩ | ⟨ha, hb⟩
        · obtain ⟨x, hx, hm⟩ := mem_zip_right a.1 b.1 (zl a b) posInf hb.2
          exact ⟨_, hm, sq_one_inf (Or.inl ⟨ha x hx, rfl⟩)⟩
        · obtain ⟨y, hy, hm⟩ := mem_zip_left a.1 b.1 (zl a b) posInf ha.2
          exact ⟨_, hm, sq_one_inf (Or.inr ⟨rfl, hb y hy⟩)⟩
    show GoMath.sqrt (List.foldl _ (fin 0) _) = _
    exact (congrArg GoMath.sqrt this).trans sqrtInf
  refine ⟨top, fun ha hb => ?_, fun ha hb => ?_, fun ha hb => dinf (Or.inl ⟨ha, hb⟩), fun ha hb => dinf (Or.inr ⟨ha, hb⟩), ?_,
    ?_, ?_, fun h => h, fun h => h⟩
  · obtain ⟨r, -, e⟩ := dgood ha hb
    rw [e]; trivial
  · obtain ⟨r, hr, e⟩ := dgood ha hb
    rw [e]; exact not_lt.2 hr
  · intro a b ha hb x
    have : (List.zip a.1 b.1).foldl (fun s ab => s + sq ab) (fin 0) = posInf ∨
        (List.zip a.1 b.1).foldl (fun s ab => s + sq ab) (fin 0) = nan := by
      refine sumSq_wild _ _ (Or.inl ⟨0, le_rfl, rfl⟩) (fun ab hab => ?_) (Or.inr ?_)
      · obtain ⟨h1, h2⟩ := zm a b hab
        exact cls (ha.1 _ h1) (hb.1 _ h2)
      · obtain ⟨y, hy, hm⟩ := mem_zip_left a.1 b.1 (zl a b) posInf ha.2
        refine ⟨_, hm, ?_⟩
        rcases hb.1 y hy with ⟨r, rfl⟩ | rfl
        · exact Or.inl rfl
        · exact Or.inr rfl
    show ¬ GoMath.sqrt (List.foldl _ (fin 0) _) < x
    rcases this with h | h <;> rw [show List.foldl (fun s (ab : XReal × XReal) => s + (ab.1 - ab.2) * (ab.1 - ab.2)) (fin 0)
      (List.zip a.1 b.1) = _ from h]
    · exact top x
    · intro h; cases x <;> exact h
  · intro a b w v ha hb hw hv z hz
    obtain ⟨x, hx, y, hy, -, rfl⟩ := zip_of_zipWith _ a.1 b.1 (show z ∈ pointCombine a.1 w b.1 v from hz)
    obtain ⟨r, rfl⟩ := ha x hx
    obtain ⟨q, rfl⟩ := hb y hy
    exact wm_fin hw hv r q
  · intro a b w v h hw hv
    have ha : ∀ x ∈ a.1, (∃ r, x = fin r) ∨ x = posInf := by
      rcases h with ⟨ha, -⟩ | ⟨ha, -⟩
      · exact ha.1
      · exact fun x hx => Or.inl (ha x hx)
    have hb : ∀ x ∈ b.1, (∃ r, x = fin r) ∨ x = posInf := by
      rcases h with ⟨-, hb | hb⟩ | ⟨-, hb⟩
      · exact fun x hx => Or.inl (hb x hx)
      · exact hb.1
      · exact hb.1
    constructor
    · intro z hz
      obtain ⟨x, hx, y, hy, -, rfl⟩ := zip_of_zipWith _ a.1 b.1 (show z ∈ pointCombine a.1 w b.1 v from hz)
      by_cases hxy : x = posInf ∨ y = posInf
      · exact Or.inr (wm_inf hw hv (ha x hx) (hb y hy) hxy)
      · push Not at hxy
        obtain ⟨r, rfl⟩ := (ha x hx).resolve_right hxy.1
        obtain ⟨q, rfl⟩ := (hb y hy).resolve_right hxy.2
        exact Or.inl (wm_fin hw hv r q)
    · have : ∃ ab ∈ List.zip a.1 b.1, ab.1 = posInf ∨ ab.2 = posInf := by
        rcases h with ⟨h, -⟩ | ⟨-, h⟩
        · obtain ⟨y, -, hm⟩ := mem_zip_left a.1 b.1 (zl a b) posInf h.2
          exact ⟨_, hm, Or.inl rfl⟩
        · obtain ⟨x, -, hm⟩ := mem_zip_right a.1 b.1 (zl a b) posInf h.2
          exact ⟨_, hm, Or.inr rfl⟩
      obtain ⟨⟨x, y⟩, hm, hxy⟩ := this
      obtain ⟨h1, h2⟩ := zm a b hm
      have := mem_zipWith_of_zip (wm w v) a.1 b.1 hm
      rw [wm_inf hw hv (ha x h1) (hb y h2) hxy] at this
      exact this

/-- A value which is not finite. -/
def NonFin (x : XReal) : Prop := ∀ r, x ≠ fin r

theorem NonFin.add_left {x : XReal} (h : NonFin x) (y : XReal) : NonFin (x + y) := by
  intro r e
  cases x with
  | fin a => exact h a rfl
  | _ => cases y <;> cases e

theorem NonFin.add_right (x : XReal) {y : XReal} (h : NonFin y) : NonFin (x + y) := by
  intro r e
  cases y with
  | fin a => exact h a rfl
  | _ => cases x <;> cases e

theorem nonFin_infOf (a : ℝ) : NonFin (infOf a) := by
  intro r e
  unfold infOf at e
  split at e
  · cases e
  · split at e <;> cases e

theorem NonFin.mul_left {x : XReal} (h : NonFin x) (y : XReal) : NonFin (x * y) := by
  intro r e
  cases x with
  | fin a => exact h a rfl
  | nan => cases y <;> cases e
  | _ =>
    cases y with
    | fin b => exact nonFin_infOf _ r e
    | _ => cases e

theorem NonFin.mul_right (x : XReal) {y : XReal} (h : NonFin y) : NonFin (x * y) := by
  intro r e
  cases y with
  | fin a => exact h a rfl
  | nan => cases x <;> cases e
  | _ =>
    cases x with
    | fin b => exact nonFin_infOf _ r e
    | _ => cases e

theorem NonFin.div {x : XReal} (h : NonFin x) (y : XReal) : NonFin (x / y) := by
  intro r e
  cases x with
  | fin a => exact h a rfl
  | nan => cases y <;> cases e
  | negInf =>
    cases y with
    | fin b =>
      change (if b < 0 then posInf else negInf) = fin r at e
      split at e <;> cases e
    | _ => cases e
  | posInf =>
    cases y with
    | fin b =>
      change (if b < 0 then negInf else posInf) = fin r at e
      split at e <;> cases e
    | _ => cases e

/-- What is not finite divided by `+Inf` or NaN is NaN. -/
theorem NonFin.div_wild {x : XReal} (h : NonFin x) {y : XReal} (hy : y = posInf ∨ y = nan) : x / y = nan := by
  rcases hy with rfl | rfl
  · cases x with
    | fin a => exact (h a rfl).elim
    | _ => rfl
  · cases x with
    | fin a => rfl
    | _ => rfl

theorem nan_div (y : XReal) : (nan : XReal) / y = nan := by cases y <;> rfl

theorem scalar_nonFin : ∀ (l : List (XReal × XReal)) (s : XReal),
    (NonFin s ∨ ∃ ab ∈ l, NonFin ab.1 ∨ NonFin ab.2) → NonFin (l.foldl (fun s ab => s + ab.1 * ab.2) s)
  | [], s, h => by
    rcases h with h | ⟨ab, hab, _⟩
    · exact h
    · cases hab
  | ab :: l, s, h => by
    rw [List.foldl_cons]
    apply scalar_nonFin l
    rcases h with h | ⟨x, hx, hxs⟩
    · exact Or.inl (h.add_left _)
    · rcases List.mem_cons.1 hx with rfl | hx
      · refine Or.inl (NonFin.add_right _ ?_)
        rcases hxs with h | h
        · exact h.mul_left _
        · exact h.mul_right _
      · exact Or.inr ⟨x, hx, hxs⟩

theorem Term.add {x y : XReal} (hx : Term x) (hy : Term y) : Term (x + y) := by
  rcases hx with ⟨r, hr, rfl⟩ | rfl | rfl <;> rcases hy with ⟨q, hq, rfl⟩ | rfl | rfl
  · exact Or.inl ⟨r + q, add_nonneg hr hq, rfl⟩
  all_goals first
    | exact Or.inr (Or.inl rfl)
    | exact Or.inr (Or.inr rfl)

theorem term_self (x : XReal) : Term (x * x) := by
  cases x with
  | fin r => exact Or.inl ⟨r * r, mul_self_nonneg r, rfl⟩
  | nan => exact Or.inr (Or.inr rfl)
  | _ => exact Or.inr (Or.inl rfl)

theorem scalar_term : ∀ (l : List XReal) (s : XReal), Term s →
    Term ((List.zip l l).foldl (fun s ab => s + ab.1 * ab.2) s)
  | [], s, h => h
  | x :: l, s, h => by
    rw [List.zip_cons_cons, List.foldl_cons]
    exact scalar_term l _ (h.add (term_self x))

theorem NonFin.sqrt {x : XReal} (h : NonFin x) (ht : Term x) : GoMath.sqrt x = posInf ∨ GoMath.sqrt x = nan := by
  rcases ht with ⟨r, -, rfl⟩ | rfl | rfl
  · exact (h r rfl).elim
  · exact Or.inl rfl
  · exact Or.inr rfl

/-- In the cosine space a coordinate which is not finite is as bad as a NaN. -/
theorem cosinus_taints_inf (n : Nat) : Taints (cosinusSpace XReal n) NotFinite := by
  have zl : ∀ (p q : Vec XReal n), p.1.length = q.1.length := fun p q => by rw [p.2, q.2]
  have pair : ∀ {p q : Vec XReal n}, NotFinite p ∨ NotFinite q → ∃ ab ∈ List.zip p.1 q.1, NonFin ab.1 ∨ NonFin ab.2 := by
    rintro p q (⟨x, hx, h⟩ | ⟨x, hx, h⟩)
    · obtain ⟨y, -, hm⟩ := mem_zip_left p.1 q.1 (zl p q) x hx
      exact ⟨_, hm, Or.inl h⟩
    · obtain ⟨y, -, hm⟩ := mem_zip_right p.1 q.1 (zl p q) x hx
      exact ⟨_, hm, Or.inr h⟩
  have norm : ∀ {p : Vec XReal n}, NotFinite p →
      GoMath.sqrt (scalarProduct p.1 p.1) = posInf ∨ GoMath.sqrt (scalarProduct p.1 p.1) = nan := fun {p} h =>
    NonFin.sqrt (scalar_nonFin _ _ (Or.inr (pair (Or.inl h)))) (scalar_term _ _ (Or.inl ⟨0, le_rfl, rfl⟩))
  refine ⟨fun {p q} h => ?_, fun {p q} w v h => ?_, fun h => h⟩
  · have hs : NonFin (scalarProduct p.1 q.1) := scalar_nonFin _ _ (Or.inr (pair h))
    have : scalarProduct p.1 q.1 / GoMath.sqrt (scalarProduct p.1 p.1) / GoMath.sqrt (scalarProduct q.1 q.1) = nan := by
      rcases h with h | h
      · rw [hs.div_wild (norm h), nan_div]
      · exact (hs.div _).div_wild (norm h)
    show (1 : XReal) - _ = nan
    rw [this]
    rfl
  · obtain ⟨⟨x, y⟩, hm, hxy⟩ := pair h
    refine ⟨_, mem_zipWith_of_zip (wm w v) p.1 q.1 hm, NonFin.div ?_ _⟩
    rcases hxy with h | h
    · exact (h.mul_left _).add_left _
    · exact NonFin.add_right _ (h.mul_left _)

/-- The coordinate `i` is the given infinity or NaN. -/
def AtWild {n : Nat} (i : Nat) (y : XReal) (p : Vec XReal n) : Prop := p.1[i]? = some y ∨ p.1[i]? = some nan

theorem wm_wild {w v : Int} (hw : 0 < w) (hv : 0 < v) {y : XReal} (hy : y = posInf ∨ y = negInf) (a b : XReal)
    (h : (a = y ∨ a = nan) ∨ (b = y ∨ b = nan)) : wm w v a b = y ∨ wm w v a b = nan := by
  have h1 : (0 : ℝ) < w := by exact_mod_cast hw
  have h2 : (0 : ℝ) < v := by exact_mod_cast hv
  have e1 : (0 : ℝ) < (w : ℝ) + v := add_pos h1 h2
  have m1 : ∀ (u : Int), (0 : ℝ) < u → y * (GoMath.ofInt u : XReal) = y := by
    intro u hu
    rcases hy with rfl | rfl
    · show infOf (u : ℝ) = posInf
      simp [infOf, hu]
    · show infOf (-(u : ℝ)) = negInf
      simp [infOf, hu, not_lt.2 hu.le]
  have nm : ∀ x : XReal, nan * x = nan := fun x => by cases x <;> rfl
  have na : ∀ x : XReal, nan + x = nan := fun x => by cases x <;> rfl
  have an : ∀ x : XReal, x + nan = nan := fun x => by cases x <;> rfl
  have ya : ∀ x : XReal, (y + x = y ∨ y + x = nan) ∧ (x + y = y ∨ x + y = nan) := by
    intro x
    rcases hy with rfl | rfl <;> cases x <;>
      exact ⟨by first | exact Or.inl rfl | exact Or.inr rfl, by first | exact Or.inl rfl | exact Or.inr rfl⟩
  have yd : y / (fin ((w : ℝ) + v)) = y := by
    rcases hy with rfl | rfl
    · show (if (w : ℝ) + v < 0 then negInf else posInf) = posInf
      rw [if_neg (not_lt.2 e1.le)]
    · show (if (w : ℝ) + v < 0 then posInf else negInf) = negInf
      rw [if_neg (not_lt.2 e1.le)]
  have fin' : ∀ z : XReal, z = y ∨ z = nan → z / (fin ((w : ℝ) + v)) = y ∨ z / (fin ((w : ℝ) + v)) = nan := by
    rintro z (rfl | rfl)
    · exact Or.inl yd
    · exact Or.inr rfl
  refine fin' _ ?_
  rcases h with (rfl | rfl) | (rfl | rfl)
  · rw [m1 w h1]; exact (ya _).1
  · rw [nm, na]; exact Or.inr rfl
  · rw [m1 v h2]; exact (ya _).2
  · rw [nm, an]; exact Or.inr rfl

theorem AtWild.combine {n : Nat} {i : Nat} {y : XReal} (hy : y = posInf ∨ y = negInf) {p q : Vec XReal n} {w v : Int}
    (hw : 0 < w) (hv : 0 < v) (h : AtWild i y p ∨ AtWild i y q) : AtWild i y ((euclidSpace XReal n).combine p w q v) := by
  have hi : i < n := by
    rcases h with (h | h) | (h | h) <;>
      · have := (List.getElem?_eq_some_iff.1 h).1
        have hp := p.2
        have hq := q.2
        omega
  have ep : p.1[i]? = some (p.1[i]'(by rw [p.2]; exact hi)) := List.getElem?_eq_getElem _
  have eq : q.1[i]? = some (q.1[i]'(by rw [q.2]; exact hi)) := List.getElem?_eq_getElem _
  have e : ((euclidSpace XReal n).combine p w q v).1[i]? =
      some (wm w v (p.1[i]'(by rw [p.2]; exact hi)) (q.1[i]'(by rw [q.2]; exact hi))) := by
    show (List.zipWith (wm w v) p.1 q.1)[i]? = _
    rw [List.getElem?_zipWith, ep, eq]
  have := wm_wild hw hv hy (p.1[i]'(by rw [p.2]; exact hi)) (q.1[i]'(by rw [q.2]; exact hi)) (by
    unfold AtWild at h
    rw [ep, eq] at h
    simpa using h)
  rcases this with h | h
  · exact Or.inl (by rw [e, h])
  · exact Or.inr (by rw [e, h])

/-- The distance of a point with an infinite coordinate to a finite one. -/
theorem dist_wild {n : Nat} {e c : Vec XReal n} (he : posInf ∈ e.1 ∨ negInf ∈ e.1) (hc : FinitePoint c) :
    (euclidSpace XReal n).dist e c = posInf ∨ (euclidSpace XReal n).dist e c = nan := by
  have : (List.zip e.1 c.1).foldl (fun s ab => s + sq ab) (fin 0) = posInf ∨
      (List.zip e.1 c.1).foldl (fun s ab => s + sq ab) (fin 0) = nan := by
    refine sumSq_wild _ _ (Or.inl ⟨0, le_rfl, rfl⟩) (fun ab _ => term_self _) (Or.inr ?_)
    rcases he with he | he <;>
    · obtain ⟨y, hy, hm⟩ := mem_zip_left e.1 c.1 (by rw [e.2, c.2]) _ he
      obtain ⟨r, rfl⟩ := hc y hy
      exact ⟨_, hm, Or.inl rfl⟩
  rcases this with h | h
  · exact Or.inl (congrArg GoMath.sqrt h)
  · exact Or.inr (congrArg GoMath.sqrt h)

theorem nearest_wild {n : Nat} {e : Vec XReal n} (he : posInf ∈ e.1 ∨ negInf ∈ e.1) (c0 : Vec XReal n)
    (cs : List (Vec XReal n)) (hc : ∀ x ∈ c0 :: cs, FinitePoint x) :
    (nearest (euclidSpace XReal n) (c0 :: cs) e).1 = 0 := by
  have h0 : nearest (euclidSpace XReal n) (c0 :: cs) e =
      nearestLoop (euclidSpace XReal n) e cs 1 0 ((euclidSpace XReal n).dist e c0) := by
    simp only [nearest, nearestLoop, if_pos (Or.inl neg_one_lt : (-1 : XReal) < 0 ∨ (euclidSpace XReal n).dist e c0 < -1)]
    rfl
  have nl : ∀ x ∈ c0 :: cs, ∀ y, ¬ (euclidSpace XReal n).dist e x < y := by
    intro x hx y hlt
    rcases dist_wild he (hc x hx) with h | h <;> rw [h] at hlt <;> cases y <;> exact hlt
  rw [h0, nearestLoop_stay _ e cs 1 0 _ (nl c0 (by simp) _) fun x hx => nl x (by simp [hx]) _]

end XReal
end Distclus
