import Verif.Spec.InfChoice
import Verif.Props.McmcInf
import Verif.Props.NullVec
import Verif.Props.ProbaK
/-!
# C151: infinite weights, and weights whose sum overflows

`WeightedChoice` multiplies the draw with the sum of the weights.  If the sum is `+Inf`, the cursor is `+Inf` until an
infinite weight makes it NaN, whatever has been drawn.
-/
set_option linter.unusedSectionVars false

namespace Distclus
open Spec

section
variable {f : Format} {D E R : Type}

/-! ### The weighted choice -/

theorem Ieee.zero_lt_inf {x : Ieee f} (h : x.1 = .posInf) : (0 : Ieee f) < x := by
  have h0 : (0 : Ieee f).1 = .fin 0 := by
    rw [← Fl.toIeee_zero, Fl.toIeee_val]
    · rw [Fl.val_zero]
    · rw [Fl.val_zero, abs_zero]; linarith [f.one_lt_top]
  show XReal.lt _ _
  rw [h0, h]; trivial

theorem Ieee.inf_ne_zero {x : Ieee f} (h : x.1 = .posInf) : (x == 0) = false := by
  show (x.1 == (0 : Ieee f).1) = false
  have h0 : (0 : Ieee f).1 = .fin 0 := by
    rw [← Fl.toIeee_zero, Fl.toIeee_val]
    · rw [Fl.val_zero]
    · rw [Fl.val_zero, abs_zero]; linarith [f.one_lt_top]
  rw [h0, h]; rfl

/-- The sum of a weight and a weight: never NaN, infinite if one of them is. -/
theorem weight_add {a b : Ieee f} (ha : FiniteWeight a ∨ a.1 = .posInf) (hb : FiniteWeight b ∨ b.1 = .posInf) :
    (FiniteWeight (a + b) ∨ (a + b).1 = .posInf) ∧ (a.1 = .posInf ∨ b.1 = .posInf → (a + b).1 = .posInf) := by
  have key : (a + b).1 = f.round (XReal.add a.1 b.1) := rfl
  rcases ha with ⟨x, hx, ha⟩ | ha <;> rcases hb with ⟨y, hy, hb⟩ | hb
  · refine ⟨?_, fun h => ?_⟩
    · have hn : ¬ (a + b) < 0 := Ieee.round_nonneg (by rw [ha, hb]; exact not_lt.2 (add_nonneg hx hy))
      rw [Ieee.lt_zero_iff] at hn
      have hk : (a + b).1 = f.round (.fin (x + y)) := by rw [key, ha, hb]; rfl
      simp only [Format.round] at hk
      split at hk
      · rw [hk] at hn
        exact .inl ⟨_, not_lt.1 hn, hk⟩
      · split at hk
        · exact .inr hk
        · rw [hk] at hn; exact absurd trivial hn
    · rcases h with h | h
      · rw [ha] at h; cases h
      · rw [hb] at h; cases h
  · have : (a + b).1 = .posInf := by rw [key, ha, hb]; rfl
    exact ⟨.inr this, fun _ => this⟩
  · have : (a + b).1 = .posInf := by rw [key, ha, hb]; rfl
    exact ⟨.inr this, fun _ => this⟩
  · have : (a + b).1 = .posInf := by rw [key, ha, hb]; rfl
    exact ⟨.inr this, fun _ => this⟩

theorem weight_foldl {A : Type} (t : A → Ieee f) : ∀ (l : List A) (s : Ieee f), (∀ x ∈ l, FiniteWeight (t x) ∨ (t x).1 = .posInf) →
    (FiniteWeight s ∨ s.1 = .posInf) → (s.1 = .posInf ∨ ∃ x ∈ l, (t x).1 = .posInf) →
    (l.foldl (fun s x => s + t x) s).1 = .posInf
  | [], s, _, _, h => by
    rcases h with h | ⟨x, hx, _⟩
    · exact h
    · cases hx
  | y :: l, s, hl, hs, h => by
    have hy := hl y List.mem_cons_self
    have hw := weight_add hs hy
    refine weight_foldl t l _ (fun x hx => hl x (List.mem_cons_of_mem _ hx)) hw.1 ?_
    rcases h with h | ⟨x, hx, hi⟩
    · exact .inl (hw.2 (.inl h))
    · rcases List.mem_cons.1 hx with rfl | hx
      · exact .inl (hw.2 (.inr hi))
      · exact .inr ⟨x, hx, hi⟩

theorem weight_zero : FiniteWeight (0 : Ieee f) := by
  refine ⟨0, le_refl _, ?_⟩
  rw [← Fl.toIeee_zero, Fl.toIeee_val]
  · rw [Fl.val_zero]
  · rw [Fl.val_zero, abs_zero]; linarith [f.one_lt_top]

theorem sumF_inf (ws : List (Ieee f)) (hw : ∀ w ∈ ws, FiniteWeight w ∨ w.1 = .posInf) (hi : ∃ w ∈ ws, w.1 = .posInf) :
    (sumF ws).1 = .posInf :=
  weight_foldl (fun w => w) ws 0 hw (.inl weight_zero) (.inr hi)

theorem Ieee.mul_inf {u s : Ieee f} {x : ℝ} (hu : u.1 = .fin x) (hs : s.1 = .posInf) :
    (0 < x → (u * s).1 = .posInf) ∧ (x = 0 → (u * s).1 = .nan) := by
  have key : (u * s).1 = f.round (XReal.mul u.1 s.1) := rfl
  rw [hu, hs] at key
  refine ⟨fun h => ?_, fun h => ?_⟩
  · rw [key]; simp only [XReal.mul, XReal.infOf, if_pos h]; rfl
  · rw [key, h]; simp [XReal.mul, XReal.infOf, Format.round]

/-- The loop from an infinite cursor: it passes the finite weights and stops behind the first infinite one. -/
theorem choiceLoop_inf (w : Ieee f) (hw : w.1 = .posInf) (post : List (Ieee f)) : ∀ (pre : List (Ieee f)) (cursor : Ieee f) (idx : Int),
    (∀ x ∈ pre, FiniteWeight x) → cursor.1 = .posInf →
    choiceLoop (pre ++ w :: post) cursor idx = some (idx + pre.length)
  | [], cursor, idx, _, hc => by
    have hn : (cursor - w).1 = .nan := by
      show f.round (XReal.add cursor.1 (XReal.neg w.1)) = _
      rw [hc, hw]; rfl
    have hlt : ¬ (0 : Ieee f) < cursor - w := by
      show ¬ XReal.lt _ _
      rw [hn]; cases (0 : Ieee f).1 <;> exact id
    simp only [List.nil_append, choiceLoop, if_pos (Ieee.zero_lt_inf hc)]
    cases post <;> simp [choiceLoop, if_neg hlt]
  | y :: pre, cursor, idx, hp, hc => by
    obtain ⟨r, _, hy⟩ := hp y List.mem_cons_self
    have hn : (cursor - y).1 = .posInf := by
      show f.round (XReal.add cursor.1 (XReal.neg y.1)) = _
      rw [hc, hy]; rfl
    simp only [List.cons_append, choiceLoop, if_pos (Ieee.zero_lt_inf hc)]
    rw [choiceLoop_inf w hw post pre _ _ (fun x hx => hp x (List.mem_cons_of_mem _ hx)) hn]
    simp only [List.length_cons, Option.some.injEq]
    push_cast
    ring

theorem choiceLoop_overflow : ∀ (ws : List (Ieee f)) (cursor : Ieee f) (idx : Int),
    (∀ x ∈ ws, FiniteWeight x) → cursor.1 = .posInf → choiceLoop ws cursor idx = none
  | [], cursor, idx, _, hc => by simp only [choiceLoop, if_pos (Ieee.zero_lt_inf hc)]
  | y :: ws, cursor, idx, hp, hc => by
    obtain ⟨r, _, hy⟩ := hp y List.mem_cons_self
    have hn : (cursor - y).1 = .posInf := by
      show f.round (XReal.add cursor.1 (XReal.neg y.1)) = _
      rw [hc, hy]; rfl
    simp only [choiceLoop, if_pos (Ieee.zero_lt_inf hc)]
    exact choiceLoop_overflow ws _ _ (fun x hx => hp x (List.mem_cons_of_mem _ hx)) hn

/-- **C151, `WeightedChoice`.** If a weight is infinite and none is negative or NaN, the index returned is that of the
first infinite weight, whatever positive number is drawn. -/
theorem C151_choice (pre post : List (Ieee f)) (w : Ieee f) (hpre : ∀ x ∈ pre, FiniteWeight x) (hw : w.1 = .posInf)
    (hpost : ∀ x ∈ post, FiniteWeight x ∨ x.1 = .posInf) (u : Ieee f) {x : ℝ} (hu : u.1 = .fin x) (hx : 0 < x) :
    weightedChoice (pre ++ w :: post) u = .ok pre.length := by
  have hs : (sumF (pre ++ w :: post)).1 = .posInf := sumF_inf _ (fun y hy => by
    rcases List.mem_append.1 hy with hy | hy
    · exact .inl (hpre y hy)
    · rcases List.mem_cons.1 hy with rfl | hy
      · exact .inr hw
      · exact hpost y hy) ⟨w, by simp, hw⟩
  unfold weightedChoice
  simp only [Ieee.inf_ne_zero hs, Bool.false_eq_true, if_false]
  rw [choiceLoop_inf w hw post pre _ _ hpre ((Ieee.mul_inf hu hs).1 hx)]
  simp

/-- **C151, `WeightedChoice`.** If the weights are finite but their sum overflows, an index out of range panics,
whatever positive number is drawn. -/
theorem C151_overflow (ws : List (Ieee f)) (hw : ∀ x ∈ ws, FiniteWeight x) (hs : (sumF ws).1 = .posInf) (u : Ieee f) {x : ℝ}
    (hu : u.1 = .fin x) (hx : 0 < x) : weightedChoice ws u = .panic := by
  unfold weightedChoice
  simp only [Ieee.inf_ne_zero hs, Bool.false_eq_true, if_false]
  rw [choiceLoop_overflow ws _ _ hw ((Ieee.mul_inf hu hs).1 hx)]

/-- **C151, `WeightedChoice`.** If the sum is infinite and 0 is drawn, the index returned is -1. -/
theorem C151_zero (ws : List (Ieee f)) (hs : (sumF ws).1 = .posInf) (u : Ieee f) (hu : u.1 = .fin 0) :
    weightedChoice ws u = .ok (-1) :=
  C29_not_positive ws u (Ieee.inf_ne_zero hs) (by
    have := (Ieee.mul_inf hu hs).2 rfl
    show ¬ XReal.lt _ _
    rw [this]; cases (0 : Ieee f).1 <;> exact id)

/-! ### k-means++ -/

/-- **C151, `PPIter`.** If the distance to the nearest centroid is infinite for an element of the data and NaN for
none, the first such element is drawn, whatever positive number is drawn. -/
theorem C151_ppIter (space : Space E (Ieee f)) (clust pre post : List E) (e : E)
    (hpre : ∀ x ∈ pre, FiniteWeight (nearest space clust x).2) (he : (nearest space clust e).2.1 = .posInf)
    (hpost : ∀ x ∈ post, FiniteWeight (nearest space clust x).2 ∨ (nearest space clust x).2.1 = .posInf)
    (u : Ieee f) {x : ℝ} (hu : u.1 = .fin x) (hx : 0 < x) :
    ppIter space clust (pre ++ e :: post) u = .ok (space.copy e) := by
  have h2 : (mapLabel space clust (pre ++ e :: post)).2 = pre.map (fun e => (nearest space clust e).2) ++
      (nearest space clust e).2 :: post.map (fun e => (nearest space clust e).2) := by
    show (pre ++ e :: post).map _ = _
    rw [List.map_append, List.map_cons]
  unfold ppIter
  rw [h2, C151_choice _ _ _ (by
    intro y hy; obtain ⟨z, hz, rfl⟩ := List.mem_map.1 hy; exact hpre z hz) he (by
    intro y hy; obtain ⟨z, hz, rfl⟩ := List.mem_map.1 hy; exact hpost z hz) u hu hx]
  have hi : idx? (pre ++ e :: post) (pre.length : Int) = some e := by
    unfold idx?
    rw [if_neg (by omega)]
    simp
  simp only [List.length_map, hi]

/-- **C151, `PPIter`.** If these distances are finite but their sum overflows, `PPIter` panics, whatever is drawn. -/
theorem C151_ppIter_overflow (space : Space E (Ieee f)) (clust data : List E)
    (hd : ∀ x ∈ data, FiniteWeight (nearest space clust x).2)
    (hs : (sumF (data.map fun x => (nearest space clust x).2)).1 = .posInf)
    (u : Ieee f) {x : ℝ} (hu : u.1 = .fin x) (hx : 0 ≤ x) : ppIter space clust data u = .panic := by
  have h2 : (mapLabel space clust data).2 = data.map (fun e => (nearest space clust e).2) := rfl
  unfold ppIter
  rw [h2]
  rcases hx.lt_or_eq with hx | hx
  · rw [C151_overflow _ (by
      intro y hy; obtain ⟨z, hz, rfl⟩ := List.mem_map.1 hy; exact hd z hz) hs u hu hx]
  · rw [C151_zero _ hs u (by rw [hu, hx])]
    rfl

theorem nearestLoop_stays (space : Space E (Ieee f)) (e : E) (m : Ieee f) (hm : ¬ m < 0) : ∀ (cs : List E) (i : Nat) (l : Int),
    (∀ c ∈ cs, ¬ space.dist e c < m) → (nearestLoop space e cs i l m).2 = m
  | [], _, _, _ => rfl
  | c :: cs, i, l, h => by
    simp only [nearestLoop]
    rw [if_neg (not_or.2 ⟨hm, h c List.mem_cons_self⟩)]
    exact nearestLoop_stays space e m hm cs _ _ fun x hx => h x (List.mem_cons_of_mem _ hx)

theorem Spec.Blown.not_lt {d : Ieee f} (h : Blown d) (m : Ieee f) : ¬ d < m := by
  show ¬ XReal.lt d.1 m.1
  rcases h with h | h <;> rw [h] <;> cases m.1 <;> exact id

theorem FiniteWeight.not_neg {d : Ieee f} (h : FiniteWeight d) : ¬ d < 0 := by
  obtain ⟨r, hr, h⟩ := h
  rw [Ieee.lt_zero_iff, h]
  exact _root_.not_lt.2 hr

/-- The distance to the nearest centroid if the first centroid is near and the others are far. -/
theorem nearest_far {space : Space E (Ieee f)} {good far : E → Prop} (h : FarApart space good far) (g : E) (hg : good g)
    (cs : List E) (hc : ∀ c ∈ cs, far c) (e : E) (he : good e ∨ far e) :
    (nearest space (g :: cs) e).2 = space.dist e g := by
  unfold nearest
  simp only [nearestLoop, if_pos (.inl Ieee.neg_one_lt : (-1 : Ieee f) < 0 ∨ _)]
  refine nearestLoop_stays space e _ ?_ cs _ _ fun c hcc => ?_
  · rcases he with he | he
    · exact FiniteWeight.not_neg (h.near e g he hg)
    · exact Blown.not_lt (.inl (h.far_near e g he hg)) 0
  · rcases he with he | he
    · exact Blown.not_lt (.inl (h.near_far e c he (hc c hcc))) _
    · exact Blown.not_lt (h.far e c he (hc c hcc)) _

/-- **C151, `PPInitializer`.** Among data with elements at an infinite distance from the others (and at a NaN or
infinite one from each other), if the first centroid drawn is one of the others then all the next ones are the first
element at an infinite distance, whatever positive numbers are drawn. -/
theorem C151_pp {space : Space E (Ieee f)} {good far : E → Prop} (h : FarApart space good far) (k : Int) (hk : 1 ≤ k)
    (pre post : List E) (e : E) (hpre : ∀ x ∈ pre, good x) (he : far e) (hcopy : space.copy e = e)
    (hpost : ∀ x ∈ post, good x ∨ far x) (hkd : k ≤ (pre ++ e :: post).length) (first : Nat) (g : E) (hg : good g)
    (hf : (pre ++ e :: post)[first]? = some g) (draws : List (Ieee f)) (hdr : k ≤ draws.length + 1)
    (hu : ∀ u ∈ draws, ∃ x : ℝ, 0 < x ∧ u.1 = .fin x) :
    ppInitializer k (pre ++ e :: post) space first draws = some (.ok (g :: List.replicate (k.toNat - 1) e)) := by
  have key : ∀ (n : Nat) (us : List (Ieee f)) (cs : List E), n ≤ us.length → (∀ u ∈ us, ∃ x : ℝ, 0 < x ∧ u.1 = .fin x) →
      (∀ c ∈ cs, far c) → ppLoop space (pre ++ e :: post) n us (g :: cs) = some (.ok (g :: cs ++ List.replicate n e)) := by
    intro n
    induction n with
    | zero => intro us cs _ _ _; simp [ppLoop]
    | succ n ih =>
      intro us cs hn hu hc
      cases us with
      | nil => simp at hn
      | cons u us =>
        obtain ⟨x, hx, hux⟩ := hu u List.mem_cons_self
        simp only [ppLoop]
        rw [C151_ppIter space (g :: cs) pre post e (fun y hy => by
            rw [nearest_far h g hg cs hc y (.inl (hpre y hy))]; exact h.near y g (hpre y hy) hg) (by
            rw [nearest_far h g hg cs hc e (.inr he)]; exact h.far_near e g he hg) (fun y hy => by
            rw [nearest_far h g hg cs hc y (hpost y hy)]
            rcases hpost y hy with hy | hy
            · exact .inl (h.near y g hy hg)
            · exact .inr (h.far_near y g hy hg)) u hux hx, hcopy]
        simp only [List.cons_append]
        rw [ih us (cs ++ [e]) (by simpa using hn) (fun v hv => hu v (List.mem_cons_of_mem _ hv)) (by
          intro c hcc
          rcases List.mem_append.1 hcc with hcc | hcc
          · exact hc c hcc
          · rw [List.mem_singleton.1 hcc]; exact he)]
        simp [List.replicate_succ]
  unfold ppInitializer
  rw [if_neg (by omega), if_pos (by simp [initCheck] at hkd ⊢; omega)]
  simp only [hf]
  simpa using key (k.toNat - 1) draws [] (by omega) hu (by simp)

/-- **C151, `PPInitializer`.** If an element is at the distance NaN of itself, and is drawn first, then `PPInitializer`
panics as soon as two centroids are asked for, whatever is drawn next. -/
theorem C151_pp_self (space : Space E (Ieee f)) (k : Int) (hk : 2 ≤ k) (data : List E) (hkd : k ≤ data.length) (e : E)
    (he : (space.dist e e).1 = .nan) (first : Nat) (hf : data[first]? = some e) (u : Ieee f) (us : List (Ieee f)) :
    ppInitializer k data space first (u :: us) = some .panic := by
  have hn : isNaN (nearest space [e] e).2 := by
    show isNaN (nearestLoop space e [e] 0 (-1) (-1)).2
    simp only [nearestLoop, if_pos (.inl Ieee.neg_one_lt : (-1 : Ieee f) < 0 ∨ _)]
    exact he
  unfold ppInitializer
  rw [if_neg (by omega), if_pos (by simp [initCheck] at hkd ⊢; omega)]
  obtain ⟨j, hj⟩ : ∃ j, k.toNat - 1 = j + 1 := ⟨k.toNat - 2, by omega⟩
  simp only [hf, hj, ppLoop, ppIter]
  rw [C144_choice (C131_nan f) (mapLabel space [e] data).2 ⟨_, List.mem_map.2 ⟨e, List.mem_of_getElem? hf, rfl⟩, hn⟩ u]
  rfl

/-! ### The Euclidean space -/

theorem square_weight {d : Ieee f} (hd : d.1 ≠ .nan) : (FiniteWeight (d * d) ∨ (d * d).1 = .posInf) ∧
    (d.1 = .posInf ∨ d.1 = .negInf → (d * d).1 = .posInf) := by
  have key : (d * d).1 = f.round (XReal.mul d.1 d.1) := rfl
  cases hv : d.1 with
  | nan => exact absurd hv hd
  | posInf => rw [hv] at key; exact ⟨.inr key, fun _ => key⟩
  | negInf => rw [hv] at key; exact ⟨.inr key, fun _ => key⟩
  | fin x =>
    refine ⟨?_, fun h => by rcases h with h | h <;> cases h⟩
    have hn : ¬ (d * d) < 0 := Ieee.round_nonneg (by rw [hv]; exact _root_.not_lt.2 (mul_self_nonneg x))
    rw [Ieee.lt_zero_iff] at hn
    have hk : (d * d).1 = f.round (.fin (x * x)) := by rw [key, hv]; rfl
    simp only [Format.round] at hk
    split at hk
    · rw [hk] at hn; exact .inl ⟨_, _root_.not_lt.1 hn, hk⟩
    · split at hk
      · exact .inr hk
      · rw [hk] at hn; exact absurd trivial hn

/-- The distance of two points without NaN one of which has an infinite coordinate and the other none. -/
theorem pointDist_far {p q : List (Ieee f)} (hp : ∀ x ∈ p, x.1 ≠ .nan) (hq : ∀ x ∈ q, x.1 ≠ .nan)
    (hor : (∀ x ∈ p, ∃ r : ℝ, x.1 = .fin r) ∨ (∀ x ∈ q, ∃ r : ℝ, x.1 = .fin r)) {a b : Ieee f} (hab : (a, b) ∈ p.zip q)
    (hi : (a.1 = .posInf ∨ a.1 = .negInf) ∨ (b.1 = .posInf ∨ b.1 = .negInf)) : (pointDist p q).1 = .posInf := by
  have hsub : ∀ ab ∈ p.zip q, (ab.1 - ab.2).1 ≠ .nan ∧
      ((ab.1.1 = .posInf ∨ ab.1.1 = .negInf) ∨ (ab.2.1 = .posInf ∨ ab.2.1 = .negInf) →
        (ab.1 - ab.2).1 = .posInf ∨ (ab.1 - ab.2).1 = .negInf) := by
    rintro ⟨x, y⟩ hxy
    obtain ⟨hx, hy⟩ := List.of_mem_zip hxy
    have key : (x - y).1 = f.round (XReal.add x.1 (XReal.neg y.1)) := rfl
    have h1 := hp x hx
    have h2 := hq y hy
    have h3 : (∃ r : ℝ, x.1 = .fin r) ∨ ∃ r : ℝ, y.1 = .fin r := hor.imp (fun h => h x hx) fun h => h y hy
    simp only
    rcases h3 with ⟨r, h3⟩ | ⟨r, h3⟩
    · cases hy' : y.1 with
      | nan => exact absurd hy' h2
      | posInf => rw [h3, hy'] at key; exact ⟨(by rw [key]; exact fun h => (by cases h)), fun _ => .inr key⟩
      | negInf => rw [h3, hy'] at key; exact ⟨(by rw [key]; exact fun h => (by cases h)), fun _ => .inl key⟩
      | fin z =>
        rw [h3, hy'] at key
        refine ⟨?_, fun h => ?_⟩
        · rw [key]
          simp only [XReal.neg, XReal.add, Format.round]
          split
          · exact fun h => by cases h
          · split <;> exact fun h => by cases h
        · rw [h3] at h
          rcases h with (h | h) | (h | h) <;> cases h
    · cases hx' : x.1 with
      | nan => exact absurd hx' h1
      | posInf => rw [h3, hx'] at key; exact ⟨(by rw [key]; exact fun h => (by cases h)), fun _ => .inl key⟩
      | negInf => rw [h3, hx'] at key; exact ⟨(by rw [key]; exact fun h => (by cases h)), fun _ => .inr key⟩
      | fin z =>
        rw [h3, hx'] at key
        refine ⟨?_, fun h => ?_⟩
        · rw [key]
          simp only [XReal.neg, XReal.add, Format.round]
          split
          · exact fun h => by cases h
          · split <;> exact fun h => by cases h
        · rw [h3] at h
          rcases h with (h | h) | (h | h) <;> cases h
  have hs := weight_foldl (fun ab : Ieee f × Ieee f => (ab.1 - ab.2) * (ab.1 - ab.2)) (p.zip q) 0
    (fun ab hm => (square_weight (hsub ab hm).1).1) (.inl weight_zero)
    (.inr ⟨(a, b), hab, (square_weight (hsub (a, b) hab).1).2 ((hsub (a, b) hab).2 hi)⟩)
  show f.round (GoMath.sqrt (Subtype.val _)) = _
  rw [hs]; rfl

/-- **C151, the Euclidean space.** The points in a box which leaves room for their distances, and the points with an
infinite coordinate and no NaN, are far apart. -/
theorem C151_euclid {k n N : Nat} (hr : Room f k n N) :
    FarApart (euclidSpace (Ieee f) n) (fun p => ∃ q : Vec (Fl f.r) n, Box k q ∧ p = q.toIeee f) FarPoint where
  near := by
    rintro _ _ ⟨a, ha, rfl⟩ ⟨b, hb, rfl⟩
    obtain ⟨_, h2, _⟩ := hr.dist ha hb
    exact ⟨_, h2, (C131_distances hr).1 a b ha hb⟩
  far_near := by
    rintro a _ ⟨⟨x, hx, hi⟩, hn⟩ ⟨b, hb, rfl⟩
    obtain ⟨y, hy⟩ := zip_left a.1 (b.toIeee f).1 (by rw [a.2, (b.toIeee f).2]) x hx
    have hfin := hr.finite hb
    exact pointDist_far hn (fun z hz h => by obtain ⟨r, hz⟩ := hfin z hz; rw [hz] at h; cases h) (.inr hfin) hy (.inl hi)
  near_far := by
    rintro _ b ⟨a, ha, rfl⟩ ⟨⟨x, hx, hi⟩, hn⟩
    have hzip : ∀ (p q : List (Ieee f)), p.length = q.length → x ∈ q → ∃ y, (y, x) ∈ p.zip q := by
      intro p
      induction p with
      | nil => intro q hl hx; cases q with | nil => cases hx | cons _ _ => cases hl
      | cons y p ih =>
        intro q hl hx
        cases q with
        | nil => cases hx
        | cons z q =>
          rcases List.mem_cons.1 hx with rfl | hx
          · exact ⟨y, by simp⟩
          · obtain ⟨w, hw⟩ := ih q (by simpa using hl) hx
            exact ⟨w, List.mem_cons_of_mem _ hw⟩
    obtain ⟨y, hy⟩ := hzip (a.toIeee f).1 b.1 (by rw [b.2, (a.toIeee f).2]) hx
    have hfin := hr.finite ha
    exact pointDist_far (fun z hz h => by obtain ⟨r, hz⟩ := hfin z hz; rw [hz] at h; cases h) hn (.inl hfin) hy (.inr hi)
  far := by
    rintro a b ⟨⟨x, hx, hi⟩, _⟩ _
    exact (C137_distance a b ⟨x, hx, fun r h => by rcases hi with hi | hi <;> rw [h] at hi <;> cases hi⟩).1

/-- **C151, the Euclidean space.** A point with an infinite coordinate which is drawn first makes `PPInitializer` panic
as soon as two centroids are asked for. -/
theorem C151_euclid_first {n : Nat} (k : Int) (hk : 2 ≤ k) (data : List (Vec (Ieee f) n)) (hkd : k ≤ data.length)
    (e : Vec (Ieee f) n) (he : FarPoint e) (first : Nat) (hf : data[first]? = some e) (u : Ieee f) (us : List (Ieee f)) :
    ppInitializer k data (euclidSpace (Ieee f) n) first (u :: us) = some .panic := by
  obtain ⟨⟨x, hx, hi⟩, _⟩ := he
  exact C151_pp_self _ k hk data hkd e
    (C137_self e ⟨x, hx, fun r h => by rcases hi with hi | hi <;> rw [h] at hi <;> cases hi⟩) first hf u us

/-! ### The moves of mcmc -/

/-- **C151, `nextK`.** If the weights `ProbaK` are finite but their sum overflows, every iteration panics. -/
theorem C151_probaK (p : McmcParams D E (Ieee f) R) (hw : ∀ x ∈ p.conf.probaK, FiniteWeight x)
    (hs : (sumF p.conf.probaK).1 = .posInf) (impl : McmcImpl E (Ieee f)) (centroids : List E) (d : McmcDraws E (Ieee f))
    {x : ℝ} (hx : 0 ≤ x) (hd : d.move.1 = .fin x) : impl.iterate p centroids d = none := by
  apply C146_iterate
  unfold nextK
  rcases hx.lt_or_eq with hx | hx
  · rw [C151_overflow _ hw hs _ hd hx]
  · rw [C151_zero _ hs _ (by rw [hd, hx])]
    rfl

/-- **C151, `nextK`.** With three weights, the first infinite one of which is the last, every proposal has one cluster
more, within the limits; the other weights do not matter. -/
theorem C151_always_grows (conf : McmcConf (Ieee f) R) (a b c : Ieee f) (ha : FiniteWeight a) (hb : FiniteWeight b)
    (hc : c.1 = .posInf) (hw : conf.probaK = [a, b, c]) (k : Int) (hk : 0 ≤ k) (hm : k + 1 ≤ conf.maxK) (data : List E)
    (hd : k + 1 ≤ data.length) (u : Ieee f) {x : ℝ} (hu : u.1 = .fin x) (hx : 0 < x) :
    nextK conf k data u = some (k + 1) := by
  have h := C151_choice [a, b] [] c (by simp [ha, hb]) hc (by simp) u hu hx
  unfold nextK
  rw [hw]
  simp only [List.cons_append, List.nil_append, List.length_cons, List.length_nil] at h
  rw [h]
  have : idx? [(-1 : Int), 0, 1] ((0 + 1 + 1 : Nat) : Int) = some 1 := by decide
  simp only [this]
  rw [if_neg (by omega), if_neg (by omega), if_neg (by omega)]

end

/-! ### Witnesses -/

open IeeeExample McmcInfExample

/-- The data of the example: 0, 0 again and `+Inf`. -/
noncomputable def exFarData : List (Vec (Ieee float64) 1) := [zero, zero] ++ far :: []

theorem zero_near : ∃ q : Vec (Fl float64.r) 1, Box 4 q ∧ zero = q.toIeee float64 :=
  ⟨⟨[0], rfl⟩, by intro x hx; rw [List.mem_singleton.1 hx]; simp [Fl.val_zero], rfl⟩

/-- **C151 (claim examined): k-means++ draws distinct elements.** From 0, the next centroids are `+Inf` and `+Inf` again,
whatever positive numbers are drawn. -/
theorem C151_twice (u v : Ieee float64) {x y : ℝ} (hx : 0 < x) (hu : u.1 = .fin x) (hy : 0 < y) (hv : v.1 = .fin y) :
    ppInitializer 3 exFarData (euclidSpace (Ieee float64) 1) 0 [u, v] = some (.ok [zero, far, far]) := by
  have hr : Room float64 4 1 8 := C131_float64 (by norm_num) (by norm_num) (by norm_num)
  refine C151_pp (C151_euclid hr) 3 (by norm_num) [zero, zero] [] far ?_ ?_ rfl (by simp) (by simp) 0 zero zero_near rfl [u, v]
    (by simp) ?_
  · intro p hp
    have : p = zero := by simpa using hp
    rw [this]; exact zero_near
  · exact ⟨⟨inf, by simp [far], .inl rfl⟩, by intro z hz; rw [List.mem_singleton.1 hz]; intro h; cases h⟩
  · intro w hw
    rcases List.mem_cons.1 hw with rfl | hw
    · exact ⟨x, hx, hu⟩
    · rw [List.mem_singleton.1 hw]; exact ⟨y, hy, hv⟩

/-- From `+Inf` it panics. -/
example (u v : Ieee float64) : ppInitializer 3 exFarData (euclidSpace (Ieee float64) 1) 2 [u, v] = some .panic :=
  C151_euclid_first 3 (by norm_num) exFarData (by simp [exFarData]) far
    ⟨⟨inf, by simp [far], .inl rfl⟩, by intro z hz; rw [List.mem_singleton.1 hz]; intro h; cases h⟩ 2 rfl u [v]

/-- Finite data too: 2⁵¹² is drawn after 0, whatever is drawn, since its distance is computed as `+Inf`. -/
example (u : Ieee float64) {x : ℝ} (hx : 0 < x) (hu : u.1 = .fin x) :
    ppIter (euclidSpace (Ieee float64) 1) [zero] ([zero] ++ pow 512 :: []) u = .ok (pow 512) := by
  have hr : Room float64 4 1 8 := C131_float64 (by norm_num) (by norm_num) (by norm_num)
  have hz := (C151_euclid hr).near zero zero zero_near zero_near
  refine C151_ppIter _ [zero] [zero] [] (pow 512) ?_ ?_ (by simp) u hu hx
  · intro p hp
    rw [List.mem_singleton.1 hp]
    simpa [nearest, nearestLoop, Ieee.neg_one_lt] using hz
  · simp only [nearest, nearestLoop, if_pos (.inl Ieee.neg_one_lt : (-1 : Ieee float64) < 0 ∨ _)]
    refine dist_big (k := 1024) (z := 2 ^ 512) ?_ (by rw [← pow_add]) le_rfl
    show (Ieee.of float64 (XReal.add (Ieee.of float64 (.fin (2 ^ 512))).1 (XReal.neg (0 : Ieee float64).1))).1 = _
    have h0 : (0 : Ieee float64).1 = .fin 0 := by
      rw [← Fl.toIeee_zero]
      exact Fl.toIeee_val (by rw [Fl.val_zero, abs_zero]; linarith [float64.one_lt_top])
    rw [of_pow (by norm_num), h0]
    show (Ieee.of float64 (.fin (2 ^ 512 + -0))).1 = _
    rw [neg_zero, add_zero, of_pow (by norm_num)]

/-- 2¹⁰²³ -/
noncomputable def exHuge : Ieee float64 := Ieee.of float64 (.fin (2 ^ 1023))

theorem exHuge_sum : (sumF [exHuge, exHuge, 0]).1 = .posInf := by
  have h0 : (0 : Ieee float64).1 = .fin 0 := by
    rw [← Fl.toIeee_zero]
    exact Fl.toIeee_val (by rw [Fl.val_zero, abs_zero]; linarith [float64.one_lt_top])
  have hv : exHuge.1 = .fin (2 ^ 1023) := of_pow (by norm_num)
  have h1 : ((0 : Ieee float64) + exHuge).1 = .fin (2 ^ 1023) := by
    show (Ieee.of float64 (XReal.add (0 : Ieee float64).1 exHuge.1)).1 = _
    rw [h0, hv]
    show (Ieee.of float64 (.fin (0 + 2 ^ 1023))).1 = _
    rw [zero_add]; exact hv
  have h2 : ((0 : Ieee float64) + exHuge + exHuge).1 = .posInf := by
    show (Ieee.of float64 (XReal.add ((0 : Ieee float64) + exHuge).1 exHuge.1)).1 = _
    rw [h1, hv]
    show (Ieee.of float64 (.fin (2 ^ 1023 + 2 ^ 1023))).1 = _
    rw [show (2 : ℝ) ^ 1023 + 2 ^ 1023 = 2 ^ 1024 by exact (mul_two _).symm, of_big le_rfl]
  exact (weight_add (.inr h2) (.inl weight_zero)).2 (.inl h2)

/-- **C151 (claim examined): an accepted configuration of mcmc works.** A configuration which is accepted with some
weights is accepted with the finite weights 2¹⁰²³, 2¹⁰²³ and 0, and then every iteration panics, whatever is drawn. -/
theorem C151_accepted {D E R : Type} (env : ConfEnv R) (c c' : McmcConf (Ieee float64) R) (hc : c.probaK ≠ [])
    (h : c.newAlgo env = some c') (p : McmcParams D E (Ieee float64) R)
    (hp : p.conf = { c' with probaK := [exHuge, exHuge, 0] }) :
    McmcConf.newAlgo env { c with probaK := [exHuge, exHuge, 0] } = some p.conf ∧
    ∀ (impl : McmcImpl E (Ieee float64)) (centroids : List E) (d : McmcDraws E (Ieee float64)) (x : ℝ), 0 ≤ x →
      d.move.1 = .fin x → impl.iterate p centroids d = none := by
  refine ⟨by rw [hp]; exact C146_accepted env c c' hc _ (by simp) h, fun impl centroids d x hx hd => ?_⟩
  refine C151_probaK p ?_ ?_ impl centroids d hx hd
  · rw [hp]
    intro w hw
    have hv : exHuge.1 = .fin (2 ^ 1023) := of_pow (by norm_num)
    simp only [List.mem_cons, List.not_mem_nil, or_false] at hw
    rcases hw with rfl | rfl | rfl
    · exact ⟨_, by positivity, hv⟩
    · exact ⟨_, by positivity, hv⟩
    · exact weight_zero
  · rw [hp]; exact exHuge_sum

/-- An infinite last weight: a cluster more with every proposal. -/
example (conf : McmcConf (Ieee float64) Unit) (hm : conf.maxK = 5) (u : Ieee float64) {x : ℝ} (hx : 0 < x) (hu : u.1 = .fin x) :
    nextK { conf with probaK := [exHuge, 0, inf] } 2 [1, 2, 3, (4 : Nat)] u = some 3 :=
  C151_always_grows _ exHuge 0 inf ⟨_, by positivity, of_pow (by norm_num)⟩ weight_zero rfl rfl 2 (by norm_num)
    (by rw [hm]; norm_num) _ (by simp) u hu hx

end Distclus
