import Verif.Spec.Infinite
import Verif.Proof.Nan
/-!
# Elements with an infinite coordinate: lemmas
-/
set_option linter.unusedSectionVars false

namespace Distclus
open Spec

section
variable {E F : Type} [Zero F] [One F] [Neg F] [LT F] [DecidableLT F]
variable {space : Space E F} {good bad : E → Prop} {inf : F}

/-- Nothing is nearer than what was found. -/
theorem nearestLoop_stay (space : Space E F) (e : E) : ∀ (cs : List E) (i : Nat) (l : Int) (m : F), ¬ m < 0 →
    (∀ x ∈ cs, ¬ space.dist e x < m) → nearestLoop space e cs i l m = (l, m)
  | [], _, _, _, _, _ => rfl
  | x :: cs, i, l, m, h0, h => by
    rw [nearestLoop, if_neg (by rintro (h1 | h1); exacts [h0 h1, h x (by simp) h1])]
    exact nearestLoop_stay space e cs (i + 1) l m h0 fun y hy => h y (by simp [hy])

theorem nearestLoop_shift (space : Space E F) (e : E) : ∀ (cs : List E) (i : Nat) (l : Int) (m : F),
    nearestLoop space e cs (i + 1) (l + 1) m =
      ((nearestLoop space e cs i l m).1 + 1, (nearestLoop space e cs i l m).2)
  | [], _, _, _ => rfl
  | x :: cs, i, l, m => by
    simp only [nearestLoop]
    split
    · have := nearestLoop_shift space e cs (i + 1) i (space.dist e x)
      simpa using this
    · exact nearestLoop_shift space e cs (i + 1) l m

theorem Spec.Strays.not_neg (hst : Strays space good bad inf) {a b : E} (ha : good a ∨ bad a) (hb : good b ∨ bad b) :
    ¬ space.dist a b < 0 := by
  rcases ha with ha | ha <;> rcases hb with hb | hb
  · exact hst.nonneg ha hb
  · rw [hst.far ha hb]; exact hst.top _
  · rw [hst.far' ha hb]; exact hst.top _
  · exact hst.wild ha hb _

/-- A bad element has the label 0. -/
theorem Spec.Strays.nearest_bad (hneg : (-1 : F) < 0) (hst : Strays space good bad inf) (c0 : E) (cs : List E)
    (hc : ∀ x ∈ c0 :: cs, good x ∨ bad x) {e : E} (he : bad e) :
    nearest space (c0 :: cs) e = (0, space.dist e c0) := by
  have h0 : nearest space (c0 :: cs) e = nearestLoop space e cs 1 0 (space.dist e c0) := by
    simp only [nearest, nearestLoop, if_pos (Or.inl hneg : (-1 : F) < 0 ∨ space.dist e c0 < -1)]
    rfl
  rw [h0]
  refine nearestLoop_stay space e cs 1 0 _ (hst.not_neg (Or.inr he) (hc c0 (by simp))) fun x hx => ?_
  rcases hc x (by simp [hx]) with h | h
  · rw [hst.far' he h]; exact hst.top _
  · exact hst.wild he h _

/-- A good element does not see a bad first centroid if there is another one which is good. -/
theorem Spec.Strays.nearest_skip (hneg : (-1 : F) < 0) (hst : Strays space good bad inf) {b : E} (hb : bad b) {c : List E}
    (hne : c ≠ []) (hc : ∀ x ∈ c, good x) {e : E} (he : good e) :
    nearest space (b :: c) e = ((nearest space c e).1 + 1, (nearest space c e).2) := by
  cases c with
  | nil => exact absurd rfl hne
  | cons c0 cs =>
    have h0 : nearest space (c0 :: cs) e = nearestLoop space e cs 1 0 (space.dist e c0) := by
      simp only [nearest, nearestLoop, if_pos (Or.inl hneg : (-1 : F) < 0 ∨ space.dist e c0 < -1)]
      rfl
    have h1 : nearest space (b :: c0 :: cs) e = nearestLoop space e cs 2 1 (space.dist e c0) := by
      simp only [nearest, nearestLoop, if_pos (Or.inl hneg : (-1 : F) < 0 ∨ space.dist e b < -1)]
      rw [if_pos (Or.inr (by rw [hst.far he hb]; exact hst.near he (hc c0 (by simp))))]
      rfl
    rw [h0, h1]
    exact nearestLoop_shift space e cs 1 0 _

/-- A good element is nearest to a good centroid if there is one. -/
theorem Spec.Strays.nearest_good (hneg : (-1 : F) < 0) (hst : Strays space good bad inf) (c : List E)
    (hc : ∀ x ∈ c, good x ∨ bad x) (hg : ∃ x ∈ c, good x) {e : E} (he : good e) :
    ∃ (j : Nat) (x : E), c[j]? = some x ∧ good x ∧ nearest space c e = ((j : Int), space.dist e x) := by
  have loop : ∀ (cs : List E) (i : Nat) (l : Int) (m : F), (∀ x ∈ cs, good x ∨ bad x) →
      (m < inf ∨ m = inf ∧ ∃ x ∈ cs, good x) → ¬ m < 0 →
      (m < inf ∧ nearestLoop space e cs i l m = (l, m)) ∨ ∃ (j : Nat) (x : E), cs[j]? = some x ∧ good x ∧
        nearestLoop space e cs i l m = (((i + j : Nat) : Int), space.dist e x) := by
    intro cs
    induction cs with
    | nil =>
      rintro i l m - (h | ⟨-, x, hx, -⟩) -
      · exact Or.inl ⟨h, rfl⟩
      · cases hx
    | cons x cs ih =>
      intro i l m hall h hm
      have hall' : ∀ y ∈ cs, good y ∨ bad y := fun y hy => hall y (by simp [hy])
      rw [nearestLoop]
      rcases hall x (by simp) with hx | hx
      · by_cases hlt : m < 0 ∨ space.dist e x < m
        · rw [if_pos hlt]
          right
          rcases ih (i + 1) i (space.dist e x) hall' (Or.inl (hst.near he hx)) (hst.nonneg he hx) with ⟨-, h'⟩ | ⟨j, y, h1, h2, h3⟩
          · exact ⟨0, x, rfl, hx, by simpa using h'⟩
          · exact ⟨j + 1, y, by simpa using h1, h2, by rw [h3]; congr 2; omega⟩
        · rw [if_neg hlt]
          have hmi : m < inf := by
            rcases h with h | ⟨h, -⟩
            · exact h
            · exact absurd (Or.inr (by rw [h]; exact hst.near he hx)) hlt
          rcases ih (i + 1) l m hall' (Or.inl hmi) hm with h' | ⟨j, y, h1, h2, h3⟩
          · exact Or.inl h'
          · exact Or.inr ⟨j + 1, y, by simpa using h1, h2, by rw [h3]; congr 2; omega⟩
      · rw [if_neg (by rintro (h1 | h1); exacts [hm h1, hst.top _ (by rwa [hst.far he hx] at h1)])]
        have h' : m < inf ∨ m = inf ∧ ∃ y ∈ cs, good y := by
          rcases h with h | ⟨h, y, hy, hgy⟩
          · exact Or.inl h
          · rcases List.mem_cons.1 hy with rfl | hy
            · have := hst.near he hgy
              rw [hst.far he hx] at this
              exact absurd this (hst.top _)
            · exact Or.inr ⟨h, y, hy, hgy⟩
        rcases ih (i + 1) l m hall' h' hm with h' | ⟨j, y, h1, h2, h3⟩
        · exact Or.inl h'
        · exact Or.inr ⟨j + 1, y, by simpa using h1, h2, by rw [h3]; congr 2; omega⟩
  cases c with
  | nil => obtain ⟨x, hx, -⟩ := hg; cases hx
  | cons c0 cs =>
    have h0 : nearest space (c0 :: cs) e = nearestLoop space e cs 1 0 (space.dist e c0) := by
      simp only [nearest, nearestLoop, if_pos (Or.inl hneg : (-1 : F) < 0 ∨ space.dist e c0 < -1)]
      rfl
    rw [h0]
    have hc' : ∀ x ∈ cs, good x ∨ bad x := fun y hy => hc y (by simp [hy])
    rcases hc c0 (by simp) with hx | hx
    · rcases loop cs 1 0 (space.dist e c0) hc' (Or.inl (hst.near he hx)) (hst.nonneg he hx) with ⟨-, h⟩ | ⟨j, y, h1, h2, h3⟩
      · exact ⟨0, c0, rfl, hx, by simpa using h⟩
      · exact ⟨j + 1, y, by simpa using h1, h2, by rw [h3]; congr 2; omega⟩
    · have hinf := hst.far he hx
      have hg' : ∃ y ∈ cs, good y := by
        obtain ⟨y, hy, hgy⟩ := hg
        rcases List.mem_cons.1 hy with rfl | hy
        · have := hst.near he hgy
          rw [hinf] at this
          exact absurd this (hst.top _)
        · exact ⟨y, hy, hgy⟩
      rcases loop cs 1 0 (space.dist e c0) hc' (Or.inr ⟨hinf, hg'⟩) (by rw [hinf]; exact hst.top _) with ⟨h, -⟩ | ⟨j, y, h1, h2, h3⟩
      · rw [hinf] at h; exact absurd h (hst.top _)
      · exact ⟨j + 1, y, by simpa using h1, h2, by rw [h3]; congr 2; omega⟩

/-- All bad: the first centroid, at the distance `inf`. -/
theorem Spec.Strays.nearest_lost (hneg : (-1 : F) < 0) (hst : Strays space good bad inf) (c0 : E) (cs : List E)
    (hc : ∀ x ∈ c0 :: cs, bad x) {e : E} (he : good e) : nearest space (c0 :: cs) e = (0, inf) := by
  have h0 : nearest space (c0 :: cs) e = nearestLoop space e cs 1 0 (space.dist e c0) := by
    simp only [nearest, nearestLoop, if_pos (Or.inl hneg : (-1 : F) < 0 ∨ space.dist e c0 < -1)]
    rfl
  rw [h0, hst.far he (hc c0 (by simp))]
  refine nearestLoop_stay space e cs 1 0 _ (hst.top _) fun x hx => ?_
  rw [hst.far he (hc x (by simp [hx]))]; exact hst.top _

/-- What a mean of good and bad elements is. -/
def StrayMean (good bad : E → Prop) (ms : List E) (m : E) : Prop :=
  (∀ e ∈ ms, good e ∨ bad e) → ((∃ e ∈ ms, bad e) → bad m) ∧ ((∀ e ∈ ms, good e) → good m)

theorem Spec.Strays.combineOk (hst : Strays space good bad inf) (hdis : ∀ e, good e → ¬ bad e) :
    CombineOk space (StrayMean good bad) := by
  intro a b x y ha hb hx hy hall
  have ha' : (0 : Int) < a.length := by have := List.length_pos_iff.2 ha; omega
  have hb' : (0 : Int) < b.length := by have := List.length_pos_iff.2 hb; omega
  obtain ⟨x1, x2⟩ := hx fun e he => hall e (by simp [he])
  obtain ⟨y1, y2⟩ := hy fun e he => hall e (by simp [he])
  have split : ∀ (l : List E), (∀ e ∈ l, good e ∨ bad e) → (∃ e ∈ l, bad e) ∨ ∀ e ∈ l, good e := by
    intro l hl
    by_cases h : ∃ e ∈ l, bad e
    · exact Or.inl h
    · exact Or.inr fun e he => (hl e he).resolve_right fun hb => h ⟨e, he, hb⟩
  rcases split a fun e he => hall e (by simp [he]) with h1 | h1 <;>
  rcases split b fun e he => hall e (by simp [he]) with h2 | h2
  · refine ⟨fun _ => hst.combine_bad (Or.inl ⟨x1 h1, Or.inr (y1 h2)⟩) ha' hb', fun hg => ?_⟩
    obtain ⟨e, he, hbe⟩ := h1
    exact absurd hbe (hdis e (hg e (by simp [he])))
  · refine ⟨fun _ => hst.combine_bad (Or.inl ⟨x1 h1, Or.inl (y2 h2)⟩) ha' hb', fun hg => ?_⟩
    obtain ⟨e, he, hbe⟩ := h1
    exact absurd hbe (hdis e (hg e (by simp [he])))
  · refine ⟨fun _ => hst.combine_bad (Or.inr ⟨x2 h1, y1 h2⟩) ha' hb', fun hg => ?_⟩
    obtain ⟨e, he, hbe⟩ := h2
    exact absurd hbe (hdis e (hg e (by simp [he])))
  · refine ⟨fun ⟨e, he, hbe⟩ => ?_, fun _ => hst.combine_good (x2 h1) (y2 h2) ha' hb'⟩
    rcases List.mem_append.1 he with he | he
    · exact absurd hbe (hdis e (h1 e he))
    · exact absurd hbe (hdis e (h2 e he))

theorem Spec.Strays.running (hst : Strays space good bad inf) (ms : List E) (m : E) (h : running space ms = some m) :
    StrayMean good bad ms m := by
  have key : ∀ (l : List E) (mw : E × Int), 0 < mw.2 → (∀ e ∈ l, good e ∨ bad e) →
      (good mw.1 → (∀ e ∈ l, good e) →
        good (l.foldl (fun mw x => (space.combine mw.1 mw.2 x 1, mw.2 + 1)) mw).1) ∧
      (good mw.1 ∨ bad mw.1 → bad mw.1 ∨ (∃ e ∈ l, bad e) →
        bad (l.foldl (fun mw x => (space.combine mw.1 mw.2 x 1, mw.2 + 1)) mw).1) := by
    intro l
    induction l with
    | nil => exact fun mw _ _ => ⟨fun h _ => h, by rintro - (h | ⟨e, he, _⟩); exacts [h, absurd he (by simp)]⟩
    | cons a l ih =>
      intro mw hpos hall
      have hall' : ∀ e ∈ l, good e ∨ bad e := fun e he => hall e (by simp [he])
      obtain ⟨i1, i2⟩ := ih (space.combine mw.1 mw.2 a 1, mw.2 + 1) (by simp only; omega) hall'
      refine ⟨fun hg hgs => i1 (hst.combine_good hg (hgs a (by simp)) hpos (by omega)) fun e he => hgs e (by simp [he]), ?_⟩
      intro hgb h
      rcases hgb with hg | hb
      · rcases hall a (by simp) with ha | ha
        · refine i2 (Or.inl (hst.combine_good hg ha hpos (by omega))) ?_
          rcases h with h | ⟨e, he, hbe⟩
          · exact Or.inl (hst.combine_bad (Or.inl ⟨h, Or.inl ha⟩) hpos (by omega))
          · rcases List.mem_cons.1 he with rfl | he
            · exact Or.inl (hst.combine_bad (Or.inr ⟨hg, hbe⟩) hpos (by omega))
            · exact Or.inr ⟨e, he, hbe⟩
        · have hb := hst.combine_bad (w := mw.2) (v := 1) (Or.inr ⟨hg, ha⟩) hpos (by omega)
          exact i2 (Or.inr hb) (Or.inl hb)
      · have hb := hst.combine_bad (w := mw.2) (v := 1) (Or.inl ⟨hb, hall a (by simp)⟩) hpos (by omega)
        exact i2 (Or.inr hb) (Or.inl hb)
  cases ms with
  | nil => cases h
  | cons a l =>
    cases h
    intro hall
    obtain ⟨k1, k2⟩ := key l (space.copy a, 1) (by simp) fun e he => hall e (by simp [he])
    constructor
    · rintro ⟨e, he, hb⟩
      refine k2 ((hall a (by simp)).imp hst.copy_good hst.copy_bad) ?_
      rcases List.mem_cons.1 he with rfl | he
      · exact Or.inl (hst.copy_bad hb)
      · exact Or.inr ⟨e, he, hb⟩
    · intro hg
      exact k1 (hst.copy_good (hg a (by simp))) fun e he => hg e (by simp [he])

/-- Two iterations whose clusters have the same elements return the same centroids. -/
theorem seq_congr (hneg : (-1 : F) < 0) (space : Space E F) {c c' data data' out out' : List E} {i i' : Nat} {x : E}
    (hc : c[i]? = some x) (hc' : c'[i']? = some x)
    (hms : (data.filter fun e => (nearest space c e).1 == (i : Int)) =
      data'.filter fun e => (nearest space c' e).1 == (i' : Int))
    (h : kmeansStep .seq space data c = some out) (h' : kmeansStep .seq space data' c' = some out') :
    out[i]? = out'[i']? := by
  have hi := (List.getElem?_eq_some_iff.1 hc).1
  have hi' := (List.getElem?_eq_some_iff.1 hc').1
  have hne : c ≠ [] := fun h => by subst h; simp at hi
  have hne' : c' ≠ [] := fun h => by subst h; simp at hi'
  obtain ⟨o, e1, -, e3⟩ := C23_iterate hneg .seq trivial space c data hne
  obtain ⟨o', e1', -, e3'⟩ := C23_iterate hneg .seq trivial space c' data' hne'
  have ho : o = out := by simpa [kmeansStep, e1, allSome_map_some] using h
  have ho' : o' = out' := by simpa [kmeansStep, e1', allSome_map_some] using h'
  subst ho ho'
  by_cases hm : (data.filter fun e => (nearest space c e).1 == (i : Int)) = []
  · rw [e3 i x hc fun e he h => List.filter_eq_nil_iff.1 hm e he (by rw [h]; simp),
      e3' i' x hc' fun e he h => List.filter_eq_nil_iff.1 (hms ▸ hm) e he (by rw [h]; simp)]
  · rw [C23_seq_members hneg space c data hne o e1 i hi hm, C23_seq_members hneg space c' data' hne' o' e1' i' hi'
      (hms ▸ hm), hms]

/-- A property which combinations inherit from any of their elements is inherited by the means. -/
theorem absorb_combineOk (A : E → Prop) (hA : ∀ {a b : E} {w v : Int}, 0 < w → 0 < v → A a ∨ A b → A (space.combine a w b v)) :
    CombineOk space fun ms m => (∃ e ∈ ms, A e) → A m := by
  rintro a b x y ha hb hx hy ⟨e, he, hae⟩
  have ha' : (0 : Int) < a.length := by have := List.length_pos_iff.2 ha; omega
  have hb' : (0 : Int) < b.length := by have := List.length_pos_iff.2 hb; omega
  rcases List.mem_append.1 he with h | h
  · exact hA ha' hb' (Or.inl (hx ⟨e, h, hae⟩))
  · exact hA ha' hb' (Or.inr (hy ⟨e, h, hae⟩))

theorem absorb_running (A : E → Prop) (hA : ∀ {a b : E} {w v : Int}, 0 < w → 0 < v → A a ∨ A b → A (space.combine a w b v))
    (hcp : ∀ {a}, A a → A (space.copy a)) (ms : List E) (m : E) (h : running space ms = some m) :
    (∃ e ∈ ms, A e) → A m := by
  have key : ∀ (l : List E) (mw : E × Int), 0 < mw.2 → A mw.1 ∨ (∃ e ∈ l, A e) →
      A (l.foldl (fun mw x => (space.combine mw.1 mw.2 x 1, mw.2 + 1)) mw).1 := by
    intro l
    induction l with
    | nil => rintro mw - (h | ⟨e, he, _⟩); exacts [h, absurd he (by simp)]
    | cons a l ih =>
      intro mw hpos h
      refine ih _ (by simp only; omega) ?_
      rcases h with h | ⟨e, he, hb⟩
      · exact Or.inl (hA hpos (by omega) (Or.inl h))
      · rcases List.mem_cons.1 he with rfl | he
        · exact Or.inl (hA hpos (by omega) (Or.inr hb))
        · exact Or.inr ⟨e, he, hb⟩
  cases ms with
  | nil => cases h
  | cons a l =>
    cases h
    rintro ⟨e, he, hb⟩
    refine key l _ (by simp) ?_
    rcases List.mem_cons.1 he with rfl | he
    · exact Or.inl (hcp hb)
    · exact Or.inr ⟨e, he, hb⟩

end
end Distclus
