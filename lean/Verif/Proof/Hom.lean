import Verif.Proof.ParPanic
import Verif.Proof.KMeans
/-!
# Iterations of k-means in two spaces which agree on some elements

The iterations depend on the space through the labels, `Combine` and `Copy` only.
-/
set_option linter.unusedSectionVars false

namespace Distclus
open Spec
open PSpace (im idxMap buildLoop_im seqBuild_im allSome_map slice_map)

section
variable {E₁ E₂ F₁ F₂ : Type} {sp₁ : Space E₁ F₁} {sp₂ : Space E₂ F₂} {φ : E₁ → E₂}

/-- `φ` commutes with `Combine` and `Copy`. -/
structure CombHom (sp₁ : Space E₁ F₁) (sp₂ : Space E₂ F₂) (φ : E₁ → E₂) : Prop where
  combine : ∀ a w b v, sp₂.combine (φ a) w (φ b) v = φ (sp₁.combine a w b v)
  copy : ∀ a, sp₂.copy (φ a) = φ (sp₁.copy a)

theorem CombHom.dbaStep (h : CombHom sp₁ sp₂ φ) (st : List (Option E₁) × List Int) (ix : Int) (e : E₁) :
    Distclus.dbaStep sp₂ (im φ st) ix (φ e) = (Distclus.dbaStep sp₁ st ix e).map (im φ) := by
  unfold Distclus.dbaStep
  simp only [im]
  cases idx? st.2 ix with
  | none => rfl
  | some card =>
    simp only [h.copy]
    by_cases hc : card = 0
    · simp [hc, im, List.map_set]
    · simp only [hc, if_false, idxMap]
      cases idx? st.1 ix with
      | none => rfl
      | some o =>
        cases o with
        | none => rfl
        | some m => simp [h.combine, im, List.map_set]

theorem CombHom.combine1 (h : CombHom sp₁ sp₂ φ) (a o : Option E₁ × Int) :
    dbaCombine1 sp₂ (a.1.map φ, a.2) (o.1.map φ, o.2) = (dbaCombine1 sp₁ a o).map fun x => (x.1.map φ, x.2) := by
  unfold dbaCombine1
  obtain ⟨a, i⟩ := a
  obtain ⟨o, j⟩ := o
  by_cases h1 : i = 0
  · simp [h1]
  · by_cases h2 : j > 0
    · simp only [h1, h2, if_true, if_false]
      cases a <;> cases o <;> simp [h.combine]
    · simp [h1, h2]

theorem CombHom.combineLoop (h : CombHom sp₁ sp₂ φ) : ∀ (ds : List (Option E₁)) (cs : List Int) (ds' : List (Option E₁))
    (cs' : List Int), dbaCombineLoop sp₂ (ds.map (Option.map φ)) cs (ds'.map (Option.map φ)) cs' =
      (dbaCombineLoop sp₁ ds cs ds' cs').map (im φ)
  | [], _, _, _ => by simp [dbaCombineLoop, im]
  | d :: ds, [], ds', cs' => by simp [dbaCombineLoop]
  | d :: ds, c :: cs, [], cs' => by simp [dbaCombineLoop]
  | d :: ds, c :: cs, d' :: ds', [] => by simp [dbaCombineLoop]
  | d :: ds, c :: cs, d' :: ds', c' :: cs' => by
    have h1 := h.combine1 (d, c) (d', c')
    simp only at h1
    simp only [List.map_cons, dbaCombineLoop, h1]
    cases dbaCombine1 sp₁ (d, c) (d', c') with
    | none => rfl
    | some r =>
      simp only [Option.map_some, combineLoop h ds cs ds' cs']
      cases dbaCombineLoop sp₁ ds cs ds' cs' <;> simp [im]

theorem CombHom.aggregateLoop (h : CombHom sp₁ sp₂ φ) : ∀ (os : List (List (Option E₁) × List Int))
    (agg : List (Option E₁) × List Int),
    dbaAggregateLoop sp₂ (os.map (im φ)) (im φ agg) = (dbaAggregateLoop sp₁ os agg).map (im φ)
  | [], _ => rfl
  | o :: os, agg => by
    have h1 := h.combineLoop agg.1 agg.2 o.1 o.2
    simp only [List.map_cons, dbaAggregateLoop, dbaCombine]
    simp only [im] at h1 ⊢
    rw [h1]
    cases dbaCombineLoop sp₁ agg.1 agg.2 o.1 o.2 with
    | none => rfl
    | some a => exact aggregateLoop h os a

theorem CombHom.aggregate (h : CombHom sp₁ sp₂ φ) (ps : List (List (Option E₁) × List Int)) :
    dbaAggregate sp₂ (ps.map (im φ)) = (dbaAggregate sp₁ ps).map (im φ) := by
  cases ps with
  | nil => rfl
  | cons p ps => exact h.aggregateLoop ps p

variable [Zero F₁] [One F₁] [Neg F₁] [LT F₁] [DecidableLT F₁]
variable [Zero F₂] [One F₂] [Neg F₂] [LT F₂] [DecidableLT F₂]

theorem CombHom.reduceLoop (h : CombHom sp₁ sp₂ φ) (c : List E₁) : ∀ (es : List E₁) (st : List (Option E₁) × List Int),
    (∀ e ∈ es, (nearest sp₂ (c.map φ) (φ e)).1 = (nearest sp₁ c e).1) →
    Distclus.reduceLoop sp₂ (c.map φ) (es.map φ) (im φ st) = (Distclus.reduceLoop sp₁ c es st).map (im φ)
  | [], _, _ => rfl
  | e :: es, st, hl => by
    have hes : ∀ e ∈ es, (nearest sp₂ (c.map φ) (φ e)).1 = (nearest sp₁ c e).1 := fun e he => hl e (by simp [he])
    simp only [List.map_cons, Distclus.reduceLoop, assign, hl e (by simp), idxMap]
    split
    · rename_i h0
      split at h0
      · rename_i hge
        rw [if_pos hge]
        cases hx : idx? c (nearest sp₁ c e).1 with
        | none => rfl
        | some x => rw [hx] at h0; cases h0
      · cases h0
    · rename_i ix _ h0
      have hix : ix = (nearest sp₁ c e).1 := by
        split at h0
        · split at h0
          · cases h0; rfl
          · cases h0
        · cases h0; rfl
      subst hix
      rw [h.dbaStep]
      by_cases hp : (nearest sp₁ c e).1 ≥ 0
      · rw [if_pos hp] at h0 ⊢
        cases hx : idx? c (nearest sp₁ c e).1 with
        | none => rw [hx] at h0; cases h0
        | some x =>
          simp only
          cases Distclus.dbaStep sp₁ st (nearest sp₁ c e).1 e with
          | none => rfl
          | some st' => exact reduceLoop h c es st' hes
      · rw [if_neg hp]
        simp only
        cases Distclus.dbaStep sp₁ st (nearest sp₁ c e).1 e with
        | none => rfl
        | some st' => exact reduceLoop h c es st' hes

theorem CombHom.reduceDBA (h : CombHom sp₁ sp₂ φ) (c es : List E₁)
    (hl : ∀ e ∈ es, (nearest sp₂ (c.map φ) (φ e)).1 = (nearest sp₁ c e).1) :
    Distclus.reduceDBA sp₂ (c.map φ) (es.map φ) = (Distclus.reduceDBA sp₁ c es).map (im φ) := by
  have := h.reduceLoop c es (List.replicate c.length none, List.replicate c.length 0) hl
  simpa [Distclus.reduceDBA, im] using this

/-- If the labels are the same, so are the iterations. -/
theorem CombHom.step (h : CombHom sp₁ sp₂ φ) (s : KStrategy) (c data : List E₁)
    (hl : ∀ e ∈ data, (nearest sp₂ (c.map φ) (φ e)).1 = (nearest sp₁ c e).1) :
    kmeansStep s sp₂ (data.map φ) (c.map φ) = (kmeansStep s sp₁ data c).map (List.map φ) := by
  have hi : s.iterate sp₂ (c.map φ) (data.map φ) = (s.iterate sp₁ c data).map (List.map (Option.map φ)) := by
    cases s with
    | seq =>
      simp only [KStrategy.iterate, h.reduceDBA c data hl]
      cases Distclus.reduceDBA sp₁ c data with
      | none => rfl
      | some r => simp only [Option.map_some, im, seqBuild_im]
    | par d =>
      simp only [KStrategy.iterate, parReduceDBA, List.length_map]
      cases hp : Distclus.par data.length d with
      | none => rfl
      | some chunks =>
        simp only
        have e : (chunks.map fun k => Distclus.reduceDBA sp₂ (c.map φ) (slice (data.map φ) k.start k.stop)) =
            (chunks.map fun k => Distclus.reduceDBA sp₁ c (slice data k.start k.stop)).map (Option.map (im φ)) := by
          rw [List.map_map]
          refine List.map_congr_left fun k _ => ?_
          simp only [slice_map, Function.comp]
          exact h.reduceDBA c _ fun e he => hl e (by unfold slice at he; exact List.mem_of_mem_drop (List.mem_of_mem_take he))
        rw [e, allSome_map]
        cases ha : allSome (chunks.map fun k => Distclus.reduceDBA sp₁ c (slice data k.start k.stop)) with
        | none => rfl
        | some parts =>
          simp only [Option.map_some, h.aggregate]
          cases hg : dbaAggregate sp₁ parts with
          | none => rfl
          | some aggr =>
            simp only [Option.map_some, parBuildResult, im, buildLoop_im]
            cases buildLoop c aggr.1 aggr.2 <;> rfl
  unfold kmeansStep
  rw [hi]
  cases s.iterate sp₁ c data with
  | none => rfl
  | some r => simp only [Option.map_some]; exact allSome_map φ r

end

section
variable {E₁ E₂ F₁ F₂ : Type} [Zero F₁] [One F₁] [Neg F₁] [LT F₁] [DecidableLT F₁]
variable [Zero F₂] [One F₂] [Neg F₂] [LT F₂] [DecidableLT F₂]

/-- The two spaces agree, through `φ`, on the elements of `box`, for weights of sum at most `N`. -/
structure HomOn (sp₁ : Space E₁ F₁) (sp₂ : Space E₂ F₂) (φ : E₁ → E₂) (box : E₁ → Prop) (N : Nat) : Prop where
  combine : ∀ {a b} {w v : Int}, box a → box b → 0 < w → 0 < v → w + v ≤ N →
    sp₂.combine (φ a) w (φ b) v = φ (sp₁.combine a w b v) ∧ box (sp₁.combine a w b v)
  copy : ∀ {a}, box a → sp₂.copy (φ a) = φ (sp₁.copy a) ∧ box (sp₁.copy a)
  label : ∀ {c e}, (∀ x ∈ c, box x) → box e → (nearest sp₂ (c.map φ) (φ e)).1 = (nearest sp₁ c e).1

/-- Pairs of elements, with the distances of the first. -/
def pairSpace (sp₁ : Space E₁ F₁) (sp₂ : Space E₂ F₂) : Space (E₁ × E₂) F₁ where
  dist x y := sp₁.dist x.1 y.1
  combine x w y v := (sp₁.combine x.1 w y.1 v, sp₂.combine x.2 w y.2 v)
  copy x := (sp₁.copy x.1, sp₂.copy x.2)
  dim _ := 0

theorem pair_nearestLoop (sp₁ : Space E₁ F₁) (sp₂ : Space E₂ F₂) (e : E₁ × E₂) : ∀ (c : List (E₁ × E₂)) (i : Nat) (l : Int)
    (m : F₁), nearestLoop (pairSpace sp₁ sp₂) e c i l m = nearestLoop sp₁ e.1 (c.map Prod.fst) i l m
  | [], _, _, _ => rfl
  | x :: c, i, l, m => by
    simp only [List.map_cons, nearestLoop, pair_nearestLoop sp₁ sp₂ e c]
    rfl

theorem pair_nearest (sp₁ : Space E₁ F₁) (sp₂ : Space E₂ F₂) (e : E₁ × E₂) (c : List (E₁ × E₂)) :
    nearest (pairSpace sp₁ sp₂) c e = nearest sp₁ (c.map Prod.fst) e.1 := pair_nearestLoop sp₁ sp₂ e c 0 (-1) (-1)

/-- An iteration in the second space is the image of the iteration in the first. -/
theorem HomOn.step {sp₁ : Space E₁ F₁} {sp₂ : Space E₂ F₂} {φ : E₁ → E₂} {box : E₁ → Prop} {N : Nat}
    (hneg : (-1 : F₁) < 0) (h : HomOn sp₁ sp₂ φ box N) (s : KStrategy) (hs : s.Valid) (c data : List E₁) (hc : c ≠ [])
    (hcb : ∀ x ∈ c, box x) (hd : ∀ e ∈ data, box e) (hN : data.length ≤ N) :
    ∃ out, kmeansStep s sp₁ data c = some out ∧ kmeansStep s sp₂ (data.map φ) (c.map φ) = some (out.map φ) ∧
      out.length = c.length ∧ ∀ x ∈ out, box x := by
  let R : E₁ × E₂ → Prop := fun x => box x.1 ∧ x.2 = φ x.1
  let P : List (E₁ × E₂) → E₁ × E₂ → Prop := fun ms m => (∀ e ∈ ms, R e) → ms.length ≤ N → R m
  have hR : ∀ {x y : E₁ × E₂} {w v : Int}, R x → R y → 0 < w → 0 < v → w + v ≤ N →
      R ((pairSpace sp₁ sp₂).combine x w y v) := by
    intro x y w v hx hy hw hv hwv
    obtain ⟨h1, h2⟩ := h.combine hx.1 hy.1 hw hv hwv
    refine ⟨h2, ?_⟩
    show sp₂.combine x.2 w y.2 v = _
    rw [hx.2, hy.2]; exact h1
  have hcomb : CombineOk (pairSpace sp₁ sp₂) P := by
    intro a b x y ha hb hx hy hall hlen
    rw [List.length_append] at hlen
    have ha' := List.length_pos_iff.2 ha
    have hb' := List.length_pos_iff.2 hb
    exact hR (hx (fun e he => hall e (by simp [he])) (by omega)) (hy (fun e he => hall e (by simp [he])) (by omega))
      (by omega) (by omega) (by omega)
  have hrun : ∀ ms m, running (pairSpace sp₁ sp₂) ms = some m → P ms m := by
    intro ms m hm hall hlen
    have key : ∀ (l : List (E₁ × E₂)) (mw : (E₁ × E₂) × Int), 0 < mw.2 → R mw.1 → (∀ e ∈ l, R e) → mw.2 + l.length ≤ N →
        R (l.foldl (fun mw x => ((pairSpace sp₁ sp₂).combine mw.1 mw.2 x 1, mw.2 + 1)) mw).1 := by
      intro l
      induction l with
      | nil => exact fun mw _ hr _ _ => hr
      | cons a l ih =>
        intro mw hpos hr hl hN
        rw [List.length_cons] at hN
        push_cast at hN
        exact ih ((pairSpace sp₁ sp₂).combine mw.1 mw.2 a 1, mw.2 + 1) (by simp only; omega)
          (hR hr (hl a (by simp)) hpos (by omega) (by omega)) (fun e he => hl e (by simp [he])) (by simp only; omega)
    cases ms with
    | nil => cases hm
    | cons a l =>
      cases hm
      refine key l ((pairSpace sp₁ sp₂).copy a, 1) (by simp) ?_ (fun e he => hall e (by simp [he])) (by
        rw [List.length_cons] at hlen
        simp only
        omega)
      have ha := hall a (by simp)
      obtain ⟨h1, h2⟩ := h.copy ha.1
      refine ⟨h2, ?_⟩
      show sp₂.copy a.2 = _
      rw [ha.2]; exact h1
  let pr : E₁ → E₁ × E₂ := fun e => (e, φ e)
  have f1 : ∀ l : List E₁, (l.map pr).map Prod.fst = l := fun l => by simp [pr, Function.comp_def]
  have f2 : ∀ l : List E₁, (l.map pr).map Prod.snd = l.map φ := fun l => by simp [pr, Function.comp_def]
  obtain ⟨out, g1, g2, g3⟩ := iterate_spec hneg hcomb hrun s hs (c.map pr) (data.map pr) (by simpa using hc)
  have hstep : kmeansStep s (pairSpace sp₁ sp₂) (data.map pr) (c.map pr) = some out := by
    rw [kmeansStep, g1]; exact allSome_map_some out
  have hall : ∀ x ∈ out, R x := by
    intro x hx
    obtain ⟨i, hi, rfl⟩ := List.mem_iff_getElem.1 hx
    have hi' : i < c.length := by simpa [g2] using hi
    obtain ⟨m, hm, e1, e2⟩ := g3 i (pr c[i]) (by simp [hi'])
    rw [List.getElem?_eq_getElem hi] at hm
    cases hm
    by_cases hms : ((data.map pr).filter fun e => (nearest (pairSpace sp₁ sp₂) (c.map pr) e).1 == (i : Int)) = []
    · rw [e1 hms]; exact ⟨hcb _ (List.getElem_mem _), rfl⟩
    · refine e2 hms (fun e he => ?_) ((List.length_filter_le _ _).trans (by simpa using hN))
      obtain ⟨d, hdm, rfl⟩ := List.mem_map.1 (List.mem_filter.1 he).1
      exact ⟨hd d hdm, rfl⟩
  have h1 := CombHom.step (sp₁ := pairSpace sp₁ sp₂) (sp₂ := sp₁) (φ := Prod.fst) ⟨fun _ _ _ _ => rfl, fun _ => rfl⟩ s (c.map pr)
    (data.map pr) fun e _ => by rw [pair_nearest]
  have h2 := CombHom.step (sp₁ := pairSpace sp₁ sp₂) (sp₂ := sp₂) (φ := Prod.snd) ⟨fun _ _ _ _ => rfl, fun _ => rfl⟩ s (c.map pr)
    (data.map pr) fun e he => by
      obtain ⟨d, hdm, rfl⟩ := List.mem_map.1 he
      rw [pair_nearest, f1, f2]
      exact h.label hcb (hd d hdm)
  rw [f1, f1, hstep] at h1
  rw [f2, f2, hstep] at h2
  refine ⟨out.map Prod.fst, h1, ?_, by simpa using g2, fun x hx => ?_⟩
  · rw [h2, Option.map_some, List.map_map]
    congr 1
    exact List.map_congr_left fun x hx => (hall x hx).2
  · obtain ⟨y, hy, rfl⟩ := List.mem_map.1 hx
    exact (hall y hy).1

/-- The same for any number of iterations. -/
theorem HomOn.run {sp₁ : Space E₁ F₁} {sp₂ : Space E₂ F₂} {φ : E₁ → E₂} {box : E₁ → Prop} {N : Nat}
    (hneg : (-1 : F₁) < 0) (h : HomOn sp₁ sp₂ φ box N) (s : KStrategy) (hs : s.Valid) : ∀ (datas : List (List E₁))
    (c : List E₁), c ≠ [] → (∀ x ∈ c, box x) → (∀ d ∈ datas, d.length ≤ N ∧ ∀ e ∈ d, box e) →
    ∃ out, kmeansRun s sp₁ datas c = some out ∧ kmeansRun s sp₂ (datas.map (List.map φ)) (c.map φ) = some (out.map φ) ∧
      out.length = c.length ∧ ∀ x ∈ out, box x
  | [], c, _, hcb, _ => ⟨c, rfl, rfl, rfl, hcb⟩
  | d :: ds, c, hc, hcb, hd => by
    obtain ⟨h1, h2⟩ := hd d (by simp)
    obtain ⟨o, e1, e2, e3, e4⟩ := h.step hneg s hs c d hc hcb h2 h1
    obtain ⟨out, g1, g2, g3, g4⟩ := h.run hneg s hs ds o (fun h0 => hc (by subst h0; exact List.length_eq_zero_iff.1 e3.symm)) e4
      fun d' hd' => hd d' (by simp [hd'])
    exact ⟨out, by rw [kmeansRun, e1]; exact g1, by rw [List.map_cons, kmeansRun, e2]; exact g2, g3.trans e3, g4⟩

end
end Distclus
