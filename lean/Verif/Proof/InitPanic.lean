import Verif.Model.InitPanic
import Verif.Proof.McmcPanic
import Verif.Proof.DtwKMeans
import Verif.Props.ParPanic
/-!
# k-means on elements of different sizes: auxiliary lemmas
-/
namespace Distclus
open Spec PSpace

section
variable {E F : Type} [Zero F] [One F] [Neg F] [LT F] [DecidableLT F] {sp : PSpace E F} {size : E → Nat}

/-! ### The sizes of the new centroids -/

/-- The centroids built from means of known sizes. -/
theorem seqBuild_sizes {σ : Nat → Option Nat} (c : List E) (st : List (Option E) × List Int)
    (h : Holds size c.length σ st) : ∃ r : List E, seqBuildResult c st.1 = some (r.map some) ∧ r.length = c.length ∧
      ∀ l x, c[l]? = some x → (σ l = none → r[l]? = some x) ∧ ∀ g, σ l = some g → ∃ m, r[l]? = some m ∧ size m = g := by
  obtain ⟨r, h1, h2, h3⟩ := seqBuildResult_spec c st.1 h.l1
  refine ⟨r, h1, h2, fun l x hx => ?_⟩
  have hl : l < c.length := (List.getElem?_eq_some_iff.1 hx).1
  obtain ⟨d, hd⟩ : ∃ d, st.1[l]? = some d := ⟨_, List.getElem?_eq_getElem (by rw [h.l1]; exact hl)⟩
  obtain ⟨k, hk⟩ : ∃ d, st.2[l]? = some d := ⟨_, List.getElem?_eq_getElem (by rw [h.l2]; exact hl)⟩
  have hcell := h.cell l d k hd hk
  have hr := h3 l x d hx hd
  constructor
  · intro hs
    rw [hs] at hcell
    obtain ⟨rfl, -⟩ := hcell
    exact hr
  · intro g hs
    rw [hs] at hcell
    obtain ⟨-, m, rfl, hm⟩ := hcell
    exact ⟨m, hr, hm⟩

theorem parBuild_sizes : ∀ (c : List E) (σ : Nat → Option Nat) (st : List (Option E) × List Int),
    Holds size c.length σ st → ∃ r : List E, parBuildResult c st = some (r.map some) ∧ r.length = c.length ∧
      ∀ l x, c[l]? = some x → (σ l = none → r[l]? = some x) ∧ ∀ g, σ l = some g → ∃ m, r[l]? = some m ∧ size m = g
  | [], _, _, _ => ⟨[], rfl, rfl, by simp⟩
  | x :: c, σ, (ds, cs), h => by
    obtain ⟨d, ds, rfl⟩ := List.exists_cons_of_length_eq_add_one h.l1
    obtain ⟨n, cs, rfl⟩ := List.exists_cons_of_length_eq_add_one h.l2
    obtain ⟨r, h1, h2, h3⟩ := parBuild_sizes c (fun l => σ (l + 1)) (ds, cs) ⟨by simpa using h.l1, by simpa using h.l2,
      fun l u v hu hv => h.cell (l + 1) u v (by simpa using hu) (by simpa using hv)⟩
    have hcell := h.cell 0 d n rfl rfl
    simp only [parBuildResult] at h1
    cases hs : σ 0 with
    | none =>
      rw [hs] at hcell
      obtain ⟨rfl, rfl⟩ := hcell
      refine ⟨x :: r, by simp [parBuildResult, buildLoop, h1], by simp [h2], fun l y hy => ?_⟩
      cases l with
      | zero => cases hy; exact ⟨fun _ => rfl, fun g hg => by rw [hs] at hg; cases hg⟩
      | succ l => simpa using h3 l y (by simpa using hy)
    | some g =>
      rw [hs] at hcell
      obtain ⟨hpos, m, rfl, hm⟩ := hcell
      refine ⟨m :: r, by simp [parBuildResult, buildLoop, h1, hpos], by simp [h2], fun l y hy => ?_⟩
      cases l with
      | zero => exact ⟨fun hn => (by rw [hs] at hn; cases hn), fun g' hg => by rw [hs] at hg; cases hg; exact ⟨m, rfl, hm⟩⟩
      | succ l => simpa using h3 l y (by simpa using hy)

/-- When the parallel iteration returns, its aggregated means have the sizes of the first elements of the clusters. -/
theorem par_holds (hneg : (-1 : F) < 0) (hz : Sized sp size) (c data : List E) (hc : c ≠ []) (d : Int)
    (r : List (Option E)) (hr : (KStrategy.par d).iterateP sp c data = .ok r) :
    ∃ aggr, Holds size c.length (fun l => after size none (PSpace.members sp c l data)) aggr ∧
      parBuildResult c aggr = some r := by
  simp only [KStrategy.iterateP, parP] at hr
  cases hp : par data.length d with
  | none => rw [hp] at hr; cases hr
  | some chunks =>
    rw [hp] at hr
    simp only at hr
    cases ha : allSome (chunks.map fun k => reduceDBAP sp c (slice data k.start k.stop)) with
    | none => rw [ha] at hr; cases hr
    | some parts =>
      rw [ha] at hr
      simp only at hr
      have hf : ∀ (ks : List Chunk) (ps : List (List (Option E) × List Int)),
          allSome (ks.map fun k => reduceDBAP sp c (slice data k.start k.stop)) = some ps →
          List.Forall₂ (fun es st => Fit size sp c (fun _ => none) es ∧
            Holds size c.length (fun l => after size none (PSpace.members sp c l es)) st)
            (ks.map fun k => slice data k.start k.stop) ps := by
        intro ks
        induction ks with
        | nil => intro ps h; cases h; exact .nil
        | cons k ks ih =>
          intro ps h
          simp only [List.map_cons] at h ⊢
          cases hk : reduceDBAP sp c (slice data k.start k.stop) with
          | none => rw [hk] at h; cases h
          | some st =>
            rw [hk] at h
            simp only [allSome] at h
            cases hq : allSome (ks.map fun k => reduceDBAP sp c (slice data k.start k.stop)) with
            | none => rw [hq] at h; cases h
            | some qs =>
              rw [hq] at h
              cases h
              obtain ⟨h1, h2⟩ := reduceDBA_sized hneg hz hc (slice data k.start k.stop)
              by_cases hfit : Fit size sp c (fun _ => none) (slice data k.start k.stop)
              · obtain ⟨st', e1, e2⟩ := h1 hfit
                rw [hk] at e1
                cases e1
                exact .cons ⟨hfit, e2⟩ (ih qs hq)
              · rw [h2 hfit] at hk; cases hk
      have hall := hf chunks parts ha
      have hdata : (chunks.map fun k => slice data k.start k.stop).flatten = data := by
        rw [← List.flatMap_def]; exact par_slices data hp
      cases hg : dbaAggregateP sp parts with
      | none => rw [hg] at hr; cases hr
      | some aggr =>
        rw [hg] at hr
        simp only at hr
        cases hb : parBuildResult c aggr with
        | none => rw [hb] at hr; cases hr
        | some q =>
          rw [hb] at hr
          cases hr
          refine ⟨aggr, ?_, hb⟩
          cases hcs : chunks.map (fun k => slice data k.start k.stop) with
          | nil =>
            rw [hcs] at hall
            cases hall
            cases hg
            cases c with
            | nil => exact (hc rfl).elim
            | cons x c => cases hb
          | cons es ess =>
            rw [hcs] at hall hdata
            cases hall with
            | @cons _ st _ sts h1 h2 =>
              obtain ⟨-, o2⟩ := aggregate_sized hz ess sts _ st aggr h2 h1.2 hg
              have e : (fun l => after size (after size none (PSpace.members sp c l es))
                  (PSpace.members sp c l ess.flatten)) = fun l => after size none (PSpace.members sp c l data) := by
                funext l
                rw [← hdata, List.flatten_cons, membersIn_append]
                cases PSpace.members sp c l es <;> simp [after]
              rw [e] at o2
              exact o2

/-! ### The labelling of `PPIter` -/

theorem mapDist_panics (c es : List E) : mapDistP sp c es = none ↔ ∃ e ∈ es, ∃ x ∈ c, sp.dist e x = none := by
  unfold mapDistP
  rw [allSome_panics, List.mem_map]
  constructor
  · rintro ⟨e, he, h⟩
    refine ⟨e, he, ?_⟩
    by_contra hn
    have : nearestP sp c e = some (nearest sp.total c e) :=
      (nearestLoop_total e c _ _ _).1 fun x hx h => hn ⟨x, hx, h⟩
    rw [this] at h; cases h
  · rintro ⟨e, he, x, hx, h⟩
    have : nearestP sp c e = none := (nearestLoop_total e c _ _ _).2 ⟨x, hx, h⟩
    exact ⟨e, he, by rw [this]; rfl⟩

theorem parDist_cases (c es : List E) {degree : Int} (hd : 1 ≤ degree) :
    ((∃ e ∈ es, ∃ x ∈ c, sp.dist e x = none) → parDistP sp c es degree = .crash) ∧
    ((∀ e ∈ es, ∀ x ∈ c, sp.dist e x ≠ none) → ∃ ds, parDistP sp c es degree = .ok ds) := by
  obtain ⟨chunks, hp⟩ : ∃ chunks, par es.length degree = some chunks := ⟨_, par_eq (by omega)⟩
  constructor
  · rintro ⟨e, he, x, hx, h⟩
    rw [← par_slices es hp, List.mem_flatMap] at he
    obtain ⟨k, hk, hin⟩ := he
    have : allSome (chunks.map fun k => mapDistP sp c (slice es k.start k.stop)) = none :=
      (allSome_panics _).2 (List.mem_map.2 ⟨k, hk, (mapDist_panics c _).2 ⟨e, hin, x, hx, h⟩⟩)
    simp only [parDistP, parP, hp, this]
  · intro hall
    cases ha : allSome (chunks.map fun k => mapDistP sp c (slice es k.start k.stop)) with
    | none =>
      rw [allSome_panics, List.mem_map] at ha
      obtain ⟨k, hk, h⟩ := ha
      obtain ⟨e, he, x, hx, h⟩ := (mapDist_panics c _).1 h
      have : e ∈ es := by
        rw [← par_slices es hp, List.mem_flatMap]; exact ⟨k, hk, he⟩
      exact (hall e this x hx h).elim
    | some parts => exact ⟨_, by simp only [parDistP, parP, hp, ha]; rfl⟩

variable [Add F] [Sub F] [Mul F] [BEq F]

/-- `PPIter` ends the process exactly when a distance panics; otherwise what it returns is a copy of an element. -/
theorem ppIterP_cases (c es : List E) (u : F) {degree : Int} (hd : 1 ≤ degree) :
    (ppIterP sp degree c es u = .crash ↔ ∃ e ∈ es, ∃ x ∈ c, sp.dist e x = none) ∧
    ∀ y b, ppIterP sp degree c es u = .ok (y, b) → ∃ e ∈ es, sp.copy e = some y := by
  have tail : ∀ ds : List F, parDistP sp c es degree = .ok ds → ppIterP sp degree c es u ≠ .crash ∧
      ∀ y b, ppIterP sp degree c es u = .ok (y, b) → ∃ e ∈ es, sp.copy e = some y := by
    intro ds h
    unfold ppIterP
    rw [h]
    simp only [Outcome.bind]
    cases weightedChoice ds u with
    | panic => exact ⟨by simp, fun y b h => by cases h⟩
    | nullSet =>
      simp only
      cases he : es[0]? with
      | none => exact ⟨by simp, fun y b h => by cases h⟩
      | some e =>
        simp only
        cases hc : sp.copy e with
        | none => exact ⟨by simp [Outcome.ofOption], fun y b h => by simp [Outcome.ofOption] at h⟩
        | some x =>
          refine ⟨by simp [Outcome.ofOption], fun y b h => ?_⟩
          simp only [Option.map_some, Outcome.ofOption, Outcome.ok.injEq, Prod.mk.injEq] at h
          exact ⟨e, List.mem_of_getElem? he, by rw [hc, h.1]⟩
    | ok i =>
      simp only
      cases he : idx? es i with
      | none => exact ⟨by simp, fun y b h => by cases h⟩
      | some e =>
        simp only
        have hm : e ∈ es := by
          unfold idx? at he
          split at he
          · cases he
          · exact List.mem_of_getElem? he
        cases hc : sp.copy e with
        | none => exact ⟨by simp [Outcome.ofOption], fun y b h => by simp [Outcome.ofOption] at h⟩
        | some x =>
          refine ⟨by simp [Outcome.ofOption], fun y b h => ?_⟩
          simp only [Option.map_some, Outcome.ofOption, Outcome.ok.injEq, Prod.mk.injEq] at h
          exact ⟨e, hm, by rw [hc, h.1]⟩
  obtain ⟨p1, p2⟩ := parDist_cases (sp := sp) c es hd
  by_cases hx : ∃ e ∈ es, ∃ x ∈ c, sp.dist e x = none
  · have h := p1 hx
    have hcr : ppIterP sp degree c es u = .crash := by unfold ppIterP; rw [h]; rfl
    exact ⟨iff_of_true hcr hx, fun y b h => by rw [hcr] at h; cases h⟩
  · obtain ⟨ds, h⟩ := p2 fun e he x hx' h => hx ⟨e, he, x, hx', h⟩
    obtain ⟨t1, t2⟩ := tail ds h
    exact ⟨iff_of_false t1 hx, t2⟩

end
end Distclus
