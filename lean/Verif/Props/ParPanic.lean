import Verif.Proof.ParPanic
import Verif.Props.Euclid
import Verif.Props.KMeans
/-!
# C124: elements of different sizes, and what a panic of an iteration ends

Model: `Verif/Model/ParPanic.lean`.  A `panic` is one that the run recovers (C57_panic: the status is Finished, with the
error); after a `crash` there is no process any more.
-/
namespace Distclus
open Spec PSpace

section
variable {E F : Type} [Zero F] [One F] [Neg F] [LT F] [DecidableLT F] {sp : PSpace E F} {size : E → Nat}

/-- **C124.** The sequential iteration returns exactly when no element is larger than a centroid and the first element of
each cluster is not larger than the others of the cluster; otherwise it panics in the goroutine of the run, which
recovers. -/
theorem C124_seq (hneg : (-1 : F) < 0) (hz : Sized sp size) (c data : List E) (hc : c ≠ []) :
    (Fits size sp c data → ∃ r, KStrategy.seq.iterateP sp c data = .ok r) ∧
    (¬ Fits size sp c data → KStrategy.seq.iterateP sp c data = .panic) := by
  obtain ⟨h1, h2⟩ := reduceDBA_sized hneg hz hc data
  constructor
  · intro h
    obtain ⟨⟨ds, cs⟩, e1, e2⟩ := h1 h
    obtain ⟨r, hr, -⟩ := seqBuildResult_spec c ds e2.l1
    exact ⟨_, by simp only [KStrategy.iterateP, e1, hr]; rfl⟩
  · intro h
    simp only [KStrategy.iterateP, h2 h]

/-- **C124.** The parallel iteration ends the process exactly when the data of one of its goroutines do not fit, taken
alone. -/
theorem C124_par_crash (hneg : (-1 : F) < 0) (hz : Sized sp size) (c data : List E) (hc : c ≠ []) (d : Int) :
    (KStrategy.par d).iterateP sp c data = .crash ↔
      ∃ chunks, par data.length d = some chunks ∧ ∃ k ∈ chunks, ¬ Fits size sp c (slice data k.start k.stop) := by
  have key : ∀ es, reduceDBAP sp c es = none ↔ ¬ Fits size sp c es := by
    intro es
    obtain ⟨h1, h2⟩ := reduceDBA_sized hneg hz hc es
    refine ⟨fun h hf => ?_, h2⟩
    obtain ⟨st, e, _⟩ := h1 hf
    rw [h] at e; cases e
  simp only [KStrategy.iterateP, parP]
  cases hp : par data.length d with
  | none => simp
  | some chunks =>
    simp only [Option.some.injEq, exists_eq_left']
    cases ha : allSome (chunks.map fun k => reduceDBAP sp c (slice data k.start k.stop)) with
    | none =>
      rw [allSome_panics] at ha
      obtain ⟨k, hk, e⟩ := List.mem_map.1 ha
      simp only [true_iff]
      exact ⟨k, hk, (key _).1 e⟩
    | some parts =>
      have hn : ¬ ∃ k ∈ chunks, ¬ Fits size sp c (slice data k.start k.stop) := by
        rintro ⟨k, hk, hf⟩
        have : allSome (chunks.map fun k => reduceDBAP sp c (slice data k.start k.stop)) = none :=
          (allSome_panics _).2 (List.mem_map.2 ⟨k, hk, (key _).2 hf⟩)
        rw [ha] at this; cases this
      simp only [hn, iff_false]
      cases dbaAggregateP sp parts with
      | none => simp
      | some aggr => simp only; cases parBuildResult c aggr <;> simp

/-- **C124.** When the parallel iteration returns, so does the sequential one. -/
theorem C124_par_ok (hneg : (-1 : F) < 0) (hz : Sized sp size) (c data : List E) (hc : c ≠ []) (d : Int)
    (r : List (Option E)) (hr : (KStrategy.par d).iterateP sp c data = .ok r) :
    Fits size sp c data ∧ ∃ q, KStrategy.seq.iterateP sp c data = .ok q := by
  suffices h : Fits size sp c data from ⟨h, (C124_seq hneg hz c data hc).1 h⟩
  simp only [KStrategy.iterateP, parP] at hr
  cases hp : par data.length d with
  | none => rw [hp] at hr; cases hr
  | some chunks =>
    rw [hp] at hr
    simp only at hr
    cases ha : allSome (chunks.map fun k => reduceDBAP sp c (slice data k.start k.stop)) with
    | none => rw [ha] at hr; cases hr
    | some parts =>
      rw [ha] at hr
      simp only at hr
      have hf : ∀ (ks : List Chunk) (ps : List (List (Option E) × List Int)),
          allSome (ks.map fun k => reduceDBAP sp c (slice data k.start k.stop)) = some ps →
          List.Forall₂ (fun es st => Fit size sp c (fun _ => none) es ∧
            Holds size c.length (fun l => after size none (PSpace.members sp c l es)) st)
            (ks.map fun k => slice data k.start k.stop) ps := by
        intro ks
        induction ks with
        | nil => intro ps h; cases h; exact .nil
        | cons k ks ih =>
          intro ps h
          simp only [List.map_cons] at h ⊢
          cases hk : reduceDBAP sp c (slice data k.start k.stop) with
          | none => rw [hk] at h; cases h
          | some st =>
            rw [hk] at h
            simp only [allSome] at h
            cases hq : allSome (ks.map fun k => reduceDBAP sp c (slice data k.start k.stop)) with
            | none => rw [hq] at h; cases h
            | some qs =>
              rw [hq] at h
              cases h
              obtain ⟨h1, h2⟩ := reduceDBA_sized hneg hz hc (slice data k.start k.stop)
              by_cases hfit : Fit size sp c (fun _ => none) (slice data k.start k.stop)
              · obtain ⟨st', e1, e2⟩ := h1 hfit
                rw [hk] at e1
                cases e1
                exact .cons ⟨hfit, e2⟩ (ih qs hq)
              · rw [h2 hfit] at hk; cases hk
      have hall := hf chunks parts ha
      have hdata : (chunks.map fun k => slice data k.start k.stop).flatten = data := by
        rw [← List.flatMap_def]; exact par_slices data hp
      constructor
      · intro e he
        rw [← hdata] at he
        obtain ⟨es, hes, hin⟩ := List.mem_flatten.1 he
        have : ∀ (ess : List (List E)) (ps : List (List (Option E) × List Int)),
            List.Forall₂ (fun es st => Fit size sp c (fun _ => none) es ∧
            Holds size c.length (fun l => after size none (PSpace.members sp c l es)) st) ess ps →
            ∀ es ∈ ess, Fit size sp c (fun _ => none) es := by
          intro ess ps h
          induction h with
          | nil => simp
          | cons h _ ih =>
            intro es hes
            rcases List.mem_cons.1 hes with rfl | hes
            · exact h.1
            · exact ih es hes
        exact (this _ _ hall es hes).1 e hin
      · intro l hl
        cases hcs : chunks.map (fun k => slice data k.start k.stop) with
        | nil => rw [hcs] at hdata; simp only [List.flatten_nil] at hdata; subst hdata; trivial
        | cons es ess =>
          rw [hcs] at hall hdata
          cases hall with
          | @cons _ st _ sts h1 h2 =>
            cases hg : dbaAggregateP sp (st :: sts) with
            | none => rw [hg] at hr; cases hr
            | some aggr =>
              have hall' : List.Forall₂ (fun es st => Fit size sp c (fun _ => none) es ∧
                Holds size c.length (fun l => after size none (PSpace.members sp c l es)) st) ess sts := h2
              have hz0 : Holds size c.length (fun l => after size none (PSpace.members sp c l es)) st := h1.2
              obtain ⟨o1, -⟩ := aggregate_sized hz ess sts _ st aggr hall' hz0 hg
              have ho := o1 l hl
              have hfit := h1.1.2 l hl
              have : FirstLeast size (PSpace.members sp c l data) := by
                rw [← hdata, List.flatten_cons, membersIn_append]
                cases hm : PSpace.members sp c l es with
                | nil => rw [hm] at ho; exact ho
                | cons x xs =>
                  rw [hm] at ho hfit
                  intro y hy
                  rcases List.mem_append.1 hy with hy | hy
                  · exact hfit y hy
                  · exact ho y hy
              exact this

/-- **C124.** One element larger than some centroid, anywhere in the data: the sequential iteration panics in the run,
which recovers; the parallel iteration ends the process, whatever its degree. -/
theorem C124_larger (hneg : (-1 : F) < 0) (hz : Sized sp size) (c data : List E) {e x : E} (he : e ∈ data) (hx : x ∈ c)
    (hlt : size x < size e) :
    KStrategy.seq.iterateP sp c data = .panic ∧ ∀ d : Int, 1 ≤ d → (KStrategy.par d).iterateP sp c data = .crash := by
  have hc : c ≠ [] := List.ne_nil_of_mem hx
  refine ⟨(C124_seq hneg hz c data hc).2 fun hf => ?_, fun d hd => (C124_par_crash hneg hz c data hc d).2 ?_⟩
  · have := hf.1 e he x hx; omega
  · obtain ⟨chunks, hp⟩ : ∃ chunks, par data.length d = some chunks := ⟨_, par_eq (by omega)⟩
    refine ⟨chunks, hp, ?_⟩
    rw [← par_slices data hp, List.mem_flatMap] at he
    obtain ⟨k, hk, hin⟩ := he
    refine ⟨k, hk, fun hf => ?_⟩
    have := hf.1 e hin x hx; omega

/-- **C124.** Data and no centroid: likewise. -/
theorem C124_no_centroid (sp : PSpace E F) (data : List E) (hd : data ≠ []) :
    KStrategy.seq.iterateP sp [] data = .panic ∧ ∀ d : Int, 1 ≤ d → (KStrategy.par d).iterateP sp [] data = .crash := by
  have key : ∀ es : List E, es ≠ [] → reduceDBAP sp [] es = none := by
    intro es hes
    cases es with
    | nil => exact (hes rfl).elim
    | cons e es => rfl
  refine ⟨by simp only [KStrategy.iterateP, key data hd], fun d hd1 => ?_⟩
  obtain ⟨chunks, hp⟩ : ∃ chunks, par data.length d = some chunks := ⟨_, par_eq (by omega)⟩
  have : allSome (chunks.map fun k => reduceDBAP sp [] (slice data k.start k.stop)) = none := by
    rw [allSome_panics, List.mem_map]
    obtain ⟨e, he⟩ := List.exists_mem_of_ne_nil data hd
    rw [← par_slices data hp, List.mem_flatMap] at he
    obtain ⟨k, hk, hin⟩ := he
    exact ⟨k, hk, key _ (List.ne_nil_of_mem hin)⟩
  simp only [KStrategy.iterateP, parP, hp, this]

/-- With one centroid all the elements have the label 0. -/
theorem nearest_total_one (hneg : (-1 : F) < 0) (sp : PSpace E F) (x e : E) : (nearest sp.total [x] e).1 = 0 := by
  have := nearest_range hneg sp.total [x] (by simp) e
  simp only [List.length_singleton] at this
  omega

theorem fits_one (hneg : (-1 : F) < 0) (sp : PSpace E F) (x : E) (data : List E) :
    Fits size sp [x] data ↔ (∀ e ∈ data, size e ≤ size x) ∧ FirstLeast size data := by
  have : (data.filter fun e => (nearest sp.total [x] e).1 == ((0 : Nat) : Int)) = data := by
    rw [List.filter_eq_self]; intro a _; simp [nearest_total_one hneg]
  simp only [Fits, List.mem_singleton, forall_eq, List.length_singleton, Nat.lt_one_iff, this]

/-- **C124 (claim examined: that the parallel iteration ends the process only when the sequential one panics).** Three
elements of sizes 1, 3, 2 and a centroid of size 3: the sequential iteration returns, the parallel one with two
goroutines ends the process. -/
theorem C124_par_worse (hneg : (-1 : F) < 0) (hz : Sized sp size) {a b e x : E} (ha : size a = 1) (hb : size b = 3)
    (he : size e = 2) (hx : size x = 3) :
    (∃ r, KStrategy.seq.iterateP sp [x] [a, b, e] = .ok r) ∧ (KStrategy.par 2).iterateP sp [x] [a, b, e] = .crash := by
  refine ⟨(C124_seq hneg hz _ _ (by simp)).1 ((fits_one hneg sp x _).2 ?_), (C124_par_crash hneg hz _ _ (by simp) 2).2
    ⟨[⟨0, 1, 0⟩, ⟨1, 3, 1⟩], (by decide : par 3 2 = _), ⟨1, 3, 1⟩, by simp, ?_⟩⟩
  · simp [FirstLeast]; omega
  · rw [fits_one hneg]
    simp [slice, FirstLeast]; omega

/-- **C124 (claim examined: that the parallel iteration never panics in the run).** Two elements of sizes 2 and 1: each
goroutine succeeds, and the aggregation, made by the run, panics. -/
theorem C124_par_panic (hneg : (-1 : F) < 0) (hz : Sized sp size) {a b x : E} (ha : size a = 2) (hb : size b = 1)
    (hx : size x = 2) : (KStrategy.par 2).iterateP sp [x] [a, b] = .panic := by
  cases h : (KStrategy.par 2).iterateP sp [x] [a, b] with
  | panic => rfl
  | ok r =>
    have := (C124_par_ok hneg hz [x] [a, b] (by simp) 2 r h).1
    rw [fits_one hneg] at this
    simp [FirstLeast] at this; omega
  | crash =>
    obtain ⟨chunks, hp, k, hk, hn⟩ := (C124_par_crash hneg hz _ _ (by simp) 2).1 h
    have e : chunks = [⟨0, 1, 0⟩, ⟨1, 2, 1⟩] := by
      have : par [a, b].length 2 = some [⟨0, 1, 0⟩, ⟨1, 2, 1⟩] := (by decide : par 2 2 = _)
      rw [this] at hp; exact (Option.some.inj hp).symm
    subst e
    refine (hn ?_).elim
    rw [fits_one hneg]
    simp only [List.mem_cons, List.not_mem_nil, or_false] at hk
    rcases hk with rfl | rfl <;> simp [slice, FirstLeast] <;> omega

section
variable [Add F] [GoMath F]

theorem reduceLoss_sized (hneg : (-1 : F) < 0) (hz : Sized sp size) {c : List E} (hc : c ≠ []) (norm : F) (es : List E) :
    ((∀ e ∈ es, ∀ x ∈ c, size e ≤ size x) → reduceLossP sp c es norm = reduceLoss sp.total c es norm) ∧
    (reduceLossP sp c es norm = none ↔ ∃ e ∈ es, ∃ x ∈ c, size x < size e) := by
  have hdist : ∀ e, (∀ x ∈ c, size e ≤ size x) → nearestP sp c e = some (nearest sp.total c e) := by
    intro e h
    exact (nearestLoop_total e c _ _ _).1 fun x hx => by rw [ne_eq, hz.dist]; exact Nat.not_lt.2 (h x hx)
  have hbad : ∀ e, (∃ x ∈ c, size x < size e) → nearestP sp c e = none := by
    rintro e ⟨x, hx, h⟩
    exact (nearestLoop_total e c _ _ _).2 ⟨x, hx, (hz.dist e x).2 h⟩
  have hstep : ∀ (st : List F × List Int) (e : E) (v : F), st.1.length = c.length → st.2.length = c.length →
      ∃ st', lossStep st (nearest sp.total c e).1 v = some st' ∧ st'.1.length = c.length ∧ st'.2.length = c.length := by
    intro st e v h1 h2
    obtain ⟨r1, r2⟩ := nearest_range hneg sp.total c hc e
    have i1 : idx? st.1 (nearest sp.total c e).1 = some (st.1[(nearest sp.total c e).1.toNat]'(by omega)) := by
      rw [idx?_of_nonneg _ r1, List.getElem?_eq_getElem]
    have i2 : idx? st.2 (nearest sp.total c e).1 = some (st.2[(nearest sp.total c e).1.toNat]'(by omega)) := by
      rw [idx?_of_nonneg _ r1, List.getElem?_eq_getElem]
    simp only [lossStep, i1, i2]
    exact ⟨_, rfl, by simp [h1], by simp [h2]⟩
  have key : ∀ (es : List E) (st : List F × List Int), st.1.length = c.length → st.2.length = c.length →
      ((∀ e ∈ es, ∀ x ∈ c, size e ≤ size x) → lossLoopP sp c norm es st = lossLoop sp.total c norm es st) ∧
      (lossLoopP sp c norm es st = none ↔ ∃ e ∈ es, ∃ x ∈ c, size x < size e) := by
    intro es
    induction es with
    | nil => intro st _ _; simp [lossLoopP, lossLoop]
    | cons e es ih =>
      intro st h1 h2
      obtain ⟨st', e1, e2, e3⟩ := hstep st e (GoMath.pow (nearest sp.total c e).2 norm) h1 h2
      obtain ⟨i1, i2⟩ := ih st' e2 e3
      by_cases hf : ∀ x ∈ c, size e ≤ size x
      · have hno : ¬ ∃ x ∈ c, size x < size e := by
          rintro ⟨x, hx, hlt⟩; have := hf x hx; omega
        constructor
        · intro h
          simp only [lossLoopP, lossLoop, hdist e hf, e1]
          exact i1 fun y hy => h y (by simp [hy])
        · simp only [lossLoopP, hdist e hf, e1, i2, List.mem_cons, exists_eq_or_imp, hno, false_or]
      · have hno := hf
        push Not at hf
        constructor
        · intro h; exact (hno (h e (by simp))).elim
        · simp only [lossLoopP, hbad e hf, true_iff]
          exact ⟨e, by simp, hf⟩
  exact key es _ (by simp) (by simp)

/-- **C124 (the loss of mcmc).** When an element is larger than a centroid the sequential loss panics in the run and
the parallel one ends the process; otherwise both are those of the other properties. -/
theorem C124_loss (hneg : (-1 : F) < 0) (hz : Sized sp size) (c data : List E) (hc : c ≠ []) (norm : F) (d : Int)
    (hd : 1 ≤ d) :
    ((∃ e ∈ data, ∃ x ∈ c, size x < size e) → KStrategy.seq.lossP sp c data norm = .panic ∧
      (KStrategy.par d).lossP sp c data norm = .crash) ∧
    ((∀ e ∈ data, ∀ x ∈ c, size e ≤ size x) → ∀ v,
      (totalLoss sp.total c data norm = some v → KStrategy.seq.lossP sp c data norm = .ok v) ∧
      (parTotalLoss sp.total c data norm d = some v → (KStrategy.par d).lossP sp c data norm = .ok v)) := by
  obtain ⟨chunks, hp⟩ : ∃ chunks, par data.length d = some chunks := ⟨_, par_eq (by omega)⟩
  constructor
  · rintro ⟨e, he, x, hx, hlt⟩
    have h1 := (reduceLoss_sized hneg hz hc norm data).2.2 ⟨e, he, x, hx, hlt⟩
    have : allSome (chunks.map fun k => reduceLossP sp c (slice data k.start k.stop) norm) = none := by
      rw [allSome_panics, List.mem_map]
      rw [← par_slices data hp, List.mem_flatMap] at he
      obtain ⟨k, hk, hin⟩ := he
      exact ⟨k, hk, (reduceLoss_sized hneg hz hc norm _).2.2 ⟨e, hin, x, hx, hlt⟩⟩
    exact ⟨by simp only [KStrategy.lossP, h1], by simp only [KStrategy.lossP, parP, hp, this]⟩
  · intro h v
    constructor
    · intro hv
      simp only [KStrategy.lossP, (reduceLoss_sized hneg hz hc norm data).1 h, totalLoss] at hv ⊢
      cases hr : reduceLoss sp.total c data norm with
      | none => rw [hr] at hv; cases hv
      | some r => rw [hr] at hv; cases hv; rfl
    · intro hv
      have e : (chunks.map fun k => reduceLossP sp c (slice data k.start k.stop) norm) =
          chunks.map fun k => reduceLoss sp.total c (slice data k.start k.stop) norm := by
        refine List.map_congr_left fun k hk => (reduceLoss_sized hneg hz hc norm _).1 fun y hy => h y ?_
        rw [← par_slices data hp]
        exact List.mem_flatMap.2 ⟨k, hk, hy⟩
      simp only [KStrategy.lossP, parP, hp, e, parTotalLoss, parLoss] at hv ⊢
      cases ha : allSome (chunks.map fun k => reduceLoss sp.total c (slice data k.start k.stop) norm) with
      | none => rw [ha] at hv; cases hv
      | some parts =>
        rw [ha] at hv
        simp only at hv ⊢
        cases hg : lossAggregate parts with
        | none => rw [hg] at hv; cases hv
        | some r => rw [hg] at hv; cases hv; rfl

end
end

section
variable {F : Type} [Zero F] [One F] [Add F] [Sub F] [Mul F] [Div F] [GoMath F]

/-- The points of the Euclidean and of the cosine space, with their dimension. -/
theorem C124_euclid : Sized (euclidP (F := F)) List.length := by
  refine ⟨fun a b => ?_, fun a w b v => ?_, fun {a w b v r} h => ?_, fun a => ⟨a, rfl, rfl⟩⟩
  · simp [euclidP, pointDist?, sumSq?_eq]
  · simp [euclidP, pointCombine?, combineLoop?_eq]
  · simp only [euclidP, pointCombine?, combineLoop?_eq] at h
    split at h
    · cases h; simp; assumption
    · cases h

theorem C124_cosinus : Sized (cosinusP (F := F)) List.length := by
  refine ⟨fun a b => ?_, C124_euclid.combine, C124_euclid.combined, C124_euclid.copy⟩
  simp only [cosinusP, cosDist?, cosinus?, norm?, scalarProduct?, scalarLoop?_eq, le_refl, if_true, Option.map_some]
  by_cases h : a.length ≤ b.length
  · simp [h]
  · simp [h]; omega

variable [Neg F] [LT F] [DecidableLT F]

/-- **C124.** On points of one dimension nothing panics, and the iteration is that of the other properties. -/
theorem C124_same (hneg : (-1 : F) < 0) {n : Nat} (s : KStrategy) (hs : s.Valid) (c data : List (Vec F n)) (hc : c ≠ []) :
    (∃ r, s.iterate (euclidSpace F n) c data = some r ∧
      s.iterateP euclidP (c.map (·.1)) (data.map (·.1)) = .ok (r.map (Option.map (·.1)))) ∧
    ∃ r, s.iterate (cosinusSpace F n) c data = some r ∧
      s.iterateP cosinusP (c.map (·.1)) (data.map (·.1)) = .ok (r.map (Option.map (·.1))) := by
  have h1 : Embeds (euclidP (F := F)) (euclidSpace F n) (·.1) :=
    ⟨fun a b => (euclid_total a b 0 0).1, fun a w b v => (euclid_total a b w v).2, fun a => rfl⟩
  have h2 : Embeds (cosinusP (F := F)) (cosinusSpace F n) (·.1) :=
    ⟨fun a b => cosinus_total a b, fun a w b v => (euclid_total a b w v).2, fun a => rfl⟩
  have key : ∀ (sp : PSpace (List F) F) (space : Space (Vec F n) F), Embeds sp space (·.1) →
      ∃ r, s.iterate space c data = some r ∧
        s.iterateP sp (c.map (·.1)) (data.map (·.1)) = .ok (r.map (Option.map (·.1))) := by
    intro sp space h
    obtain ⟨r, hr⟩ : ∃ r, s.iterate space c data = some r := by
      cases hi : s.iterate space c data with
      | some r => exact ⟨r, rfl⟩
      | none => exact (hc ((C23_panics hneg s hs space c data).1 hi).1).elim
    refine ⟨r, hr, ?_⟩
    cases s with
    | seq => rw [h.seq, hr]
    | par d => exact h.par d c data r hr
  exact ⟨key _ _ h1, key _ _ h2⟩

end

/-- A point of dimension 2 among points of dimension 1. -/
example : ∀ d : Int, 1 ≤ d →
    (KStrategy.par d).iterateP (euclidP (F := ℝ)) [[0], [10]] [[1], [9], [3, 4], [2]] = .crash :=
  (C124_larger (by norm_num) C124_euclid _ _ (e := [3, 4]) (x := [10]) (by simp) (by simp) (by simp)).2

end Distclus
