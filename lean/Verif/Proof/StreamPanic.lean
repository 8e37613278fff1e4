import Verif.Spec.StreamPanic
import Verif.Spec.DtwKMeans
import Verif.Proof.ParPanic
import Verif.Proof.Loss
/-!
# Streaming with operations which panic: auxiliary lemmas
-/
namespace Distclus
open Spec PSpace

section
variable {E E' F R : Type} [Zero F] [LT F] [DecidableLT F] [One F] [Neg F] [BEq F] [Div F]

/-! ### One call of `Process` -/

omit [LT F] [DecidableLT F] [One F] [Neg F] in
theorem getRel_eq (impl : StreamImpl E F R) (d : F) :
    (impl.getRelativeDistance d).1 = { impl with maxDistance := if impl.maxDistance == 0 then d else impl.maxDistance } ∧
    (impl.getRelativeDistance d).2 = d / (if impl.maxDistance == 0 then d else impl.maxDistance) := by
  unfold StreamImpl.getRelativeDistance
  by_cases h : (impl.maxDistance == 0) = true <;> simp [h]

omit [Zero F] [One F] [Neg F] [BEq F] [Div F] in
theorem updateMax_eq (impl : StreamImpl E F R) (d : F) :
    (impl.updateMaxDistance d).clust = impl.clust ∧ (impl.updateMaxDistance d).cards = impl.cards ∧
    (impl.updateMaxDistance d).c = impl.c ∧ (impl.updateMaxDistance d).conf = impl.conf ∧
    (impl.updateMaxDistance d).count = impl.count := by
  unfold StreamImpl.updateMaxDistance; split <;> simp

/-- The call of `Process` in four cases. -/
theorem processP_cases (impl : StreamImpl E F R) (sp : PSpace E F) (t : F) (e : E) :
    (nearestP sp impl.clust e = none ∧ impl.processP sp t e = (impl, true)) ∨
    ∃ l d, nearestP sp impl.clust e = some (l, d) ∧
      ((¬ Merges impl t d ∧ ∃ i', impl.processP sp t e = (i', false) ∧ i'.clust = impl.clust ++ [e] ∧
          i'.cards = impl.cards ++ [1] ∧ i'.c = impl.c ∧ i'.conf = impl.conf ∧ i'.count = impl.count + 1) ∨
        (Merges impl t d ∧ ∃ x k y, idx? impl.clust l = some x ∧ idx? impl.cards l = some k ∧
          sp.combine x k e 1 = some y ∧
          ∃ i', impl.processP sp t e = (i', false) ∧ i'.clust = impl.clust.set l.toNat y ∧
            i'.cards = impl.cards.set l.toNat (k + 1) ∧ i'.c = impl.c ∧ i'.conf = impl.conf ∧
            i'.count = impl.count + 1) ∨
        (Merges impl t d ∧ (∀ x k, idx? impl.clust l = some x → idx? impl.cards l = some k → sp.combine x k e 1 = none) ∧
          impl.processP sp t e =
            ({ impl with maxDistance := if impl.maxDistance == 0 then d else impl.maxDistance }, true)) ∨
        (0 ≤ l ∧ idx? impl.clust l = none ∧ impl.processP sp t e = (impl, true))) := by
  cases hn : nearestP sp impl.clust e with
  | none => exact .inl ⟨rfl, by simp [StreamImpl.processP, assignP, hn]⟩
  | some r =>
    obtain ⟨l, d⟩ := r
    refine .inr ⟨l, d, rfl, ?_⟩
    by_cases hl : 0 ≤ l ∧ idx? impl.clust l = none
    · refine .inr (.inr (.inr ⟨hl.1, hl.2, ?_⟩))
      simp [StreamImpl.processP, assignP, hn, hl.1, hl.2]
    · obtain ⟨o, ho⟩ : ∃ o, assignP sp impl.clust e = some (o, l, d) := by
        simp only [assignP, hn]
        by_cases h0 : l ≥ 0
        · rw [if_pos h0]
          cases hx : idx? impl.clust l with
          | none => exact (hl ⟨h0, hx⟩).elim
          | some x => exact ⟨_, rfl⟩
        · rw [if_neg h0]; exact ⟨_, rfl⟩
      obtain ⟨g1, g2⟩ := getRel_eq impl d
      have hg : impl.getRelativeDistance d = ((impl.getRelativeDistance d).1, (impl.getRelativeDistance d).2) := rfl
      rw [g1, g2] at hg
      generalize hM : (if impl.maxDistance == 0 then d else impl.maxDistance) = M at hg
      by_cases h1 : impl.conf.outAfter ≤ impl.count ∧ impl.conf.outRatio < d / M
      · refine .inl ⟨fun h => h.1 (by rw [hM]; exact h1),
          ⟨M, impl.clust ++ [e], impl.cards ++ [1], impl.c, impl.conf, impl.count + 1⟩, ?_, rfl, rfl, rfl, rfl, rfl⟩
        simp only [StreamImpl.processP, ho, hg]
        rw [if_pos h1]
        rfl
      · by_cases h2 : t < d / M
        · obtain ⟨u1, u2, u3, u4, u5⟩ := updateMax_eq
            (⟨M, impl.clust ++ [e], impl.cards ++ [1], impl.c, impl.conf, impl.count⟩ : StreamImpl E F R) d
          refine .inl ⟨fun h => h.2 (by rw [hM]; exact h2),
            { StreamImpl.updateMaxDistance
                (⟨M, impl.clust ++ [e], impl.cards ++ [1], impl.c, impl.conf, impl.count⟩ : StreamImpl E F R) d with
              count := (StreamImpl.updateMaxDistance
                (⟨M, impl.clust ++ [e], impl.cards ++ [1], impl.c, impl.conf, impl.count⟩ : StreamImpl E F R) d).count + 1 },
            ?_, u1, u2, u3, u4, congrArg (· + 1) u5⟩
          simp only [StreamImpl.processP, ho, hg]
          rw [if_neg h1, if_pos h2]
          rfl
        · have hm : Merges impl t d := ⟨by rw [hM]; exact h1, by rw [hM]; exact h2⟩
          have hp : impl.processP sp t e =
              match ({ impl with maxDistance := M } : StreamImpl E F R).updateCenterP l e d sp with
              | none => ({ impl with maxDistance := M }, true)
              | some impl => ({ impl with count := impl.count + 1 }, false) := by
            simp only [StreamImpl.processP, ho, hg]
            rw [if_neg h1, if_neg h2]
            cases ({ impl with maxDistance := M } : StreamImpl E F R).updateCenterP l e d sp <;> rfl
          rw [hp]
          cases hx : idx? impl.clust l with
          | none =>
            refine .inr (.inr (.inl ⟨hm, fun x k h => (by cases h), ?_⟩))
            simp only [StreamImpl.updateCenterP, hx]
          | some x =>
            cases hk : idx? impl.cards l with
            | none =>
              refine .inr (.inr (.inl ⟨hm, fun x k _ h => (by cases h), ?_⟩))
              simp only [StreamImpl.updateCenterP, hx, hk]
            | some k =>
              cases hy : sp.combine x k e 1 with
              | none =>
                refine .inr (.inr (.inl ⟨hm, fun x' k' h h' => (by cases h; cases h'; exact hy), ?_⟩))
                simp only [StreamImpl.updateCenterP, hx, hk, hy]
              | some y =>
                obtain ⟨u1, u2, u3, u4, u5⟩ := updateMax_eq
                  (⟨M, impl.clust.set l.toNat y, impl.cards.set l.toNat (k + 1), impl.c, impl.conf, impl.count⟩ :
                    StreamImpl E F R) d
                refine .inr (.inl ⟨hm, x, k, y, rfl, rfl, hy,
                  { StreamImpl.updateMaxDistance (⟨M, impl.clust.set l.toNat y, impl.cards.set l.toNat (k + 1), impl.c,
                      impl.conf, impl.count⟩ : StreamImpl E F R) d with
                    count := (StreamImpl.updateMaxDistance (⟨M, impl.clust.set l.toNat y, impl.cards.set l.toNat (k + 1),
                      impl.c, impl.conf, impl.count⟩ : StreamImpl E F R) d).count + 1 }, ?_, u1, u2, u3, u4, congrArg (· + 1) u5⟩)
                simp only [StreamImpl.updateCenterP, hx, hk, hy]

/-! ### Elements on which nothing panics -/

theorem Spec.StreamSteady.process {sp : PSpace E F} {G : E → Prop} (hneg : (-1 : F) < 0) (hs : SafeOn sp G)
    {impl : StreamImpl E F R} (h : StreamSteady G impl) (t : F) {e : E} (he : G e) :
    ∃ i', impl.processP sp t e = (i', false) ∧ StreamSteady G i' := by
  obtain ⟨r1, r2⟩ := nearest_range hneg sp.total impl.clust h.started e
  have hn : nearestP sp impl.clust e = some (nearest sp.total impl.clust e) :=
    (nearestLoop_total e _ _ _ _).1 fun x hx => by
      obtain ⟨d, hd⟩ := hs.dist he (h.centres x hx); simp [hd]
  rcases processP_cases impl sp t e with ⟨a, -⟩ | ⟨l, d, a, hc⟩
  · rw [hn] at a; cases a
  · rw [hn] at a
    have hl : (nearest sp.total impl.clust e).1 = l := by injection a with a; rw [a]
    rw [hl] at r1 r2
    obtain ⟨x, hx⟩ := idx?_in_range impl.clust r1 r2
    obtain ⟨k, hk⟩ := idx?_in_range impl.cards r1 (by rw [h.cards]; exact r2)
    have hxm : x ∈ impl.clust := by rw [idx?_of_nonneg _ r1] at hx; exact List.mem_of_getElem? hx
    have hkm : k ∈ impl.cards := by rw [idx?_of_nonneg _ r1] at hk; exact List.mem_of_getElem? hk
    obtain ⟨y, hy, gy⟩ := hs.combine (h.centres x hxm) he (h.positive k hkm) Int.one_pos
    rcases hc with ⟨-, i', p, c1, c2, c3, -⟩ | ⟨-, x', k', y', hx', hk', hy', i', p, c1, c2, c3, -⟩ | ⟨-, hno, -⟩ | ⟨-, hno, -⟩
    · refine ⟨i', p, ?_, ?_, ?_, ?_, ?_⟩
      · simp [c1]
      · simp only [c1, List.mem_append, List.mem_singleton]
        rintro z (hz | rfl)
        exacts [h.centres z hz, he]
      · rw [c3]; exact h.waiting
      · simp [c1, c2, h.cards]
      · simp only [c2, List.mem_append, List.mem_singleton]
        rintro z (hz | rfl)
        exacts [h.positive z hz, Int.one_pos]
    · rw [hx] at hx'; cases hx'
      rw [hk] at hk'; cases hk'
      rw [hy] at hy'; cases hy'
      refine ⟨i', p, ?_, ?_, ?_, ?_, ?_⟩
      · rw [c1]; intro hh
        have := congrArg List.length hh
        simp at this
        exact h.started this
      · rw [c1]; intro z hz
        rcases List.mem_or_eq_of_mem_set hz with hz | rfl
        exacts [h.centres z hz, gy]
      · rw [c3]; exact h.waiting
      · simp [c1, c2, h.cards]
      · rw [c2]; intro z hz
        rcases List.mem_or_eq_of_mem_set hz with hz | rfl
        exacts [h.positive z hz, by have := h.positive k hkm; omega]
    · rw [hno x k hx hk] at hy; cases hy
    · rw [hx] at hno; cases hno

omit [Zero F] [LT F] [DecidableLT F] [One F] [Neg F] [BEq F] [Div F] in
theorem Spec.StreamSteady.tail {G : E → Prop} {impl : StreamImpl E F R} (h : StreamSteady G impl) {e : E} {q : List E}
    (hc : impl.c = e :: q) : StreamSteady G { impl with c := q } :=
  ⟨h.started, h.centres, fun x hx => h.waiting x (by simp [hc, hx]), h.cards, h.positive⟩

theorem Spec.StreamSteady.step {sp : PSpace E F} {G : E → Prop} (hneg : (-1 : F) < 0) (hs : SafeOn sp G)
    {impl : StreamImpl E F R} (h : StreamSteady G impl) (op : StreamOp E F) (hop : ∀ e, op = .push e → G e) :
    ∃ i' r, impl.stepP sp op = (i', some r) ∧ StreamSteady G i' := by
  cases op with
  | push e =>
    refine ⟨(impl.push e).1, _, rfl, ?_⟩
    unfold StreamImpl.push
    split
    · exact ⟨h.started, h.centres, fun x hx => by
        rcases List.mem_append.1 hx with hx | hx
        · exact h.waiting x hx
        · rw [List.mem_singleton.1 hx]; exact hop e rfl, h.cards, h.positive⟩
    · exact h
  | init =>
    refine ⟨impl.init.1, _, rfl, ?_⟩
    unfold StreamImpl.init
    cases hc : impl.c with
    | nil => exact h
    | cons e q =>
      simp only [StreamImpl.addCenter]
      obtain ⟨u1, u2, u3, -⟩ := updateMax_eq
        { ({ impl with c := q } : StreamImpl E F R) with clust := impl.clust ++ [e], cards := impl.cards ++ [1] } 0
      have he : G e := h.waiting e (by simp [hc])
      refine ⟨by rw [u1]; simp, ?_, ?_, by rw [u1, u2]; simp [h.cards], ?_⟩
      · rw [u1]; simp only [List.mem_append, List.mem_singleton]
        rintro z (hz | rfl)
        exacts [h.centres z hz, he]
      · rw [u3]; exact fun x hx => h.waiting x (by simp [hc, hx])
      · rw [u2]; simp only [List.mem_append, List.mem_singleton]
        rintro z (hz | rfl)
        exacts [h.positive z hz, Int.one_pos]
  | iterate t =>
    simp only [StreamImpl.stepP, StreamImpl.iterateP]
    cases hc : impl.c with
    | nil => exact ⟨_, _, rfl, h⟩
    | cons e q =>
      obtain ⟨i', hp, h'⟩ := (h.tail hc).process hneg hs t (h.waiting e (by simp [hc]))
      simp only [hp]
      exact ⟨_, _, rfl, h'⟩

/-! ### The sizes of the centres -/

theorem process_sizes {sp : PSpace E F} {size : E → Nat} (hz : Sized sp size) (impl : StreamImpl E F R) (t : F) (e : E) :
    impl.clust.map size <+: (impl.processP sp t e).1.clust.map size := by
  rcases processP_cases impl sp t e with ⟨-, p⟩ | ⟨l, d, -, hc⟩
  · simp [p]
  · rcases hc with ⟨-, i', p, c1, -⟩ | ⟨-, x, k, y, hx, -, hy, i', p, c1, -⟩ | ⟨-, -, p⟩ | ⟨-, -, p⟩
    · simp [p, c1]
    · rw [p, c1]
      have hx' : idx? (impl.clust.map size) l = some (size x) := by rw [idxMap, hx]; rfl
      have e1 : (impl.clust.map size).set l.toNat (size y) = impl.clust.map size := by
        have h0 : (impl.clust.map size)[l.toNat]? = some (size x) := by
          unfold idx? at hx'; split at hx'
          · cases hx'
          · exact hx'
        rw [hz.combined hy]
        obtain ⟨hlt, he⟩ := List.getElem?_eq_some_iff.1 h0
        rw [← he, List.set_getElem_self]
      rw [List.map_set, e1]
    · simp [p]
    · simp [p]

theorem step_sizes {sp : PSpace E F} {size : E → Nat} (hz : Sized sp size) (impl : StreamImpl E F R) (op : StreamOp E F) :
    impl.clust.map size <+: (impl.stepP sp op).1.clust.map size := by
  cases op with
  | push e => simp only [StreamImpl.stepP, StreamImpl.push]; split <;> simp
  | init =>
    simp only [StreamImpl.stepP, StreamImpl.init]
    cases impl.c with
    | nil => simp
    | cons e q =>
      simp only [StreamImpl.addCenter]
      rw [(updateMax_eq _ _).1]
      simp
  | iterate t =>
    simp only [StreamImpl.stepP, StreamImpl.iterateP]
    cases hc : impl.c with
    | nil => simp
    | cons e q =>
      have h := process_sizes hz { impl with c := q } t e
      simp only
      cases hp : StreamImpl.processP { impl with c := q } sp t e with
      | mk i b => rw [hp] at h; cases b <;> exact h

/-! ### The correspondence with the operations which do not panic -/

variable {sp : PSpace E F} {space : Space E' F} {φ : E' → E}

omit [Zero F] [One F] [Neg F] [BEq F] [Div F] in
theorem image_updateMax (impl : StreamImpl E' F R) (d : F) :
    (impl.image φ).updateMaxDistance d = (impl.updateMaxDistance d).image φ := by
  unfold StreamImpl.updateMaxDistance StreamImpl.image; split <;> rfl

omit [LT F] [DecidableLT F] [One F] [Neg F] in
theorem image_getRel (impl : StreamImpl E' F R) (d : F) :
    (impl.image φ).getRelativeDistance d = ((impl.getRelativeDistance d).1.image φ, (impl.getRelativeDistance d).2) := by
  unfold StreamImpl.getRelativeDistance
  by_cases h : (impl.maxDistance == 0) = true <;> simp [StreamImpl.image, h]

omit [Zero F] [One F] [Neg F] [BEq F] [Div F] in
theorem image_updateCenter (h : Embeds sp space φ) (impl : StreamImpl E' F R) (l : Int) (e : E') (d : F) :
    (impl.image φ).updateCenterP l (φ e) d sp = (impl.updateCenter l e d space).map (StreamImpl.image φ) := by
  unfold StreamImpl.updateCenterP StreamImpl.updateCenter
  simp only [StreamImpl.image, idxMap]
  cases idx? impl.clust l with
  | none => rfl
  | some x =>
    cases idx? impl.cards l with
    | none => rfl
    | some k =>
      simp only [Option.map_some, h.combine, ← List.map_set]
      exact congrArg some (image_updateMax (φ := φ) ({ impl with
        clust := impl.clust.set l.toNat (space.combine x k e 1), cards := impl.cards.set l.toNat (k + 1) } :
          StreamImpl E' F R) d)

theorem image_process (h : Embeds sp space φ) (impl : StreamImpl E' F R) (t : F) (e : E') :
    (∀ i', impl.process space t e = some i' → (impl.image φ).processP sp t (φ e) = (i'.image φ, false)) ∧
    (impl.process space t e = none → ((impl.image φ).processP sp t (φ e)).2 = true) := by
  have ha : assignP sp (impl.image φ).clust (φ e) = (assign space impl.clust e).map fun r => (r.1.map φ, r.2) :=
    h.assign impl.clust e
  unfold StreamImpl.process StreamImpl.processP
  rw [ha]
  cases assign space impl.clust e with
  | none => exact ⟨fun _ h => (by cases h), fun _ => rfl⟩
  | some r =>
    obtain ⟨o, l, d⟩ := r
    simp only [Option.map_some, image_getRel]
    generalize impl.getRelativeDistance d = g
    obtain ⟨i, rel⟩ := g
    simp only
    have hadd : ∀ x, (i.image φ).addCenter (φ e) x = (i.addCenter e x).image φ := fun x => by
      unfold StreamImpl.addCenter
      rw [← image_updateMax]
      simp [StreamImpl.image]
    have hout : (i.image φ).addOutlier (φ e) = (i.addOutlier e).image φ := by
      simp [StreamImpl.addOutlier, StreamImpl.image]
    have hr : (if (i.image φ).conf.outAfter ≤ (i.image φ).count ∧ (i.image φ).conf.outRatio < rel then
        some ((i.image φ).addOutlier (φ e))
      else if t < rel then some ((i.image φ).addCenter (φ e) d)
      else (i.image φ).updateCenterP l (φ e) d sp) =
      (if i.conf.outAfter ≤ i.count ∧ i.conf.outRatio < rel then some (i.addOutlier e)
      else if t < rel then some (i.addCenter e d)
      else i.updateCenter l e d space).map (StreamImpl.image φ) := by
      rw [hadd, hout, image_updateCenter h]
      show (if i.conf.outAfter ≤ i.count ∧ i.conf.outRatio < rel then _ else _) = _
      by_cases h1 : i.conf.outAfter ≤ i.count ∧ i.conf.outRatio < rel
      · rw [if_pos h1, if_pos h1]; rfl
      · rw [if_neg h1, if_neg h1]
        by_cases h2 : t < rel
        · rw [if_pos h2, if_pos h2]; rfl
        · rw [if_neg h2, if_neg h2]
    rw [hr]
    generalize (if i.conf.outAfter ≤ i.count ∧ i.conf.outRatio < rel then some (i.addOutlier e)
      else if t < rel then some (i.addCenter e d) else i.updateCenter l e d space) = z
    cases z with
    | none => exact ⟨fun _ h => (by cases h), fun _ => rfl⟩
    | some z => exact ⟨fun _ h => (by cases h; rfl), fun h => (by cases h)⟩

theorem image_step (h : Embeds sp space φ) (impl : StreamImpl E' F R) (op : StreamOp E' F) :
    (∀ i' r, impl.step space op = some (i', r) →
      (impl.image φ).stepP sp (op.image φ) = (i'.image φ, some (r.image φ))) ∧
    (impl.step space op = none → ((impl.image φ).stepP sp (op.image φ)).2 = none) := by
  cases op with
  | push e =>
    refine ⟨fun i' r hh => ?_, fun hh => by simp [StreamImpl.step] at hh⟩
    simp only [StreamImpl.step, StreamImpl.push] at hh
    simp only [StreamImpl.stepP, StreamImpl.push, StreamOp.image]
    by_cases hb : (impl.c.length : Int) < impl.conf.bufferSize
    · rw [if_pos hb] at hh; cases hh
      rw [if_pos (by simpa [StreamImpl.image] using hb)]
      simp [StreamImpl.image, StreamRes.image]
    · rw [if_neg hb] at hh; cases hh
      rw [if_neg (by simpa [StreamImpl.image] using hb)]
      rfl
  | init =>
    refine ⟨fun i' r hh => ?_, fun hh => by simp [StreamImpl.step] at hh⟩
    simp only [StreamImpl.step, StreamImpl.init] at hh
    simp only [StreamImpl.stepP, StreamImpl.init, StreamOp.image]
    cases hc : impl.c with
    | nil =>
      rw [hc] at hh; cases hh
      have : (impl.image φ).c = [] := by simp [StreamImpl.image, hc]
      rw [this]; rfl
    | cons e q =>
      rw [hc] at hh; cases hh
      have : (impl.image φ).c = φ e :: q.map φ := by simp [StreamImpl.image, hc]
      rw [this]
      simp only [StreamImpl.addCenter, ← image_updateMax]
      simp [StreamImpl.image, StreamRes.image]
  | iterate t =>
    simp only [StreamImpl.step, StreamImpl.iterate, StreamImpl.stepP, StreamImpl.iterateP, StreamOp.image]
    cases hc : impl.c with
    | nil =>
      have : (impl.image φ).c = [] := by simp [StreamImpl.image, hc]
      simp only [this]
      exact ⟨fun _ _ hh => (by cases hh; rfl), fun hh => (by cases hh)⟩
    | cons e q =>
      have : (impl.image φ).c = φ e :: q.map φ := by simp [StreamImpl.image, hc]
      simp only [this]
      obtain ⟨p1, p2⟩ := image_process h { impl with c := q } t e
      have hi : ({ impl with c := q } : StreamImpl E' F R).image φ = { impl.image φ with c := q.map φ } := rfl
      rw [hi] at p1 p2
      cases hp : StreamImpl.process { impl with c := q } space t e with
      | none =>
        refine ⟨fun _ _ hh => (by cases hh), fun _ => ?_⟩
        have := p2 hp
        generalize StreamImpl.processP { impl.image φ with c := q.map φ } sp t (φ e) = w at this
        obtain ⟨w1, w2⟩ := w
        cases this
        rfl
      | some i' =>
        refine ⟨fun _ _ hh => ?_, fun hh => (by cases hh)⟩
        cases hh
        rw [p1 i' hp]
        rfl

end
end Distclus
