import Verif.Proof.KMeans
import Verif.Spec.Streaming
/-!
# Elements of a set closed under `Combine` and `Copy`

Whatever the labels are, the centroids of k-means and the centres of streaming stay in the set.
-/
set_option linter.unusedSectionVars false

namespace Distclus
open Spec

section
variable {E F R : Type} [Zero F] [One F] [Neg F] [LT F] [DecidableLT F]

/-- `S` is closed under the combinations of total weight at most `N`. -/
structure ClosedTo (space : Space E F) (S : E → Prop) (N : Nat) : Prop where
  combine : ∀ {a b} {w v : Int}, S a → S b → 0 < w → 0 < v → w + v ≤ N → S (space.combine a w b v)
  copy : ∀ {a}, S a → S (space.copy a)

theorem ClosedTo.running {space : Space E F} {S : E → Prop} {N : Nat} (h : ClosedTo space S N) :
    ∀ ms m, Spec.running space ms = some m → (∀ e ∈ ms, S e) → ms.length ≤ N → S m := by
  intro ms m hm hall hlen
  have key : ∀ (l : List E) (mw : E × Int), 0 < mw.2 → S mw.1 → (∀ e ∈ l, S e) → mw.2 + l.length ≤ N →
      S (l.foldl (fun mw x => (space.combine mw.1 mw.2 x 1, mw.2 + 1)) mw).1 := by
    intro l
    induction l with
    | nil => exact fun mw _ hr _ _ => hr
    | cons a l ih =>
      intro mw hpos hr hl hN
      rw [List.length_cons] at hN
      push_cast at hN
      exact ih (space.combine mw.1 mw.2 a 1, mw.2 + 1) (by simp only; omega)
        (h.combine hr (hl a (by simp)) hpos (by omega) (by omega)) (fun e he => hl e (by simp [he])) (by simp only; omega)
  cases ms with
  | nil => cases hm
  | cons a l =>
    cases hm
    exact key l (space.copy a, 1) (by simp) (h.copy (hall a (by simp))) (fun e he => hall e (by simp [he])) (by
      rw [List.length_cons] at hlen
      simp only
      omega)

/-- An iteration of k-means. -/
theorem ClosedTo.step {space : Space E F} {S : E → Prop} {N : Nat} (hneg : (-1 : F) < 0) (h : ClosedTo space S N)
    (s : KStrategy) (hs : s.Valid) (c data : List E) (hc : c ≠ []) (hcb : ∀ x ∈ c, S x) (hd : ∀ e ∈ data, S e)
    (hN : data.length ≤ N) :
    ∃ out, kmeansStep s space data c = some out ∧ out.length = c.length ∧ ∀ x ∈ out, S x := by
  let P : List E → E → Prop := fun ms m => (∀ e ∈ ms, S e) → ms.length ≤ N → S m
  have hcomb : CombineOk space P := by
    intro a b x y ha hb hx hy hall hlen
    rw [List.length_append] at hlen
    have ha' := List.length_pos_iff.2 ha
    have hb' := List.length_pos_iff.2 hb
    exact h.combine (hx (fun e he => hall e (by simp [he])) (by omega)) (hy (fun e he => hall e (by simp [he])) (by omega))
      (by omega) (by omega) (by omega)
  obtain ⟨out, g1, g2, g3⟩ := iterate_spec hneg hcomb h.running s hs c data hc
  refine ⟨out, by rw [kmeansStep, g1]; exact allSome_map_some out, g2, fun x hx => ?_⟩
  obtain ⟨i, hi, rfl⟩ := List.mem_iff_getElem.1 hx
  have hi' : i < c.length := by omega
  obtain ⟨m, hm, e1, e2⟩ := g3 i c[i] (by simp)
  rw [List.getElem?_eq_getElem hi] at hm
  cases hm
  by_cases hms : (data.filter fun e => (nearest space c e).1 == (i : Int)) = []
  · rw [e1 hms]; exact hcb _ (List.getElem_mem _)
  · exact e2 hms (fun e he => hd e (List.mem_filter.1 he).1) ((List.length_filter_le _ _).trans hN)

/-- Any number of iterations, the data growing as they may. -/
theorem ClosedTo.run {space : Space E F} {S : E → Prop} {N : Nat} (hneg : (-1 : F) < 0) (h : ClosedTo space S N)
    (s : KStrategy) (hs : s.Valid) : ∀ (datas : List (List E)) (c : List E), c ≠ [] → (∀ x ∈ c, S x) →
    (∀ d ∈ datas, d.length ≤ N ∧ ∀ e ∈ d, S e) →
    ∃ out, kmeansRun s space datas c = some out ∧ out.length = c.length ∧ ∀ x ∈ out, S x
  | [], c, _, hcb, _ => ⟨c, rfl, rfl, hcb⟩
  | d :: ds, c, hc, hcb, hd => by
    obtain ⟨h1, h2⟩ := hd d (by simp)
    obtain ⟨o, e1, e3, e4⟩ := h.step hneg s hs c d hc hcb h2 h1
    obtain ⟨out, g1, g3, g4⟩ := h.run hneg s hs ds o (fun h0 => hc (by subst h0; exact List.length_eq_zero_iff.1 e3.symm)) e4
      fun d' hd' => hd d' (by simp [hd'])
    exact ⟨out, by rw [kmeansRun, e1]; exact g1, g3.trans e3, g4⟩

variable [BEq F] [Div F]

/-- What is kept by streaming: the elements are in `S`, the cardinalities between 1 and `M`, the maximal distance in
`D`. -/
structure StreamIn (S : E → Prop) (D : F → Prop) (M : Nat) (impl : StreamImpl E F R) : Prop where
  clust : ∀ x ∈ impl.clust, S x
  queue : ∀ x ∈ impl.c, S x
  cards : ∀ k ∈ impl.cards, 1 ≤ k ∧ k ≤ M
  max : D impl.maxDistance

theorem StreamIn.update {S : E → Prop} {D : F → Prop} {M : Nat} {impl : StreamImpl E F R} (h : StreamIn S D M impl)
    {d : F} (hd : D d) : StreamIn S D M (impl.updateMaxDistance d) := by
  unfold StreamImpl.updateMaxDistance
  split
  · exact ⟨h.clust, h.queue, h.cards, hd⟩
  · exact h

theorem StreamIn.addOutlier {S : E → Prop} {D : F → Prop} {M : Nat} {impl : StreamImpl E F R} (h : StreamIn S D M impl)
    {e : E} (he : S e) : StreamIn S D (M + 1) (impl.addOutlier e) :=
  ⟨fun x hx => by
      rcases List.mem_append.1 hx with hx | hx
      · exact h.clust x hx
      · rw [List.mem_singleton.1 hx]; exact he,
    h.queue, fun k hk => by
      rcases List.mem_append.1 hk with hk | hk
      · have := h.cards k hk
        exact ⟨this.1, by push_cast; omega⟩
      · rw [List.mem_singleton.1 hk]; exact ⟨le_rfl, by push_cast; omega⟩,
    h.max⟩

theorem StreamIn.process {space : Space E F} {S : E → Prop} {D : F → Prop} {N M : Nat} (hS : ClosedTo space S N)
    (hD : ∀ {a b}, S a → S b → D (space.dist a b)) (h1 : D (-1)) {impl impl' : StreamImpl E F R} (h : StreamIn S D M impl)
    (hM : M + 1 ≤ N) {t : F} {e : E} (he : S e) (hp : impl.process space t e = some impl') : StreamIn S D (M + 1) impl' := by
  have hnd : D (nearest space impl.clust e).2 := by
    have hn : nearest space impl.clust e = nearestLoop space e impl.clust 0 (-1) (-1) := rfl
    rcases nearestLoop_mem space e impl.clust 0 (-1) (-1) with h0 | ⟨k, x, hx, h0⟩
    · rw [hn, h0]; exact h1
    · rw [hn, h0]; exact hD he (h.clust x (List.mem_of_getElem? hx))
  unfold StreamImpl.process at hp
  split at hp
  · cases hp
  · rename_i cent label distance hass
    have hd : D distance := by
      have : (nearest space impl.clust e).2 = distance := by
        unfold assign at hass
        simp only at hass
        split at hass
        · split at hass
          · cases hass; rfl
          · cases hass
        · cases hass; rfl
      exact this ▸ hnd
    obtain ⟨i, hi⟩ : ∃ i, (impl.getRelativeDistance distance).1 = i := ⟨_, rfl⟩
    have hin : StreamIn S D M i := by
      rw [← hi]
      unfold StreamImpl.getRelativeDistance
      simp only
      split
      · exact ⟨h.clust, h.queue, h.cards, hd⟩
      · exact h
    simp only [hi] at hp
    split at hp
    · cases hp
    · rename_i i2 h2
      cases hp
      have : StreamIn S D (M + 1) i2 := by
        split at h2
        · cases h2; exact hin.addOutlier he
        · split at h2
          · cases h2
            exact (hin.addOutlier he).update hd
          · unfold StreamImpl.updateCenter at h2
            split at h2
            · rename_i center card hce hca
              cases h2
              have hcm : center ∈ i.clust := by
                unfold idx? at hce; split at hce
                · cases hce
                · exact List.mem_of_getElem? hce
              have hkm : card ∈ i.cards := by
                unfold idx? at hca; split at hca
                · cases hca
                · exact List.mem_of_getElem? hca
              obtain ⟨k1, k2⟩ := hin.cards card hkm
              refine StreamIn.update (impl := { i with
                clust := i.clust.set label.toNat (space.combine center card e 1)
                cards := i.cards.set label.toNat (card + 1) })
                ⟨fun x hx => ?_, hin.queue, fun k hk => ?_, hin.max⟩ hd
              · rcases List.mem_or_eq_of_mem_set hx with hx | rfl
                · exact hin.clust x hx
                · exact hS.combine (hin.clust center hcm) he (by omega) (by omega) (by omega)
              · rcases List.mem_or_eq_of_mem_set hk with hk | rfl
                · have := hin.cards k hk
                  exact ⟨this.1, by push_cast; omega⟩
                · exact ⟨by omega, by push_cast; omega⟩
            · cases h2
      exact ⟨this.clust, this.queue, this.cards, this.max⟩

/-- A history. -/
theorem StreamIn.run {space : Space E F} {S : E → Prop} {D : F → Prop} {N : Nat} (hS : ClosedTo space S N)
    (hD : ∀ {a b}, S a → S b → D (space.dist a b)) (h0 : D 0) (h1 : D (-1)) : ∀ (ops : List (StreamOp E F)) (M : Nat)
    (impl impl' : StreamImpl E F R) (rs : List (StreamRes E F)), StreamIn S D M impl →
    (∀ e, StreamOp.push e ∈ ops → S e) → impl.run space ops = some (impl', rs) → M + consumptions rs ≤ N →
    StreamIn S D (M + consumptions rs) impl'
  | [], M, impl, impl', rs, h, _, hr, _ => by
    cases hr; exact h
  | op :: ops, M, impl, impl', rs, h, hop, hr, hN => by
    unfold StreamImpl.run at hr
    split at hr
    · cases hr
    · rename_i i1 r1 hs
      split at hr
      · cases hr
      · rename_i i2 r2 hr2
        cases hr
        have hop' : ∀ e, StreamOp.push e ∈ ops → S e := fun e he => hop e (by simp [he])
        cases op with
        | push e =>
          simp only [StreamImpl.step, StreamImpl.push] at hs
          split at hs
          · cases hs
            have hin : StreamIn S D M { impl with c := impl.c ++ [e] } := ⟨h.clust, fun x hx => by
              rcases List.mem_append.1 hx with hx | hx
              · exact h.queue x hx
              · rw [List.mem_singleton.1 hx]; exact hop e (by simp), h.cards, h.max⟩
            exact StreamIn.run hS hD h0 h1 ops M _ _ r2 hin hop' hr2 hN
          · cases hs
            exact StreamIn.run hS hD h0 h1 ops M _ _ r2 h hop' hr2 hN
        | init =>
          simp only [StreamImpl.step, StreamImpl.init] at hs
          cases hq : impl.c with
          | nil =>
            rw [hq] at hs
            cases hs
            exact StreamIn.run hS hD h0 h1 ops M _ _ r2 h hop' hr2 hN
          | cons e q =>
            rw [hq] at hs
            cases hs
            have he : S e := h.queue e (by simp [hq])
            have hin : StreamIn S D (M + 1) (StreamImpl.addCenter { impl with c := q } e 0) :=
              StreamIn.update (StreamIn.addOutlier (impl := { impl with c := q })
                ⟨h.clust, fun x hx => h.queue x (by simp [hq, hx]), h.cards, h.max⟩ he) h0
            have := StreamIn.run hS hD h0 h1 ops (M + 1) _ _ _ hin hop' hr2 (by
              simp only [consumptions] at hN; omega)
            simp only [consumptions]
            rw [show M + (consumptions r2 + 1) = M + 1 + consumptions r2 by omega]
            exact this
        | iterate t =>
          simp only [StreamImpl.step, StreamImpl.iterate] at hs
          cases hq : impl.c with
          | nil =>
            rw [hq] at hs
            cases hs
            exact StreamIn.run hS hD h0 h1 ops M _ _ r2 h hop' hr2 hN
          | cons e q =>
            rw [hq] at hs
            simp only at hs
            cases hp : StreamImpl.process { impl with c := q } space t e with
            | none => rw [hp] at hs; cases hs
            | some i3 =>
              rw [hp] at hs
              cases hs
              have he : S e := h.queue e (by simp [hq])
              have hin := StreamIn.process hS hD h1 (impl := { impl with c := q }) (M := M)
                ⟨h.clust, fun x hx => h.queue x (by simp [hq, hx]), h.cards, h.max⟩ (by
                  simp only [consumptions] at hN; omega) he hp
              have := StreamIn.run hS hD h0 h1 ops (M + 1) _ _ _ hin hop' hr2 (by
                simp only [consumptions] at hN; omega)
              simp only [consumptions]
              rw [show M + (consumptions r2 + 1) = M + 1 + consumptions r2 by omega]
              exact this

end
end Distclus
