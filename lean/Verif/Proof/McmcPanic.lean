import Verif.Spec.McmcPanic
import Verif.Proof.Mcmc
/-!
# Lemmas about mcmc with operations which panic
-/
namespace Distclus
open Spec PSpace

variable {D E E' F R : Type} {sp : PSpace E F} {space : Space E' F} {φ : E' → E}

theorem imBuffer_store (φ : E' → E) (b : DataBuffer E') (e : E') :
    imBuffer φ (b.store e) = (imBuffer φ b).store (φ e) := by
  rcases b with ⟨pipe, data, st⟩
  cases st with
  | infinite => simp [imBuffer, DataBuffer.store, Strategy.push]
  | fixed size pos =>
    simp only [imBuffer, DataBuffer.store, Strategy.push, List.length_map]
    congr 1
    by_cases h : (if pos = size then 0 else pos) < data.length
    · rw [if_pos h, if_pos h, List.map_set]
    · rw [if_neg h, if_neg h]; simp

theorem imBuffer_applyLoop (φ : E' → E) : ∀ (n : Nat) (b : DataBuffer E'),
    imBuffer φ (b.applyLoop n) = (imBuffer φ b).applyLoop n
  | 0, _ => rfl
  | n + 1, b => by
    rcases b with ⟨pipe, data, st⟩
    cases pipe with
    | nil => rfl
    | cons e rest =>
      have := imBuffer_store φ ⟨rest, data, st⟩ e
      simp only [DataBuffer.applyLoop, DataBuffer.applyNext, imBuffer_applyLoop φ n, this]
      rfl

theorem imBuffer_apply (φ : E' → E) (b : DataBuffer E') : imBuffer φ b.apply = (imBuffer φ b).apply := by
  unfold DataBuffer.apply
  rw [imBuffer_applyLoop]
  simp [imBuffer]

theorem imStore_set (φ : E' → E) (s : CenterStore E') (c : List E') :
    imStore φ (s.setCenters c) = (imStore φ s).setCenters (c.map φ) := by
  funext k
  simp only [imStore, CenterStore.setCenters, List.length_map]
  split <;> rfl

theorem im_delLoop (h : Embeds sp space φ) (prev : List E') (del : Nat) : ∀ (n i : Nat),
    delLoopP sp (prev.map φ) del i n = (delLoop space prev del i n).map (List.map φ)
  | 0, _ => rfl
  | n + 1, i => by
    simp only [delLoopP, delLoop, im_delLoop h prev del n]
    have : (if i < del then (prev.map φ)[i]? else (prev.map φ)[i + 1]?) =
        (if i < del then prev[i]? else prev[i + 1]?).map φ := by
      split <;> simp
    rw [this]
    cases (if i < del then prev[i]? else prev[i + 1]?) with
    | none => rfl
    | some e =>
      simp only [Option.map_some, h.copy]
      cases delLoop space prev del (i + 1) n <;> rfl

theorem im_delCenter (h : Embeds sp space φ) (prev : List E') (del : Nat) :
    delCenterP sp (prev.map φ) del = (delCenter space prev del).map (List.map φ) := by
  unfold delCenterP delCenter
  rw [List.length_map, im_delLoop h]
  split <;> rfl

section
variable [Zero F] [One F] [Neg F] [LT F] [DecidableLT F]

theorem im_nearest (h : Embeds sp space φ) (c : List E') (e : E') :
    nearestP sp (c.map φ) (φ e) = some (nearest space c e) := h.nearestLoop e c _ _ _

theorem im_mapDist (h : Embeds sp space φ) (c es : List E') :
    mapDistP sp (c.map φ) (es.map φ) = some (mapLabel space c es).2 := by
  unfold mapDistP mapLabel
  rw [← allSome_map_some, List.map_map, List.map_map]
  congr 1
  refine List.map_congr_left fun e _ => ?_
  simp [im_nearest h]

theorem im_parDist (h : Embeds sp space φ) (c es : List E') {degree : Int} (hd : 1 ≤ degree) :
    parDistP sp (c.map φ) (es.map φ) degree = .ok (mapLabel space c es).2 := by
  obtain ⟨chunks, hp⟩ : ∃ chunks, par es.length degree = some chunks := ⟨_, par_eq (by omega)⟩
  have e1 : (chunks.map fun k => mapDistP sp (c.map φ) (slice (es.map φ) k.start k.stop)) =
      (chunks.map fun k => (mapLabel space c (slice es k.start k.stop)).2).map some := by
    rw [List.map_map]
    refine List.map_congr_left fun k _ => ?_
    rw [slice_map, im_mapDist h]
    rfl
  simp only [parDistP, parP, List.length_map, hp, e1, allSome_map_some, Outcome.ok.injEq]
  conv_rhs => rw [← par_slices es hp]
  simp only [mapLabel, List.flatMap_def, List.map_flatten, List.map_map, Function.comp_def]

variable [Add F] [Sub F] [Mul F] [BEq F]

theorem im_addCenter (h : Embeds sp space φ) {degree : Int} (hd : 1 ≤ degree) (data prev : List E') (u : F) :
    addCenterP sp degree (data.map φ) (prev.map φ) u =
      .ofOption ((addCenter space data prev u).map fun r => (r.1.map φ, r.2)) := by
  have hc : allSome ((prev.map φ).map sp.copy) = some ((prev.map space.copy).map φ) := by
    rw [← allSome_map_some, List.map_map, List.map_map, List.map_map]
    congr 1
    exact List.map_congr_left fun e _ => by simp [h.copy]
  unfold addCenterP addCenter ppIterP ppIter
  rw [hc, im_parDist h _ _ hd]
  simp only [Outcome.ofOption, Outcome.bind]
  cases weightedChoice (mapLabel space prev data).2 u with
  | panic => rfl
  | nullSet =>
    cases data with
    | nil => rfl
    | cons e es => simp [h.copy]
  | ok i =>
    simp only [idxMap]
    cases idx? data i with
    | none => rfl
    | some e => simp [h.copy]

theorem im_getCenters (h : Embeds sp space φ) {degree : Int} (hd : 1 ≤ degree) (s : CenterStore E') (data : List E')
    (k : Int) (clust : List E') (u : F) (del : Nat) :
    (imStore φ s).getCentersP sp degree (data.map φ) k (clust.map φ) u del =
      .ofOption ((s.getCenters space data k clust u del).map fun r => (r.1.map φ, r.2)) := by
  unfold CenterStore.getCentersP CenterStore.getCenters imStore
  cases s k with
  | some c => rfl
  | none =>
    simp only [Option.map_none, genCentersP, genCenters, List.length_map]
    split
    · exact im_addCenter h hd _ _ _
    · split
      · rw [im_delCenter h]
        cases delCenter space clust del <;> rfl
      · rfl

theorem im_nextK (conf : McmcConf F R) (k : Int) (data : List E') (u : F) :
    nextK conf k (data.map φ) u = nextK conf k data u := by
  unfold nextK
  rw [List.length_map]

theorem im_getKCenters {q : McmcPParams D E F R} {p : McmcParams D E' F R} (h : EmbedsParams q p φ)
    (hcpu : 1 ≤ p.sysCPU) (impl : McmcImpl E' F) (current : Proposal E' F) (centroids data : List E')
    {d : McmcPDraws E F} {d' : McmcDraws E' F} (hd : SameDraws d d') :
    (imImpl φ impl).getKCentersP q (imProp φ current) (centroids.map φ) (data.map φ) d =
      .ofOption ((impl.getKCenters p current centroids data d').map fun r => (r.1, r.2.map φ)) := by
  unfold McmcImpl.getKCentersP McmcImpl.getKCenters
  rw [h.conf, hd.move, hd.add, hd.add', hd.del, hd.del', h.sysCPU]
  simp only [imProp, im_nextK, imImpl]
  cases nextK p.conf current.k data d'.move with
  | none => rfl
  | some k =>
    simp only [im_getCenters h.space hcpu]
    cases impl.store.getCenters p.space data k centroids d'.add d'.del with
    | none => rfl
    | some r =>
      rcases r with ⟨c, b⟩
      cases b with
      | false => rfl
      | true =>
        simp only [Option.map_some, Outcome.ofOption, Outcome.bind, if_true]
        cases impl.store.getCenters p.space data current.k centroids d'.add' d'.del' <;> rfl

omit [Neg F] [LT F] [DecidableLT F] [One F] [Sub F] [Mul F] [BEq F] in
theorem im_proba {pdf : E → E → Nat → Option F} {pdf' : E' → E' → Nat → F}
    (h : ∀ a b t, pdf (φ a) (φ b) t = some (pdf' a b t)) (t : Nat) : ∀ (x mu : List E') (a : F),
    probaLoopP pdf t (x.map φ) (mu.map φ) a = probaLoop pdf' t x mu a
  | [], _, _ => rfl
  | _ :: _, [], _ => rfl
  | v :: x, m :: mu, a => by
    simp only [List.map_cons, probaLoopP, h, probaLoop]
    exact im_proba h t x mu _

variable [GoMath F]

omit [Sub F] [Mul F] [BEq F] in
theorem im_lossLoop (h : Embeds sp space φ) (c : List E') (norm : F) : ∀ (es : List E') (st : List F × List Int),
    lossLoopP sp (c.map φ) norm (es.map φ) st = lossLoop space c norm es st
  | [], _ => rfl
  | e :: es, st => by
    simp only [List.map_cons, lossLoopP, lossLoop, im_nearest h]
    cases lossStep st (nearest space c e).1 (GoMath.pow (nearest space c e).2 norm) with
    | none => rfl
    | some st' => exact im_lossLoop h c norm es st'

omit [Sub F] [Mul F] [BEq F] in
theorem im_reduceLoss (h : Embeds sp space φ) (c es : List E') (norm : F) :
    reduceLossP sp (c.map φ) (es.map φ) norm = reduceLoss space c es norm := by
  unfold reduceLossP reduceLoss
  rw [List.length_map, im_lossLoop h]

variable [Div F]

omit [Sub F] [Mul F] [BEq F] [Div F] in
theorem im_loss {q : McmcPParams D E F R} {p : McmcParams D E' F R} (h : EmbedsParams q p φ) (c data : List E') (v : F)
    (hv : mcmcLoss p c data = some v) : mcmcLossP q (c.map φ) (data.map φ) = .ok v := by
  unfold mcmcLossP
  unfold mcmcLoss at hv
  rw [h.conf]
  by_cases hp : p.conf.par = true
  · rw [if_pos hp] at hv ⊢
    simp only [KStrategy.lossP, parP, List.length_map, parTotalLoss, parLoss, slice_map, im_reduceLoss h.space] at hv ⊢
    cases hc : par data.length p.conf.numCPU with
    | none => rw [hc] at hv; cases hv
    | some chunks =>
      rw [hc] at hv
      simp only at hv ⊢
      cases ha : allSome (chunks.map fun k => reduceLoss p.space c (slice data k.start k.stop) p.conf.norm) with
      | none => rw [ha] at hv; cases hv
      | some parts =>
        rw [ha] at hv
        simp only at hv ⊢
        cases hg : lossAggregate parts with
        | none => rw [hg] at hv; cases hv
        | some r => rw [hg] at hv; cases hv; rfl
  · rw [if_neg hp] at hv ⊢
    simp only [KStrategy.lossP, im_reduceLoss h.space, totalLoss] at hv ⊢
    cases hr : reduceLoss p.space c data p.conf.norm with
    | none => rw [hr] at hv; cases hv
    | some r => rw [hr] at hv; cases hv; rfl

theorem im_propose {q : McmcPParams D E F R} {p : McmcParams D E' F R} (h : EmbedsParams q p φ)
    (hcpu : 1 ≤ p.sysCPU) (impl : McmcImpl E' F) (current : Proposal E' F) (centroids data : List E') (time : Nat)
    {d : McmcPDraws E F} {d' : McmcDraws E' F} (hd : SameDraws d d')
    (hs : ∀ i e, d.sample i (φ e) = some (φ (d'.sample i e))) (prop : Proposal E' F)
    (hp : impl.propose p current centroids data time d' = some prop) :
    (imImpl φ impl).proposeP q (imProp φ current) (centroids.map φ) (data.map φ) time d = .ok (imProp φ prop) := by
  unfold McmcImpl.propose at hp
  unfold McmcImpl.proposeP
  rw [im_getKCenters h hcpu impl current centroids data hd]
  cases hk : impl.getKCenters p current centroids data d' with
  | none => rw [hk] at hp; cases hp
  | some kc =>
    rcases kc with ⟨k, c⟩
    rw [hk] at hp
    simp only at hp
    have ha : alterP (c.map φ) d = some ((alter c d').map φ) := by
      unfold alterP alter
      rw [← allSome_map_some]
      congr 1
      apply List.ext_getElem <;> simp [hs]
    simp only [Option.map_some, Outcome.ofOption, Outcome.bind, ha, h.sysCPU]
    unfold mcmcStrategyIterate kmeansStep at hp
    cases hi : (KStrategy.par p.sysCPU).iterate p.space (alter c d') data with
    | none => rw [hi] at hp; cases hp
    | some r =>
      rw [hi] at hp
      rw [h.space.par _ _ _ r hi]
      simp only [allSome_map] at hp ⊢
      cases hr : allSome r with
      | none => rw [hr] at hp; cases hp
      | some c' =>
        rw [hr] at hp
        simp only at hp
        cases hl : mcmcLoss p c' data with
        | none => rw [hl] at hp; cases hp
        | some l =>
          rw [hl] at hp
          cases hq : proba p.pdf time c' c' with
          | none => rw [hq] at hp; cases hp
          | some pf =>
            rw [hq] at hp
            simp only [Option.some.injEq] at hp
            subst hp
            simp only [Option.map_some, im_loss h _ _ l hl]
            have : probaP q.pdf time (c'.map φ) (c'.map φ) = some pf := by
              unfold probaP; rw [im_proba h.pdf]; exact hq
            rw [this]
            rfl

end
end Distclus
