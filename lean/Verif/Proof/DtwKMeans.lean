import Verif.Spec.DtwKMeans
import Verif.Proof.ParPanic
/-!
# Lemmas about iterations on elements where no operation panics
-/
namespace Distclus
namespace PSpace
open Spec

variable {E F : Type} {sp : PSpace E F} {G : E → Prop}

/-- `k` means which are `G` with positive numbers of elements, or no mean and the number zero. -/
structure GoodState (G : E → Prop) (k : Nat) (st : List (Option E) × List Int) : Prop where
  l1 : st.1.length = k
  l2 : st.2.length = k
  cell : ∀ (l : Nat) d c, st.1[l]? = some d → st.2[l]? = some c → (d = none ∧ c = 0) ∨ (0 < c ∧ ∃ m, d = some m ∧ G m)

theorem GoodState.new (G : E → Prop) (k : Nat) : GoodState G k (List.replicate k none, List.replicate k 0) := by
  refine ⟨by simp, by simp, fun l d c hd hc => ?_⟩
  simp only [List.getElem?_replicate] at hd hc
  split at hd
  · rw [if_pos (by assumption)] at hc
    cases hd; cases hc
    exact Or.inl ⟨rfl, rfl⟩
  · cases hd

theorem GoodState.step (hs : SafeOn sp G) {k : Nat} {st : List (Option E) × List Int} (h : GoodState G k st) {l : Nat}
    (hl : l < k) {e : E} (he : G e) : ∃ st', dbaStepP sp st l e = some st' ∧ GoodState G k st' := by
  obtain ⟨d, hd⟩ : ∃ d, st.1[l]? = some d := ⟨_, List.getElem?_eq_getElem (by rw [h.l1]; exact hl)⟩
  obtain ⟨card, hc⟩ : ∃ d, st.2[l]? = some d := ⟨_, List.getElem?_eq_getElem (by rw [h.l2]; exact hl)⟩
  have i1 : idx? st.1 (l : Int) = some d := by rw [idx?_of_nonneg _ (by omega)]; simpa using hd
  have i2 : idx? st.2 (l : Int) = some card := by rw [idx?_of_nonneg _ (by omega)]; simpa using hc
  have build : ∀ (m : E) (n : Int), G m → 0 < n → GoodState G k (st.1.set l (some m), st.2.set l n) := by
    intro m n hm hn
    refine ⟨by simp [h.l1], by simp [h.l2], fun j d' c' hd' hc' => ?_⟩
    by_cases hj : j = l
    · subst hj
      simp only [List.getElem?_set, h.l1, h.l2, hl, if_true] at hd' hc'
      cases hd'; cases hc'
      exact Or.inr ⟨hn, m, rfl, hm⟩
    · have hj' : l ≠ j := fun h => hj h.symm
      simp only [List.getElem?_set, hj', if_false] at hd' hc'
      exact h.cell j d' c' hd' hc'
  rcases h.cell l d card hd hc with ⟨rfl, rfl⟩ | ⟨hpos, m, rfl, hm⟩
  · obtain ⟨b, hb, hgb⟩ := hs.copy he
    exact ⟨_, by simp only [dbaStepP, i2, hb]; rfl, build b 1 hgb (by omega)⟩
  · obtain ⟨r, hr, hgr⟩ := hs.combine hm he hpos (show (0 : Int) < 1 by omega)
    exact ⟨_, by simp only [dbaStepP, i2, i1, hr, show card ≠ 0 by omega, if_false]; rfl,
      build r (card + 1) hgr (by omega)⟩

theorem GoodState.combine (hs : SafeOn sp G) : ∀ (k : Nat) (a o : List (Option E) × List Int), GoodState G k a →
    GoodState G k o → ∃ r, dbaCombineLoopP sp a.1 a.2 o.1 o.2 = some r ∧ GoodState G k r
  | 0, (ds, cs), (ds', cs'), ha, ho => by
    have h1 : ds = [] := List.length_eq_zero_iff.1 ha.l1
    have h2 : cs = [] := List.length_eq_zero_iff.1 ha.l2
    subst h1 h2
    exact ⟨_, rfl, by simp, by simp, by simp⟩
  | k + 1, (ds, cs), (ds', cs'), ha, ho => by
    obtain ⟨d, ds, rfl⟩ := List.exists_cons_of_length_eq_add_one ha.l1
    obtain ⟨c, cs, rfl⟩ := List.exists_cons_of_length_eq_add_one ha.l2
    obtain ⟨d', ds', rfl⟩ := List.exists_cons_of_length_eq_add_one ho.l1
    obtain ⟨c', cs', rfl⟩ := List.exists_cons_of_length_eq_add_one ho.l2
    have ca := ha.cell 0 d c rfl rfl
    have co := ho.cell 0 d' c' rfl rfl
    have ta : GoodState G k (ds, cs) :=
      ⟨by simpa using ha.l1, by simpa using ha.l2, fun l x y hx hy => ha.cell (l + 1) x y (by simpa using hx) (by simpa using hy)⟩
    have to' : GoodState G k (ds', cs') :=
      ⟨by simpa using ho.l1, by simpa using ho.l2, fun l x y hx hy => ho.cell (l + 1) x y (by simpa using hx) (by simpa using hy)⟩
    obtain ⟨⟨xs, ys⟩, f1, f2⟩ := GoodState.combine hs k _ _ ta to'
    have head : ∃ x y, dbaCombine1P sp (d, c) (d', c') = some (x, y) ∧
        ((x = none ∧ y = 0) ∨ (0 < y ∧ ∃ m, x = some m ∧ G m)) := by
      rcases ca with ⟨rfl, rfl⟩ | ⟨hpos, m, rfl, hm⟩
      · exact ⟨d', c', by simp [dbaCombine1P], co⟩
      · rcases co with ⟨rfl, rfl⟩ | ⟨hpos', m', rfl, hm'⟩
        · exact ⟨some m, c, by simp [dbaCombine1P, show c ≠ 0 by omega], Or.inr ⟨hpos, m, rfl, hm⟩⟩
        · obtain ⟨r, hr, hgr⟩ := hs.combine hm hm' hpos hpos'
          exact ⟨some r, c + c', by simp [dbaCombine1P, show c ≠ 0 by omega, hpos', hr],
            Or.inr ⟨by omega, r, rfl, hgr⟩⟩
    obtain ⟨x, y, e1, e2⟩ := head
    refine ⟨(x :: xs, y :: ys), by simp only [dbaCombineLoopP, e1, f1], by simpa using f2.l1, by simpa using f2.l2, ?_⟩
    intro l u v hu hv
    cases l with
    | zero => cases hu; cases hv; exact e2
    | succ l => exact f2.cell l u v (by simpa using hu) (by simpa using hv)

theorem GoodState.aggregate (hs : SafeOn sp G) {k : Nat} : ∀ (sts : List (List (Option E) × List Int))
    (agg : List (Option E) × List Int), (∀ st ∈ sts, GoodState G k st) → GoodState G k agg →
    ∃ r, dbaAggregateLoopP sp sts agg = some r ∧ GoodState G k r
  | [], agg, _, ha => ⟨agg, rfl, ha⟩
  | st :: sts, agg, h, ha => by
    obtain ⟨r, e, hr⟩ := GoodState.combine hs k _ _ ha (h st (by simp))
    obtain ⟨r', e', hr'⟩ := GoodState.aggregate hs sts r (fun s hm => h s (by simp [hm])) hr
    exact ⟨r', by simp only [dbaAggregateLoopP, e, e'], hr'⟩

theorem GoodState.seqBuild : ∀ (c : List E) (st : List (Option E) × List Int), GoodState G c.length st →
    (∀ x ∈ c, G x) → ∃ r : List E, seqBuildResult c st.1 = some (r.map some) ∧ r.length = c.length ∧ ∀ x ∈ r, G x
  | [], (ds, cs), h, _ => by
    have h1 : ds = [] := List.length_eq_zero_iff.1 h.l1
    subst h1
    exact ⟨[], rfl, rfl, by simp⟩
  | x :: c, (ds, cs), h, hg => by
    obtain ⟨d, ds, rfl⟩ := List.exists_cons_of_length_eq_add_one h.l1
    obtain ⟨n, cs, rfl⟩ := List.exists_cons_of_length_eq_add_one h.l2
    obtain ⟨r, hr, hl, hm⟩ := GoodState.seqBuild c (ds, cs) ⟨by simpa using h.l1, by simpa using h.l2,
      fun l u v hu hv => h.cell (l + 1) u v (by simpa using hu) (by simpa using hv)⟩ fun y hy => hg y (by simp [hy])
    simp only at hr
    rcases h.cell 0 d n rfl rfl with ⟨rfl, rfl⟩ | ⟨-, m, rfl, hgm⟩
    · exact ⟨x :: r, by simp [seqBuildResult, hr], by simp [hl], by simpa using ⟨hg x (by simp), hm⟩⟩
    · exact ⟨m :: r, by simp [seqBuildResult, hr], by simp [hl], by simpa using ⟨hgm, hm⟩⟩

theorem GoodState.parBuild : ∀ (c : List E) (st : List (Option E) × List Int), GoodState G c.length st →
    (∀ x ∈ c, G x) → ∃ r : List E, parBuildResult c st = some (r.map some) ∧ r.length = c.length ∧ ∀ x ∈ r, G x
  | [], _, _, _ => ⟨[], rfl, rfl, by simp⟩
  | x :: c, (ds, cs), h, hg => by
    obtain ⟨d, ds, rfl⟩ := List.exists_cons_of_length_eq_add_one h.l1
    obtain ⟨n, cs, rfl⟩ := List.exists_cons_of_length_eq_add_one h.l2
    obtain ⟨r, hr, hl, hm⟩ := GoodState.parBuild c (ds, cs) ⟨by simpa using h.l1, by simpa using h.l2,
      fun l u v hu hv => h.cell (l + 1) u v (by simpa using hu) (by simpa using hv)⟩ fun y hy => hg y (by simp [hy])
    simp only [parBuildResult] at hr ⊢
    rcases h.cell 0 d n rfl rfl with ⟨rfl, rfl⟩ | ⟨hpos, m, rfl, hgm⟩
    · exact ⟨x :: r, by simp [buildLoop, hr], by simp [hl], by simpa using ⟨hg x (by simp), hm⟩⟩
    · exact ⟨m :: r, by simp [buildLoop, hr, hpos], by simp [hl], by simpa using ⟨hgm, hm⟩⟩

section
variable [Zero F] [One F] [Neg F] [LT F] [DecidableLT F]

theorem GoodState.reduceLoop (hneg : (-1 : F) < 0) (hs : SafeOn sp G) {c : List E} (hc : c ≠ []) (hg : ∀ x ∈ c, G x) :
    ∀ (es : List E) (st : List (Option E) × List Int), (∀ e ∈ es, G e) → GoodState G c.length st →
      ∃ st', reduceLoopP sp c es st = some st' ∧ GoodState G c.length st'
  | [], st, _, h => ⟨st, rfl, h⟩
  | e :: es, st, he, h => by
    obtain ⟨h1, h2⟩ := nearest_range hneg sp.total c hc e
    obtain ⟨l, hl⟩ := Int.eq_ofNat_of_zero_le h1
    rw [hl] at h2
    obtain ⟨x, d, ha⟩ := (assign_total (sp := sp) hneg hc e).1 fun x hx => by
      obtain ⟨d, hd⟩ := hs.dist (he e (by simp)) (hg x hx)
      simp [hd]
    rw [hl] at ha
    obtain ⟨st', e1, e2⟩ := h.step hs (show l < c.length by omega) (he e (by simp))
    obtain ⟨st'', f1, f2⟩ := GoodState.reduceLoop hneg hs hc hg es st' (fun y hy => he y (by simp [hy])) e2
    exact ⟨st'', by simp only [reduceLoopP, ha, e1, f1], f2⟩

theorem GoodState.reduce (hneg : (-1 : F) < 0) (hs : SafeOn sp G) {c : List E} (hc : c ≠ []) (hg : ∀ x ∈ c, G x)
    (es : List E) (he : ∀ e ∈ es, G e) : ∃ st, reduceDBAP sp c es = some st ∧ GoodState G c.length st :=
  GoodState.reduceLoop hneg hs hc hg es _ he (GoodState.new G c.length)

theorem allSome_of {α β : Type} (f : α → Option β) (Q : β → Prop) : ∀ l : List α, (∀ a ∈ l, ∃ b, f a = some b ∧ Q b) →
    ∃ bs, allSome (l.map f) = some bs ∧ bs.length = l.length ∧ ∀ b ∈ bs, Q b
  | [], _ => ⟨[], rfl, rfl, by simp⟩
  | a :: l, h => by
    obtain ⟨b, hb, hq⟩ := h a (by simp)
    obtain ⟨bs, e, hl, hm⟩ := allSome_of f Q l fun x hx => h x (by simp [hx])
    exact ⟨b :: bs, by simp [allSome, hb, e], by simp [hl], by simpa using ⟨hq, hm⟩⟩

/-- An iteration on elements and centroids which are `G` returns centroids which are `G`. -/
theorem SafeOn.iterate (hneg : (-1 : F) < 0) (hs : SafeOn sp G) (s : KStrategy) (hd : ∀ d, s = .par d → 1 ≤ d)
    {c data : List E} (hc : c ≠ []) (hg : ∀ x ∈ c, G x) (he : ∀ e ∈ data, G e) :
    ∃ r : List E, s.iterateP sp c data = .ok (r.map some) ∧ r.length = c.length ∧ ∀ x ∈ r, G x := by
  cases s with
  | seq =>
    obtain ⟨st, e, h⟩ := GoodState.reduce hneg hs hc hg data he
    obtain ⟨r, hr, h'⟩ := GoodState.seqBuild c st h hg
    exact ⟨r, by simp only [KStrategy.iterateP, e, hr], h'⟩
  | par d =>
    have hd := hd d rfl
    obtain ⟨chunks, hp⟩ : ∃ ks, par data.length d = some ks := ⟨_, par_eq (by omega)⟩
    have hne := par_chunks_ne_nil hp
    obtain ⟨parts, ha, hl, hq⟩ := allSome_of (fun k : Chunk => reduceDBAP sp c (slice data k.start k.stop))
      (GoodState G c.length) chunks fun k hk => GoodState.reduce hneg hs hc hg _ fun e hm =>
        he e (List.mem_of_mem_drop (List.mem_of_mem_take hm))
    cases parts with
    | nil => cases chunks with
      | nil => exact (hne rfl).elim
      | cons => simp at hl
    | cons p ps =>
      obtain ⟨aggr, e, h⟩ := GoodState.aggregate hs ps p (fun s hm => hq s (by simp [hm])) (hq p (by simp))
      obtain ⟨r, hr, h'⟩ := GoodState.parBuild c aggr h hg
      exact ⟨r, by simp only [KStrategy.iterateP, parP, hp, ha, dbaAggregateP, e, hr], h'⟩

end
end PSpace
end Distclus
