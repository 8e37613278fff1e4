import Verif.Spec.ParPanic
import Verif.Proof.ParDba
import Verif.Proof.KMeans
/-!
# Lemmas about iterations with operations which panic
-/
namespace Distclus
namespace PSpace

variable {E E' F : Type}

/-- The operations do not panic on the images by `φ`, where they are those of `space`. -/
structure Embeds (sp : PSpace E F) (space : Space E' F) (φ : E' → E) : Prop where
  dist : ∀ a b, sp.dist (φ a) (φ b) = some (space.dist a b)
  combine : ∀ a w b v, sp.combine (φ a) w (φ b) v = some (φ (space.combine a w b v))
  copy : ∀ a, sp.copy (φ a) = some (φ (space.copy a))

/-- The image of a pair of slices. -/
def im (φ : E' → E) (st : List (Option E') × List Int) : List (Option E) × List Int := (st.1.map (Option.map φ), st.2)

theorem idxMap {α β : Type} (g : α → β) (l : List α) (i : Int) : idx? (l.map g) i = (idx? l i).map g := by
  unfold idx?; split <;> simp

section
variable {sp : PSpace E F} {space : Space E' F} {φ : E' → E}

theorem Embeds.dbaStep (h : Embeds sp space φ) (st : List (Option E') × List Int) (ix : Int) (e : E') :
    dbaStepP sp (im φ st) ix (φ e) = (dbaStep space st ix e).map (im φ) := by
  unfold dbaStepP Distclus.dbaStep
  simp only [im]
  cases idx? st.2 ix with
  | none => rfl
  | some card =>
    simp only [h.copy]
    by_cases hc : card = 0
    · simp [hc, im, List.map_set]
    · simp only [hc, if_false, idxMap]
      cases idx? st.1 ix with
      | none => rfl
      | some o =>
        cases o with
        | none => rfl
        | some m => simp [h.combine, im, List.map_set]

theorem Embeds.combine1 (h : Embeds sp space φ) (a o : Option E' × Int) :
    dbaCombine1P sp (a.1.map φ, a.2) (o.1.map φ, o.2) = (dbaCombine1 space a o).map fun x => (x.1.map φ, x.2) := by
  unfold dbaCombine1P dbaCombine1
  obtain ⟨a, i⟩ := a
  obtain ⟨o, j⟩ := o
  by_cases h1 : i = 0
  · simp [h1]
  · by_cases h2 : j > 0
    · simp only [h1, h2, if_true, if_false]
      cases a <;> cases o <;> simp [h.combine]
    · simp [h1, h2]

theorem Embeds.combineLoop (h : Embeds sp space φ) : ∀ (ds : List (Option E')) (cs : List Int) (ds' : List (Option E'))
    (cs' : List Int), dbaCombineLoopP sp (ds.map (Option.map φ)) cs (ds'.map (Option.map φ)) cs' =
      (dbaCombineLoop space ds cs ds' cs').map (im φ)
  | [], _, _, _ => by simp [dbaCombineLoopP, dbaCombineLoop, im]
  | d :: ds, [], ds', cs' => by simp [dbaCombineLoopP, dbaCombineLoop]
  | d :: ds, c :: cs, [], cs' => by simp [dbaCombineLoopP, dbaCombineLoop]
  | d :: ds, c :: cs, d' :: ds', [] => by simp [dbaCombineLoopP, dbaCombineLoop]
  | d :: ds, c :: cs, d' :: ds', c' :: cs' => by
    have h1 := h.combine1 (d, c) (d', c')
    simp only at h1
    simp only [List.map_cons, dbaCombineLoopP, dbaCombineLoop, h1]
    cases dbaCombine1 space (d, c) (d', c') with
    | none => rfl
    | some r =>
      simp only [Option.map_some, combineLoop h ds cs ds' cs']
      cases dbaCombineLoop space ds cs ds' cs' <;> simp [im]

theorem Embeds.aggregateLoop (h : Embeds sp space φ) : ∀ (os : List (List (Option E') × List Int))
    (agg : List (Option E') × List Int),
    dbaAggregateLoopP sp (os.map (im φ)) (im φ agg) = (dbaAggregateLoop space os agg).map (im φ)
  | [], _ => rfl
  | o :: os, agg => by
    have h1 := h.combineLoop agg.1 agg.2 o.1 o.2
    simp only [List.map_cons, dbaAggregateLoopP, dbaAggregateLoop, dbaCombine]
    simp only [im] at h1 ⊢
    rw [h1]
    cases dbaCombineLoop space agg.1 agg.2 o.1 o.2 with
    | none => rfl
    | some a => exact aggregateLoop h os a

theorem Embeds.aggregate (h : Embeds sp space φ) (ps : List (List (Option E') × List Int)) :
    dbaAggregateP sp (ps.map (im φ)) = (dbaAggregate space ps).map (im φ) := by
  cases ps with
  | nil => rfl
  | cons p ps => exact h.aggregateLoop ps p

theorem buildLoop_im (φ : E' → E) : ∀ (c : List E') (ms : List (Option E')) (cards : List Int),
    buildLoop (c.map φ) (ms.map (Option.map φ)) cards = (buildLoop c ms cards).map (List.map (Option.map φ))
  | [], _, _ => by simp [buildLoop]
  | d :: ds, [], _ => by simp [buildLoop]
  | d :: ds, m :: ms, [] => by simp [buildLoop]
  | d :: ds, m :: ms, card :: cards => by
    simp only [List.map_cons, buildLoop, buildLoop_im φ ds ms cards]
    cases buildLoop ds ms cards with
    | none => rfl
    | some r => by_cases hc : card > 0 <;> simp [hc]

theorem seqBuild_im (φ : E' → E) : ∀ (r : List (Option E')) (c : List E'),
    seqBuildResult (c.map φ) (r.map (Option.map φ)) = (seqBuildResult c r).map (List.map (Option.map φ))
  | [], _ => by simp [seqBuildResult]
  | some m :: r, c => by
    simp only [List.map_cons, Option.map_some, seqBuildResult, ← List.map_drop, seqBuild_im φ r]
    cases seqBuildResult (c.drop 1) r <;> rfl
  | none :: r, [] => by simp [seqBuildResult]
  | none :: r, c :: cs => by
    simp only [List.map_cons, Option.map_none, seqBuildResult, seqBuild_im φ r]
    cases seqBuildResult cs r <;> rfl

theorem allSome_map {α β : Type} (g : α → β) : ∀ l : List (Option α),
    allSome (l.map (Option.map g)) = (allSome l).map (List.map g)
  | [] => rfl
  | none :: _ => rfl
  | some a :: l => by
    simp only [List.map_cons, Option.map_some, allSome, allSome_map g l]
    cases allSome l <;> rfl

variable [Zero F] [One F] [Neg F] [LT F] [DecidableLT F]

omit [One F] [Neg F] in
theorem Embeds.nearestLoop (h : Embeds sp space φ) (e : E') : ∀ (c : List E') (i : Nat) (l : Int) (m : F),
    nearestLoopP sp (φ e) (c.map φ) i l m = some (Distclus.nearestLoop space e c i l m)
  | [], _, _, _ => rfl
  | x :: c, i, l, m => by
    simp only [List.map_cons, nearestLoopP, h.dist, Distclus.nearestLoop]
    split <;> exact nearestLoop h e c _ _ _

theorem Embeds.assign (h : Embeds sp space φ) (c : List E') (e : E') :
    assignP sp (c.map φ) (φ e) = (Distclus.assign space c e).map fun r => (r.1.map φ, r.2) := by
  unfold assignP Distclus.assign nearestP Distclus.nearest
  rw [h.nearestLoop]
  simp only
  split
  · rw [idxMap]
    cases idx? c _ <;> rfl
  · rfl

theorem Embeds.reduceLoop (h : Embeds sp space φ) (c : List E') : ∀ (es : List E') (st : List (Option E') × List Int),
    reduceLoopP sp (c.map φ) (es.map φ) (im φ st) = (Distclus.reduceLoop space c es st).map (im φ)
  | [], _ => rfl
  | e :: es, st => by
    simp only [List.map_cons, reduceLoopP, Distclus.reduceLoop, h.assign]
    cases Distclus.assign space c e with
    | none => rfl
    | some r =>
      simp only [Option.map_some, h.dbaStep]
      cases Distclus.dbaStep space st r.2.1 e with
      | none => rfl
      | some st' => exact reduceLoop h c es st'

theorem Embeds.reduceDBA (h : Embeds sp space φ) (c es : List E') :
    reduceDBAP sp (c.map φ) (es.map φ) = (Distclus.reduceDBA space c es).map (im φ) := by
  have := h.reduceLoop c es (List.replicate c.length none, List.replicate c.length 0)
  simpa [reduceDBAP, Distclus.reduceDBA, im] using this

theorem slice_map {α β : Type} (g : α → β) (l : List α) (a b : Nat) : slice (l.map g) a b = (slice l a b).map g := by
  simp [slice, List.map_drop, List.map_take]

theorem Embeds.seq (h : Embeds sp space φ) (c data : List E') :
    KStrategy.seq.iterateP sp (c.map φ) (data.map φ) =
      match KStrategy.seq.iterate space c data with
      | some r => .ok (r.map (Option.map φ))
      | none => .panic := by
  simp only [KStrategy.iterateP, KStrategy.iterate, h.reduceDBA]
  cases Distclus.reduceDBA space c data with
  | none => rfl
  | some r =>
    simp only [Option.map_some, im, seqBuild_im]
    cases seqBuildResult c r.1 <;> rfl

theorem Embeds.par (h : Embeds sp space φ) (d : Int) (c data : List E') (r : List (Option E'))
    (hr : (KStrategy.par d).iterate space c data = some r) :
    (KStrategy.par d).iterateP sp (c.map φ) (data.map φ) = .ok (r.map (Option.map φ)) := by
  simp only [KStrategy.iterateP, KStrategy.iterate, parReduceDBA, parP, List.length_map] at hr ⊢
  cases hp : Distclus.par data.length d with
  | none => rw [hp] at hr; cases hr
  | some chunks =>
    rw [hp] at hr
    simp only at hr ⊢
    have e : (chunks.map fun k => reduceDBAP sp (c.map φ) (slice (data.map φ) k.start k.stop)) =
        (chunks.map fun k => Distclus.reduceDBA space c (slice data k.start k.stop)).map (Option.map (im φ)) := by
      rw [List.map_map]
      refine List.map_congr_left fun k _ => ?_
      simp only [slice_map, Function.comp, h.reduceDBA]
    rw [e, allSome_map]
    cases ha : allSome (chunks.map fun k => Distclus.reduceDBA space c (slice data k.start k.stop)) with
    | none => rw [ha] at hr; cases hr
    | some parts =>
      rw [ha] at hr
      simp only [Option.map_some, h.aggregate] at hr ⊢
      cases hg : dbaAggregate space parts with
      | none => rw [hg] at hr; cases hr
      | some aggr =>
        rw [hg] at hr
        simp only [Option.map_some, parBuildResult, im, buildLoop_im] at hr ⊢
        cases hb : buildLoop c aggr.1 aggr.2 with
        | none => rw [hb] at hr; cases hr
        | some q =>
          rw [hb] at hr
          cases hr
          rfl

end
end PSpace
open Spec
section
variable {E F : Type}

namespace PSpace

/-- The size of the running mean before the elements `l`, if any, allows the elements `l`. -/
def okFrom (size : E → Nat) : Option Nat → List E → Prop
  | none, l => FirstLeast size l
  | some g, l => ∀ x ∈ l, g ≤ size x

/-- The size of the running mean after the elements `l`. -/
def after (size : E → Nat) : Option Nat → List E → Option Nat
  | none, [] => none
  | none, e :: _ => some (size e)
  | some g, _ => some g

theorem okFrom_cons (size : E → Nat) (o : Option Nat) (e : E) (l : List E) :
    okFrom size o (e :: l) ↔ (∀ g, o = some g → g ≤ size e) ∧ okFrom size (after size o [e]) l := by
  cases o <;> simp [okFrom, after, FirstLeast]

theorem after_cons (size : E → Nat) (o : Option Nat) (e : E) (l : List E) :
    after size o (e :: l) = after size (after size o [e]) l := by
  cases o <;> rfl

/-- A mean of the size `o` says, with a positive number of elements; or no mean. -/
def Cell (size : E → Nat) (o : Option Nat) (d : Option E) (card : Int) : Prop :=
  match o with
  | none => d = none ∧ card = 0
  | some g => 0 < card ∧ ∃ m, d = some m ∧ size m = g

/-- Two slices of `k` means and numbers of elements, of these sizes. -/
structure Holds (size : E → Nat) (k : Nat) (σ : Nat → Option Nat) (st : List (Option E) × List Int) : Prop where
  l1 : st.1.length = k
  l2 : st.2.length = k
  cell : ∀ l d c, st.1[l]? = some d → st.2[l]? = some c → Cell size (σ l) d c

theorem Holds.new (size : E → Nat) (k : Nat) :
    Holds size k (fun _ => none) (List.replicate k none, List.replicate k 0) := by
  refine ⟨by simp, by simp, fun l d c hd hc => ?_⟩
  simp only [List.getElem?_replicate] at hd hc
  split at hd
  · rw [if_pos (by assumption)] at hc
    cases hd; cases hc
    exact ⟨rfl, rfl⟩
  · cases hd

variable {sp : PSpace E F} {size : E → Nat}

theorem step_sized (hz : Sized sp size) {k : Nat} {σ : Nat → Option Nat} {st : List (Option E) × List Int}
    (h : Holds size k σ st) {l : Nat} (hl : l < k) (e : E) :
    ((∀ g, σ l = some g → g ≤ size e) → ∃ st', dbaStepP sp st l e = some st' ∧
      Holds size k (fun j => if j = l then after size (σ l) [e] else σ j) st') ∧
    (∀ g, σ l = some g → size e < g → dbaStepP sp st l e = none) := by
  obtain ⟨d, hd⟩ : ∃ d, st.1[l]? = some d := ⟨_, List.getElem?_eq_getElem (by rw [h.l1]; exact hl)⟩
  obtain ⟨card, hc⟩ : ∃ d, st.2[l]? = some d := ⟨_, List.getElem?_eq_getElem (by rw [h.l2]; exact hl)⟩
  have hcell := h.cell l d card hd hc
  have i1 : idx? st.1 (l : Int) = some d := by rw [idx?_of_nonneg _ (by omega)]; simpa using hd
  have i2 : idx? st.2 (l : Int) = some card := by rw [idx?_of_nonneg _ (by omega)]; simpa using hc
  have build : ∀ (m : E) (n : Int) (o : Option Nat), Cell size o (some m) n →
      Holds size k (fun j => if j = l then o else σ j) (st.1.set l (some m), st.2.set l n) := by
    intro m n o ho
    refine ⟨by simp [h.l1], by simp [h.l2], fun j d' c' hd' hc' => ?_⟩
    by_cases hj : j = l
    · subst hj
      simp only [List.getElem?_set, h.l1, h.l2, hl, if_true] at hd' hc'
      cases hd'; cases hc'
      simpa using ho
    · have hj' : l ≠ j := fun h => hj h.symm
      simp only [List.getElem?_set, hj', if_false] at hd' hc'
      simpa [hj] using h.cell j d' c' hd' hc'
  cases hs : σ l with
  | none =>
    rw [hs] at hcell
    obtain ⟨rfl, rfl⟩ := hcell
    refine ⟨fun _ => ?_, fun g hg => by cases hg⟩
    obtain ⟨b, hb, hsz⟩ := hz.copy e
    refine ⟨_, by simp only [dbaStepP, i2, hb]; rfl, build b 1 _ ?_⟩
    exact ⟨by omega, b, rfl, hsz⟩
  | some g =>
    rw [hs] at hcell
    obtain ⟨hpos, m, rfl, hm⟩ := hcell
    constructor
    · intro hg
      have hle := hg g rfl
      cases hcm : sp.combine m card e 1 with
      | none => have := (hz.combine ..).1 hcm; omega
      | some r =>
        refine ⟨_, by simp only [dbaStepP, i2, i1, hcm, show card ≠ 0 by omega, if_false]; rfl, build r (card + 1) _ ?_⟩
        exact ⟨by omega, r, rfl, (hz.combined hcm).trans hm⟩
    · rintro g' hg' hlt
      cases hg'
      have : sp.combine m card e 1 = none := (hz.combine ..).2 (by omega)
      simp [dbaStepP, i2, i1, this, show card ≠ 0 by omega]

theorem combine_sized (hz : Sized sp size) : ∀ (k : Nat) (σ τ : Nat → Option Nat) (a o : List (Option E) × List Int),
    Holds size k σ a → Holds size k τ o →
    ((∀ l < k, ∀ g h, σ l = some g → τ l = some h → g ≤ h) →
      ∃ r, dbaCombineLoopP sp a.1 a.2 o.1 o.2 = some r ∧ Holds size k (fun l => (σ l).or (τ l)) r) ∧
    ((∃ l < k, ∃ g h, σ l = some g ∧ τ l = some h ∧ h < g) → dbaCombineLoopP sp a.1 a.2 o.1 o.2 = none)
  | 0, σ, τ, (ds, cs), (ds', cs'), ha, ho => by
    have h1 : ds = [] := List.length_eq_zero_iff.1 ha.l1
    have h2 : cs = [] := List.length_eq_zero_iff.1 ha.l2
    subst h1 h2
    refine ⟨fun _ => ⟨_, rfl, by simp, by simp, by simp⟩, by rintro ⟨l, hl, _⟩; omega⟩
  | k + 1, σ, τ, (ds, cs), (ds', cs'), ha, ho => by
    obtain ⟨d, ds, rfl⟩ := List.exists_cons_of_length_eq_add_one ha.l1
    obtain ⟨c, cs, rfl⟩ := List.exists_cons_of_length_eq_add_one ha.l2
    obtain ⟨d', ds', rfl⟩ := List.exists_cons_of_length_eq_add_one ho.l1
    obtain ⟨c', cs', rfl⟩ := List.exists_cons_of_length_eq_add_one ho.l2
    have ca := ha.cell 0 d c rfl rfl
    have co := ho.cell 0 d' c' rfl rfl
    have ta : Holds size k (fun l => σ (l + 1)) (ds, cs) :=
      ⟨by simpa using ha.l1, by simpa using ha.l2, fun l x y hx hy => ha.cell (l + 1) x y (by simpa using hx) (by simpa using hy)⟩
    have to' : Holds size k (fun l => τ (l + 1)) (ds', cs') :=
      ⟨by simpa using ho.l1, by simpa using ho.l2, fun l x y hx hy => ho.cell (l + 1) x y (by simpa using hx) (by simpa using hy)⟩
    obtain ⟨ih1, ih2⟩ := combine_sized hz k _ _ _ _ ta to'
    have head : (∀ g h, σ 0 = some g → τ 0 = some h → g ≤ h) →
        ∃ x y, dbaCombine1P sp (d, c) (d', c') = some (x, y) ∧ Cell size ((σ 0).or (τ 0)) x y := by
      intro hle
      cases hs : σ 0 with
      | none =>
        rw [hs] at ca
        obtain ⟨rfl, rfl⟩ := ca
        exact ⟨d', c', by simp [dbaCombine1P], by simpa using co⟩
      | some g =>
        rw [hs] at ca
        obtain ⟨hpos, m, rfl, hm⟩ := ca
        cases ht : τ 0 with
        | none =>
          rw [ht] at co
          obtain ⟨rfl, rfl⟩ := co
          exact ⟨some m, c, by simp [dbaCombine1P, show c ≠ 0 by omega], ⟨hpos, m, rfl, hm⟩⟩
        | some h =>
          rw [ht] at co
          obtain ⟨hpos', m', rfl, hm'⟩ := co
          have := hle g h hs ht
          cases hcm : sp.combine m c m' c' with
          | none => have := (hz.combine ..).1 hcm; omega
          | some r =>
            exact ⟨some r, c + c', by simp [dbaCombine1P, show c ≠ 0 by omega, hpos', hcm],
              ⟨by omega, r, rfl, (hz.combined hcm).trans hm⟩⟩
    constructor
    · intro hle
      obtain ⟨x, y, e1, e2⟩ := head (hle 0 (by omega))
      obtain ⟨⟨xs, ys⟩, f1, f2⟩ := ih1 fun l hl => hle (l + 1) (by omega)
      refine ⟨(x :: xs, y :: ys), by simp only [dbaCombineLoopP, e1, f1], by simpa using f2.l1, by simpa using f2.l2, ?_⟩
      intro l u v hu hv
      cases l with
      | zero => cases hu; cases hv; exact e2
      | succ l => exact f2.cell l u v (by simpa using hu) (by simpa using hv)
    · rintro ⟨l, hl, g, h, hs, ht, hlt⟩
      cases l with
      | zero =>
        rw [hs] at ca; rw [ht] at co
        obtain ⟨hpos, m, rfl, hm⟩ := ca
        obtain ⟨hpos', m', rfl, hm'⟩ := co
        have : sp.combine m c m' c' = none := (hz.combine ..).2 (by omega)
        simp [dbaCombineLoopP, dbaCombine1P, show c ≠ 0 by omega, hpos', this]
      | succ l =>
        have := ih2 ⟨l, by omega, g, h, hs, ht, hlt⟩
        simp only [dbaCombineLoopP, this]
        cases dbaCombine1P sp (d, c) (d', c') <;> rfl

theorem build_sized {k : Nat} : ∀ (c : List E) (σ : Nat → Option Nat) (st : List (Option E) × List Int),
    Holds size c.length σ st → ∃ r, parBuildResult c st = some r
  | [], _, _, _ => ⟨_, rfl⟩
  | x :: c, σ, (ds, cs), h => by
    obtain ⟨d, ds, rfl⟩ := List.exists_cons_of_length_eq_add_one h.l1
    obtain ⟨n, cs, rfl⟩ := List.exists_cons_of_length_eq_add_one h.l2
    obtain ⟨r, hr⟩ := build_sized (k := k) c (fun l => σ (l + 1)) (ds, cs) ⟨by simpa using h.l1, by simpa using h.l2,
      fun l u v hu hv => h.cell (l + 1) u v (by simpa using hu) (by simpa using hv)⟩
    simp only [parBuildResult] at hr ⊢
    exact ⟨_, by simp only [buildLoop, hr]; rfl⟩

section
variable [Zero F] [One F] [Neg F] [LT F] [DecidableLT F]

omit [One F] [Neg F] in
theorem nearestLoop_total (e : E) : ∀ (c : List E) (i : Nat) (l : Int) (m : F),
    ((∀ x ∈ c, sp.dist e x ≠ none) → nearestLoopP sp e c i l m = some (nearestLoop sp.total e c i l m)) ∧
    ((∃ x ∈ c, sp.dist e x = none) → nearestLoopP sp e c i l m = none)
  | [], _, _, _ => ⟨fun _ => rfl, by simp⟩
  | x :: c, i, l, m => by
    constructor
    · intro h
      obtain ⟨d, hd⟩ := Option.ne_none_iff_exists'.1 (h x (by simp))
      have h' : ∀ y ∈ c, sp.dist e y ≠ none := fun y hy => h y (by simp [hy])
      simp only [nearestLoopP, nearestLoop, hd, total, Option.getD_some]
      split
      · exact (nearestLoop_total e c _ _ _).1 h'
      · exact (nearestLoop_total e c _ _ _).1 h'
    · rintro ⟨y, hy, hn⟩
      rcases List.mem_cons.1 hy with rfl | hy
      · simp [nearestLoopP, hn]
      · simp only [nearestLoopP]
        cases sp.dist e x with
        | none => rfl
        | some d =>
          simp only
          split
          · exact (nearestLoop_total e c _ _ _).2 ⟨y, hy, hn⟩
          · exact (nearestLoop_total e c _ _ _).2 ⟨y, hy, hn⟩

theorem assign_total (hneg : (-1 : F) < 0) {c : List E} (hc : c ≠ []) (e : E) :
    ((∀ x ∈ c, sp.dist e x ≠ none) → ∃ x d, assignP sp c e = some (x, (nearest sp.total c e).1, d)) ∧
    ((∃ x ∈ c, sp.dist e x = none) → assignP sp c e = none) := by
  constructor
  · intro h
    obtain ⟨h1, h2⟩ := nearest_range hneg sp.total c hc e
    have h3 : nearestP sp c e = some (nearest sp.total c e) := (nearestLoop_total e c _ _ _).1 h
    simp only [assignP, h3, if_pos h1]
    rw [idx?_of_nonneg _ h1, List.getElem?_eq_getElem (by omega)]
    exact ⟨_, _, rfl⟩
  · intro h
    have h3 : nearestP sp c e = none := (nearestLoop_total e c _ _ _).2 h
    simp [assignP, h3]

/-- The elements nearest to the centroid of label `l`. -/
def members (sp : PSpace E F) (c : List E) (l : Nat) (es : List E) : List E :=
  es.filter fun e => (nearest sp.total c e).1 == (l : Int)

/-- What an iteration on `es` needs, when the means have the sizes `σ` so far. -/
def Fit (size : E → Nat) (sp : PSpace E F) (c : List E) (σ : Nat → Option Nat) (es : List E) : Prop :=
  (∀ e ∈ es, ∀ x ∈ c, size e ≤ size x) ∧ ∀ l < c.length, okFrom size (σ l) (members sp c l es)

theorem reduce_sized (hneg : (-1 : F) < 0) (hz : Sized sp size) {c : List E} (hc : c ≠ []) : ∀ (es : List E)
    (σ : Nat → Option Nat) (st : List (Option E) × List Int), Holds size c.length σ st →
    (Fit size sp c σ es → ∃ st', reduceLoopP sp c es st = some st' ∧
      Holds size c.length (fun l => after size (σ l) (members sp c l es)) st') ∧
    (¬ Fit size sp c σ es → reduceLoopP sp c es st = none)
  | [], σ, st, h => by
    refine ⟨fun _ => ⟨st, rfl, ?_⟩, fun hn => (hn ⟨by simp, fun l _ => ?_⟩).elim⟩
    · have : (fun l => after size (σ l) (members sp c l [])) = σ := by
        funext l; cases hs : σ l <;> simp [members, after]
      rw [this]; exact h
    · cases hs : σ l <;> simp [members, okFrom, FirstLeast]
  | e :: es, σ, st, h => by
    obtain ⟨h1, h2⟩ := nearest_range hneg sp.total c hc e
    obtain ⟨l, hl⟩ := Int.eq_ofNat_of_zero_le h1
    rw [hl] at h2
    have hlt : l < c.length := by omega
    have mem_cons : ∀ j, members sp c j (e :: es) = if j = l then e :: members sp c j es else members sp c j es := by
      intro j
      unfold members
      rw [List.filter_cons, hl]
      by_cases hj : j = l
      · simp [hj]
      · simp [hj, show ¬ l = j from fun h => hj h.symm]
    obtain ⟨a1, a2⟩ := assign_total (sp := sp) hneg hc e
    obtain ⟨s1, s2⟩ := step_sized hz h hlt e
    have fit : Fit size sp c σ (e :: es) ↔ (∀ x ∈ c, size e ≤ size x) ∧ (∀ g, σ l = some g → g ≤ size e) ∧
        Fit size sp c (fun j => if j = l then after size (σ l) [e] else σ j) es := by
      constructor
      · rintro ⟨f1, f2⟩
        have fl := f2 l hlt
        rw [mem_cons, if_pos rfl, okFrom_cons] at fl
        refine ⟨f1 e (by simp), fl.1, fun x hx => f1 x (by simp [hx]), fun j hj => ?_⟩
        by_cases hjl : j = l
        · subst hjl; simpa using fl.2
        · have := f2 j hj
          rw [mem_cons, if_neg hjl] at this
          simpa [hjl] using this
      · rintro ⟨f0, f1, f2, f3⟩
        refine ⟨fun x hx => ?_, fun j hj => ?_⟩
        · rcases List.mem_cons.1 hx with rfl | hx
          · exact f0
          · exact f2 x hx
        · rw [mem_cons]
          by_cases hjl : j = l
          · subst hjl
            rw [if_pos rfl, okFrom_cons]
            exact ⟨f1, by simpa using f3 j hj⟩
          · simpa [hjl] using f3 j hj
    have hdist : (∀ x ∈ c, size e ≤ size x) ↔ ∀ x ∈ c, sp.dist e x ≠ none := by
      simp only [ne_eq, hz.dist, Nat.not_lt]
    rw [fit]
    by_cases hd : ∀ x ∈ c, size e ≤ size x
    · obtain ⟨x, d, ha⟩ := a1 (hdist.1 hd)
      rw [hl] at ha
      simp only [reduceLoopP, ha]
      by_cases hg : ∀ g, σ l = some g → g ≤ size e
      · obtain ⟨st', e1, e2⟩ := s1 hg
        obtain ⟨ih1, ih2⟩ := reduce_sized hneg hz hc es _ st' e2
        rw [e1]
        constructor
        · rintro ⟨-, -, hf⟩
          obtain ⟨st'', f1, f2⟩ := ih1 hf
          refine ⟨st'', f1, ?_⟩
          have : (fun j => after size (σ j) (members sp c j (e :: es))) = fun j =>
              after size (if j = l then after size (σ l) [e] else σ j) (members sp c j es) := by
            funext j
            rw [mem_cons]
            by_cases hjl : j = l
            · subst hjl; rw [if_pos rfl, if_pos rfl, after_cons]
            · rw [if_neg hjl, if_neg hjl]
          rw [this]; exact f2
        · intro hn
          exact ih2 fun hf => hn ⟨hd, hg, hf⟩
      · refine ⟨fun hf => (hg hf.2.1).elim, fun _ => ?_⟩
        push Not at hg
        obtain ⟨g, hs, hlt'⟩ := hg
        rw [s2 g hs hlt']
    · refine ⟨fun hf => (hd hf.1).elim, fun _ => ?_⟩
      rw [hdist] at hd
      push Not at hd
      simp [reduceLoopP, a2 hd]

theorem reduceDBA_sized (hneg : (-1 : F) < 0) (hz : Sized sp size) {c : List E} (hc : c ≠ []) (es : List E) :
    (Fit size sp c (fun _ => none) es → ∃ st, reduceDBAP sp c es = some st ∧
      Holds size c.length (fun l => after size none (members sp c l es)) st) ∧
    (¬ Fit size sp c (fun _ => none) es → reduceDBAP sp c es = none) :=
  reduce_sized hneg hz hc es _ _ (Holds.new size c.length)


theorem membersIn_append (c : List E) (l : Nat) (a b : List E) :
    members sp c l (a ++ b) = members sp c l a ++ members sp c l b := by
  simp [members]

theorem aggregate_sized (hz : Sized sp size) {c : List E} : ∀ (ess : List (List E))
    (sts : List (List (Option E) × List Int)) (σ : Nat → Option Nat) (agg r : List (Option E) × List Int),
    List.Forall₂ (fun es st => Fit size sp c (fun _ => none) es ∧
      Holds size c.length (fun l => after size none (members sp c l es)) st) ess sts →
    Holds size c.length σ agg → dbaAggregateLoopP sp sts agg = some r →
    (∀ l < c.length, okFrom size (σ l) (members sp c l ess.flatten)) ∧
    Holds size c.length (fun l => after size (σ l) (members sp c l ess.flatten)) r
  | [], _, σ, agg, r, hf, ha, hr => by
    cases hf
    cases hr
    have : (fun l => after size (σ l) (members sp c l [])) = σ := by
      funext l; cases hs : σ l <;> simp [members, after]
    refine ⟨fun l _ => by cases hs : σ l <;> simp [members, okFrom, FirstLeast], ?_⟩
    simpa [this] using ha
  | es :: ess, _, σ, agg, r, hf, ha, hr => by
    cases hf with
    | @cons _ st _ sts h1 h2 =>
      obtain ⟨hfit, hst⟩ := h1
      obtain ⟨c1, c2⟩ := combine_sized hz _ _ _ _ _ ha hst
      by_cases hle : ∀ l < c.length, ∀ g h, σ l = some g → after size none (members sp c l es) = some h → g ≤ h
      · obtain ⟨a', e1, e2⟩ := c1 hle
        simp only [dbaAggregateLoopP, e1] at hr
        have hσ : (fun l => (σ l).or (after size none (members sp c l es))) =
            fun l => after size (σ l) (members sp c l es) := by
          funext l; cases hs : σ l <;> simp [after]
        rw [hσ] at e2
        obtain ⟨i1, i2⟩ := aggregate_sized hz ess sts _ a' r h2 e2 hr
        have app : ∀ (o : Option Nat) (a b : List E), (okFrom size o (a ++ b) ↔ okFrom size o a ∧ okFrom size (after size o a) b) ∧
            after size o (a ++ b) = after size (after size o a) b := by
          intro o a b
          constructor
          · cases o with
            | none =>
              cases a with
              | nil => simp [okFrom, after, FirstLeast]
              | cons x a => simp [okFrom, after, FirstLeast, or_imp, forall_and]
            | some g => simp [okFrom, after, or_imp, forall_and]
          · cases o <;> cases a <;> simp [after]
        constructor
        · intro l hl
          rw [List.flatten_cons, membersIn_append, (app _ _ _).1]
          refine ⟨?_, i1 l hl⟩
          have hf := hfit.2 l hl
          have hg := hle l hl
          cases hs : σ l with
          | none => exact hf
          | some g =>
            cases hm : members sp c l es with
            | nil => simp [okFrom]
            | cons x xs =>
              rw [hm] at hf hg
              have hgx := hg g (size x) hs rfl
              intro y hy
              rcases List.mem_cons.1 hy with rfl | hy
              · exact hgx
              · exact hgx.trans (hf y hy)
        · have : (fun l => after size (σ l) (members sp c l (es :: ess).flatten)) =
              fun l => after size (after size (σ l) (members sp c l es)) (members sp c l ess.flatten) := by
            funext l
            rw [List.flatten_cons, membersIn_append, (app _ _ _).2]
          rw [this]
          exact i2
      · push Not at hle
        obtain ⟨l, hl, g, h, q1, q2, q3⟩ := hle
        simp only [dbaAggregateLoopP, c2 ⟨l, hl, g, h, q1, q2, q3⟩] at hr
        cases hr

theorem allSome_panics {α : Type} : ∀ l : List (Option α), allSome l = none ↔ none ∈ l
  | [] => by simp [allSome]
  | none :: l => by simp [allSome]
  | some a :: l => by
    have := allSome_panics l
    simp only [allSome]
    cases h : allSome l with
    | none => rw [h] at this; simpa using this
    | some r => rw [h] at this; simpa using this

end
end PSpace
end
end Distclus
