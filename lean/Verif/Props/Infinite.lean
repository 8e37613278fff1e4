import Verif.Proof.InfiniteXReal
import Verif.Props.Nan
import Verif.Model.Streaming
/-!
# C130: what one datum with an infinite coordinate does (examined)

`Push` accepts any element.  The claim examined is that an element with an infinite coordinate harms its own cluster
only.  In the Euclidean space it takes the first cluster for itself and the rest is as without it; streaming stops to
make clusters if the element comes early; in the cosine space it is as bad as a NaN.
-/
set_option linter.unusedSectionVars false

namespace Distclus
open Spec

section
variable {E F : Type} [Zero F] [One F] [Neg F] [LT F] [DecidableLT F]
variable {space : Space E F} {good bad : E → Prop} {inf : F}

theorem step_stray (hneg : (-1 : F) < 0) (hst : Strays space good bad inf) (hdis : ∀ e, good e → ¬ bad e)
    (s : KStrategy) (hs : s.Valid) (c0 : E) (cs data : List E) (hd : ∀ e ∈ data, good e ∨ bad e)
    (hcs : ∀ x ∈ cs, good x) (h0 : ∀ e ∈ data, bad e → (nearest space (c0 :: cs) e).1 = 0) :
    ∃ m out, kmeansStep s space data (c0 :: cs) = some (m :: out) ∧ out.length = cs.length ∧ (∀ x ∈ out, good x) ∧
      ((∃ e ∈ data, bad e) → bad m) ∧
      ((∀ e ∈ data, (nearest space (c0 :: cs) e).1 ≠ 0) → m = c0) := by
  obtain ⟨out, h1, h2, h3⟩ := iterate_spec hneg (hst.combineOk hdis) hst.running s hs (c0 :: cs) data (by simp)
  have hf : ∀ (l : Nat), ∀ e ∈ data.filter fun e => (nearest space (c0 :: cs) e).1 == (l : Int), good e ∨ bad e :=
    fun l e he => hd e (List.mem_filter.1 he).1
  cases out with
  | nil => cases h2
  | cons m out =>
    have hlen : out.length = cs.length := by simpa using h2
    refine ⟨m, out, by rw [kmeansStep, h1]; exact allSome_map_some (m :: out), hlen, ?_, ?_, ?_⟩
    · intro x hx
      obtain ⟨i, hi, rfl⟩ := List.mem_iff_getElem.1 hx
      obtain ⟨m', hm', he, hP⟩ := h3 (i + 1) cs[i] (by simp [show i < cs.length by omega])
      have hm'' : out[i] = m' := by
        have : out[i]? = some m' := by simpa using hm'
        rw [List.getElem?_eq_getElem hi] at this
        exact Option.some.inj this
      rw [hm'']
      by_cases hms : (data.filter fun e => (nearest space (c0 :: cs) e).1 == ((i + 1 : Nat) : Int)) = []
      · rw [he hms]; exact hcs _ (List.getElem_mem _)
      · refine (hP hms (hf (i + 1))).2 fun e hem => ?_
        obtain ⟨he1, he2⟩ := List.mem_filter.1 hem
        refine (hd e he1).resolve_right fun hb => ?_
        rw [h0 e he1 hb] at he2
        simp only [beq_iff_eq] at he2
        omega
    · rintro ⟨e, he, hb⟩
      obtain ⟨m', hm', -, hP⟩ := h3 0 c0 rfl
      cases hm'
      have hmem : e ∈ data.filter fun e => (nearest space (c0 :: cs) e).1 == ((0 : Nat) : Int) :=
        List.mem_filter.2 ⟨he, by rw [h0 e he hb]; rfl⟩
      exact (hP (List.ne_nil_of_mem hmem) (hf 0)).1 ⟨e, hmem, hb⟩
    · intro hno
      obtain ⟨m', hm', he, -⟩ := h3 0 c0 rfl
      cases hm'
      exact he (List.filter_eq_nil_iff.2 fun e hem h => hno e hem (by simpa using h))

/-- **C130, k-means, first iteration.** From good centroids, every bad element goes to the first cluster; if there is
one, the first centroid becomes bad. The others stay good; in the sequential iteration they are what they would have
been without the bad elements. -/
theorem C130_first [DecidablePred good] (hneg : (-1 : F) < 0) (hst : Strays space good bad inf)
    (hdis : ∀ e, good e → ¬ bad e) (s : KStrategy) (hs : s.Valid) (c0 : E) (cs data : List E)
    (hc : ∀ x ∈ c0 :: cs, good x) (hd : ∀ e ∈ data, good e ∨ bad e) (hb : ∃ e ∈ data, bad e) :
    (∀ e, bad e → (nearest space (c0 :: cs) e).1 = 0) ∧
    ∃ m out, kmeansStep s space data (c0 :: cs) = some (m :: out) ∧ bad m ∧ out.length = cs.length ∧
      (∀ x ∈ out, good x) ∧
      (s = .seq → ∃ m', kmeansStep .seq space (data.filter (good ·)) (c0 :: cs) = some (m' :: out)) := by
  have hlab : ∀ e, bad e → (nearest space (c0 :: cs) e).1 = 0 := fun e he => by
    rw [hst.nearest_bad hneg c0 cs (fun x hx => Or.inl (hc x hx)) he]
  refine ⟨hlab, ?_⟩
  obtain ⟨m, out, h1, h2, h3, h4, -⟩ := step_stray hneg hst hdis s hs c0 cs data hd (fun x hx => hc x (by simp [hx]))
    fun e _ he => hlab e he
  refine ⟨m, out, h1, h4 hb, h2, h3, ?_⟩
  rintro rfl
  obtain ⟨m', out', g1, g2, -⟩ := step_stray hneg hst hdis .seq trivial c0 cs (data.filter (good ·))
    (fun e he => hd e (List.mem_filter.1 he).1) (fun x hx => hc x (by simp [hx])) fun e _ he => hlab e he
  have : out' = out := by
    apply List.ext_getElem?
    intro i
    by_cases hi : i < cs.length
    · have := seq_congr hneg space (i := i + 1) (i' := i + 1) (x := cs[i]) (by simp [hi]) (by simp [hi]) ?_ g1 h1
      · simpa using this
      · rw [List.filter_filter]
        apply List.filter_congr
        intro e he
        rcases hd e he with h | h
        · simp [h]
        · simp only [hlab e h, Bool.and_eq_left_iff_imp, beq_iff_eq]
          omega
    · rw [List.getElem?_eq_none (by omega), List.getElem?_eq_none (by omega)]
  exact ⟨m', by rw [g1, this]⟩

/-- **C130, k-means, the next iterations.** If the first centroid is bad and the others, at least one, are good: the
bad elements have the label 0, the good ones never, they have the label of the nearest of the other centroids. The first
centroid stays bad and the others good; in the sequential iteration the others are what they would have become alone, on
the good elements. -/
theorem C130_next [DecidablePred good] (hneg : (-1 : F) < 0) (hst : Strays space good bad inf)
    (hdis : ∀ e, good e → ¬ bad e) (s : KStrategy) (hs : s.Valid) (b : E) (c data : List E) (hb : bad b) (hne : c ≠ [])
    (hc : ∀ x ∈ c, good x) (hd : ∀ e ∈ data, good e ∨ bad e) :
    (∀ e, bad e → (nearest space (b :: c) e).1 = 0) ∧
    (∀ e, good e → nearest space (b :: c) e = ((nearest space c e).1 + 1, (nearest space c e).2)) ∧
    ∃ m out, kmeansStep s space data (b :: c) = some (m :: out) ∧ bad m ∧ out.length = c.length ∧ (∀ x ∈ out, good x) ∧
      (s = .seq → kmeansStep .seq space (data.filter (good ·)) c = some out) := by
  have hlab : ∀ e, bad e → (nearest space (b :: c) e).1 = 0 := fun e he => by
    rw [hst.nearest_bad hneg b c (fun x hx => ?_) he]
    rcases List.mem_cons.1 hx with rfl | hx
    · exact Or.inr hb
    · exact Or.inl (hc x hx)
  have hskip : ∀ e, good e → nearest space (b :: c) e = ((nearest space c e).1 + 1, (nearest space c e).2) :=
    fun e he => hst.nearest_skip hneg hb hne hc he
  refine ⟨hlab, hskip, ?_⟩
  obtain ⟨m, out, h1, h2, h3, h4, h5⟩ := step_stray hneg hst hdis s hs b c data hd hc fun e _ he => hlab e he
  have hm : bad m := by
    by_cases h : ∃ e ∈ data, bad e
    · exact h4 h
    · rw [h5 fun e he => ?_]
      · exact hb
      · rw [hskip e ((hd e he).resolve_right fun hb => h ⟨e, he, hb⟩)]
        have := (nearest_range hneg space c hne e).1
        simp only
        omega
  refine ⟨m, out, h1, hm, h2, h3, ?_⟩
  rintro rfl
  obtain ⟨out', g1, g2, -⟩ := C23_iterate hneg .seq trivial space c (data.filter (good ·)) hne
  have g3 : kmeansStep .seq space (data.filter (good ·)) c = some out' := by
    rw [kmeansStep, g1]; exact allSome_map_some out'
  rw [g3]
  congr 1
  apply List.ext_getElem?
  intro i
  by_cases hi : i < c.length
  · have := seq_congr hneg space (i := i) (i' := i + 1) (x := c[i]) (by simp [hi]) (by simp [hi]) ?_ g3 h1
    · simpa using this
    · rw [List.filter_filter]
      apply List.filter_congr
      intro e he
      rcases hd e he with h | h
      · rw [hskip e h]
        simp only [h, decide_true, Bool.and_true]
        rw [Bool.eq_iff_iff, beq_iff_eq, beq_iff_eq]
        omega
      · have hng : ¬ good e := fun hg => hdis e hg h
        simp only [hlab e h, hng, decide_false, Bool.and_false]
        symm
        rw [beq_eq_false_iff_ne]
        omega
  · rw [List.getElem?_eq_none (by omega), List.getElem?_eq_none (by omega)]

/-- **C130, k-means, for ever.** From `k ≥ 2` good centroids, on data with bad elements: after any number of iterations
the first centroid is bad and the `k - 1` others are those which sequential k-means computes on the good elements, from
the `k - 1` last centroids of the first iteration. -/
theorem C130_run [DecidablePred good] (hneg : (-1 : F) < 0) (hst : Strays space good bad inf)
    (hdis : ∀ e, good e → ¬ bad e) (c0 : E) (cs data : List E) (hc : ∀ x ∈ c0 :: cs, good x) (hcs : cs ≠ [])
    (hd : ∀ e ∈ data, good e ∨ bad e) (hb : ∃ e ∈ data, bad e) (datas : List (List E))
    (hds : ∀ d ∈ datas, ∀ e ∈ d, good e ∨ bad e) :
    ∃ m' c1, kmeansStep .seq space (data.filter (good ·)) (c0 :: cs) = some (m' :: c1) ∧
      ∃ m out, kmeansRun .seq space (data :: datas) (c0 :: cs) = some (m :: out) ∧ bad m ∧
        kmeansRun .seq space (datas.map (·.filter (good ·))) c1 = some out ∧ out.length = cs.length ∧ ∀ x ∈ out, good x := by
  obtain ⟨-, b, c1, h1, h2, h3, h4, h5⟩ := C130_first hneg hst hdis .seq trivial c0 cs data hc hd hb
  obtain ⟨m', h6⟩ := h5 rfl
  refine ⟨m', c1, h6, ?_⟩
  rw [kmeansRun, h1]
  have hne : c1 ≠ [] := fun h => by subst h; exact hcs (List.length_eq_zero_iff.1 h3.symm)
  rw [← h3]
  clear h6 h5 h1 h3 hb hd
  simp only
  induction datas generalizing b c1 with
  | nil => exact ⟨b, c1, rfl, h2, rfl, rfl, h4⟩
  | cons d ds ih =>
    obtain ⟨-, -, b', c2, g1, g2, g3, g4, g5⟩ := C130_next hneg hst hdis .seq trivial b c1 d h2 hne h4
      fun e he => hds d (by simp) e he
    have hne' : c2 ≠ [] := fun h => by subst h; exact hne (List.length_eq_zero_iff.1 g3.symm)
    obtain ⟨m, out, f1, f2, f3, f5, f4⟩ := ih (fun d' hd' => hds d' (by simp [hd'])) b' c2 g2 g4 hne'
    exact ⟨m, out, by rw [kmeansRun, g1]; exact f1, f2, by rw [List.map_cons, kmeansRun, g5 rfl]; exact f3, f5.trans g3, f4⟩

/-- **C130, k-means, one centroid.** With a single centroid the bad element takes the whole clustering. -/
theorem C130_single (hneg : (-1 : F) < 0) (hst : Strays space good bad inf) (hdis : ∀ e, good e → ¬ bad e)
    (s : KStrategy) (hs : s.Valid) (c0 : E) (data : List E) (hd : ∀ e ∈ data, good e ∨ bad e)
    (hb : ∃ e ∈ data, bad e) :
    (∀ e, (nearest space [c0] e).1 = 0) ∧ ∃ m, kmeansStep s space data [c0] = some [m] ∧ bad m := by
  have hlab : ∀ e, (nearest space [c0] e).1 = 0 := fun e => by
    obtain ⟨h1, h2⟩ := nearest_range hneg space [c0] (by simp) e
    simp only [List.length_cons, List.length_nil] at h2
    omega
  obtain ⟨m, out, h1, h2, -, h4, -⟩ := step_stray hneg hst hdis s hs c0 [] data hd (by simp) fun e _ _ => hlab e
  have : out = [] := List.length_eq_zero_iff.1 h2
  subst this
  exact ⟨hlab, m, h1, h4 hb⟩

end

/-! ### Streaming -/

section
variable {E F R : Type} [Zero F] [One F] [Neg F] [LT F] [DecidableLT F] [BEq F] [Div F]
variable {space : Space E F} {good bad : E → Prop} {inf : F}

/-- **C130, streaming, early.** A bad element processed before `outAfter`, some distance being known already: it becomes
a centre and the maximal distance becomes infinite (whatever the threshold drawn, if it is finite). -/
theorem C130_stream_early (hneg : (-1 : F) < 0) (hst : Strays space good bad inf) (hi : InfDiv F inf)
    (impl : StreamImpl E F R) (c0 : E) (cs : List E) (hcl : impl.clust = c0 :: cs) (hc0 : good c0)
    (hc : ∀ x ∈ c0 :: cs, good x ∨ bad x) (hm : 0 < impl.maxDistance) (hm' : impl.maxDistance < inf)
    (hn : impl.count < impl.conf.outAfter) (t : F) (ht : t < inf) (e : E) (he : bad e) :
    impl.process space t e = some
      { impl with
        clust := impl.clust ++ [e]
        cards := impl.cards ++ [1]
        count := impl.count + 1
        maxDistance := inf } := by
  have hnear := hst.nearest_bad hneg c0 cs hc he
  rw [hst.far' he hc0] at hnear
  unfold StreamImpl.process
  simp only [assign, hcl, hnear, ge_iff_le, le_refl, if_true, idx?, lt_irrefl, if_false, Int.toNat_zero,
    List.getElem?_cons_zero, StreamImpl.getRelativeDistance, hi.pos hm, hi.keep hm hm', Bool.false_eq_true]
  rw [if_neg (by omega), if_pos ht]
  simp only [StreamImpl.addCenter, StreamImpl.updateMaxDistance, if_pos hm', hcl]

/-- **C130, streaming, late.** A bad element processed after `outAfter`, some finite distance being known: it becomes a
centre as an outlier, and the maximal distance does not change. -/
theorem C130_stream_late (hneg : (-1 : F) < 0) (hst : Strays space good bad inf) (hi : InfDiv F inf)
    (impl : StreamImpl E F R) (c0 : E) (cs : List E) (hcl : impl.clust = c0 :: cs) (hc0 : good c0)
    (hc : ∀ x ∈ c0 :: cs, good x ∨ bad x) (hm : 0 < impl.maxDistance) (hm' : impl.maxDistance < inf)
    (hn : impl.conf.outAfter ≤ impl.count) (hr : impl.conf.outRatio < inf) (t : F) (e : E) (he : bad e) :
    impl.process space t e = some
      { impl with
        clust := impl.clust ++ [e]
        cards := impl.cards ++ [1]
        count := impl.count + 1 } := by
  have hnear := hst.nearest_bad hneg c0 cs hc he
  rw [hst.far' he hc0] at hnear
  unfold StreamImpl.process
  simp only [assign, hcl, hnear, ge_iff_le, le_refl, if_true, idx?, lt_irrefl, if_false, Int.toNat_zero,
    List.getElem?_cons_zero, StreamImpl.getRelativeDistance, hi.pos hm, hi.keep hm hm', Bool.false_eq_true]
  rw [if_pos ⟨hn, hr⟩]
  simp only [StreamImpl.addOutlier, hcl]

/-- **C130, streaming, first.** A bad element processed when no positive distance is known: it is merged in the first
centre, which becomes bad, and the maximal distance becomes infinite. -/
theorem C130_stream_first (hneg : (-1 : F) < 0) (hst : Strays space good bad inf) (hi : InfDiv F inf)
    (impl : StreamImpl E F R) (c0 : E) (cs : List E) (k : Int) (ks : List Int) (hcl : impl.clust = c0 :: cs)
    (hk : impl.cards = k :: ks) (hk0 : 0 < k) (hc0 : good c0) (hc : ∀ x ∈ c0 :: cs, good x ∨ bad x)
    (hm : (impl.maxDistance == 0) = true) (t : F) (e : E) (he : bad e) :
    impl.process space t e = some
      { impl with
        clust := space.combine c0 k e 1 :: cs
        cards := (k + 1) :: ks
        count := impl.count + 1
        maxDistance := inf } ∧ bad (space.combine c0 k e 1) := by
  have hnear := hst.nearest_bad hneg c0 cs hc he
  rw [hst.far' he hc0] at hnear
  refine ⟨?_, hst.combine_bad (Or.inr ⟨hc0, he⟩) hk0 (by omega)⟩
  unfold StreamImpl.process
  simp only [assign, hcl, hnear, ge_iff_le, le_refl, if_true, idx?, lt_irrefl, if_false, Int.toNat_zero,
    List.getElem?_cons_zero, StreamImpl.getRelativeDistance, hm]
  rw [if_neg (fun h => hi.nan hst.top _ h.2), if_neg (hi.nan hst.top _)]
  simp only [StreamImpl.updateCenter, idx?, lt_irrefl, if_false, Int.toNat_zero, hk, List.getElem?_cons_zero,
    List.set_cons_zero, StreamImpl.updateMaxDistance, if_neg (hst.top inf)]

/-- What does not change once the maximal distance is infinite. -/
structure Blind (good bad : E → Prop) (inf : F) (n : Nat) (impl : StreamImpl E F R) : Prop where
  max : impl.maxDistance = inf
  len : impl.clust.length = n
  cards : impl.cards.length = n
  pos : ∀ k ∈ impl.cards, 0 < k
  all : ∀ x ∈ impl.clust, good x ∨ bad x

theorem blind_step (hneg : (-1 : F) < 0) (hst : Strays space good bad inf) (hi : InfDiv F inf) {n : Nat} (hn : n ≠ 0)
    (impl : StreamImpl E F R) (h : Blind good bad inf n impl) (hr : ¬ impl.conf.outRatio < 0) (t : F) (ht : ¬ t < 0)
    (e : E) (he : good e ∨ bad e) : ∃ (impl' : StreamImpl E F R) (j : Nat) (x : E) (k : Int),
      impl.process space t e = some impl' ∧ Blind good bad inf n impl' ∧ impl'.conf = impl.conf ∧ impl'.c = impl.c ∧
      impl.clust[j]? = some x ∧ impl.cards[j]? = some k ∧ impl'.clust = impl.clust.set j (space.combine x k e 1) ∧
      impl'.cards = impl.cards.set j (k + 1) ∧ ((good e ∧ ∃ y ∈ impl.clust, good y) → good x) ∧ (bad e → j = 0) := by
  have hcl : impl.clust ≠ [] := fun e => hn (by rw [← h.len, e]; rfl)
  obtain ⟨c0, cs, hcs⟩ := List.exists_cons_of_ne_nil hcl
  have hall : ∀ x ∈ c0 :: cs, good x ∨ bad x := hcs ▸ h.all
  have near : ∃ (j : Nat) (x : E) (d : F), impl.clust[j]? = some x ∧ nearest space impl.clust e = ((j : Int), d) ∧
      (∀ a : F, ¬ a < 0 → ¬ a < d / inf) ∧ ((good e ∧ ∃ y ∈ impl.clust, good y) → good x) ∧ (bad e → j = 0) := by
    by_cases hg : good e ∧ ∃ y ∈ impl.clust, good y
    · obtain ⟨j, x, h1, h2, h3⟩ := hst.nearest_good hneg impl.clust h.all hg.2 hg.1
      refine ⟨j, x, _, h1, h3, fun a ha => ?_, fun _ => h2, fun hb => ?_⟩
      · rw [hi.zero (hst.near hg.1 h2) (hst.nonneg hg.1 h2)]; exact ha
      · rw [hcs, hst.nearest_bad hneg c0 cs hall hb] at h3
        have := congrArg Prod.fst h3
        simp only at this
        omega
    · rcases he with hge | hbe
      · have hb : ∀ x ∈ c0 :: cs, bad x := fun x hx => (hall x hx).resolve_left fun hgx => hg ⟨hge, x, hcs ▸ hx, hgx⟩
        refine ⟨0, c0, inf, by rw [hcs]; rfl, by rw [hcs]; exact hst.nearest_lost hneg c0 cs hb hge, fun a _ => hi.nan hst.top a,
          fun h => absurd h hg, fun _ => rfl⟩
      · refine ⟨0, c0, space.dist e c0, by rw [hcs]; rfl, by rw [hcs]; exact hst.nearest_bad hneg c0 cs hall hbe,
          fun a _ => hi.nan (fun y => ?_) a, fun h => absurd h hg, fun _ => rfl⟩
        rcases hall c0 (by simp) with h0 | h0
        · rw [hst.far' hbe h0]; exact hst.top y
        · exact hst.wild hbe h0 y
  obtain ⟨j, x, d, h1, h2, h3, h4, h5⟩ := near
  have hj : j < n := by rw [← h.len]; exact (List.getElem?_eq_some_iff.1 h1).1
  obtain ⟨k, hk⟩ : ∃ k, impl.cards[j]? = some k := ⟨_, List.getElem?_eq_getElem (by rw [h.cards]; exact hj)⟩
  have j1 : idx? impl.clust (j : Int) = some x := by rw [idx?_of_nonneg _ (by omega)]; simpa using h1
  have j2 : idx? impl.cards (j : Int) = some k := by rw [idx?_of_nonneg _ (by omega)]; simpa using hk
  have hxall := h.all x (List.mem_of_getElem? h1)
  have hkpos := h.pos k (List.mem_of_getElem? hk)
  have hnew : good (space.combine x k e 1) ∨ bad (space.combine x k e 1) := by
    rcases hxall with hx | hx
    · rcases he with he | he
      · exact Or.inl (hst.combine_good hx he hkpos (by omega))
      · exact Or.inr (hst.combine_bad (Or.inr ⟨hx, he⟩) hkpos (by omega))
    · exact Or.inr (hst.combine_bad (Or.inl ⟨hx, he⟩) hkpos (by omega))
  refine ⟨{ impl with
      clust := impl.clust.set j (space.combine x k e 1)
      cards := impl.cards.set j (k + 1)
      count := impl.count + 1 }, j, x, k, ?_, ⟨h.max, ?_, ?_, ?_, ?_⟩, rfl, rfl, h1, hk, rfl, rfl, h4, h5⟩
  · unfold StreamImpl.process
    simp only [assign, h2, ge_iff_le, Int.natCast_nonneg, if_true, j1, StreamImpl.getRelativeDistance, h.max, hi.ne,
      Bool.false_eq_true, if_false]
    rw [if_neg (fun hx => h3 _ hr hx.2), if_neg (h3 t ht)]
    simp only [StreamImpl.updateCenter, j1, j2, StreamImpl.updateMaxDistance, h.max, if_neg (hst.top d),
      Int.toNat_natCast]
  · simp [h.len]
  · simp [h.cards]
  · intro y hy
    rcases List.mem_or_eq_of_mem_set hy with hy | rfl
    · exact h.pos y hy
    · omega
  · intro y hy
    rcases List.mem_or_eq_of_mem_set hy with hy | rfl
    · exact h.all y hy
    · exact hnew

/-- **C130, streaming, once the maximal distance is infinite.** The element processed is merged: no centre is added,
unless the threshold drawn is negative. A good element is merged in a good centre if there is one, a bad one in the first
centre. The maximal distance stays infinite. -/
theorem C130_stream_merges (hneg : (-1 : F) < 0) (hst : Strays space good bad inf) (hi : InfDiv F inf)
    (impl : StreamImpl E F R) (hm : impl.maxDistance = inf) (hne : impl.clust ≠ [])
    (hlen : impl.cards.length = impl.clust.length) (hpos : ∀ k ∈ impl.cards, 0 < k)
    (hall : ∀ x ∈ impl.clust, good x ∨ bad x) (hr : ¬ impl.conf.outRatio < 0) (t : F) (ht : ¬ t < 0) (e : E)
    (he : good e ∨ bad e) : ∃ (impl' : StreamImpl E F R) (j : Nat) (x : E) (k : Int),
      impl.process space t e = some impl' ∧ impl'.maxDistance = inf ∧
      impl.clust[j]? = some x ∧ impl.cards[j]? = some k ∧ impl'.clust = impl.clust.set j (space.combine x k e 1) ∧
      impl'.cards = impl.cards.set j (k + 1) ∧ ((good e ∧ ∃ y ∈ impl.clust, good y) → good x) ∧ (bad e → j = 0) := by
  obtain ⟨impl', j, x, k, h1, h2, -, -, h3⟩ := blind_step hneg hst hi (n := impl.clust.length)
    (fun h => hne (List.length_eq_zero_iff.1 h)) impl ⟨hm, rfl, hlen, hpos, hall⟩ hr t ht e he
  exact ⟨impl', j, x, k, h1, h2.max, h3⟩

/-- **C130, streaming, for ever.** Once the maximal distance is infinite, in any sequence of calls of `Push` and
`Iterate` with draws which are not negative, nothing panics and there are never more centres. -/
theorem C130_stream_run (hneg : (-1 : F) < 0) (hst : Strays space good bad inf) (hi : InfDiv F inf) :
    ∀ (ops : List (StreamOp E F)) (impl : StreamImpl E F R), impl.maxDistance = inf → impl.clust ≠ [] →
    impl.cards.length = impl.clust.length → (∀ k ∈ impl.cards, 0 < k) → (∀ x ∈ impl.clust ++ impl.c, good x ∨ bad x) →
    ¬ impl.conf.outRatio < 0 →
    (∀ op ∈ ops, (∃ e, op = .push e ∧ (good e ∨ bad e)) ∨ ∃ t, op = .iterate t ∧ ¬ t < 0) →
    ∃ impl' rs, impl.run space ops = some (impl', rs) ∧ impl'.maxDistance = inf ∧
      impl'.clust.length = impl.clust.length ∧
      ∀ r ∈ rs, ∀ cl m, r = .iterate cl m → m = inf ∧ ∀ l, cl = some l → l.length = impl.clust.length := by
  have main : ∀ (ops : List (StreamOp E F)) (n : Nat) (impl : StreamImpl E F R), n ≠ 0 → Blind good bad inf n impl →
      (∀ x ∈ impl.c, good x ∨ bad x) → ¬ impl.conf.outRatio < 0 →
      (∀ op ∈ ops, (∃ e, op = .push e ∧ (good e ∨ bad e)) ∨ ∃ t, op = .iterate t ∧ ¬ t < 0) →
      ∃ impl' rs, impl.run space ops = some (impl', rs) ∧ Blind good bad inf n impl' ∧
        ∀ r ∈ rs, ∀ cl m, r = .iterate cl m → m = inf ∧ ∀ l, cl = some l → l.length = n := by
    intro ops n
    induction ops with
    | nil => exact fun impl _ h _ _ _ => ⟨impl, [], rfl, h, by simp⟩
    | cons op ops ih =>
      intro impl hn h hq hr hops
      have hops' := fun o ho => hops o (List.mem_cons_of_mem op ho)
      rcases hops op (by simp) with ⟨e, rfl, he⟩ | ⟨t, rfl, ht⟩
      · have hpush : ∃ i err, impl.push e = (i, err) ∧ Blind good bad inf n i ∧ (∀ x ∈ i.c, good x ∨ bad x) ∧
            i.conf = impl.conf := by
          unfold StreamImpl.push
          split
          · refine ⟨_, _, rfl, ⟨h.max, h.len, h.cards, h.pos, h.all⟩, fun x hx => ?_, rfl⟩
            rcases List.mem_append.1 hx with hx | hx
            · exact hq x hx
            · rw [List.mem_singleton.1 hx]; exact he
          · exact ⟨_, _, rfl, h, hq, rfl⟩
        obtain ⟨i, err, hp, h1, h2, h3⟩ := hpush
        obtain ⟨impl', rs, g1, g2, g3⟩ := ih i hn h1 h2 (by rw [h3]; exact hr) hops'
        refine ⟨impl', .push err :: rs, by simp only [StreamImpl.run, StreamImpl.step, hp, g1], g2, ?_⟩
        intro r hrs cl m hrm
        rcases List.mem_cons.1 hrs with rfl | hrs
        · cases hrm
        · exact g3 r hrs cl m hrm
      · cases hc : impl.c with
        | nil =>
          obtain ⟨impl', rs, g1, g2, g3⟩ := ih impl hn h hq hr hops'
          refine ⟨impl', .iterate none impl.maxDistance :: rs,
            by simp only [StreamImpl.run, StreamImpl.step, StreamImpl.iterate, hc, g1], g2, ?_⟩
          intro r hrs cl m hrm
          rcases List.mem_cons.1 hrs with rfl | hrs
          · cases hrm; exact ⟨h.max, by simp⟩
          · exact g3 r hrs cl m hrm
        | cons e q =>
          have hb : Blind good bad inf n { impl with c := q } := ⟨h.max, h.len, h.cards, h.pos, h.all⟩
          obtain ⟨i, j, x, k, h1, h2, h3, h4, -⟩ := blind_step hneg hst hi hn _ hb hr t ht e (hq e (by simp [hc]))
          obtain ⟨impl', rs, g1, g2, g3⟩ := ih i hn h2 (by rw [h4]; exact fun x hx => hq x (by simp only at hx; simp [hc, hx]))
            (by rw [h3]; exact hr) hops'
          refine ⟨impl', .iterate (some i.clust) i.maxDistance :: rs,
            by simp only [StreamImpl.run, StreamImpl.step, StreamImpl.iterate, hc, h1, g1], g2, ?_⟩
          intro r hrs cl m hrm
          rcases List.mem_cons.1 hrs with rfl | hrs
          · cases hrm
            exact ⟨h2.max, fun l hl => by cases hl; exact h2.len⟩
          · exact g3 r hrs cl m hrm
  intro ops impl hm hne hlen hpos hall hr hops
  obtain ⟨impl', rs, h1, h2, h3⟩ := main ops impl.clust.length impl (fun h => hne (List.length_eq_zero_iff.1 h))
    ⟨hm, rfl, hlen, hpos, fun x hx => hall x (by simp [hx])⟩ (fun x hx => hall x (by simp [hx])) hr hops
  exact ⟨impl', rs, h1, h2.max, h2.len, h3⟩

end

/-! ### The spaces -/

/-- **C130, the spaces.** In the Euclidean space the points with a coordinate `+Inf` (the others finite or `+Inf`) are
the bad elements, the finite points the good ones. -/
theorem C130_spaces (n : Nat) : Strays (euclidSpace XReal n) FinitePoint InfPoint XReal.posInf ∧
    (∀ p : Vec XReal n, FinitePoint p → ¬ InfPoint p) ∧ InfDiv XReal XReal.posInf := by
  refine ⟨XReal.euclid_strays n, fun p hf hi => ?_, XReal.infDiv⟩
  obtain ⟨r, hr⟩ := hf _ hi.2
  cases hr

/-- **C130, the cosine space.** A point with a coordinate which is not finite (`+Inf`, `-Inf` or NaN) is there what a
point with a NaN is in C126: all its distances are NaN. One such datum takes the first centroid at the first iteration;
from then on every element has the label 0 and the other centroids do not move. -/
theorem C130_cosine (n : Nat) : Taints (cosinusSpace XReal n) NotFinite ∧
    ∀ (s : KStrategy), s.Valid → ∀ (c data : List (Vec XReal n)), c ≠ [] → (∃ e ∈ data, NotFinite e) →
    ∀ datas : List (List (Vec XReal n)), (∀ d ∈ datas, ∃ e ∈ d, NotFinite e) →
    ∃ m out, kmeansStep s (cosinusSpace XReal n) data c = some (m :: out) ∧
      ∃ m', kmeansRun s (cosinusSpace XReal n) (data :: datas) c = some (m' :: out) ∧ NotFinite m' ∧
        ∀ e, (nearest (cosinusSpace XReal n) (m' :: out) e).1 = 0 ∧
          (nearest (cosinusSpace XReal n) (m' :: out) e).2 = XReal.nan :=
  ⟨XReal.cosinus_taints_inf n, fun s hs c data hc hd datas hds =>
    C126_kmeans_run XReal.neg_one_lt (XReal.cosinus_taints_inf n) s hs c data hc hd datas hds⟩

/-- **C130, both signs.** In the Euclidean space, from finite centroids: if a coordinate is `+Inf` in a datum and `-Inf`
in another one, whatever the rest is, the first centroid has a NaN after one iteration, and every element has the label
0 from then on. -/
theorem C130_signs (n : Nat) (s : KStrategy) (hs : s.Valid) (c0 : Vec XReal n) (cs data : List (Vec XReal n))
    (hc : ∀ x ∈ c0 :: cs, FinitePoint x) (i : Nat) (e1 e2 : Vec XReal n) (h1 : e1 ∈ data) (h2 : e2 ∈ data)
    (hp : e1.1[i]? = some XReal.posInf) (hm : e2.1[i]? = some XReal.negInf) :
    ∃ m out, kmeansStep s (euclidSpace XReal n) data (c0 :: cs) = some (m :: out) ∧ m.1[i]? = some XReal.nan ∧
      ∀ e, (nearest (euclidSpace XReal n) (m :: out) e).1 = 0 ∧
        (nearest (euclidSpace XReal n) (m :: out) e).2 = XReal.nan := by
  have step : ∀ y : XReal, y = XReal.posInf ∨ y = XReal.negInf → ∀ e ∈ data, e.1[i]? = some y →
      ∃ m out, kmeansStep s (euclidSpace XReal n) data (c0 :: cs) = some (m :: out) ∧ XReal.AtWild i y m := by
    intro y hy e he hey
    obtain ⟨out, g1, g2, g3⟩ := iterate_spec XReal.neg_one_lt
      (absorb_combineOk (space := euclidSpace XReal n) (XReal.AtWild i y) fun hw hv h => XReal.AtWild.combine hy hw hv h)
      (absorb_running (space := euclidSpace XReal n) (XReal.AtWild i y) (fun hw hv h => XReal.AtWild.combine hy hw hv h)
        fun h => h) s hs (c0 :: cs) data (by simp)
    obtain ⟨m, hm, -, hP⟩ := g3 0 c0 rfl
    have hlab : (nearest (euclidSpace XReal n) (c0 :: cs) e).1 = 0 := XReal.nearest_wild (by
      rcases hy with rfl | rfl
      · exact Or.inl (List.mem_of_getElem? hey)
      · exact Or.inr (List.mem_of_getElem? hey)) c0 cs hc
    have hmem : e ∈ data.filter fun e => (nearest (euclidSpace XReal n) (c0 :: cs) e).1 == ((0 : Nat) : Int) :=
      List.mem_filter.2 ⟨he, by rw [hlab]; rfl⟩
    cases out with
    | nil => cases g2
    | cons m' out =>
      cases hm
      exact ⟨m, out, by rw [kmeansStep, g1]; exact allSome_map_some (m :: out),
        hP (List.ne_nil_of_mem hmem) ⟨e, hmem, Or.inl hey⟩⟩
  obtain ⟨m, out, g1, g2⟩ := step _ (Or.inl rfl) e1 h1 hp
  obtain ⟨m', out', f1, f2⟩ := step _ (Or.inr rfl) e2 h2 hm
  rw [g1] at f1
  cases f1
  have hn : m.1[i]? = some XReal.nan := by
    rcases g2 with g2 | g2
    · rcases f2 with f2 | f2
      · rw [g2] at f2; cases f2
      · exact f2
    · exact g2
  exact ⟨m, out, g1, hn, fun e => nearest_bad XReal.neg_one_lt (C126_spaces XReal.nanLaws n).1 m out e
    (Or.inl ⟨XReal.nan, List.mem_of_getElem? hn, rfl⟩)⟩

/-! ### Examples -/

namespace InfiniteExample
open XReal NanExample

theorem pt_fin (r : ℝ) : FinitePoint (pt (fin r)) := fun x hx => ⟨r, by simpa [pt] using hx⟩

theorem pt_inf : InfPoint (pt posInf) := ⟨fun x hx => Or.inr (by simpa [pt] using hx), by simp [pt]⟩

/-- The hypotheses of `C130_run` are met by data on the line with one infinity: whatever the number of iterations, the
first centroid is infinite and the second one finite. -/
example (n : Nat) : ∃ m x, kmeansRun .seq (euclidSpace XReal 1)
    ([pt (fin 0), pt posInf, pt (fin 10)] :: List.replicate n [pt (fin 0), pt posInf, pt (fin 10)]) [pt (fin 0), pt (fin 9)] =
      some [m, x] ∧ InfPoint m ∧ FinitePoint x := by
  classical
  obtain ⟨h1, h2, -⟩ := C130_spaces 1
  have hd : ∀ e ∈ [pt (fin 0), pt posInf, pt (fin 10)], FinitePoint e ∨ InfPoint e := by
    intro e he
    simp only [List.mem_cons, List.not_mem_nil, or_false] at he
    rcases he with rfl | rfl | rfl
    · exact Or.inl (pt_fin 0)
    · exact Or.inr pt_inf
    · exact Or.inl (pt_fin 10)
  obtain ⟨m', c1, g1, m, out, g2, g3, g4, hl, g5⟩ := C130_run neg_one_lt h1 h2 (pt (fin 0)) [pt (fin 9)]
    [pt (fin 0), pt posInf, pt (fin 10)] (by
      intro x hx
      simp only [List.mem_cons, List.not_mem_nil, or_false] at hx
      rcases hx with rfl | rfl
      · exact pt_fin 0
      · exact pt_fin 9) (by simp) hd ⟨pt posInf, by simp, pt_inf⟩
    (List.replicate n [pt (fin 0), pt posInf, pt (fin 10)]) (fun d hdm => by rw [List.eq_of_mem_replicate hdm]; exact hd)
  match out, hl, g2, g5 with
  | [x], _, g2, g5 => exact ⟨m, x, g2, g3, g5 x (by simp)⟩

/-- A stream whose maximal distance has become infinite: an element, however far, is merged. -/
example (conf : StreamingConf XReal Nat) (t : ℝ) (ht : 0 ≤ t) : ∃ impl' : StreamImpl (Vec XReal 1) XReal Nat,
    StreamImpl.process (R := Nat)
      { maxDistance := posInf, clust := [pt (fin 0), pt posInf], cards := [2, 1], c := [],
        conf := { conf with outRatio := fin 2, outAfter := 0 }, count := 3 }
      (euclidSpace XReal 1) (fin t) (pt (fin 1000)) = some impl' ∧ impl'.clust.length = 2 ∧ impl'.maxDistance = posInf := by
  obtain ⟨h1, h2, h3⟩ := C130_spaces 1
  obtain ⟨impl', j, x, k, g1, g2, g3, g4, g5, -⟩ := C130_stream_merges neg_one_lt h1 h3
    { maxDistance := posInf, clust := [pt (fin 0), pt posInf], cards := [2, 1], c := [],
      conf := { conf with outRatio := fin 2, outAfter := 0 }, count := 3 } rfl (by simp) rfl (by simp) (by
      intro x hx
      simp only [List.mem_cons, List.not_mem_nil, or_false] at hx
      rcases hx with rfl | rfl
      · exact Or.inl (pt_fin 0)
      · exact Or.inr pt_inf) (show ¬ (2 : ℝ) < 0 by norm_num) (fin t) (show ¬ t < 0 from not_lt.2 ht) (pt (fin 1000)) (Or.inl (pt_fin _))
  exact ⟨impl', g1, by rw [g5]; simp, g2⟩

/-- Both signs on the line. -/
example (s : KStrategy) (hs : s.Valid) : ∃ m out, kmeansStep s (euclidSpace XReal 1)
    [pt (fin 0), pt posInf, pt negInf, pt (fin 10)] [pt (fin 0), pt (fin 9)] = some (m :: out) ∧
      m.1[0]? = some nan := by
  obtain ⟨m, out, h, h', -⟩ := C130_signs 1 s hs (pt (fin 0)) [pt (fin 9)] [pt (fin 0), pt posInf, pt negInf, pt (fin 10)] (by
    intro x hx
    simp only [List.mem_cons, List.not_mem_nil, or_false] at hx
    rcases hx with rfl | rfl
    · exact pt_fin 0
    · exact pt_fin 9) 0 (pt posInf) (pt negInf) (by simp) (by simp) rfl rfl
  exact ⟨m, out, h, h'⟩

end InfiniteExample
end Distclus
