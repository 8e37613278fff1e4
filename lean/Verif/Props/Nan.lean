import Verif.Proof.Nan
import Verif.Model.Mcmc
import Verif.Model.Streaming
/-!
# C126: what one datum with a NaN does (examined)

`Push` accepts any element.  The claim examined is that an element with a NaN coordinate harms its own
cluster only.  It is false: k-means and streaming are reduced to one cluster, mcmc is frozen.
-/
set_option linter.unusedSectionVars false

namespace Distclus
open Spec

/-- The points with a NaN coordinate are bad elements of the Euclidean and cosine spaces. -/
theorem C126_spaces {F : Type} [LT F] [FloatOrder F] [BEq F] [Zero F] [One F] [Add F] [Sub F] [Mul F]
    [Div F] [GoMath F] (h : NanLaws F) (n : Nat) :
    Taints (euclidSpace F n) HasNaN ∧ Taints (cosinusSpace F n) HasNaN :=
  ⟨euclid_taints h n, cosinus_taints h n⟩

section
variable {E F : Type} [Zero F] [One F] [Neg F] [LT F] [DecidableLT F] [FloatOrder F]

/-- **C126, k-means, first iteration.** An iteration on data among which there is a bad element
returns a bad first centroid, whatever the centroids were. -/
theorem C126_kmeans (hneg : (-1 : F) < 0) {space : Space E F} {bad : E → Prop} (ht : Taints space bad)
    (s : KStrategy) (hs : s.Valid) (c data : List E) (hc : c ≠ []) (hd : ∃ e ∈ data, bad e) :
    ∃ m out, kmeansStep s space data c = some (m :: out) ∧ (m :: out).length = c.length ∧ bad m := by
  cases c with
  | nil => exact absurd rfl hc
  | cons c0 cs =>
    obtain ⟨m, out, h1, h2, h3, -⟩ := step_bad hneg ht s hs c0 cs data
    exact ⟨m, out, h1, by simp [h2], h3 hd⟩

/-- **C126, k-means, the next iterations.** If the first centroid is bad, every element has the label 0
and the distance NaN, and an iteration changes the first centroid only. It becomes the combination of
*all* the data. -/
theorem C126_collapsed (hneg : (-1 : F) < 0) {space : Space E F} {bad : E → Prop}
    (ht : Taints space bad) (s : KStrategy) (hs : s.Valid) (c0 : E) (cs data : List E)
    (hb : bad c0) :
    (∀ e, (nearest space (c0 :: cs) e).1 = 0 ∧ isNaN (nearest space (c0 :: cs) e).2) ∧
    ∃ m, kmeansStep s space data (c0 :: cs) = some (m :: cs) ∧
      ((∃ e ∈ data, bad e) → bad m) ∧ (data = [] → m = c0) ∧
      (s = .seq → data ≠ [] → running space data = some m) := by
  refine ⟨fun e => nearest_bad hneg ht c0 cs e (Or.inl hb), ?_⟩
  obtain ⟨m, out, h1, h2, h3, h4⟩ := step_bad hneg ht s hs c0 cs data
  obtain ⟨rfl, h5⟩ := h4 hb
  refine ⟨m, h1, h3, h5, ?_⟩
  rintro rfl hne
  obtain ⟨out', ho, -⟩ := C23_iterate hneg KStrategy.seq trivial space (c0 :: out) data (by simp)
  have hm := C23_seq_members hneg space (c0 :: out) data (by simp) out' ho 0 (by simp)
  have hall : (data.filter fun e => (nearest space (c0 :: out) e).1 == ((0 : Nat) : Int)) = data := by
    rw [List.filter_eq_self]
    intro e _
    rw [(nearest_bad hneg ht c0 out e (Or.inl hb)).1]
    rfl
  rw [hall] at hm
  rw [kmeansStep, ho] at h1
  have : out' = m :: out := by simpa [allSome_map_some] using h1
  rw [← hm hne, this]
  rfl

/-- **C126, k-means, for as long as the datum is there.** After the first iteration on data with a
bad element, the first centroid is bad and the other ones do not change, as long as there is a bad
element in the data. -/
theorem C126_kmeans_run (hneg : (-1 : F) < 0) {space : Space E F} {bad : E → Prop}
    (ht : Taints space bad) (s : KStrategy) (hs : s.Valid) (c data : List E) (hc : c ≠ [])
    (hd : ∃ e ∈ data, bad e) (datas : List (List E)) (hds : ∀ d ∈ datas, ∃ e ∈ d, bad e) :
    ∃ m out, kmeansStep s space data c = some (m :: out) ∧
      ∃ m', kmeansRun s space (data :: datas) c = some (m' :: out) ∧ bad m' ∧
        ∀ e, (nearest space (m' :: out) e).1 = 0 ∧ isNaN (nearest space (m' :: out) e).2 := by
  obtain ⟨m, out, h1, -, hb⟩ := C126_kmeans hneg ht s hs c data hc hd
  refine ⟨m, out, h1, ?_⟩
  have : ∀ (datas : List (List E)) (m : E), bad m → (∀ d ∈ datas, ∃ e ∈ d, bad e) →
      ∃ m', kmeansRun s space datas (m :: out) = some (m' :: out) ∧ bad m' := by
    intro datas
    induction datas with
    | nil => intro m hm _; exact ⟨m, rfl, hm⟩
    | cons d ds ih =>
      intro m hm h
      obtain ⟨-, m1, h2, h3, -⟩ := C126_collapsed hneg ht s hs m out d hm
      obtain ⟨m2, h4, h5⟩ := ih m1 (h3 (h d (by simp))) fun d' hd' => h d' (by simp [hd'])
      exact ⟨m2, by rw [kmeansRun, h2]; exact h4, h5⟩
  obtain ⟨m', h2, h3⟩ := this datas m hb hds
  exact ⟨m', by rw [kmeansRun, h1]; exact h2, h3,
    fun e => nearest_bad hneg ht m' out e (Or.inl h3)⟩
end

/-! ### Streaming -/

section
variable {E F R : Type} [Zero F] [One F] [Neg F] [LT F] [DecidableLT F] [FloatOrder F] [BEq F] [Add F]
  [Sub F] [Mul F] [Div F] [GoMath F]

/-- **C126, streaming, one element.** If the element processed or the first centre is bad, the element
is merged in the first centre: no centre is added, no other centre changes, whatever the configuration,
the threshold drawn and the number of elements already processed. If no distance was known, the maximal
distance becomes NaN. -/
theorem C126_stream (h : NanLaws F) (hneg : (-1 : F) < 0) {space : Space E F} {bad : E → Prop}
    (ht : Taints space bad) (impl : StreamImpl E F R) (c0 : E) (cs : List E) (k : Int) (ks : List Int)
    (hc : impl.clust = c0 :: cs) (hk : impl.cards = k :: ks) (threshold : F) (e : E)
    (hb : bad c0 ∨ bad e) :
    impl.process space threshold e = some
      { impl with
        clust := space.combine c0 k e 1 :: cs
        cards := (k + 1) :: ks
        count := impl.count + 1
        maxDistance := if impl.maxDistance == 0 then space.dist e c0 else impl.maxDistance } := by
  have hn : isNaN (space.dist e c0) := ht.dist hb.symm
  have hrel : ∀ m : F, isNaN (space.dist e c0 / m) := fun m => h.div_left m hn
  have hnear := C04_nan_first_sticks hneg space c0 cs e hn
  unfold StreamImpl.process
  simp only [assign, hc, hnear, ge_iff_le, le_refl, if_true, idx?, lt_irrefl, if_false,
    Int.toNat_zero, List.getElem?_cons_zero, StreamImpl.getRelativeDistance]
  rw [if_neg (fun hx => FloatOrder.not_lt_nan (hrel _) hx.2),
    if_neg (FloatOrder.not_lt_nan (hrel _))]
  by_cases hz : (impl.maxDistance == 0) = true
  · simp only [hz, if_true, StreamImpl.updateCenter, idx?, lt_irrefl, if_false, Int.toNat_zero, hk,
      List.getElem?_cons_zero, List.set_cons_zero, StreamImpl.updateMaxDistance]
    rw [if_neg (FloatOrder.not_lt_nan hn)]
  · simp only [hz, Bool.false_eq_true, StreamImpl.updateCenter, idx?, lt_irrefl, if_false, Int.toNat_zero, hc, hk,
      List.getElem?_cons_zero, List.set_cons_zero, StreamImpl.updateMaxDistance]
    rw [if_neg (FloatOrder.not_lt_nan hn)]

/-- **C126, streaming, for ever.** Once the first centre is bad, in any sequence of calls of `Push`
and `Iterate` nothing panics, every element received goes to the first centre, which stays bad; the
other centres and their cardinalities do not change. A maximal distance which is NaN stays NaN. -/
theorem C126_stream_run (h : NanLaws F) (hneg : (-1 : F) < 0) {space : Space E F} {bad : E → Prop}
    (ht : Taints space bad) (cs : List E) (ks : List Int) :
    ∀ (ops : List (StreamOp E F)) (impl : StreamImpl E F R) (c0 : E) (k : Int),
    impl.clust = c0 :: cs → impl.cards = k :: ks → bad c0 → (∀ op ∈ ops, op ≠ .init) →
    ∃ impl' rs, impl.run space ops = some (impl', rs) ∧
      (∃ c0', impl'.clust = c0' :: cs ∧ bad c0') ∧
      impl'.cards = (k + (impl'.count - impl.count)) :: ks ∧
      (isNaN impl.maxDistance → isNaN impl'.maxDistance) ∧
      ∀ r ∈ rs, ∀ cl m, r = .iterate (some cl) m → ∃ x, cl = x :: cs ∧ bad x := by
  intro ops
  induction ops with
  | nil =>
    intro impl c0 k hc hk hb _
    exact ⟨impl, [], rfl, ⟨c0, hc, hb⟩, by simp [hk], id, by simp⟩
  | cons op ops ih =>
    intro impl c0 k hc hk hb hop
    have hop' : ∀ op ∈ ops, op ≠ .init := fun o ho => hop o (by simp [ho])
    cases op with
    | init => exact absurd rfl (hop _ (by simp))
    | push e =>
      have hpush : ∃ i err, impl.push e = (i, err) ∧ i.clust = impl.clust ∧ i.cards = impl.cards ∧
          i.count = impl.count ∧ i.maxDistance = impl.maxDistance := by
        unfold StreamImpl.push
        split
        · exact ⟨_, _, rfl, rfl, rfl, rfl, rfl⟩
        · exact ⟨_, _, rfl, rfl, rfl, rfl, rfl⟩
      obtain ⟨i, err, hp, h1, h2, h3, h4⟩ := hpush
      obtain ⟨impl', rs, g1, g2, g3, g4, g5⟩ := ih i c0 k (h1.trans hc) (h2.trans hk) hb hop'
      refine ⟨impl', .push err :: rs, ?_, g2, by rw [g3, h3], fun hn => g4 (h4 ▸ hn), ?_⟩
      · simp only [StreamImpl.run, StreamImpl.step, hp, g1]
      · intro r hr cl m hrm
        rcases List.mem_cons.1 hr with rfl | hr
        · cases hrm
        · exact g5 r hr cl m hrm
    | iterate t =>
      cases hq : impl.c with
      | nil =>
        obtain ⟨impl', rs, g1, g2, g3, g4, g5⟩ := ih impl c0 k hc hk hb hop'
        refine ⟨impl', .iterate none impl.maxDistance :: rs, ?_, g2, g3, g4, ?_⟩
        · simp only [StreamImpl.run, StreamImpl.step, StreamImpl.iterate, hq, g1]
        · intro r hr cl m hrm
          rcases List.mem_cons.1 hr with rfl | hr
          · cases hrm
          · exact g5 r hr cl m hrm
      | cons e q =>
        obtain ⟨i, hp, h1, h2, h3, h4⟩ : ∃ i : StreamImpl E F R,
            StreamImpl.process { impl with c := q } space t e = some i ∧
            i.clust = space.combine c0 k e 1 :: cs ∧ i.cards = (k + 1) :: ks ∧
            i.count = impl.count + 1 ∧ (isNaN impl.maxDistance → i.maxDistance = impl.maxDistance) :=
          ⟨_, C126_stream h hneg ht { impl with c := q } c0 cs k ks hc hk t e (Or.inl hb), rfl, rfl, rfl,
            fun hn => by simp only [h.beq hn]; rfl⟩
        have hbad : bad (space.combine c0 k e 1) := ht.combine _ _ (Or.inl hb)
        obtain ⟨impl', rs, g1, g2, g3, g4, g5⟩ := ih i _ _ h1 h2 hbad hop'
        refine ⟨impl', .iterate (some i.clust) i.maxDistance :: rs, ?_, g2, ?_,
          fun hn => g4 ((h4 hn).symm ▸ hn), ?_⟩
        · simp only [StreamImpl.run, StreamImpl.step, StreamImpl.iterate, hq, hp, g1]
        · rw [g3, h3]
          congr 1
          omega
        · intro r hr cl m hrm
          rcases List.mem_cons.1 hr with rfl | hr
          · cases hrm
            exact ⟨_, h1, hbad⟩
          · exact g5 r hr cl m hrm
end

/-! ### MCMC -/

section
variable {D E F R : Type} [Zero F] [One F] [Neg F] [LT F] [DecidableLT F] [FloatOrder F] [BEq F] [Add F]
  [Sub F] [Mul F] [Div F] [GoMath F]

/-- The loss on data with a bad element is NaN, with either strategy and any centroids. -/
theorem mcmcLoss_nan (h : NanLaws F) (hneg : (-1 : F) < 0) (p : McmcParams D E F R) {bad : E → Prop}
    (ht : Taints p.space bad) (hp : ∀ a : F, isNaN a → isNaN (GoMath.pow a p.conf.norm))
    (c data : List E) (hd : ∃ e ∈ data, bad e) (loss : F) (hl : mcmcLoss p c data = some loss) :
    isNaN loss := by
  obtain ⟨e, he, hb⟩ := hd
  have hne : data ≠ [] := List.ne_nil_of_mem he
  unfold mcmcLoss at hl
  cases c with
  | nil => simp [totalLoss, parTotalLoss, reduceLoss_nil, parLoss_nil, hne] at hl
  | cons c0 cs =>
    split at hl
    · obtain ⟨st, hst, rfl⟩ := Option.map_eq_some_iff.1 hl
      exact sumF_nan h _ (parLoss_nan h hneg ht _ hp c0 cs data _ st hst ⟨e, he, Or.inr hb⟩)
    · obtain ⟨st, hst, rfl⟩ := Option.map_eq_some_iff.1 hl
      obtain ⟨st', hst', hn⟩ := reduceLoss_nan h hneg ht _ hp c0 cs data
      rw [hst] at hst'
      cases hst'
      exact sumF_nan h _ (hn ⟨e, he, Or.inr hb⟩)

/-- With a NaN loss the acceptance ratio is NaN. -/
theorem ratio_nan (h : NanLaws F) (conf : McmcConf F R) (dim : Nat) (cur prop : Proposal E F)
    (time : Nat) (hn : isNaN cur.loss ∨ isNaN prop.loss) :
    isNaN (ratio conf dim cur prop time).2.1 := by
  refine h.exp (h.add_left _ (h.add_left _ (h.mul_right _ ?_)))
  rcases hn with hn | hn
  · exact h.sub_left _ hn
  · exact h.sub_right _ hn

/-- An iteration with a NaN ratio is a rejection. -/
theorem iterate_nan (h : NanLaws F) (impl : McmcImpl E F) (p : McmcParams D E F R)
    (centroids : List E) (d : McmcDraws E F)
    (hn : isNaN impl.current.loss ∨ ∀ cs loss, mcmcLoss p cs impl.buffer.data = some loss →
      isNaN loss)
    (impl' : McmcImpl E F) (clust : List E) (fig : McmcFigures F)
    (hit : impl.iterate p centroids d = some (impl', clust, fig)) :
    clust = centroids ∧ impl'.current = impl.current ∧ impl'.acc = impl.acc ∧
      impl'.store = impl.store := by
  unfold McmcImpl.iterate McmcImpl.doIter at hit
  cases hprop : impl.propose p impl.current centroids impl.buffer.data impl.buffer.data.length d with
  | none => simp [hprop] at hit
  | some prop =>
    have hnan : isNaN impl.current.loss ∨ isNaN prop.loss := by
      rcases hn with hn | hn
      · exact Or.inl hn
      · right
        unfold McmcImpl.propose at hprop
        split at hprop
        · cases hprop
        · split at hprop
          · cases hprop
          · split at hprop
            · rename_i loss pdf hl _
              cases hprop
              exact hn _ _ hl
            · cases hprop
    have hr := ratio_nan h p.conf impl.dim impl.current prop impl.buffer.data.length hnan
    have hrej : ¬ d.accept < (ratio p.conf impl.dim impl.current prop impl.buffer.data.length).2.1 :=
      FloatOrder.not_lt_nan hr
    simp only [hprop, McmcImpl.accept, decide_eq_true_eq, if_neg hrej] at hit
    cases hit
    exact ⟨rfl, rfl, rfl, rfl⟩

/-- **C126, mcmc, while the datum is there.** An iteration on data with a bad element rejects its
proposal, whatever was drawn: the centroids, the current state, the number of acceptations and the
stored centres do not change. -/
theorem C126_mcmc_reject (h : NanLaws F) (hneg : (-1 : F) < 0) (p : McmcParams D E F R)
    {bad : E → Prop} (ht : Taints p.space bad)
    (hp : ∀ a : F, isNaN a → isNaN (GoMath.pow a p.conf.norm)) (impl : McmcImpl E F)
    (hd : ∃ e ∈ impl.buffer.data, bad e) (centroids : List E) (d : McmcDraws E F)
    (impl' : McmcImpl E F) (clust : List E) (fig : McmcFigures F)
    (hit : impl.iterate p centroids d = some (impl', clust, fig)) :
    clust = centroids ∧ impl'.current = impl.current ∧ impl'.acc = impl.acc ∧
      impl'.store = impl.store :=
  iterate_nan h impl p centroids d (Or.inr fun cs loss hl =>
    mcmcLoss_nan h hneg p ht hp cs _ hd loss hl) impl' clust fig hit

/-- **C126, mcmc, `Init`.** If the data known to `Init` have a bad element, the current loss is NaN. -/
theorem C126_mcmc_init (h : NanLaws F) (hneg : (-1 : F) < 0) (p : McmcParams D E F R)
    {bad : E → Prop} (ht : Taints p.space bad)
    (hp : ∀ a : F, isNaN a → isNaN (GoMath.pow a p.conf.norm)) (impl : McmcImpl E F)
    (hd : ∃ e ∈ impl.buffer.apply.data, bad e) (d : D) (impl' : McmcImpl E F) (c : List E)
    (hi : impl.init p d = (impl', .ok c)) : isNaN impl'.current.loss := by
  unfold McmcImpl.init at hi
  simp only at hi
  split at hi
  · cases hi
  · cases hi
  · split at hi
    · rename_i loss pdf hl _
      cases hi
      exact mcmcLoss_nan h hneg p ht hp _ _ hd loss hl
    · cases hi

/-- **C126, mcmc, for ever.** If the current loss is NaN, nothing is accepted until the next
`Init`, even when the bad element has left the data. -/
theorem C126_mcmc_frozen (h : NanLaws F) (p : McmcParams D E F R) :
    ∀ (ops : List (McmcOp D E F)) (s s' : McmcSys E F), isNaN s.impl.current.loss →
    (∀ op ∈ ops, ∀ d, op ≠ .init d) → s.run p ops = some s' →
    s'.centroids = s.centroids ∧ s'.impl.current = s.impl.current ∧ s'.impl.acc = s.impl.acc ∧
      s'.impl.store = s.impl.store := by
  intro ops
  induction ops with
  | nil => intro s s' _ _ hr; cases hr; exact ⟨rfl, rfl, rfl, rfl⟩
  | cons op ops ih =>
    intro s s' hn hop hr
    simp only [McmcSys.run] at hr
    have hop' : ∀ op ∈ ops, ∀ d, op ≠ .init d := fun o ho => hop o (by simp [ho])
    cases hs : s.step p op with
    | none => simp [hs] at hr
    | some s1 =>
      rw [hs] at hr
      have h1 : s1.centroids = s.centroids ∧ s1.impl.current = s.impl.current ∧
          s1.impl.acc = s.impl.acc ∧ s1.impl.store = s.impl.store := by
        cases op with
        | init d => exact absurd rfl (hop _ (by simp) d)
        | push e r =>
          simp only [McmcSys.step] at hs
          split at hs
          · cases hs
          · cases hs; exact ⟨rfl, rfl, rfl, rfl⟩
        | iterate d =>
          simp only [McmcSys.step] at hs
          split at hs
          · split at hs
            · cases hs; exact ⟨rfl, rfl, rfl, rfl⟩
            · rename_i impl' clust fig hit
              cases hs
              exact iterate_nan h s.impl p s.centroids d (Or.inl hn) impl' clust fig hit
          · cases hs
      obtain ⟨a1, a2, a3, a4⟩ := h1
      obtain ⟨b1, b2, b3, b4⟩ := ih s1 s' (a2 ▸ hn) hop' hr
      exact ⟨b1.trans a1, b2.trans a2, b3.trans a3, b4.trans a4⟩
end

/-! ### Examples -/

namespace NanExample
open XReal

/-- The point of the line of the given coordinate. -/
def pt (x : XReal) : Vec XReal 1 := ⟨[x], rfl⟩

theorem pt_nan : HasNaN (pt nan) := ⟨nan, by simp [pt], rfl⟩

/-- Two centroids far from each other: 0 and 10 are separated... -/
example : (nearest (euclidSpace XReal 1) [pt (fin 0), pt (fin 10)] (pt (fin 0))).1 = 0 ∧
    (nearest (euclidSpace XReal 1) [pt (fin 0), pt (fin 10)] (pt (fin 10))).1 = 1 := by
  have e0 : ∀ a b : ℝ, (euclidSpace XReal 1).dist (pt (fin a)) (pt (fin b)) = fin |a - b| := by
    intro a b
    show GoMath.sqrt (XReal.add (fin 0) (XReal.mul (XReal.add (fin a) (XReal.neg (fin b)))
      (XReal.add (fin a) (XReal.neg (fin b))))) = _
    simp only [XReal.neg, XReal.add, XReal.mul, zero_add, GoMath.sqrt]
    rw [if_neg (not_lt.2 (mul_self_nonneg _)), Real.sqrt_mul_self_eq_abs, sub_eq_add_neg]
  have hlt : ∀ a b : ℝ, (fin a < fin b) = (a < b) := fun _ _ => rfl
  have hm : (-1 : XReal) < 0 := neg_one_lt
  constructor
  · simp only [nearest, nearestLoop, e0, hm, hlt]
    norm_num
    rw [if_neg (show ¬ (fin 0 : XReal) < 0 from FloatOrder.irrefl (0 : XReal))]
  · simp only [nearest, nearestLoop, e0, hm, hlt]
    norm_num

/-- ...and stay together, with a NaN distance, after any number of iterations on data with NaN. -/
example (s : KStrategy) (hs : s.Valid) (n : Nat) :
    ∃ c, kmeansRun s (euclidSpace XReal 1)
      (List.replicate (n + 1) [pt (fin 0), pt (fin 10), pt nan]) [pt (fin 0), pt (fin 10)] = some c ∧
      ∀ e, (nearest (euclidSpace XReal 1) c e).1 = 0 ∧ (nearest (euclidSpace XReal 1) c e).2 = nan := by
  obtain ⟨m, out, -, m', h, -, h2⟩ := C126_kmeans_run neg_one_lt (C126_spaces nanLaws 1).1 s hs
    [pt (fin 0), pt (fin 10)] [pt (fin 0), pt (fin 10), pt nan] (by simp) ⟨pt nan, by simp, pt_nan⟩
    (List.replicate n [pt (fin 0), pt (fin 10), pt nan]) (by
      intro d hd
      rw [List.eq_of_mem_replicate hd]
      exact ⟨pt nan, by simp, pt_nan⟩)
  exact ⟨_, h, h2⟩

/-- A stream whose first centre has received a NaN: an element far away from all the centres is merged
in the first one, the outlier ratio being 2 and its delay passed. -/
example (conf : StreamingConf XReal Nat) (t : XReal) :
    StreamImpl.process (R := Nat)
      { maxDistance := fin 1, clust := [pt nan, pt (fin 3)], cards := [2, 1], c := [],
        conf := { conf with outRatio := fin 2, outAfter := 0 }, count := 3 }
      (euclidSpace XReal 1) t (pt (fin 1000)) =
    some { maxDistance := (if (fin 1 : XReal) == 0 then
        (euclidSpace XReal 1).dist (pt (fin 1000)) (pt nan) else fin 1)
           clust := [(euclidSpace XReal 1).combine (pt nan) 2 (pt (fin 1000)) 1, pt (fin 3)]
           cards := [3, 1]
           c := []
           conf := { conf with outRatio := fin 2, outAfter := 0 }
           count := 4 } :=
  C126_stream nanLaws neg_one_lt (C126_spaces nanLaws 1).1 _ (pt nan) [pt (fin 3)] 2 [1] rfl rfl t
    (pt (fin 1000)) (Or.inl pt_nan)

/-- The hypothesis on the power of the loss is met, unless the exponent is 0. -/
theorem pow_nan (norm : XReal) (h : norm ≠ fin 0) : ∀ a : XReal, isNaN a → isNaN (GoMath.pow a norm) := by
  rintro a rfl
  cases norm with
  | fin b => exact if_neg fun hb => h (by rw [hb])
  | _ => rfl

/-- The parameters of a sequential mcmc on the line which starts from the centroid 0. -/
noncomputable def nanParams (conf : McmcConf XReal Nat) : McmcParams Unit (Vec XReal 1) XReal Nat :=
  { conf := { conf with par := false, norm := fin 2, frameSize := 2 }
    space := euclidSpace XReal 1
    sysCPU := 4
    pdf := diracPdf
    initializer := fun _ _ _ => .ok [pt (fin 0)] }

/-- `Init` on a NaN and 1 succeeds, and the current loss is NaN... -/
theorem nanInit (conf : McmcConf XReal Nat) :
    ∃ impl', (McmcImpl.new (nanParams conf) [pt nan, pt (fin 1)]).init (nanParams conf) () =
      (impl', .ok [pt (fin 0)]) ∧ isNaN impl'.current.loss := by
  obtain ⟨st, h1, -⟩ := reduceLoss_state neg_one_lt (euclidSpace XReal 1) [pt (fin 0)]
    (McmcImpl.new (nanParams conf) [pt nan, pt (fin 1)]).buffer.apply.data (by simp) (fin 2)
  have hl : mcmcLoss (nanParams conf) [pt (fin 0)]
      (McmcImpl.new (nanParams conf) [pt nan, pt (fin 1)]).buffer.apply.data = some (sumF st.1) := by
    simp only [mcmcLoss, nanParams, Bool.false_eq_true, if_false, totalLoss]
    exact congrArg (Option.map fun r => sumF r.1) h1
  have hi : ∃ impl', (McmcImpl.new (nanParams conf) [pt nan, pt (fin 1)]).init (nanParams conf) () =
      (impl', .ok [pt (fin 0)]) := by
    have h2 : ((McmcImpl.new (nanParams conf) [pt nan, pt (fin 1)]).init (nanParams conf) ()).2 =
        .ok [pt (fin 0)] := by
      unfold McmcImpl.init
      simp only [show (nanParams conf).initializer () (nanParams conf).conf.initK
        (McmcImpl.new (nanParams conf) [pt nan, pt (fin 1)]).buffer.apply.data = .ok [pt (fin 0)]
        from rfl, hl, proba, probaLoop]
    exact ⟨_, Prod.ext rfl h2⟩
  obtain ⟨impl', hi⟩ := hi
  refine ⟨impl', hi, C126_mcmc_init nanLaws neg_one_lt (nanParams conf) (C126_spaces nanLaws 1).1
    (pow_nan (fin 2) (by simp)) _ ⟨pt nan, ?_, pt_nan⟩ () impl' _ hi⟩
  exact show pt nan ∈ [pt nan, pt (fin 1)] by simp

/-- ...so the centroid is 0 whatever follows, until the next `Init`. -/
example (conf : McmcConf XReal Nat) :
    ∃ impl', (McmcImpl.new (nanParams conf) [pt nan, pt (fin 1)]).init (nanParams conf) () =
      (impl', .ok [pt (fin 0)]) ∧
      ∀ (ops : List (McmcOp Unit (Vec XReal 1) XReal)) (s' : McmcSys (Vec XReal 1) XReal),
        (∀ op ∈ ops, ∀ d, op ≠ .init d) →
        McmcSys.run (nanParams conf) ⟨impl', [pt (fin 0)], true⟩ ops = some s' →
        s'.centroids = [pt (fin 0)] := by
  obtain ⟨impl', h1, h2⟩ := nanInit conf
  exact ⟨impl', h1, fun ops s' hops hr =>
    (C126_mcmc_frozen nanLaws (nanParams conf) ops _ s' h2 hops hr).1⟩
end NanExample
end Distclus
