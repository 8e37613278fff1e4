import Verif.Proof.KMeans
import Verif.Props.Loss
import Verif.Spec.Example
/-!
# C23, C24, C25: k-means iterations
-/

set_option linter.unusedSectionVars false

namespace Distclus
open Spec

section
variable {E F : Type} [Zero F] [One F] [Neg F] [LT F] [DecidableLT F]

/-- **C23.** An iteration (sequential, or parallel with any positive degree) does not panic, returns
as many centroids as it got, none of them missing, and the centroid of a cluster to which no element
is assigned is unchanged.  No law on the space or on the arithmetic is used. -/
theorem C23_iterate (hneg : (-1 : F) < 0) (s : KStrategy) (hs : s.Valid) (space : Space E F)
    (c data : List E) (hc : c ≠ []) :
    ∃ out : List E, s.iterate space c data = some (out.map some) ∧ out.length = c.length ∧
      ∀ (l : Nat) (x : E), c[l]? = some x →
        (∀ e ∈ data, (nearest space c e).1 ≠ (l : Int)) → out[l]? = some x := by
  obtain ⟨out, h1, h2, h3⟩ := iterate_spec hneg (space := space) (P := fun _ _ => True)
    (fun _ _ _ _ _ _ _ _ => trivial) (fun _ _ _ => trivial) s hs c data hc
  refine ⟨out, h1, h2, fun l x hx hno => ?_⟩
  obtain ⟨m, hm, he, _⟩ := h3 l x hx
  rw [hm, he]
  rw [List.filter_eq_nil_iff]
  intro e hemem
  simpa using hno e hemem

/-- The sequential iteration puts in each other cluster the running combination of its elements. -/
theorem C23_seq_members (hneg : (-1 : F) < 0) (space : Space E F) (c data : List E) (hc : c ≠ [])
    (out : List E) (h : KStrategy.seq.iterate space c data = some (out.map some)) (l : Nat)
    (hl : l < c.length) :
    let ms := data.filter fun e => (nearest space c e).1 == (l : Int)
    ms ≠ [] → out[l]? = running space ms := by
  obtain ⟨⟨cents, cards⟩, h', hst⟩ := reduceDBA_state hneg space c data hc
  obtain ⟨out', h1, h2, h3⟩ := seqBuildResult_spec c cents hst.len1
  have : out = out' := by
    simp only [KStrategy.iterate, h', h1, Option.some.injEq] at h
    exact (List.map_injective_iff.2 (Option.some_injective E) h).symm
  subst this
  intro ms hne
  have hce := hst.cent l hl
  rw [members_labelled] at hce
  obtain ⟨m, hm⟩ := running_isSome space hne
  rw [h3 l c[l] _ (by simp) hce]
  simp only [ms] at hm ⊢
  rw [hm]; rfl

/-- A degree below one makes the parallel iteration panic, which C21 and C22 show to be reachable
from an accepted configuration. -/
theorem C23_par_bad_degree (space : Space E F) (c data : List E) (d : Int) (hd : d < 1) :
    (KStrategy.par d).iterate space c data = none := by
  have : par data.length d = none := by
    unfold par; rw [if_pos (by omega)]
  simp [KStrategy.iterate, parReduceDBA, this]

/-- One worker which panics is enough. -/
theorem allSome_none {α β : Type} {f : α → Option β} {l : List α} {a : α} (ha : a ∈ l) (hf : f a = none) :
    allSome (l.map f) = none := by
  induction l with
  | nil => cases ha
  | cons b l ih =>
    rw [List.map_cons]
    cases hb : f b with
    | none => rfl
    | some x =>
      rcases List.mem_cons.1 ha with rfl | ha
      · rw [hf] at hb; cases hb
      · simp only [allSome, ih ha]

theorem allSome_replicate {α : Type} (n : Nat) (a : α) :
    allSome (List.replicate n (some a)) = some (List.replicate n a) := by
  induction n with
  | zero => rfl
  | succ n ih => simp only [List.replicate_succ, allSome, ih]

theorem dbaAggregateLoop_empty (space : Space E F) (n : Nat) :
    dbaAggregateLoop space (List.replicate n (([], []) : List (Option E) × List Int)) ([], []) = some ([], []) := by
  induction n with
  | zero => rfl
  | succ n ih => simp only [List.replicate_succ, dbaAggregateLoop, dbaCombine, dbaCombineLoop, ih]

/-- **C23.** An iteration panics in one case only: there are data and no centroid to assign them to. -/
theorem C23_panics (hneg : (-1 : F) < 0) (s : KStrategy) (hs : s.Valid) (space : Space E F) (c data : List E) :
    s.iterate space c data = none ↔ c = [] ∧ data ≠ [] := by
  constructor
  · intro h
    by_cases hc : c = []
    · refine ⟨hc, ?_⟩
      rintro rfl
      subst hc
      cases s with
      | seq => cases h
      | par d =>
        have hd : 1 ≤ d := hs
        obtain ⟨chunks, hch⟩ : ∃ chunks, par 0 d = some chunks := ⟨_, par_eq (by omega)⟩
        have e : (chunks.map fun k => reduceDBA space [] (slice ([] : List E) k.start k.stop)) =
            List.replicate chunks.length (some ([], [])) := by
          rw [List.eq_replicate_iff]
          refine ⟨by simp, fun b hb => ?_⟩
          obtain ⟨k, -, rfl⟩ := List.mem_map.1 hb
          have : slice ([] : List E) k.start k.stop = [] := by simp [slice]
          rw [this]; rfl
        simp only [KStrategy.iterate, parReduceDBA, List.length_nil, hch, e, allSome_replicate] at h
        cases hn : chunks.length with
        | zero => rw [hn] at h; cases h
        | succ n =>
          rw [hn] at h
          simp only [List.replicate_succ, dbaAggregate, dbaAggregateLoop_empty] at h
          cases h
    · obtain ⟨out, ho, -⟩ := C23_iterate hneg s hs space c data hc
      rw [ho] at h; cases h
  · rintro ⟨rfl, hd⟩
    obtain ⟨e, es, rfl⟩ := List.exists_cons_of_ne_nil hd
    cases s with
    | seq => rfl
    | par d =>
      have hd : 1 ≤ d := hs
      obtain ⟨chunks, hch⟩ : ∃ chunks, par (e :: es).length d = some chunks := ⟨_, par_eq (by omega)⟩
      have hfl := par_slices (e :: es) hch
      obtain ⟨k, hk, hne⟩ : ∃ k ∈ chunks, slice (e :: es) k.start k.stop ≠ [] := by
        by_contra hc
        push Not at hc
        rw [List.flatMap_eq_nil_iff.2 hc] at hfl
        cases hfl
      obtain ⟨x, xs, hx⟩ := List.exists_cons_of_ne_nil hne
      have := allSome_none (f := fun k => reduceDBA space [] (slice (e :: es) k.start k.stop)) hk (by
        rw [hx]; rfl)
      simp only [KStrategy.iterate, parReduceDBA, hch, this]
example : KStrategy.seq.iterate exSpace [] [1] = none := by decide
example : (KStrategy.par 2).iterate exSpace [] [] = some [] := by decide
example : KStrategy.seq.iterate exSpace [0, 10, 50] [1, 9, 4, 5, 6] =
    some [some 3, some 7, some 50] := by decide
example : (KStrategy.par 3).iterate exSpace [0, 10, 50] [1, 9, 5, 6] =
    some [some 3, some 7, some 50] := by decide

/-- The iteration stores the staged elements afterwards, and keeps the stored ones: it works on what
was stored before. -/
theorem C23_impl (hneg : (-1 : F) < 0) (s : KStrategy) (hs : s.Valid) (space : Space E F)
    (c : List E) (hc : c ≠ []) (b : DataBuffer E) :
    ∃ out : List E, kmeansIterate s space c b = some (out.map some, b.apply) ∧
      out.length = c.length ∧ s.iterate space c b.data = some (out.map some) := by
  obtain ⟨out, h1, h2, _⟩ := C23_iterate hneg s hs space c b.data hc
  exact ⟨out, by simp [kmeansIterate, h1], h2, h1⟩

/-- The number of centroids is the same after any number of iterations on any data. -/
theorem C23_run (hneg : (-1 : F) < 0) (s : KStrategy) (hs : s.Valid) (space : Space E F)
    (datas : List (List E)) (c : List E) (hc : c ≠ []) :
    ∃ out, kmeansRun s space datas c = some out ∧ out.length = c.length := by
  induction datas generalizing c with
  | nil => exact ⟨c, rfl, rfl⟩
  | cons data rest ih =>
    obtain ⟨out, h1, h2, _⟩ := C23_iterate hneg s hs space c data hc
    have hne : out ≠ [] := by
      intro h; subst h; exact hc (List.length_eq_zero_iff.1 (by simpa using h2.symm))
    obtain ⟨out', h3, h4⟩ := ih out hne
    exact ⟨out', by simp [kmeansRun, kmeansStep, h1, allSome_map_some, h3], by omega⟩

/-- **C24** (one iteration). When `Combine` is the weighted mean in exact arithmetic, every strategy
returns the same centroids. -/
theorem C24_iterate {V : Type} [AddCommGroup V] [Module ℝ V] (hneg : (-1 : F) < 0)
    {space : Space E F} {φ : E → V} (hb : Barycentric space φ) (s s' : KStrategy) (hs : s.Valid)
    (hs' : s'.Valid) (c data : List E) (hc : c ≠ []) :
    s.iterate space c data = s'.iterate space c data := by
  obtain ⟨o1, h1, l1, p1⟩ := iterate_spec hneg (mean_append_combine hb) (running_mean hb) s hs c
    data hc
  obtain ⟨o2, h2, l2, p2⟩ := iterate_spec hneg (mean_append_combine hb) (running_mean hb) s' hs' c
    data hc
  rw [h1, h2]
  congr 2
  apply List.ext_getElem?
  intro i
  by_cases hi : i < c.length
  · obtain ⟨m1, e1, z1, n1⟩ := p1 i c[i] (by simp)
    obtain ⟨m2, e2, z2, n2⟩ := p2 i c[i] (by simp)
    rw [e1, e2]
    congr 1
    by_cases h0 : (data.filter fun e => (nearest space c e).1 == (i : Int)) = []
    · rw [z1 h0, z2 h0]
    · exact hb.inj _ _ ((n1 h0).trans (n2 h0).symm)
  · rw [List.getElem?_eq_none (by omega), List.getElem?_eq_none (by omega)]

/-- **C24** (any number of iterations, on data changing between them). -/
theorem C24_run {V : Type} [AddCommGroup V] [Module ℝ V] (hneg : (-1 : F) < 0)
    {space : Space E F} {φ : E → V} (hb : Barycentric space φ) (s s' : KStrategy) (hs : s.Valid)
    (hs' : s'.Valid) (datas : List (List E)) (c : List E) (hc : c ≠ []) :
    kmeansRun s space datas c = kmeansRun s' space datas c := by
  induction datas generalizing c with
  | nil => rfl
  | cons data rest ih =>
    obtain ⟨out, h1, h2, _⟩ := C23_iterate hneg s hs space c data hc
    have hne : out ≠ [] := by
      intro h; subst h; exact hc (List.length_eq_zero_iff.1 (by simpa using h2.symm))
    have h3 := C24_iterate hneg hb s s' hs hs' c data hc
    rw [h1] at h3
    simp [kmeansRun, kmeansStep, h1, ← h3, allSome_map_some, ih out hne]

end

/-- **C24** for the Euclidean space in exact arithmetic. -/
theorem C24_euclid {n : Nat} (degree : Int) (hd : 1 ≤ degree) (datas : List (List (Vec ℝ n)))
    (c : List (Vec ℝ n)) (hc : c ≠ []) :
    kmeansRun (.par degree) (euclidSpace ℝ n) datas c =
      kmeansRun .seq (euclidSpace ℝ n) datas c :=
  C24_run (by norm_num) (euclid_barycentric n) (.par degree) .seq hd trivial datas c hc

/-- Without exact arithmetic the two strategies may differ: with integer division in `Combine`
(a rounding mean) they already do on four elements. -/
theorem C24_rounding_differs :
    KStrategy.seq.iterate exSpace [0, 100] [0, 0, 1, 3] ≠
      (KStrategy.par 2).iterate exSpace [0, 100] [0, 0, 1, 3] := by decide

/-- **C25** (one iteration). In exact Euclidean arithmetic the loss (norm 2) does not increase. -/
theorem C25_loss_step {n : Nat} (s : KStrategy) (hs : s.Valid) (c data : List (Vec ℝ n))
    (hc : c ≠ []) :
    ∃ c' before after, kmeansStep s (euclidSpace ℝ n) data c = some c' ∧ c'.length = c.length ∧
      totalLoss (euclidSpace ℝ n) c data 2 = some before ∧
      totalLoss (euclidSpace ℝ n) c' data 2 = some after ∧ after ≤ before := by
  have hneg : (-1 : ℝ) < 0 := by norm_num
  have hb := euclid_barycentric n
  obtain ⟨out, h1, h2, h3⟩ := iterate_spec hneg (mean_append_combine hb) (running_mean hb) s hs c
    data hc
  have hne : out ≠ [] := by
    intro h; subst h; exact hc (List.length_eq_zero_iff.1 (by simpa using h2.symm))
  refine ⟨out, _, _, by simp [kmeansStep, h1, allSome_map_some], h2,
    C10_totalLoss hneg _ c data hc 2, C10_totalLoss hneg _ out data hne 2, ?_⟩
  have h0 : ∀ a b, 0 ≤ (euclidSpace ℝ n).dist a b := fun a b => by
    rw [euclid_dist_eq]; exact Real.sqrt_nonneg _
  set sp := euclidSpace ℝ n
  obtain ⟨d, hd⟩ := List.exists_mem_of_ne_nil c hc
  have hlab : ∀ e ∈ data, 0 ≤ (nearest sp c e).1 ∧ (nearest sp c e).1 < c.length :=
    fun e _ => nearest_range hneg sp c hc e
  have hpow : ∀ x : ℝ, GoMath.pow x 2 = x ^ 2 := fun x => Real.rpow_two x
  simp only [hpow]
  -- distance to the new centroid of the old cluster
  have step1 : (data.map fun e => (nearest sp out e).2 ^ 2).sum ≤
      (data.map fun e => sp.dist e (out.getD (nearest sp c e).1.toNat d) ^ 2).sum := by
    apply List.sum_le_sum
    intro e he
    obtain ⟨hl0, hl1⟩ := hlab e he
    have hlt : (nearest sp c e).1.toNat < out.length := by omega
    have hmem : out.getD (nearest sp c e).1.toNat d ∈ out := by
      simp [List.getD, List.getElem?_eq_getElem hlt]
    obtain ⟨j, x, hj, hx⟩ := nearest_mem hneg sp out e hne
    have hnn : 0 ≤ (nearest sp out e).2 := by rw [hx]; exact h0 e x
    exact pow_le_pow_left₀ hnn (nearest_le sp h0 out e _ hmem) 2
  have step3 : (data.map fun e => sp.dist e (c.getD (nearest sp c e).1.toNat d) ^ 2).sum =
      (data.map fun e => (nearest sp c e).2 ^ 2).sum := by
    congr 1
    apply List.map_congr_left
    intro e he
    obtain ⟨j, x, hj, hx⟩ := nearest_mem hneg sp c e hc
    rw [hx]
    simp [hj]
  refine step1.trans (le_trans ?_ step3.le)
  rw [sum_by_label c.length (fun e => (nearest sp c e).1)
      (fun l e => sp.dist e (out.getD l d) ^ 2) data hlab,
    sum_by_label c.length (fun e => (nearest sp c e).1)
      (fun l e => sp.dist e (c.getD l d) ^ 2) data hlab]
  apply Finset.sum_le_sum
  intro l hl
  have hlt : l < c.length := by simpa using hl
  obtain ⟨m, hm, _, hmean⟩ := h3 l c[l] (by simp)
  by_cases he : (data.filter fun e => (nearest sp c e).1 == (l : Int)) = []
  · rw [he]; simp
  · have e1 : out.getD l d = m := by simp [hm]
    have e2 : c.getD l d = c[l] := by simp [hlt]
    rw [e1, e2]
    exact mean_minimises _ he m c[l] (hmean he)

/-- **C25** (any number of iterations on the same data): the losses of the successive clusterings
are non-increasing. -/
theorem C25_loss_run {n : Nat} (s : KStrategy) (hs : s.Valid) (data : List (Vec ℝ n)) (i j : Nat)
    (hij : i ≤ j) (c : List (Vec ℝ n)) (hc : c ≠ []) :
    ∃ ci cj li lj, kmeansRun s (euclidSpace ℝ n) (List.replicate i data) c = some ci ∧
      kmeansRun s (euclidSpace ℝ n) (List.replicate j data) c = some cj ∧
      totalLoss (euclidSpace ℝ n) ci data 2 = some li ∧
      totalLoss (euclidSpace ℝ n) cj data 2 = some lj ∧ lj ≤ li := by
  have hneg : (-1 : ℝ) < 0 := by norm_num
  induction i generalizing j c with
  | zero =>
    induction j generalizing c with
    | zero =>
      exact ⟨c, c, _, _, rfl, rfl, C10_totalLoss hneg _ c data hc 2,
        C10_totalLoss hneg _ c data hc 2, le_refl _⟩
    | succ j ih =>
      obtain ⟨c', b, a, h1, h2, h3, h4, h5⟩ := C25_loss_step s hs c data hc
      have hne : c' ≠ [] := by
        intro h; subst h; exact hc (List.length_eq_zero_iff.1 (by simpa using h2.symm))
      obtain ⟨ci, cj, li, lj, q1, q2, q3, q4, q5⟩ := ih (by omega) c' hne
      cases q1
      rw [h4] at q3
      cases q3
      exact ⟨c, cj, b, lj, rfl, by simp [List.replicate_succ, kmeansRun, h1, q2], h3, q4,
        q5.trans h5⟩
  | succ i ih =>
    obtain ⟨j, rfl⟩ : ∃ j', j = j' + 1 := ⟨j - 1, by omega⟩
    obtain ⟨c', b, a, h1, h2, h3, h4, h5⟩ := C25_loss_step s hs c data hc
    have hne : c' ≠ [] := by
      intro h; subst h; exact hc (List.length_eq_zero_iff.1 (by simpa using h2.symm))
    obtain ⟨ci, cj, li, lj, q1, q2, q3, q4, q5⟩ := ih j (by omega) c' hne
    exact ⟨ci, cj, li, lj, by simp [List.replicate_succ, kmeansRun, h1, q1],
      by simp [List.replicate_succ, kmeansRun, h1, q2], q3, q4, q5⟩

/-- The hypotheses of C24 and C25 are met by any non-empty clustering. -/
example : ([Vec.of (fun _ : Fin 2 => (0 : ℝ)), Vec.of (fun _ => 1)] : List (Vec ℝ 2)) ≠ [] ∧
    (KStrategy.par 4).Valid := ⟨by simp, by simp [KStrategy.Valid]⟩

end Distclus
