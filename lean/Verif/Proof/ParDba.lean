import Verif.Proof.Dba
import Verif.Proof.ParMapLabel

set_option linter.unusedSectionVars false

namespace Distclus
open Spec
section
variable {E F : Type}

/-- `st` represents the reduction of the pairs `els`: exact cardinalities, no centroid for an empty
cluster, and a centroid related by `P` to the members otherwise. -/
structure RepState (P : List E → E → Prop) (k : Nat) (els : List (E × Int))
    (st : List (Option E) × List Int) : Prop where
  len1 : st.1.length = k
  len2 : st.2.length = k
  card : ∀ l, l < k → st.2[l]? = some ((members els l).length : Int)
  cent : ∀ l, l < k → ∃ o, st.1[l]? = some o ∧ (members els l = [] → o = none) ∧
    (members els l ≠ [] → ∃ m, o = some m ∧ P (members els l) m)

theorem DbaState.rep {space : Space E F} {P : List E → E → Prop} {k : Nat} {els : List (E × Int)}
    {st : List (Option E) × List Int} (h : DbaState space k els st)
    (hP : ∀ ms m, running space ms = some m → P ms m) : RepState P k els st := by
  refine ⟨h.len1, h.len2, h.card, fun l hl => ⟨_, h.cent l hl, ?_, ?_⟩⟩
  · intro h0; rw [h0]; rfl
  · intro h0
    obtain ⟨m, hm⟩ := running_isSome space h0
    exact ⟨m, hm, hP _ _ hm⟩

/-- `P` is compatible with `Combine`. -/
def CombineOk (space : Space E F) (P : List E → E → Prop) : Prop :=
  ∀ a b x y, a ≠ [] → b ≠ [] → P a x → P b y → P (a ++ b) (space.combine x a.length y b.length)

theorem dbaCombine_pointwise (space : Space E F) : ∀ (ds : List (Option E)) (cs : List Int)
    (ds' : List (Option E)) (cs' : List Int),
    cs.length = ds.length → ds'.length = ds.length → cs'.length = ds.length →
    (∀ l, l < ds.length → ∀ d c d' c', ds[l]? = some d → cs[l]? = some c → ds'[l]? = some d' →
      cs'[l]? = some c' → ∃ r, dbaCombine1 space (d, c) (d', c') = some r) →
    ∃ st, dbaCombine space (ds, cs) (ds', cs') = some st ∧ st.1.length = ds.length ∧
      st.2.length = ds.length ∧
      ∀ l, l < ds.length → ∃ d c d' c' r, ds[l]? = some d ∧ cs[l]? = some c ∧ ds'[l]? = some d' ∧
        cs'[l]? = some c' ∧ dbaCombine1 space (d, c) (d', c') = some r ∧
        st.1[l]? = some r.1 ∧ st.2[l]? = some r.2 := by
  intro ds
  induction ds with
  | nil =>
    intro cs ds' cs' h1 _ _ _
    refine ⟨([], cs), by simp [dbaCombine, dbaCombineLoop], rfl, by simpa using h1, ?_⟩
    intro l hl; simp at hl
  | cons d ds ih =>
    intro cs ds' cs' h1 h2 h3 hok
    cases cs with
    | nil => simp at h1
    | cons c cs =>
    cases ds' with
    | nil => simp at h2
    | cons d' ds' =>
    cases cs' with
    | nil => simp at h3
    | cons c' cs' =>
      obtain ⟨r, hr⟩ := hok 0 (by simp) d c d' c' (by simp) (by simp) (by simp) (by simp)
      obtain ⟨st, hst, hl1, hl2, hpt⟩ := ih cs ds' cs' (by simpa using h1) (by simpa using h2)
        (by simpa using h3) (fun l hl d c d' c' hd hc hd' hc' =>
          hok (l + 1) (by simpa using hl) d c d' c' (by simpa using hd) (by simpa using hc)
            (by simpa using hd') (by simpa using hc'))
      obtain ⟨r1, r2⟩ := r
      obtain ⟨s1, s2⟩ := st
      refine ⟨(r1 :: s1, r2 :: s2), ?_, by simpa using hl1, by simpa using hl2, ?_⟩
      · simp only [dbaCombine] at hst
        simp only [dbaCombine, dbaCombineLoop, hr, hst]
      · intro l hl
        cases l with
        | zero => exact ⟨d, c, d', c', (r1, r2), by simp, by simp, by simp, by simp, hr, by simp,
            by simp⟩
        | succ l => simpa using hpt l (by simpa using hl)

theorem dbaCombine_rep {space : Space E F} {P : List E → E → Prop} (hP : CombineOk space P)
    {k : Nat} {ea eb : List (E × Int)} {a b : List (Option E) × List Int}
    (ha : RepState P k ea a) (hb : RepState P k eb b) :
    ∃ st, dbaCombine space a b = some st ∧ RepState P k (ea ++ eb) st := by
  have hone : ∀ l, l < k → ∀ d c d' c', a.1[l]? = some d → a.2[l]? = some c →
      b.1[l]? = some d' → b.2[l]? = some c' → ∃ r, dbaCombine1 space (d, c) (d', c') = some r ∧
        r.2 = ((members (ea ++ eb) l).length : Int) ∧
        (members (ea ++ eb) l = [] → r.1 = none) ∧
        (members (ea ++ eb) l ≠ [] → ∃ m, r.1 = some m ∧ P (members (ea ++ eb) l) m) := by
    intro l hl d c d' c' hd hc hd' hc'
    obtain ⟨o, ho, ho1, ho2⟩ := ha.cent l hl
    obtain ⟨o', ho', ho1', ho2'⟩ := hb.cent l hl
    have hac := ha.card l hl
    have hbc := hb.card l hl
    rw [hd] at ho; rw [hd'] at ho'; rw [hc] at hac; rw [hc'] at hbc
    cases ho; cases ho'; cases hac; cases hbc
    rw [members_append]
    unfold dbaCombine1
    by_cases h0 : members ea l = []
    · simp only [h0, List.length_nil, Nat.cast_zero, if_true, List.nil_append]
      exact ⟨_, rfl, rfl, ho1', ho2'⟩
    · have hlen : ¬ (((members ea l).length : Int) = 0) := by
        have : (members ea l).length ≠ 0 := fun hc => h0 (List.length_eq_zero_iff.1 hc)
        omega
      simp only [hlen, if_false]
      obtain ⟨m, rfl, hm⟩ := ho2 h0
      by_cases h0' : members eb l = []
      · simp only [h0', List.length_nil, Nat.cast_zero, gt_iff_lt, lt_self_iff_false, if_false,
          List.append_nil]
        exact ⟨_, rfl, rfl, fun h => absurd h h0, fun _ => ⟨m, rfl, hm⟩⟩
      · have hlen' : ((members eb l).length : Int) > 0 := by
          have : (members eb l).length ≠ 0 := fun hc => h0' (List.length_eq_zero_iff.1 hc)
          omega
        obtain ⟨m', rfl, hm'⟩ := ho2' h0'
        simp only [hlen', if_true]
        refine ⟨_, rfl, by simp, fun h => absurd (List.append_eq_nil_iff.1 h).1 h0,
          fun _ => ⟨_, rfl, hP _ _ _ _ h0 h0' hm hm'⟩⟩
  obtain ⟨st, hst, h1, h2, hpt⟩ := dbaCombine_pointwise space a.1 a.2 b.1 b.2
    (by rw [ha.len1, ha.len2]) (by rw [ha.len1, hb.len1]) (by rw [ha.len1, hb.len2])
    (fun l hl d c d' c' hd hc hd' hc' => by
      obtain ⟨r, hr, _⟩ := hone l (by rw [← ha.len1]; exact hl) d c d' c' hd hc hd' hc'
      exact ⟨r, hr⟩)
  refine ⟨st, hst, by rw [h1, ha.len1], by rw [h2, ha.len1], ?_, ?_⟩
  · intro l hl
    obtain ⟨d, c, d', c', r, hd, hc, hd', hc', hr, hr1, hr2⟩ := hpt l (by rw [ha.len1]; exact hl)
    obtain ⟨r', hr', hcard, _⟩ := hone l hl d c d' c' hd hc hd' hc'
    rw [hr] at hr'; cases hr'
    rw [hr2, hcard]
  · intro l hl
    obtain ⟨d, c, d', c', r, hd, hc, hd', hc', hr, hr1, hr2⟩ := hpt l (by rw [ha.len1]; exact hl)
    obtain ⟨r', hr', _, he, hne⟩ := hone l hl d c d' c' hd hc hd' hc'
    rw [hr] at hr'; cases hr'
    exact ⟨r.1, hr1, he, hne⟩

theorem allSome_forall₂ {α β : Type} {f : α → Option β} {Q : α → β → Prop} (l : List α)
    (h : ∀ x ∈ l, ∃ y, f x = some y ∧ Q x y) :
    ∃ rs, allSome (l.map f) = some rs ∧ List.Forall₂ Q l rs := by
  induction l with
  | nil => exact ⟨[], rfl, .nil⟩
  | cons a l ih =>
    obtain ⟨y, hy, hq⟩ := h a (by simp)
    obtain ⟨rs, hrs, hall⟩ := ih (fun x hx => h x (by simp [hx]))
    refine ⟨y :: rs, ?_, .cons hq hall⟩
    simp only [List.map_cons, hy, allSome, hrs]

theorem dbaAggregateLoop_rep {space : Space E F} {P : List E → E → Prop} (hP : CombineOk space P)
    {k : Nat} {α : Type} {g : α → List (E × Int)} : ∀ (xs : List α)
    (parts : List (List (Option E) × List Int)) (pre : List (E × Int))
    (agg : List (Option E) × List Int), RepState P k pre agg →
    List.Forall₂ (fun x p => RepState P k (g x) p) xs parts →
    ∃ st, dbaAggregateLoop space parts agg = some st ∧ RepState P k (pre ++ xs.flatMap g) st := by
  intro xs
  induction xs with
  | nil =>
    intro parts pre agg h hf
    cases hf
    exact ⟨agg, rfl, by simpa using h⟩
  | cons x xs ih =>
    intro parts pre agg h hf
    cases hf with
    | cons hx hf =>
      rename_i p ps
      obtain ⟨st, hst, hr⟩ := dbaCombine_rep hP h hx
      obtain ⟨st', hst', hr'⟩ := ih ps _ st hr hf
      refine ⟨st', ?_, ?_⟩
      · simp only [dbaAggregateLoop, hst, hst']
      · simpa using hr'

theorem dbaAggregate_rep {space : Space E F} {P : List E → E → Prop} (hP : CombineOk space P)
    {k : Nat} {α : Type} {g : α → List (E × Int)} (xs : List α) (hne : xs ≠ [])
    (parts : List (List (Option E) × List Int))
    (hf : List.Forall₂ (fun x p => RepState P k (g x) p) xs parts) :
    ∃ st, dbaAggregate space parts = some st ∧ RepState P k (xs.flatMap g) st := by
  cases hf with
  | nil => exact absurd rfl hne
  | cons hx hf =>
    obtain ⟨st, h1, h2⟩ := dbaAggregateLoop_rep hP _ _ _ _ hx hf
    exact ⟨st, h1, by simpa using h2⟩

theorem par_chunks_ne_nil {size : Nat} {degree : Int} {chunks : List Chunk}
    (h : par size degree = some chunks) : chunks ≠ [] := by
  by_cases hd : 0 < degree
  · rw [par_eq hd] at h
    cases h
    intro h
    have := congrArg List.length h
    simp at this
    omega
  · rw [par_none (by omega)] at h; cases h

theorem parBuildResult_rep {P : List E → E → Prop} : ∀ (c : List E) {els : List (E × Int)}
    {st : List (Option E) × List Int}, RepState P c.length els st →
    ∃ r, parBuildResult c st = some r ∧ r.length = c.length ∧
      ∀ (l : Nat) (x : E), c[l]? = some x →
        ∃ o, r[l]? = some (some o) ∧ (members els l = [] → o = x) ∧
          (members els l ≠ [] → P (members els l) o) := by
  have key : ∀ (c : List E) (ds : List (Option E)) (cs : List Int), ds.length = c.length →
      cs.length = c.length → ∃ r, parBuildResult c (ds, cs) = some r ∧ r.length = c.length ∧
        ∀ (l : Nat) (x : E), c[l]? = some x → ∀ d k, ds[l]? = some d → cs[l]? = some k →
          r[l]? = some (if k > 0 then d else some x) := by
    intro c
    induction c with
    | nil => intro ds cs _ _; exact ⟨[], rfl, rfl, by simp⟩
    | cons a c ih =>
      intro ds cs h1 h2
      cases ds with
      | nil => simp at h1
      | cons d ds =>
      cases cs with
      | nil => simp at h2
      | cons k cs =>
        obtain ⟨r, hr, hl, hp⟩ := ih ds cs (by simpa using h1) (by simpa using h2)
        refine ⟨_, by simp only [parBuildResult] at hr; simp only [parBuildResult, buildLoop, hr]; rfl, by simpa using hl, ?_⟩
        intro l x hx d' k' hd hk
        cases l with
        | zero => simp at hx hd hk; subst hx hd hk; simp
        | succ l => simpa using hp l x (by simpa using hx) d' k' (by simpa using hd) (by simpa using hk)
  intro c els st h
  obtain ⟨r, hr, hl, hp⟩ := key c st.1 st.2 h.len1 h.len2
  refine ⟨r, hr, hl, fun l x hx => ?_⟩
  have hlt := (List.getElem?_eq_some_iff.1 hx).1
  obtain ⟨o, ho, he, hne⟩ := h.cent l hlt
  have hc := h.card l hlt
  have := hp l x hx _ _ ho hc
  by_cases h0 : members els l = []
  · refine ⟨x, ?_, fun _ => rfl, fun h => absurd h0 h⟩
    rw [this, h0]; simp
  · obtain ⟨m, rfl, hm⟩ := hne h0
    refine ⟨m, ?_, fun h => absurd h h0, fun _ => hm⟩
    have hpos : (members els l).length > 0 := List.length_pos_iff.2 h0
    rw [this, if_pos (by omega)]

end

section
variable {E F : Type} [Zero F] [One F] [Neg F] [LT F] [DecidableLT F]

theorem labelled_flatMap (space : Space E F) (c data : List E) {degree : Int} {chunks : List Chunk}
    (h : par data.length degree = some chunks) :
    (chunks.flatMap fun k => labelled space c (slice data k.start k.stop)) =
      labelled space c data := by
  have := par_slices (labelled space c data) (degree := degree) (chunks := chunks)
    (by simpa [labelled] using h)
  simpa only [labelled, slice_map] using this

/-- The parallel reduction before `buildResult`. -/
theorem parReduce_rep (hneg : (-1 : F) < 0) {space : Space E F} {P : List E → E → Prop}
    (hP : CombineOk space P) (hrun : ∀ ms m, running space ms = some m → P ms m)
    (c data : List E) (hc : c ≠ []) (degree : Int) (hd : 1 ≤ degree) :
    ∃ st, RepState P c.length (labelled space c data) st ∧
      parReduceDBA space c data degree =
        (parBuildResult c st).map fun r => (r, st.2) := by
  obtain ⟨chunks, hch⟩ : ∃ chunks, par data.length degree = some chunks := ⟨_, par_eq (by omega)⟩
  obtain ⟨parts, hparts, hall⟩ := allSome_forall₂
    (f := fun k : Chunk => reduceDBA space c (slice data k.start k.stop))
    (Q := fun k p => RepState P c.length (labelled space c (slice data k.start k.stop)) p) chunks
    (fun k _ => by
      obtain ⟨st, h1, h2⟩ := reduceDBA_state hneg space c (slice data k.start k.stop) hc
      exact ⟨st, h1, h2.rep hrun⟩)
  obtain ⟨st, hst, hrep⟩ := dbaAggregate_rep hP
    (g := fun k : Chunk => labelled space c (slice data k.start k.stop)) chunks
    (par_chunks_ne_nil hch) parts hall
  rw [labelled_flatMap space c data hch] at hrep
  refine ⟨st, hrep, ?_⟩
  unfold parReduceDBA
  simp only [hch, hparts, hst]
  cases parBuildResult c st <;> rfl

theorem zip_slice {α β : Type} (a : List α) (b : List β) (i j : Nat) :
    (slice a i j).zip (slice b i j) = slice (a.zip b) i j := by
  simp only [slice, List.zip_eq_zipWith, List.drop_zipWith, List.take_zipWith]

theorem parForLabels_rep {space : Space E F} {P : List E → E → Prop}
    (hP : CombineOk space P) (hrun : ∀ ms m, running space ms = some m → P ms m)
    (c data : List E) (labels : List Int) (hl : labels.length = data.length)
    (hr : ∀ l ∈ labels, 0 ≤ l ∧ l < c.length) (degree : Int) (hd : 1 ≤ degree) :
    ∃ st, RepState P c.length (data.zip labels) st ∧
      parDBAForLabels space c data labels degree = some st := by
  obtain ⟨chunks, hch⟩ : ∃ chunks, par data.length degree = some chunks := ⟨_, par_eq (by omega)⟩
  obtain ⟨parts, hparts, hall⟩ := allSome_forall₂
    (f := fun k : Chunk => reduceDBAForLabels space c (slice data k.start k.stop)
      (slice labels k.start k.stop))
    (Q := fun k p => RepState P c.length (slice (data.zip labels) k.start k.stop) p) chunks
    (fun k hk => by
      have hb := par_chunk_bounds hch k hk
      obtain ⟨st, h1, h2⟩ := dbaLoop_inv (slice data k.start k.stop) (slice labels k.start k.stop)
        [] _ (DbaState.init space c.length)
        (by rw [slice_length _ _ _ hb.2, slice_length _ _ _ (by omega)])
        (fun l hl => hr l (List.mem_of_mem_drop (List.mem_of_mem_take (List.mem_of_mem_take hl))))
      rw [List.nil_append, zip_slice] at h2
      exact ⟨st, h1, h2.rep hrun⟩)
  obtain ⟨st, hst, hrep⟩ := dbaAggregate_rep hP
    (g := fun k : Chunk => slice (data.zip labels) k.start k.stop) chunks
    (par_chunks_ne_nil hch) parts hall
  rw [par_slices (degree := degree) (data.zip labels) (by simpa [hl] using hch)] at hrep
  refine ⟨st, hrep, ?_⟩
  unfold parDBAForLabels
  simp only [hch, hparts, hst]

end

/-! ### Barycentric spaces -/
section
variable {E F V : Type} [AddCommGroup V] [Module ℝ V]

theorem running_mean {space : Space E F} {φ : E → V} (hb : Barycentric space φ) (ms : List E) :
    ∀ m, running space ms = some m → φ m = mean (ms.map φ) := by
  induction ms using List.reverseRecOn with
  | nil => intro m h; cases h
  | append_singleton ms e ih =>
    intro m h
    cases ms with
    | nil =>
      simp only [List.nil_append, running, List.foldl_nil, Option.some.injEq] at h
      subst h
      simp [mean, hb.copy]
    | cons a as =>
      obtain ⟨m', hm'⟩ := running_isSome space (ms := a :: as) (by simp)
      rw [running_snoc space _ e hm'] at h
      cases h
      rw [hb.combine _ _ _ _ (by simp) (by omega), ih m' hm']
      have hpos : (0 : ℝ) < ((a :: as).length : ℝ) := by simp; positivity
      simp only [mean, List.map_append, List.length_append, List.length_map, List.sum_append,
        List.map_cons, List.map_nil, List.sum_singleton, Int.cast_natCast, Int.cast_one, one_smul,
        Nat.cast_add, Nat.cast_one, List.length_nil, List.length_cons, Nat.zero_add, Int.cast_add] at *
      rw [smul_inv_smul₀ (ne_of_gt hpos)]

theorem mean_append_combine {space : Space E F} {φ : E → V} (hb : Barycentric space φ) :
    CombineOk space (fun ms m => φ m = mean (ms.map φ)) := by
  intro a b x y ha hbn hx hy
  have h1 : 0 < a.length := List.length_pos_iff.2 ha
  have h2 : 0 < b.length := List.length_pos_iff.2 hbn
  change φ x = _ at hx
  change φ y = _ at hy
  show φ _ = _
  rw [hb.combine _ _ _ _ (by omega) (by omega), hx, hy]
  have h1' : (a.length : ℝ) ≠ 0 := by positivity
  have h2' : (b.length : ℝ) ≠ 0 := by positivity
  simp only [mean, List.map_append, List.length_append, List.length_map, List.sum_append,
    Int.cast_natCast, Nat.cast_add]
  rw [smul_inv_smul₀ h1', smul_inv_smul₀ h2']

end
end Distclus
