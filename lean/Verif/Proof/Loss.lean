import Verif.Proof.ParDba

set_option linter.unusedSectionVars false

namespace Distclus
open Spec
section
variable {E F : Type} [Zero F] [Add F] [GoMath F]

/-- The losses and cardinalities after accounting the pairs (loss, label) `els`. -/
structure LossState (k : Nat) (els : List (F × Int)) (st : List F × List Int) : Prop where
  len1 : st.1.length = k
  len2 : st.2.length = k
  loss : ∀ l, l < k → st.1[l]? = some ((members els l).foldl (· + ·) 0)
  card : ∀ l, l < k → st.2[l]? = some ((members els l).length : Int)

theorem LossState.init (k : Nat) :
    LossState (F := F) k [] (List.replicate k 0, List.replicate k 0) := by
  constructor
  · simp
  · simp
  · intro l hl; simp [hl, members]
  · intro l hl; simp [hl, members]

theorem lossStep_inv {k : Nat} {els : List (F × Int)} {st : List F × List Int}
    (h : LossState k els st) (ix : Nat) (hix : ix < k) (v : F) :
    ∃ st', lossStep st (ix : Int) v = some st' ∧ LossState k (els ++ [(v, (ix : Int))]) st' := by
  unfold lossStep
  simp only [idx?_natCast, h.card ix hix, h.loss ix hix, Int.toNat_natCast]
  refine ⟨_, rfl, ?_, ?_, ?_, ?_⟩
  · simpa using h.len1
  · simpa using h.len2
  · intro l hl
    rw [members_append, members_single]
    by_cases hll : (ix : Int) = l
    · have : l = ix := by omega
      subst this
      simp [h.len1, hl]
    · have : ¬ ix = l := by omega
      simp only [List.getElem?_set, this, if_false, hll, List.append_nil]
      exact h.loss l hl
  · intro l hl
    rw [members_append, members_single]
    by_cases hll : (ix : Int) = l
    · have : l = ix := by omega
      subst this
      simp [h.len2, hl]
    · have : ¬ ix = l := by omega
      simp only [List.getElem?_set, this, if_false, hll, List.append_nil]
      exact h.card l hl

/-- Both loss loops account a list of pairs (loss, label). -/
def lossFold : List (F × Int) → List F × List Int → Option (List F × List Int)
  | [], st => some st
  | p :: ps, st => match lossStep st p.2 p.1 with
    | none => none
    | some st' => lossFold ps st'

theorem lossFold_inv {k : Nat} : ∀ (ps els : List (F × Int)) (st : List F × List Int),
    LossState k els st → (∀ p ∈ ps, 0 ≤ p.2 ∧ p.2 < k) →
    ∃ st', lossFold ps st = some st' ∧ LossState k (els ++ ps) st' := by
  intro ps
  induction ps with
  | nil => intro els st h _; exact ⟨st, rfl, by simpa using h⟩
  | cons p ps ih =>
    intro els st h hr
    obtain ⟨h0, hk⟩ := hr p (by simp)
    obtain ⟨v, l⟩ := p
    obtain ⟨n, rfl⟩ := Int.eq_ofNat_of_zero_le h0
    obtain ⟨st1, h1, hst1⟩ := lossStep_inv h n (by simp only at hk; omega) v
    obtain ⟨st2, h2, hst2⟩ := ih _ st1 hst1 (fun q hq => hr q (by simp [hq]))
    refine ⟨st2, ?_, by simpa using hst2⟩
    unfold lossFold
    simp only [h1, h2]

theorem LossState.unique {k : Nat} {els : List (F × Int)}
    {s1 s2 : List F × List Int} (h1 : LossState k els s1)
    (h2 : LossState k els s2) : s1 = s2 := by
  apply Prod.ext
  · apply List.ext_getElem?
    intro i
    by_cases hi : i < k
    · rw [h1.loss i hi, h2.loss i hi]
    · rw [List.getElem?_eq_none (by rw [h1.len1]; omega),
        List.getElem?_eq_none (by rw [h2.len1]; omega)]
  · apply List.ext_getElem?
    intro i
    by_cases hi : i < k
    · rw [h1.card i hi, h2.card i hi]
    · rw [List.getElem?_eq_none (by rw [h1.len2]; omega),
        List.getElem?_eq_none (by rw [h2.len2]; omega)]

section
variable [One F] [Neg F] [LT F] [DecidableLT F]

/-- The pairs accounted by `ReduceLoss`. -/
def lossPairs (space : Space E F) (c : List E) (norm : F) (es : List E) : List (F × Int) :=
  es.map fun e => (GoMath.pow (nearest space c e).2 norm, (nearest space c e).1)

theorem lossLoop_eq (space : Space E F) (c : List E) (norm : F) : ∀ (es : List E)
    (st : List F × List Int),
    lossLoop space c norm es st = lossFold (lossPairs space c norm es) st := by
  intro es
  induction es with
  | nil => intros; rfl
  | cons e es ih =>
    intro st
    simp only [lossLoop, lossPairs, List.map_cons, lossFold]
    cases lossStep st (nearest space c e).1 (GoMath.pow (nearest space c e).2 norm) with
    | none => rfl
    | some st' => exact ih st'

theorem lossPairs_range (hneg : (-1 : F) < 0) (space : Space E F) (c : List E) (hc : c ≠ [])
    (norm : F) (es : List E) : ∀ p ∈ lossPairs space c norm es, 0 ≤ p.2 ∧ p.2 < c.length := by
  intro p hp
  obtain ⟨e, _, rfl⟩ := List.mem_map.1 hp
  exact nearest_range hneg space c hc e

theorem reduceLoss_state (hneg : (-1 : F) < 0) (space : Space E F) (c es : List E) (hc : c ≠ [])
    (norm : F) : ∃ st, reduceLoss space c es norm = some st ∧
      LossState c.length (lossPairs space c norm es) st := by
  unfold reduceLoss
  rw [lossLoop_eq]
  obtain ⟨st, h1, h2⟩ := lossFold_inv (lossPairs space c norm es) [] _
    (LossState.init (F := F) c.length) (lossPairs_range hneg space c hc norm es)
  exact ⟨st, h1, by simpa using h2⟩
end

/-- The pairs accounted by `ReduceLossForLabels`. -/
def labelPairs (space : Space E F) (c : List E) (norm : F) (es : List E) (ls : List Int) :
    List (F × Int) :=
  (es.zip ls).filterMap fun p => (idx? c p.2).map fun x => (GoMath.pow (space.dist p.1 x) norm, p.2)

theorem idx?_in_range {α : Type} (c : List α) {l : Int} (h0 : 0 ≤ l) (hl : l < c.length) :
    ∃ x, idx? c l = some x := by
  rw [idx?_of_nonneg c h0]
  exact ⟨_, List.getElem?_eq_getElem (by omega)⟩

theorem lossLabelLoop_eq (space : Space E F) (c : List E) (norm : F) : ∀ (es : List E)
    (ls : List Int) (st : List F × List Int), es.length ≤ ls.length →
    (∀ l ∈ ls.take es.length, 0 ≤ l ∧ l < c.length) →
    lossLabelLoop space c norm es ls st = lossFold (labelPairs space c norm es ls) st := by
  intro es
  induction es with
  | nil => intros; rfl
  | cons e es ih =>
    intro ls st hlen hr
    cases ls with
    | nil => simp at hlen
    | cons l ls =>
      obtain ⟨h0, hk⟩ := hr l (by simp)
      obtain ⟨x, hx⟩ := idx?_in_range c h0 hk
      simp only [lossLabelLoop, labelPairs, List.zip_cons_cons, List.filterMap_cons, hx,
        Option.map_some, lossFold]
      cases lossStep st l (GoMath.pow (space.dist e x) norm) with
      | none => rfl
      | some st' => exact ih ls st' (by simpa using hlen) (fun l hl => hr l (by simp [hl]))

theorem labelPairs_range (space : Space E F) (c : List E) (norm : F) (es : List E) (ls : List Int) :
    ∀ p ∈ labelPairs space c norm es ls, 0 ≤ p.2 ∧ p.2 < c.length := by
  intro p hp
  simp only [labelPairs, List.mem_filterMap, Option.map_eq_some_iff] at hp
  obtain ⟨q, _, x, hx, rfl⟩ := hp
  unfold idx? at hx
  split at hx
  · cases hx
  · have := (List.getElem?_eq_some_iff.1 hx).1
    simp only
    omega

theorem reduceLossForLabels_state (space : Space E F) (c es : List E) (ls : List Int)
    (hlen : es.length ≤ ls.length) (hr : ∀ l ∈ ls.take es.length, 0 ≤ l ∧ l < c.length)
    (norm : F) : ∃ st, reduceLossForLabels space c es ls norm = some st ∧
      LossState c.length (labelPairs space c norm es ls) st := by
  unfold reduceLossForLabels
  rw [lossLabelLoop_eq space c norm es ls _ hlen hr]
  obtain ⟨st, h1, h2⟩ := lossFold_inv (labelPairs space c norm es ls) [] _
    (LossState.init (F := F) c.length) (labelPairs_range space c norm es ls)
  exact ⟨st, h1, by simpa using h2⟩

end

/-! ### Exact addition -/
section
variable {E F : Type} [AddCommMonoid F] [GoMath F]

theorem foldl_add_eq_sum (l : List F) (a : F) : l.foldl (· + ·) a = a + l.sum := by
  induction l generalizing a with
  | nil => simp
  | cons x l ih => rw [List.foldl_cons, ih, List.sum_cons, add_assoc]

theorem sumF_eq_sum (l : List F) : sumF l = l.sum := by
  unfold sumF; rw [foldl_add_eq_sum, zero_add]

theorem addLoop_pointwise : ∀ (ls' : List F) (cs' : List Int) (ls : List F) (cs : List Int),
    cs'.length = ls'.length → ls.length = ls'.length → cs.length = ls'.length →
    ∃ st, addLoop ls' cs' ls cs = some st ∧ st.1.length = ls'.length ∧ st.2.length = ls'.length ∧
      ∀ l : Nat, ∀ x x' y y', ls[l]? = some x → ls'[l]? = some x' → cs[l]? = some y →
        cs'[l]? = some y' → st.1[l]? = some (x + x') ∧ st.2[l]? = some (y + y') := by
  intro ls'
  induction ls' with
  | nil =>
    intro cs' ls cs h1 h2 h3
    refine ⟨(ls, cs), rfl, h2, h3, ?_⟩
    intro l x x' y y' _ h'; simp at h'
  | cons l' ls' ih =>
    intro cs' ls cs h1 h2 h3
    cases cs' with
    | nil => simp at h1
    | cons c' cs' =>
    cases ls with
    | nil => simp at h2
    | cons l ls =>
    cases cs with
    | nil => simp at h3
    | cons c cs =>
      obtain ⟨⟨s1, s2⟩, hst, hl1, hl2, hp⟩ := ih cs' ls cs (by simpa using h1) (by simpa using h2)
        (by simpa using h3)
      refine ⟨((l + l') :: s1, (c + c') :: s2), by simp only [addLoop, hst], by simpa using hl1,
        by simpa using hl2, ?_⟩
      intro i x x' y y' hx hx' hy hy'
      cases i with
      | zero => simp at hx hx' hy hy'; subst hx hx' hy hy'; simp
      | succ i =>
        simpa using hp i x x' y y' (by simpa using hx) (by simpa using hx') (by simpa using hy)
          (by simpa using hy')

theorem addLists_state {k : Nat} {ea eb : List (F × Int)} {a b : List F × List Int}
    (ha : LossState k ea a) (hb : LossState k eb b) :
    ∃ st, addLists a b = some st ∧ LossState k (ea ++ eb) st := by
  obtain ⟨st, hst, h1, h2, hp⟩ := addLoop_pointwise b.1 b.2 a.1 a.2 (by rw [hb.len1, hb.len2])
    (by rw [ha.len1, hb.len1]) (by rw [ha.len2, hb.len1])
  refine ⟨st, hst, by rw [h1, hb.len1], by rw [h2, hb.len1], ?_, ?_⟩
  · intro l hl
    rw [(hp l _ _ _ _ (ha.loss l hl) (hb.loss l hl) (ha.card l hl) (hb.card l hl)).1,
      members_append]
    simp only [foldl_add_eq_sum, List.sum_append, zero_add]
  · intro l hl
    rw [(hp l _ _ _ _ (ha.loss l hl) (hb.loss l hl) (ha.card l hl) (hb.card l hl)).2,
      members_append]
    simp

theorem lossAggregateLoop_state {k : Nat} {α : Type} {g : α → List (F × Int)} : ∀ (xs : List α)
    (parts : List (List F × List Int)) (pre : List (F × Int)) (agg : List F × List Int),
    LossState k pre agg → List.Forall₂ (fun x p => LossState k (g x) p) xs parts →
    ∃ st, lossAggregateLoop parts agg = some st ∧ LossState k (pre ++ xs.flatMap g) st := by
  intro xs
  induction xs with
  | nil =>
    intro parts pre agg h hf
    cases hf
    exact ⟨agg, rfl, by simpa using h⟩
  | cons x xs ih =>
    intro parts pre agg h hf
    cases hf with
    | cons hx hf =>
      rename_i p ps
      obtain ⟨st, hst, hr⟩ := addLists_state h hx
      obtain ⟨st', hst', hr'⟩ := ih ps _ st hr hf
      exact ⟨st', by simp only [lossAggregateLoop, hst, hst'], by simpa using hr'⟩

theorem lossAggregate_state {k : Nat} {α : Type} {g : α → List (F × Int)} (xs : List α)
    (hne : xs ≠ []) (parts : List (List F × List Int))
    (hf : List.Forall₂ (fun x p => LossState k (g x) p) xs parts) :
    ∃ st, lossAggregate parts = some st ∧ LossState k (xs.flatMap g) st := by
  cases hf with
  | nil => exact absurd rfl hne
  | cons hx hf =>
    obtain ⟨st, h1, h2⟩ := lossAggregateLoop_state _ _ _ _ hx hf
    exact ⟨st, h1, by simpa using h2⟩

/-- Sum over the labels of the sums per label is the sum over all pairs. -/
theorem sum_members (k : Nat) : ∀ (els : List (F × Int)), (∀ p ∈ els, 0 ≤ p.2 ∧ p.2 < k) →
    ((List.range k).map fun l => (members els l).sum).sum = (els.map (·.1)).sum := by
  intro els
  induction els with
  | nil =>
    intro _
    have : ∀ m : Nat, ((List.range m).map fun l =>
        (members ([] : List (F × Int)) l).sum).sum = 0 := by
      intro m
      induction m with
      | zero => rfl
      | succ m ih => rw [List.range_succ, List.map_append, List.sum_append, ih]; simp [members]
    simpa using this k
  | cons p els ih =>
    intro h
    have ih' := ih (fun q hq => h q (by simp [hq]))
    obtain ⟨h0, hk⟩ := h p (by simp)
    have hone : ∀ m : Nat, ((List.range m).map fun l => (members (p :: els) l).sum).sum =
        (if p.2 < m then p.1 else 0) + ((List.range m).map fun l => (members els l).sum).sum := by
      intro m
      induction m with
      | zero => simp; intro h; omega
      | succ m ihm =>
        rw [List.range_succ, List.map_append, List.sum_append, List.map_append, List.sum_append,
          ihm]
        simp only [List.map_cons, List.map_nil, List.sum_cons, List.sum_nil, add_zero]
        have hcons : members (p :: els) m = (if p.2 = (m : Int) then [p.1] else []) ++
            members els m := by
          rw [show p :: els = [(p.1, p.2)] ++ els from rfl, members_append, members_single]
        rw [hcons, List.sum_append]
        by_cases hp : p.2 = (m : Int)
        · rw [if_neg (by omega), if_pos hp, if_pos (by omega)]
          simp only [List.sum_cons, List.sum_nil, add_zero, zero_add]
          rw [add_left_comm]
        · rw [if_neg hp]
          simp only [List.sum_nil, zero_add]
          by_cases hlt : p.2 < m
          · rw [if_pos hlt, if_pos (by omega), add_assoc]
          · rw [if_neg hlt, if_neg (by omega), add_assoc]
    rw [hone, ih', if_pos hk, List.map_cons, List.sum_cons]

theorem LossState.sum {k : Nat} {els : List (F × Int)} {st : List F × List Int}
    (h : LossState k els st) (hr : ∀ p ∈ els, 0 ≤ p.2 ∧ p.2 < k) :
    sumF st.1 = (els.map (·.1)).sum := by
  rw [sumF_eq_sum, ← sum_members k els hr]
  congr 1
  apply List.ext_getElem?
  intro i
  by_cases hi : i < k
  · rw [h.loss i hi, foldl_add_eq_sum]; simp [hi]
  · rw [List.getElem?_eq_none (by rw [h.len1]; omega)]; simp; omega

theorem parLossForLabels_state (space : Space E F) (c data : List E) (labels : List Int)
    (hl : labels.length = data.length) (hr : ∀ l ∈ labels, 0 ≤ l ∧ l < c.length) (norm : F)
    (degree : Int) (hd : 1 ≤ degree) :
    ∃ st, parLossForLabels space c data labels norm degree = some st ∧
      LossState c.length (labelPairs space c norm data labels) st := by
  obtain ⟨chunks, hch⟩ : ∃ chunks, par data.length degree = some chunks := ⟨_, par_eq (by omega)⟩
  let f := fun p : E × Int =>
    (idx? c p.2).map fun x => (GoMath.pow (space.dist p.1 x) norm, p.2)
  obtain ⟨parts, hparts, hall⟩ := allSome_forall₂
    (f := fun k : Chunk => reduceLossForLabels space c (slice data k.start k.stop)
      (slice labels k.start k.stop) norm)
    (Q := fun k p => LossState c.length
      ((slice (data.zip labels) k.start k.stop).filterMap f) p) chunks
    (fun k hk => by
      have hb := par_chunk_bounds hch k hk
      obtain ⟨st, h1, h2⟩ := reduceLossForLabels_state space c (slice data k.start k.stop)
        (slice labels k.start k.stop)
        (by rw [slice_length _ _ _ hb.2, slice_length _ _ _ (by omega)])
        (fun l hl => hr l (List.mem_of_mem_drop (List.mem_of_mem_take (List.mem_of_mem_take hl))))
        norm
      refine ⟨st, h1, ?_⟩
      rw [← zip_slice]
      exact h2)
  obtain ⟨st, hst, hrep⟩ := lossAggregate_state
    (g := fun k : Chunk => (slice (data.zip labels) k.start k.stop).filterMap f) chunks
    (par_chunks_ne_nil hch) parts hall
  refine ⟨st, ?_, ?_⟩
  · unfold parLossForLabels
    simp only [hch, hparts, hst]
  · have : (chunks.flatMap fun k => (slice (data.zip labels) k.start k.stop).filterMap f) =
        (chunks.flatMap fun k => slice (data.zip labels) k.start k.stop).filterMap f := by
      rw [List.filterMap_flatMap]
    rw [this, par_slices (degree := degree) (data.zip labels) (by simpa [hl] using hch)] at hrep
    exact hrep

variable [One F] [Neg F] [LT F] [DecidableLT F]

theorem parLoss_state (hneg : (-1 : F) < 0) (space : Space E F) (c data : List E)
    (hc : c ≠ []) (norm : F) (degree : Int) (hd : 1 ≤ degree) :
    ∃ st, parLoss space c data norm degree = some st ∧
      LossState c.length (lossPairs space c norm data) st := by
  obtain ⟨chunks, hch⟩ : ∃ chunks, par data.length degree = some chunks := ⟨_, par_eq (by omega)⟩
  obtain ⟨parts, hparts, hall⟩ := allSome_forall₂
    (f := fun k : Chunk => reduceLoss space c (slice data k.start k.stop) norm)
    (Q := fun k p => LossState c.length
      (slice (lossPairs space c norm data) k.start k.stop) p) chunks
    (fun k hk => by
      obtain ⟨st, h1, h2⟩ := reduceLoss_state hneg space c (slice data k.start k.stop) hc norm
      refine ⟨st, h1, ?_⟩
      unfold lossPairs
      rw [slice_map]
      exact h2)
  obtain ⟨st, hst, hrep⟩ := lossAggregate_state
    (g := fun k : Chunk => slice (lossPairs space c norm data) k.start k.stop) chunks
    (par_chunks_ne_nil hch) parts hall
  refine ⟨st, ?_, ?_⟩
  · unfold parLoss
    simp only [hch, hparts, hst]
  · rw [par_slices (degree := degree) (lossPairs space c norm data)
      (by simpa [lossPairs] using hch)] at hrep
    exact hrep

end
end Distclus
