import Verif.Proof.Loss
import Verif.Proof.Rounding
import Verif.Spec.FlLoss
/-!
# Proofs: the losses as sums in some order, and their rounding
-/
set_option linter.unusedSectionVars false
namespace Distclus
open Spec
section
variable {E F : Type} [Zero F] [Add F] [GoMath F]

/-- Every loss is a sum of the losses of the members of its label. -/
structure SumState (k : Nat) (els : List (F × Int)) (st : List F × List Int) : Prop where
  len1 : st.1.length = k
  len2 : st.2.length = k
  loss : ∀ l, l < k → ∃ x, st.1[l]? = some x ∧ SumOf (members els l) x

theorem sumOf_foldl : ∀ (vs pre : List F) (x : F), SumOf pre x → SumOf (pre ++ vs) (vs.foldl (· + ·) x) := by
  intro vs
  induction vs with
  | nil => intro pre x h; simpa using h
  | cons v vs ih =>
    intro pre x h
    have := ih (pre ++ [v]) (x + v) (h.add (.one v))
    simpa using this

theorem LossState.sumState {k : Nat} {els : List (F × Int)} {st : List F × List Int}
    (h : LossState k els st) : SumState k els st :=
  ⟨h.len1, h.len2, fun l hl => ⟨_, h.loss l hl, by simpa using sumOf_foldl (members els l) [] 0 .zero⟩⟩

theorem addLoop_each : ∀ (ls' : List F) (cs' : List Int) (ls : List F) (cs : List Int),
    cs'.length = ls'.length → ls.length = ls'.length → cs.length = ls'.length →
    ∃ st, addLoop ls' cs' ls cs = some st ∧ st.1.length = ls'.length ∧ st.2.length = ls'.length ∧
      ∀ l : Nat, ∀ x x', ls[l]? = some x → ls'[l]? = some x' → st.1[l]? = some (x + x') := by
  intro ls'
  induction ls' with
  | nil =>
    intro cs' ls cs h1 h2 h3
    refine ⟨(ls, cs), rfl, h2, h3, ?_⟩
    intro l x x' _ h'; simp at h'
  | cons l' ls' ih =>
    intro cs' ls cs h1 h2 h3
    cases cs' with
    | nil => simp at h1
    | cons c' cs' =>
    cases ls with
    | nil => simp at h2
    | cons l ls =>
    cases cs with
    | nil => simp at h3
    | cons c cs =>
      obtain ⟨⟨s1, s2⟩, hst, hl1, hl2, hp⟩ := ih cs' ls cs (by simpa using h1) (by simpa using h2)
        (by simpa using h3)
      refine ⟨((l + l') :: s1, (c + c') :: s2), by simp only [addLoop, hst], by simpa using hl1,
        by simpa using hl2, ?_⟩
      intro i x x' hx hx'
      cases i with
      | zero => simp at hx hx'; subst hx hx'; simp
      | succ i => simpa using hp i x x' (by simpa using hx) (by simpa using hx')

theorem addLists_sumState {k : Nat} {ea eb : List (F × Int)} {a b : List F × List Int}
    (ha : SumState k ea a) (hb : SumState k eb b) :
    ∃ st, addLists a b = some st ∧ SumState k (ea ++ eb) st := by
  obtain ⟨st, hst, h1, h2, hp⟩ := addLoop_each b.1 b.2 a.1 a.2 (by rw [hb.len1, hb.len2])
    (by rw [ha.len1, hb.len1]) (by rw [ha.len2, hb.len1])
  refine ⟨st, hst, by rw [h1, hb.len1], by rw [h2, hb.len1], fun l hl => ?_⟩
  obtain ⟨x, hx, sx⟩ := ha.loss l hl
  obtain ⟨y, hy, sy⟩ := hb.loss l hl
  exact ⟨_, hp l _ _ hx hy, by rw [members_append]; exact sx.add sy⟩

theorem lossAggregateLoop_sumState {k : Nat} {α : Type} {g : α → List (F × Int)} : ∀ (xs : List α)
    (parts : List (List F × List Int)) (pre : List (F × Int)) (agg : List F × List Int),
    SumState k pre agg → List.Forall₂ (fun x p => SumState k (g x) p) xs parts →
    ∃ st, lossAggregateLoop parts agg = some st ∧ SumState k (pre ++ xs.flatMap g) st := by
  intro xs
  induction xs with
  | nil =>
    intro parts pre agg h hf
    cases hf
    exact ⟨agg, rfl, by simpa using h⟩
  | cons x xs ih =>
    intro parts pre agg h hf
    cases hf with
    | cons hx hf =>
      rename_i p ps
      obtain ⟨st, hst, hr⟩ := addLists_sumState h hx
      obtain ⟨st', hst', hr'⟩ := ih ps _ st hr hf
      exact ⟨st', by simp only [lossAggregateLoop, hst, hst'], by simpa using hr'⟩

theorem lossAggregate_sumState {k : Nat} {α : Type} {g : α → List (F × Int)} (xs : List α)
    (hne : xs ≠ []) (parts : List (List F × List Int))
    (hf : List.Forall₂ (fun x p => SumState k (g x) p) xs parts) :
    ∃ st, lossAggregate parts = some st ∧ SumState k (xs.flatMap g) st := by
  cases hf with
  | nil => exact absurd rfl hne
  | cons hx hf =>
    obtain ⟨st, h1, h2⟩ := lossAggregateLoop_sumState _ _ _ _ hx hf
    exact ⟨st, h1, by simpa using h2⟩

/-- The members of all the labels are all the elements. -/
theorem members_perm (k : Nat) : ∀ (els : List (F × Int)), (∀ p ∈ els, 0 ≤ p.2 ∧ p.2 < k) →
    ((List.range k).flatMap fun l => members els l).Perm (els.map (·.1)) := by
  intro els
  induction els with
  | nil => intro _; simp [members]
  | cons p els ih =>
    intro h
    have ih' := ih (fun q hq => h q (by simp [hq]))
    obtain ⟨h0, hk⟩ := h p (by simp)
    have hcons : ∀ m : Nat, members (p :: els) m = (if p.2 = (m : Int) then [p.1] else []) ++
        members els m := by
      intro m
      rw [show p :: els = [(p.1, p.2)] ++ els from rfl, members_append, members_single]
    have hone : ∀ m : Nat, ((List.range m).flatMap fun l => members (p :: els) l).Perm
        ((if p.2 < m then [p.1] else []) ++ (List.range m).flatMap fun l => members els l) := by
      intro m
      induction m with
      | zero => simp; omega
      | succ m ihm =>
        rw [List.range_succ, List.flatMap_append, List.flatMap_append]
        simp only [List.flatMap_cons, List.flatMap_nil, List.append_nil]
        rw [hcons]
        by_cases hp : p.2 = (m : Int)
        · rw [if_neg (by omega)] at ihm
          rw [if_pos hp, if_pos (by omega)]
          simp only [List.nil_append] at ihm
          refine (ihm.append_right _).trans ?_
          simp only [List.singleton_append]
          exact List.perm_middle
        · rw [if_neg hp, List.nil_append]
          by_cases hlt : p.2 < m
          · rw [if_pos hlt] at ihm
            rw [if_pos (by omega)]
            simpa using ihm.append_right (members els m)
          · rw [if_neg hlt] at ihm
            rw [if_neg (by omega)]
            simpa using ihm.append_right (members els m)
    refine (hone k).trans ?_
    rw [if_pos hk]
    simpa using ih'

theorem sumOf_foldl_lists : ∀ (xs : List F) (vs : List (List F)) (pre : List F) (x : F), SumOf pre x →
    List.Forall₂ SumOf vs xs → SumOf (pre ++ vs.flatten) (xs.foldl (· + ·) x) := by
  intro xs
  induction xs with
  | nil => intro vs pre x h hf; cases hf; simpa using h
  | cons y ys ih =>
    intro vs pre x h hf
    cases hf with
    | cons hy hf =>
      rename_i v vs
      have := ih vs (pre ++ v) (x + y) (h.add hy) hf
      simpa using this

theorem SumState.total {k : Nat} {els : List (F × Int)} {st : List F × List Int}
    (h : SumState k els st) (hr : ∀ p ∈ els, 0 ≤ p.2 ∧ p.2 < k) :
    ∃ vs, vs.Perm (els.map (·.1)) ∧ SumOf vs (sumF st.1) := by
  refine ⟨_, members_perm k els hr, ?_⟩
  have hf : List.Forall₂ SumOf ((List.range k).map fun l => members els l) st.1 := by
    rw [List.forall₂_iff_get]
    refine ⟨by simp [h.len1], fun i h1 h2 => ?_⟩
    obtain ⟨x, hx, hs⟩ := h.loss i (by simpa using h1)
    have := (List.getElem?_eq_some_iff.1 hx).2
    simp [this, hs]
  have := sumOf_foldl_lists st.1 _ [] 0 .zero hf
  rw [List.nil_append, ← List.flatMap_def] at this
  exact this

variable [One F] [Neg F] [LT F] [DecidableLT F]

theorem parLoss_sumState (hneg : (-1 : F) < 0) (space : Space E F) (c data : List E)
    (hc : c ≠ []) (norm : F) (degree : Int) (hd : 1 ≤ degree) :
    ∃ st, parLoss space c data norm degree = some st ∧
      SumState c.length (lossPairs space c norm data) st := by
  obtain ⟨chunks, hch⟩ : ∃ chunks, par data.length degree = some chunks := ⟨_, par_eq (by omega)⟩
  obtain ⟨parts, hparts, hall⟩ := allSome_forall₂
    (f := fun k : Chunk => reduceLoss space c (slice data k.start k.stop) norm)
    (Q := fun k p => SumState c.length
      (slice (lossPairs space c norm data) k.start k.stop) p) chunks
    (fun k hk => by
      obtain ⟨st, h1, h2⟩ := reduceLoss_state hneg space c (slice data k.start k.stop) hc norm
      refine ⟨st, h1, ?_⟩
      unfold lossPairs
      rw [slice_map]
      exact h2.sumState)
  obtain ⟨st, hst, hrep⟩ := lossAggregate_sumState
    (g := fun k : Chunk => slice (lossPairs space c norm data) k.start k.stop) chunks
    (par_chunks_ne_nil hch) parts hall
  refine ⟨st, ?_, ?_⟩
  · unfold parLoss
    simp only [hch, hparts, hst]
  · rw [par_slices (degree := degree) (lossPairs space c norm data)
      (by simpa [lossPairs] using hch)] at hrep
    exact hrep
end

/-! ### Rounding -/

/-- A sum of `N` numbers which are not negative has a relative error of `N - 1` roundings, whatever
the order. -/
theorem SumOf.fl {r : Rounding} {vs : List (Fl r)} {x : Fl r} (h : SumOf vs x) (h0 : ∀ v ∈ vs, 0 ≤ v.val) :
    (1 - r.u) ^ (vs.length - 1) * (vs.map Fl.val).sum ≤ x.val ∧
      x.val ≤ (1 + r.u) ^ (vs.length - 1) * (vs.map Fl.val).sum := by
  have hu1 : 0 ≤ 1 - r.u := by linarith [r.u_le_one]
  have hu0 := r.u_nonneg
  induction h with
  | zero =>
    have : (0 : Fl r).val = 0 := rfl
    simp [this]
  | one v => simp
  | @add a b x y hx hy ihx ihy =>
    have hx' := ihx fun v hv => h0 v (by simp [hv])
    have hy' := ihy fun v hv => h0 v (by simp [hv])
    have sa : 0 ≤ (a.map Fl.val).sum := List.sum_nonneg (by simp only [List.mem_map]; rintro _ ⟨v, hv, rfl⟩; exact h0 v (by simp [hv]))
    have sb : 0 ≤ (b.map Fl.val).sum := List.sum_nonneg (by simp only [List.mem_map]; rintro _ ⟨v, hv, rfl⟩; exact h0 v (by simp [hv]))
    have hval : (x + y).val = r.rnd (x.val + y.val) := rfl
    rw [List.map_append, List.sum_append, List.length_append]
    by_cases ha : a = []
    · subst ha
      have : x.val = 0 := by simpa using le_antisymm hx'.2 hx'.1
      rw [hval, this, zero_add, show r.rnd y.val = y.val from y.2]
      simpa using hy'
    by_cases hb : b = []
    · subst hb
      have : y.val = 0 := by simpa using le_antisymm hy'.2 hy'.1
      rw [hval, this, add_zero, show r.rnd x.val = x.val from x.2]
      simpa using hx'
    have la : 1 ≤ a.length := List.length_pos_iff.2 ha
    have lb : 1 ≤ b.length := List.length_pos_iff.2 hb
    have px : 0 ≤ x.val := le_trans (mul_nonneg (pow_nonneg hu1 _) sa) hx'.1
    have py : 0 ≤ y.val := le_trans (mul_nonneg (pow_nonneg hu1 _) sb) hy'.1
    have he := abs_le.1 (r.err_add x.val y.val x.2 y.2)
    rw [abs_of_nonneg (by linarith : 0 ≤ x.val + y.val)] at he
    rw [hval]
    have e : a.length + b.length - 1 = (a.length + b.length - 2) + 1 := by omega
    rw [e, pow_succ, pow_succ]
    constructor
    · have h1 : (1 - r.u) ^ (a.length + b.length - 2) * (a.map Fl.val).sum ≤ x.val :=
        le_trans (mul_le_mul_of_nonneg_right (pow_le_pow_of_le_one hu1 (by linarith) (by omega)) sa) hx'.1
      have h2 : (1 - r.u) ^ (a.length + b.length - 2) * (b.map Fl.val).sum ≤ y.val :=
        le_trans (mul_le_mul_of_nonneg_right (pow_le_pow_of_le_one hu1 (by linarith) (by omega)) sb) hy'.1
      calc _ = (1 - r.u) * ((1 - r.u) ^ (a.length + b.length - 2) * (a.map Fl.val).sum +
            (1 - r.u) ^ (a.length + b.length - 2) * (b.map Fl.val).sum) := by ring
        _ ≤ (1 - r.u) * (x.val + y.val) := by gcongr
        _ ≤ _ := by linarith [he.1]
    · have h1 : x.val ≤ (1 + r.u) ^ (a.length + b.length - 2) * (a.map Fl.val).sum :=
        le_trans hx'.2 (mul_le_mul_of_nonneg_right (pow_le_pow_right₀ (by linarith) (by omega)) sa)
      have h2 : y.val ≤ (1 + r.u) ^ (a.length + b.length - 2) * (b.map Fl.val).sum :=
        le_trans hy'.2 (mul_le_mul_of_nonneg_right (pow_le_pow_right₀ (by linarith) (by omega)) sb)
      calc _ ≤ (1 + r.u) * (x.val + y.val) := by linarith [he.2]
        _ ≤ (1 + r.u) * ((1 + r.u) ^ (a.length + b.length - 2) * (a.map Fl.val).sum +
            (1 + r.u) ^ (a.length + b.length - 2) * (b.map Fl.val).sum) := by gcongr
        _ = _ := by ring

end Distclus
