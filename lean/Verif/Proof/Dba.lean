import Verif.Proof.Nearest
import Verif.Spec.Mean
import Mathlib.Tactic.Module
import Mathlib.Tactic.FieldSimp
import Mathlib.Tactic.Ring
import Mathlib.Tactic.Linarith
import Mathlib.Tactic.Positivity

set_option linter.unusedSectionVars false

namespace Distclus
open Spec
section
variable {E F : Type}

theorem running_fold_weight (space : Space E F) (es : List E) (m : E) (w : Int) :
    (es.foldl (fun mw x => (space.combine mw.1 mw.2 x 1, mw.2 + 1)) (m, w)).2 = w + es.length := by
  induction es generalizing m w with
  | nil => simp
  | cons e es ih => simp only [List.foldl_cons, ih, List.length_cons]; push_cast; omega

theorem running_nil (space : Space E F) : running space [] = none := rfl

theorem running_snoc (space : Space E F) (ms : List E) (e : E) {m : E}
    (h : running space ms = some m) :
    running space (ms ++ [e]) = some (space.combine m ms.length e 1) := by
  cases ms with
  | nil => simp [running] at h
  | cons a as =>
    simp only [running, Option.some.injEq] at h
    simp only [List.cons_append, running, List.foldl_append, List.foldl_cons, List.foldl_nil,
      Option.some.injEq]
    rw [h, running_fold_weight]
    congr 1
    simp only [List.length_cons]; push_cast; omega

theorem running_isSome (space : Space E F) {ms : List E} (h : ms ≠ []) :
    ∃ m, running space ms = some m := by
  cases ms with
  | nil => exact absurd rfl h
  | cons a as => exact ⟨_, rfl⟩

theorem members_append (a b : List (E × Int)) (l : Nat) :
    members (a ++ b) l = members a l ++ members b l := by
  simp [members, List.filter_append]

theorem members_single (e : E) (i : Int) (l : Nat) :
    members [(e, i)] l = if i = (l : Int) then [e] else [] := by
  unfold members
  by_cases h : i = (l : Int)
  · simp [h]
  · simp [h]

/-- The state of the reduction after accounting the pairs `els`. -/
structure DbaState (space : Space E F) (k : Nat) (els : List (E × Int))
    (st : List (Option E) × List Int) : Prop where
  len1 : st.1.length = k
  len2 : st.2.length = k
  cent : ∀ l, l < k → st.1[l]? = some (running space (members els l))
  card : ∀ l, l < k → st.2[l]? = some ((members els l).length : Int)

theorem DbaState.init (space : Space E F) (k : Nat) :
    DbaState space k [] (List.replicate k none, List.replicate k 0) := by
  constructor
  · simp
  · simp
  · intro l hl; simp [hl, members, running]
  · intro l hl; simp [hl, members]

theorem dbaStep_inv {space : Space E F} {k : Nat} {els : List (E × Int)}
    {st : List (Option E) × List Int} (h : DbaState space k els st) (ix : Nat) (hix : ix < k)
    (e : E) : ∃ st', dbaStep space st (ix : Int) e = some st' ∧
      DbaState space k (els ++ [(e, (ix : Int))]) st' := by
  unfold dbaStep
  simp only [idx?_natCast, h.card ix hix, h.cent ix hix, Int.toNat_natCast]
  by_cases h0 : members els ix = []
  · simp only [h0, List.length_nil, Nat.cast_zero, if_true]
    refine ⟨_, rfl, ?_, ?_, ?_, ?_⟩
    · simpa using h.len1
    · simpa using h.len2
    · intro l hl
      rw [members_append, members_single]
      by_cases hll : (ix : Int) = l
      · have : l = ix := by omega
        subst this
        simp [h.len1, hl, h0, running]
      · have : ¬ ix = l := by omega
        simp only [List.getElem?_set, this, if_false, hll, List.append_nil]
        exact h.cent l hl
    · intro l hl
      rw [members_append, members_single]
      by_cases hll : (ix : Int) = l
      · have : l = ix := by omega
        subst this
        simp [h.len2, hl, h0]
      · have : ¬ ix = l := by omega
        simp only [List.getElem?_set, this, if_false, hll, List.append_nil]
        exact h.card l hl
  · obtain ⟨m, hm⟩ := running_isSome space h0
    have hlen : ¬ (((members els ix).length : Int) = 0) := by
      have : (members els ix).length ≠ 0 := fun hc => h0 (List.length_eq_zero_iff.1 hc)
      omega
    simp only [hlen, if_false, hm]
    refine ⟨_, rfl, ?_, ?_, ?_, ?_⟩
    · simpa using h.len1
    · simpa using h.len2
    · intro l hl
      rw [members_append, members_single]
      by_cases hll : (ix : Int) = l
      · have : l = ix := by omega
        subst this
        simp only [List.getElem?_set, h.len1, hl, if_true]
        rw [running_snoc space _ e hm]
      · have : ¬ ix = l := by omega
        simp only [List.getElem?_set, this, if_false, hll, List.append_nil]
        exact h.cent l hl
    · intro l hl
      rw [members_append, members_single]
      by_cases hll : (ix : Int) = l
      · have : l = ix := by omega
        subst this
        simp [h.len2, hl]
      · have : ¬ ix = l := by omega
        simp only [List.getElem?_set, this, if_false, hll, List.append_nil]
        exact h.card l hl

theorem dbaLoop_inv {space : Space E F} {k : Nat} : ∀ (es : List E) (ls : List Int)
    (els : List (E × Int)) (st : List (Option E) × List Int), DbaState space k els st →
    es.length ≤ ls.length → (∀ l ∈ ls.take es.length, 0 ≤ l ∧ l < k) →
    ∃ st', dbaLoop space es ls st = some st' ∧ DbaState space k (els ++ es.zip ls) st' := by
  intro es
  induction es with
  | nil => intro ls els st h _ _; exact ⟨st, rfl, by simpa using h⟩
  | cons e es ih =>
    intro ls els st h hlen hr
    cases ls with
    | nil => simp at hlen
    | cons l ls =>
      obtain ⟨hl0, hlk⟩ := hr l (by simp)
      obtain ⟨n, rfl⟩ := Int.eq_ofNat_of_zero_le hl0
      obtain ⟨st1, h1, hst1⟩ := dbaStep_inv h n (by omega) e
      obtain ⟨st2, h2, hst2⟩ := ih ls _ st1 hst1 (by simpa using hlen)
        (fun l hl => hr l (by simp [hl]))
      refine ⟨st2, ?_, ?_⟩
      · unfold dbaLoop
        rw [h1]
        exact h2
      · simpa using hst2

theorem card_sum (k : Nat) : ∀ (els : List (E × Int)), (∀ p ∈ els, 0 ≤ p.2 ∧ p.2 < k) →
    ((List.range k).map fun l => ((members els l).length : Int)).sum = els.length := by
  intro els
  induction els with
  | nil =>
    intro _
    have : ∀ m : Nat, ((List.range m).map fun l =>
        (((members ([] : List (E × Int)) l).length : Int))).sum = 0 := by
      intro m
      induction m with
      | zero => rfl
      | succ m ih => rw [List.range_succ, List.map_append, List.sum_append, ih]; rfl
    simpa using this k
  | cons p els ih =>
    intro h
    have ih' := ih (fun q hq => h q (by simp [hq]))
    obtain ⟨h0, hk⟩ := h p (by simp)
    have hone : ∀ m : Nat, ((List.range m).map fun l =>
        ((members (p :: els) l).length : Int)).sum =
        ((List.range m).map fun l => ((members els l).length : Int)).sum +
          (if p.2 < m then 1 else 0) := by
      intro m
      induction m with
      | zero => simp; omega
      | succ m ihm =>
        rw [List.range_succ, List.map_append, List.sum_append, List.map_append, List.sum_append,
          ihm]
        simp only [List.map_cons, List.map_nil, List.sum_cons, List.sum_nil]
        have hcons : members (p :: els) m = (if p.2 = (m : Int) then [p.1] else []) ++
            members els m := by
          rw [show p :: els = [(p.1, p.2)] ++ els from rfl, members_append, members_single]
        rw [hcons]
        by_cases hp : p.2 = (m : Int)
        · simp [hp]; omega
        · simp only [hp, if_false, List.nil_append]
          push_cast
          split <;> split <;> omega
    rw [hone, ih', if_pos hk]
    simp

theorem DbaState.unique {space : Space E F} {k : Nat} {els : List (E × Int)}
    {s1 s2 : List (Option E) × List Int} (h1 : DbaState space k els s1)
    (h2 : DbaState space k els s2) : s1 = s2 := by
  apply Prod.ext
  · apply List.ext_getElem?
    intro i
    by_cases hi : i < k
    · rw [h1.cent i hi, h2.cent i hi]
    · rw [List.getElem?_eq_none (by rw [h1.len1]; omega),
        List.getElem?_eq_none (by rw [h2.len1]; omega)]
  · apply List.ext_getElem?
    intro i
    by_cases hi : i < k
    · rw [h1.card i hi, h2.card i hi]
    · rw [List.getElem?_eq_none (by rw [h1.len2]; omega),
        List.getElem?_eq_none (by rw [h2.len2]; omega)]

end

section
variable {E F : Type} [Zero F] [One F] [Neg F] [LT F] [DecidableLT F]

/-- Labels computed by `nearest` are in range. -/
theorem nearest_range (hneg : (-1 : F) < 0) (space : Space E F) (c : List E) (hc : c ≠ [])
    (e : E) : 0 ≤ (nearest space c e).1 ∧ (nearest space c e).1 < c.length := by
  obtain ⟨j, x, hj, h⟩ := nearest_mem hneg space c e hc
  rw [h]
  have := (List.getElem?_eq_some_iff.1 hj).1
  simp only
  omega

/-- `ReduceDBA` is `ReduceDBAForLabels` with the labels of `MapLabel`. -/
theorem reduceLoop_eq (hneg : (-1 : F) < 0) (space : Space E F) (c : List E) :
    ∀ (es : List E) (st : List (Option E) × List Int), c ≠ [] →
    reduceLoop space c es st = dbaLoop space es (mapLabel space c es).1 st := by
  intro es
  induction es with
  | nil => intros; rfl
  | cons e es ih =>
    intro st hc
    obtain ⟨j, x, hj, hn, ha⟩ := assign_eq hneg space c e hc
    unfold reduceLoop
    rw [ha]
    simp only [mapLabel, List.map_cons, dbaLoop, hn]
    cases dbaStep space st (j : Int) e with
    | none => rfl
    | some st' => exact ih st' hc

/-- The pairs (element, label) of the labelling. -/
def labelled (space : Space E F) (c es : List E) : List (E × Int) :=
  es.map fun e => (e, (nearest space c e).1)

theorem zip_mapLabel (space : Space E F) (c es : List E) :
    es.zip (mapLabel space c es).1 = labelled space c es := by
  induction es with
  | nil => rfl
  | cons e es ih =>
    simp only [mapLabel, List.map_cons, List.zip_cons_cons, labelled] at *
    rw [ih]

theorem reduceDBA_state (hneg : (-1 : F) < 0) (space : Space E F) (c es : List E) (hc : c ≠ []) :
    ∃ st, reduceDBA space c es = some st ∧ DbaState space c.length (labelled space c es) st := by
  unfold reduceDBA
  rw [reduceLoop_eq hneg space c es _ hc]
  obtain ⟨st, h1, h2⟩ := dbaLoop_inv es (mapLabel space c es).1 [] _
    (DbaState.init space c.length) (by simp [mapLabel]) (by
      intro l hl
      have hl := List.mem_of_mem_take hl
      simp only [mapLabel, List.mem_map] at hl
      obtain ⟨e, _, rfl⟩ := hl
      exact nearest_range hneg space c hc e)
  rw [List.nil_append, zip_mapLabel] at h2
  exact ⟨st, h1, h2⟩

end
end Distclus
