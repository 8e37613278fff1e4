import Verif.Model.ParCap
import Verif.Spec.ParCap
import Verif.Proof.Nan
/-!
# When the reductions panic: lemmas
-/
set_option linter.unusedSectionVars false

namespace Distclus
open Spec

theorem labelsOk_iff_take (k n : Nat) (labels : List Int) :
    LabelsOk k n labels ↔ n ≤ labels.length ∧ ∀ l ∈ labels.take n, 0 ≤ l ∧ l < k := by
  constructor
  · intro h
    have hn : n ≤ labels.length := by
      by_contra hc
      obtain ⟨l, hl, -⟩ := h labels.length (by omega)
      simp at hl
    refine ⟨hn, fun l hl => ?_⟩
    obtain ⟨i, hi, rfl⟩ := List.mem_take_iff_getElem.1 hl
    obtain ⟨l, hl, h1⟩ := h i (by omega)
    rw [List.getElem?_eq_getElem (by omega), Option.some.injEq] at hl
    rw [hl]; exact h1
  · rintro ⟨hn, h⟩ i hi
    refine ⟨labels[i]'(by omega), List.getElem?_eq_getElem _, h _ ?_⟩
    exact List.mem_take_iff_getElem.2 ⟨i, by omega, rfl⟩

theorem labelsOk_cons (k n : Nat) (l : Int) (ls : List Int) :
    LabelsOk k (n + 1) (l :: ls) ↔ (0 ≤ l ∧ l < k) ∧ LabelsOk k n ls := by
  constructor
  · intro h
    constructor
    · obtain ⟨x, hx, h1⟩ := h 0 (by omega)
      simp at hx; rw [hx]; exact h1
    · intro i hi
      obtain ⟨x, hx, h1⟩ := h (i + 1) (by omega)
      exact ⟨x, by simpa using hx, h1⟩
  · rintro ⟨h0, h⟩ i hi
    cases i with
    | zero => exact ⟨l, rfl, h0⟩
    | succ i =>
      obtain ⟨x, hx, h1⟩ := h i (by omega)
      exact ⟨x, by simpa using hx, h1⟩

theorem not_labelsOk_nil (k n : Nat) : ¬ LabelsOk k (n + 1) [] := fun h => by
  obtain ⟨l, hl, -⟩ := h 0 (by omega)
  cases hl

theorem idx?_some_range {α : Type} {l : List α} {i : Int} {x : α} (h : idx? l i = some x) : 0 ≤ i ∧ i < l.length := by
  unfold idx? at h
  split at h
  · cases h
  · have := (List.getElem?_eq_some_iff.1 h).1
    omega

/-! ### One worker -/
section
variable {E F : Type}

theorem dbaStep_some {space : Space E F} {st st' : List (Option E) × List Int} {ix : Int} {e : E}
    (h : dbaStep space st ix e = some st') : (0 ≤ ix ∧ ix < st.2.length) ∧ st'.2.length = st.2.length := by
  unfold dbaStep at h
  split at h
  · cases h
  · rename_i card hc
    refine ⟨idx?_some_range hc, ?_⟩
    split at h
    · cases h; simp
    · split at h
      · cases h; simp
      · cases h

theorem dbaLoop_some {space : Space E F} : ∀ (es : List E) (ls : List Int) (st st' : List (Option E) × List Int),
    dbaLoop space es ls st = some st' → LabelsOk st.2.length es.length ls
  | [], _, _, _, _ => fun i hi => absurd hi (Nat.not_lt_zero i)
  | _ :: _, [], _, _, h => by cases h
  | e :: es, l :: ls, st, st', h => by
    unfold dbaLoop at h
    cases h1 : dbaStep space st l e with
    | none => rw [h1] at h; cases h
    | some st1 =>
      rw [h1] at h
      obtain ⟨h2, h3⟩ := dbaStep_some h1
      have := dbaLoop_some es ls st1 st' h
      rw [h3] at this
      exact (labelsOk_cons _ _ _ _).2 ⟨h2, this⟩

theorem reduceDBAForLabels_none (space : Space E F) (c es : List E) (ls : List Int) :
    reduceDBAForLabels space c es ls = none ↔ ¬ LabelsOk c.length es.length ls := by
  constructor
  · intro h hok
    obtain ⟨h1, h2⟩ := (labelsOk_iff_take _ _ _).1 hok
    obtain ⟨st, h3, -⟩ := dbaLoop_inv es ls [] _ (DbaState.init space c.length) h1 h2
    unfold reduceDBAForLabels at h
    rw [h3] at h; cases h
  · intro h
    cases hr : reduceDBAForLabels space c es ls with
    | none => rfl
    | some st =>
      have := dbaLoop_some es ls _ _ hr
      rw [List.length_replicate] at this
      exact absurd this h

variable [Zero F] [Add F] [GoMath F]

theorem lossStep_some {st st' : List F × List Int} {ix : Int} {v : F}
    (h : lossStep st ix v = some st') :
    (0 ≤ ix ∧ ix < st.2.length) ∧ st'.1.length = st.1.length ∧ st'.2.length = st.2.length := by
  unfold lossStep at h
  split at h
  · rename_i card l hc hl
    cases h
    exact ⟨idx?_some_range hc, by simp, by simp⟩
  · cases h

theorem lossLabelLoop_some {space : Space E F} {c : List E} {norm : F} : ∀ (es : List E) (ls : List Int)
    (st st' : List F × List Int), lossLabelLoop space c norm es ls st = some st' → LabelsOk c.length es.length ls
  | [], _, _, _, _ => fun i hi => absurd hi (Nat.not_lt_zero i)
  | _ :: _, [], _, _, h => by cases h
  | e :: es, l :: ls, st, st', h => by
    unfold lossLabelLoop at h
    cases h0 : idx? c l with
    | none => rw [h0] at h; cases h
    | some x =>
      simp only [h0] at h
      cases h1 : lossStep st l (GoMath.pow (space.dist e x) norm) with
      | none => rw [h1] at h; cases h
      | some st1 =>
        rw [h1] at h
        exact (labelsOk_cons _ _ _ _).2 ⟨idx?_some_range h0, lossLabelLoop_some es ls st1 st' h⟩

theorem reduceLossForLabels_none (space : Space E F) (c es : List E) (ls : List Int) (norm : F) :
    reduceLossForLabels space c es ls norm = none ↔ ¬ LabelsOk c.length es.length ls := by
  constructor
  · intro h hok
    obtain ⟨h1, h2⟩ := (labelsOk_iff_take _ _ _).1 hok
    obtain ⟨st, h3, -⟩ := reduceLossForLabels_state space c es ls h1 h2 norm
    rw [h3] at h; cases h
  · intro h
    cases hr : reduceLossForLabels space c es ls norm with
    | none => rfl
    | some st => exact absurd (lossLabelLoop_some es ls _ _ hr) h

end

/-! ### The partitions -/

/-- Each position is in a part. -/
theorem par_covers {n : Nat} {degree : Int} {chunks : List Chunk} (h : par n degree = some chunks) {i : Nat} (hi : i < n) :
    ∃ k ∈ chunks, k.start ≤ i ∧ i < k.stop := by
  have hs := par_slices (List.range n) (degree := degree) (chunks := chunks) (by rw [List.length_range]; exact h)
  have hm : i ∈ List.range n := List.mem_range.2 hi
  rw [← hs] at hm
  obtain ⟨k, hk, hik⟩ := List.mem_flatMap.1 hm
  refine ⟨k, hk, ?_⟩
  have hb := par_chunk_bounds h k hk
  unfold slice at hik
  obtain ⟨j, hj, hji⟩ := List.mem_take_iff_getElem.1 hik
  rw [List.getElem_drop, List.getElem_range] at hji
  omega

theorem slice_get {α : Type} (l : List α) (a b j : Nat) (h : j < b - a) : (slice l a b)[j]? = l[a + j]? := by
  unfold slice
  rw [List.getElem?_take, if_pos h, List.getElem?_drop]

theorem slice_take {α : Type} (l : List α) (a b n : Nat) (h : b ≤ n) : slice (l.take n) a b = slice l a b := by
  unfold slice
  rw [List.drop_take, List.take_take, Nat.min_eq_left (by omega)]

section
variable {E P : Type}

/-- The workers panic if and only if a label is missing or out of range. -/
theorem workers_none {k : Nat} (g : List E → List Int → Option P)
    (hg : ∀ es ls, g es ls = none ↔ ¬ LabelsOk k es.length ls) (data : List E) (labels : List Int) {degree : Int}
    {chunks : List Chunk} (h : par data.length degree = some chunks) :
    allSome (chunks.map fun k => g (slice data k.start k.stop) (slice labels k.start k.stop)) = none ↔
      ¬ LabelsOk k data.length labels := by
  have hlen : ∀ c ∈ chunks, (slice data c.start c.stop).length = c.stop - c.start := fun c hc =>
    slice_length _ _ _ (par_chunk_bounds h c hc).2
  constructor
  · intro hn hok
    obtain ⟨rs, hrs, -⟩ := allSome_forall₂ (Q := fun _ _ => True)
      (f := fun k => g (slice data k.start k.stop) (slice labels k.start k.stop)) chunks (fun c hc => by
        cases hv : g (slice data c.start c.stop) (slice labels c.start c.stop) with
        | some r => exact ⟨r, rfl, trivial⟩
        | none =>
          refine absurd (fun j hj => ?_) ((hg _ _).1 hv)
          rw [hlen c hc] at hj
          obtain ⟨l, hl, h1⟩ := hok (c.start + j) (by have := (par_chunk_bounds h c hc).2; omega)
          exact ⟨l, by rw [slice_get _ _ _ _ hj]; exact hl, h1⟩)
    rw [hrs] at hn; cases hn
  · intro hbad
    unfold LabelsOk at hbad
    push Not at hbad
    obtain ⟨i, hi, hbad⟩ := hbad
    obtain ⟨c, hc, h1, h2⟩ := par_covers h hi
    refine allSome_none (f := fun k => g (slice data k.start k.stop) (slice labels k.start k.stop)) hc
      ((hg _ _).2 fun hok => ?_)
    obtain ⟨l, hl, h3, h4⟩ := hok (i - c.start) (by rw [hlen c hc]; omega)
    rw [slice_get _ _ _ _ (by omega), show c.start + (i - c.start) = i by omega] at hl
    exact absurd h4 (by have := hbad l hl h3; omega)

/-- With enough capacity the workers see the labels followed by the spare elements. -/
theorem workers_cap (g : List E → List Int → Option P) (data : List E) (labels spare : List Int) {degree : Int}
    {chunks : List Chunk} (h : par data.length degree = some chunks) (hcap : data.length ≤ labels.length + spare.length) :
    (chunks.map fun k => (reslice labels spare k.start k.stop).bind fun ls => g (slice data k.start k.stop) ls) =
    chunks.map fun k => g (slice data k.start k.stop) (slice (labels ++ spare) k.start k.stop) := by
  apply List.map_congr_left
  intro c hc
  have hb := par_chunk_bounds h c hc
  unfold reslice
  rw [if_pos ⟨hb.1, by omega⟩, Option.bind_some]

/-- Without, one panics. -/
theorem workers_short (g : List E → List Int → Option P) (data : List E) (labels spare : List Int) {degree : Int}
    {chunks : List Chunk} (h : par data.length degree = some chunks) (hcap : labels.length + spare.length < data.length) :
    allSome (chunks.map fun k => (reslice labels spare k.start k.stop).bind fun ls => g (slice data k.start k.stop) ls) =
      none := by
  obtain ⟨c, hc, h1, h2⟩ := par_covers h (i := data.length - 1) (by omega)
  refine allSome_none (f := fun k => (reslice labels spare k.start k.stop).bind fun ls => g (slice data k.start k.stop) ls) hc ?_
  unfold reslice
  rw [if_neg (by omega), Option.bind_none]

end

/-! ### The aggregates -/
section
variable {E F : Type} [Zero F] [Add F] [GoMath F]

theorem addLoop_some : ∀ (ls' : List F) (cs' : List Int) (ls : List F) (cs : List Int), cs'.length = ls'.length →
    ls.length = ls'.length → cs.length = ls'.length →
    ∃ r, addLoop ls' cs' ls cs = some r ∧ r.1.length = ls'.length ∧ r.2.length = ls'.length
  | [], _, ls, cs, _, h2, h3 => ⟨(ls, cs), rfl, h2, h3⟩
  | l' :: ls', [], _, _, h1, _, _ => by simp at h1
  | l' :: ls', _ :: _, [], _, _, h2, _ => by simp at h2
  | l' :: ls', _ :: _, _ :: _, [], _, _, h3 => by simp at h3
  | l' :: ls', c' :: cs', l :: ls, c :: cs, h1, h2, h3 => by
    obtain ⟨r, hr, h4, h5⟩ := addLoop_some ls' cs' ls cs (by simpa using h1) (by simpa using h2) (by simpa using h3)
    refine ⟨((l + l') :: r.1, (c + c') :: r.2), ?_, by simp [h4], by simp [h5]⟩
    simp only [addLoop, hr]

theorem lossAggregate_some {k : Nat} (parts : List (List F × List Int))
    (h : ∀ p ∈ parts, p.1.length = k ∧ p.2.length = k) : ∃ r, lossAggregate parts = some r := by
  cases parts with
  | nil => exact ⟨_, rfl⟩
  | cons p ps =>
    have key : ∀ (ps : List (List F × List Int)) (a : List F × List Int), a.1.length = k ∧ a.2.length = k →
        (∀ p ∈ ps, p.1.length = k ∧ p.2.length = k) → ∃ r, lossAggregateLoop ps a = some r := by
      intro ps
      induction ps with
      | nil => intro a _ _; exact ⟨a, rfl⟩
      | cons p ps ih =>
        intro a ha hps
        obtain ⟨h1, h2⟩ := hps p (by simp)
        obtain ⟨r, hr, h3, h4⟩ := addLoop_some p.1 p.2 a.1 a.2 (by omega) (by omega) (by omega)
        obtain ⟨q, hq⟩ := ih r ⟨by omega, by omega⟩ fun p hp => hps p (by simp [hp])
        exact ⟨q, by simp only [lossAggregateLoop, addLists, hr, hq]⟩
    exact key ps p (h p (by simp)) fun q hq => h q (by simp [hq])

/-- The aggregation does not panic. -/
theorem lossParts_some {α : Type} {k : Nat} (f : α → Option (List F × List Int))
    (hf : ∀ a r, f a = some r → r.1.length = k ∧ r.2.length = k) (l : List α) (parts : List (List F × List Int))
    (hp : allSome (l.map f) = some parts) : ∃ r, lossAggregate parts = some r := by
  have hall : ∀ (l : List α) (parts : List (List F × List Int)), allSome (l.map f) = some parts →
      ∀ p ∈ parts, p.1.length = k ∧ p.2.length = k := by
    intro l
    induction l with
    | nil => intro parts h p hp; cases h; cases hp
    | cons a l ih =>
      intro parts h p hp
      rw [List.map_cons] at h
      cases ha : f a with
      | none => rw [ha] at h; cases h
      | some r =>
        rw [ha] at h
        unfold allSome at h
        split at h
        · cases h
        · rename_i rs hrs
          cases h
          rcases List.mem_cons.1 hp with rfl | hp
          · exact hf a _ ha
          · exact ih _ hrs p hp
  exact lossAggregate_some parts (hall l parts hp)

end
end Distclus
