import Verif.Proof.ParCap
import Verif.Props.Dba
import Verif.Props.Loss
import Verif.Props.KMeans
import Verif.Proof.ParPanic
import Mathlib.Tactic.IntervalCases
/-!
# C138: exactly when the reductions of a clustering panic
-/
set_option linter.unusedSectionVars false

namespace Distclus
open Spec

section
variable {E F : Type} [Zero F] [One F] [Neg F] [LT F] [DecidableLT F]

/-- **C138 (ReduceDBA).** `ReduceDBA` panics if and only if there are elements and no centroid; `ParReduceDBA` does so
too, and for each degree below one. -/
theorem C138_reduceDBA (hneg : (-1 : F) < 0) (space : Space E F) (c data : List E) (degree : Int) :
    (reduceDBA space c data = none ↔ c = [] ∧ data ≠ []) ∧
    (parReduceDBA space c data degree = none ↔ degree ≤ 0 ∨ (c = [] ∧ data ≠ [])) := by
  constructor
  · constructor
    · intro h
      by_cases hc : c = []
      · refine ⟨hc, ?_⟩
        rintro rfl
        cases h
      · obtain ⟨st, h1, -⟩ := reduceDBA_state hneg space c data hc
        rw [h1] at h; cases h
    · rintro ⟨rfl, hd⟩
      obtain ⟨e, es, rfl⟩ := List.exists_cons_of_ne_nil hd
      rfl
  · by_cases hd : degree ≤ 0
    · simp only [hd, true_or, iff_true]
      unfold parReduceDBA
      rw [par_none hd]
    · simp only [hd, false_or]
      have := C23_panics hneg (.par degree) (show 1 ≤ degree by omega) space c data
      rw [← this]
      simp only [KStrategy.iterate]
      cases parReduceDBA space c data degree <;> simp

variable [Add F] [GoMath F]

theorem reduceLoss_lengths {space : Space E F} {c : List E} {norm : F} {es : List E} {r : List F × List Int}
    (h : reduceLoss space c es norm = some r) : r.1.length = c.length ∧ r.2.length = c.length := by
  have key : ∀ (es : List E) (st r : List F × List Int), lossLoop space c norm es st = some r →
      r.1.length = st.1.length ∧ r.2.length = st.2.length := by
    intro es
    induction es with
    | nil => intro st r h; cases h; exact ⟨rfl, rfl⟩
    | cons e es ih =>
      intro st r h
      unfold lossLoop at h
      simp only at h
      cases h1 : lossStep st (nearest space c e).1 (GoMath.pow (nearest space c e).2 norm) with
      | none => rw [h1] at h; cases h
      | some st1 =>
        rw [h1] at h
        obtain ⟨-, h2, h3⟩ := lossStep_some h1
        rw [← h2, ← h3]
        exact ih st1 r h
  simpa using key es _ r h

theorem reduceLossForLabels_lengths {space : Space E F} {c : List E} {norm : F} {es : List E} {ls : List Int}
    {r : List F × List Int} (h : reduceLossForLabels space c es ls norm = some r) :
    r.1.length = c.length ∧ r.2.length = c.length := by
  have key : ∀ (es : List E) (ls : List Int) (st r : List F × List Int), lossLabelLoop space c norm es ls st = some r →
      r.1.length = st.1.length ∧ r.2.length = st.2.length := by
    intro es
    induction es with
    | nil => intro ls st r h; cases h; exact ⟨rfl, rfl⟩
    | cons e es ih =>
      intro ls st r h
      cases ls with
      | nil => cases h
      | cons l ls =>
        unfold lossLabelLoop at h
        cases h0 : idx? c l with
        | none => rw [h0] at h; cases h
        | some x =>
          simp only [h0] at h
          cases h1 : lossStep st l (GoMath.pow (space.dist e x) norm) with
          | none => rw [h1] at h; cases h
          | some st1 =>
            rw [h1] at h
            obtain ⟨-, h2, h3⟩ := lossStep_some h1
            rw [← h2, ← h3]
            exact ih ls st1 r h
  simpa using key es ls _ r h

theorem reduceLoss_none (hneg : (-1 : F) < 0) (space : Space E F) (c data : List E) (norm : F) :
    reduceLoss space c data norm = none ↔ c = [] ∧ data ≠ [] := by
  constructor
  · intro h
    by_cases hc : c = []
    · refine ⟨hc, ?_⟩
      rintro rfl
      cases h
    · obtain ⟨st, h1, -⟩ := reduceLoss_state hneg space c data hc norm
      rw [h1] at h; cases h
  · rintro ⟨rfl, hd⟩
    obtain ⟨e, es, rfl⟩ := List.exists_cons_of_ne_nil hd
    have : ∀ (l : Int) (v : F), lossStep (([] : List F), ([] : List Int)) l v = none := by
      intro l v
      have h : idx? ([] : List Int) l = none := by unfold idx?; split <;> simp
      simp [lossStep, h]
    simp only [reduceLoss, lossLoop, List.length_nil, List.replicate_zero, this]

/-- **C138 (losses).** The losses panic in the same cases. -/
theorem C138_reduceLoss (hneg : (-1 : F) < 0) (space : Space E F) (c data : List E) (norm : F) (degree : Int) :
    (reduceLoss space c data norm = none ↔ c = [] ∧ data ≠ []) ∧
    (totalLoss space c data norm = none ↔ c = [] ∧ data ≠ []) ∧
    (parLoss space c data norm degree = none ↔ degree ≤ 0 ∨ (c = [] ∧ data ≠ [])) ∧
    (parTotalLoss space c data norm degree = none ↔ degree ≤ 0 ∨ (c = [] ∧ data ≠ [])) := by
  have h1 := reduceLoss_none hneg space c data norm
  have h2 : parLoss space c data norm degree = none ↔ degree ≤ 0 ∨ (c = [] ∧ data ≠ []) := by
    by_cases hd : degree ≤ 0
    · simp only [hd, true_or, iff_true]
      unfold parLoss
      rw [par_none hd]
    · simp only [hd, false_or]
      obtain ⟨chunks, hch⟩ : ∃ chunks, par data.length degree = some chunks := ⟨_, par_eq (by omega)⟩
      unfold parLoss
      simp only [hch]
      have hiff : ∀ x, allSome (chunks.map fun k : Chunk => reduceLoss space c (slice data k.start k.stop) norm) = x →
          ((match x with | none => none | some parts => lossAggregate parts) = none ↔ x = none) := by
        intro x hx
        cases x with
        | none => simp
        | some parts =>
          obtain ⟨r, hr⟩ := lossParts_some (k := c.length) _ (fun a r h => reduceLoss_lengths h) _ _ hx
          simp [hr]
      refine (hiff _ rfl).trans ?_
      rw [PSpace.allSome_panics, List.mem_map]
      constructor
      · rintro ⟨k, hk, hn⟩
        obtain ⟨hc, hs⟩ := (reduceLoss_none hneg space c _ norm).1 hn
        refine ⟨hc, ?_⟩
        rintro rfl
        simp [slice] at hs
      · rintro ⟨hc, hdat⟩
        obtain ⟨k, hk, h3, h4⟩ := par_covers hch (i := 0) (List.length_pos_iff.2 hdat)
        refine ⟨k, hk, (reduceLoss_none hneg space c _ norm).2 ⟨hc, fun hs => ?_⟩⟩
        have := congrArg List.length hs
        rw [slice_length _ _ _ (par_chunk_bounds hch k hk).2, List.length_nil] at this
        omega
  exact ⟨h1, by rw [← h1]; simp [totalLoss], h2, by rw [← h2]; simp [parTotalLoss]⟩

end

section
variable {E F : Type} [Zero F] [One F] [Neg F] [LT F] [DecidableLT F]

/-- **C138 (for labels).** `ReduceDBAForLabels` panics if and only if a label is missing or is not an index of a
centroid. -/
theorem C138_dbaForLabels (space : Space E F) (c data : List E) (labels : List Int) :
    reduceDBAForLabels space c data labels = none ↔ ¬ LabelsOk c.length data.length labels :=
  reduceDBAForLabels_none space c data labels

/-- **C138 (capacity).** The labels which `ParReduceDBAForLabels` reads are those of the array below the slice: it
panics if and only if the degree is below one or, for an element, the array has no label or one out of range, in the
length of the slice or after it; otherwise its result is that for the labels of the array. -/
theorem C138_parDbaForLabels (space : Space E F) (c data : List E) (labels spare : List Int) (degree : Int) :
    (parDBAForLabelsCap space c data labels spare degree = none ↔
      degree ≤ 0 ∨ ¬ LabelsOk c.length data.length (labels ++ spare)) ∧
    (data.length ≤ labels.length + spare.length →
      parDBAForLabelsCap space c data labels spare degree =
        parDBAForLabels space c data ((labels ++ spare).take data.length) degree) := by
  by_cases hd : degree ≤ 0
  · simp only [hd, true_or, iff_true]
    unfold parDBAForLabelsCap parDBAForLabels
    simp [par_none hd]
  obtain ⟨chunks, hch⟩ : ∃ chunks, par data.length degree = some chunks := ⟨_, par_eq (by omega)⟩
  have htake : (chunks.map fun k => reduceDBAForLabels space c (slice data k.start k.stop)
      (slice (labels ++ spare) k.start k.stop)) =
      chunks.map fun k => reduceDBAForLabels space c (slice data k.start k.stop)
      (slice ((labels ++ spare).take data.length) k.start k.stop) := by
    apply List.map_congr_left
    intro k hk
    rw [slice_take _ _ _ _ (par_chunk_bounds hch k hk).2]
  have heq : data.length ≤ labels.length + spare.length →
      parDBAForLabelsCap space c data labels spare degree =
        parDBAForLabels space c data ((labels ++ spare).take data.length) degree := by
    intro hcap
    unfold parDBAForLabelsCap parDBAForLabels
    simp only [hch]
    rw [workers_cap (fun es ls => reduceDBAForLabels space c es ls) data labels spare hch hcap, htake]
    rfl
  refine ⟨?_, heq⟩
  simp only [hd, false_or]
  by_cases hcap : data.length ≤ labels.length + spare.length
  · constructor
    · intro hn hok
      rw [heq hcap] at hn
      obtain ⟨h1, h2⟩ := (labelsOk_iff_take _ _ _).1 hok
      obtain ⟨m, _, cards, h, _⟩ := C09_parForLabels_cards space c data ((labels ++ spare).take data.length)
        (by rw [List.length_take]; omega) h2 degree (by omega)
      rw [h] at hn; cases hn
    · intro hbad
      unfold parDBAForLabelsCap
      simp only [hch]
      rw [workers_cap (fun es ls => reduceDBAForLabels space c es ls) data labels spare hch hcap,
        (workers_none (fun es ls => reduceDBAForLabels space c es ls)
          (fun es ls => reduceDBAForLabels_none space c es ls) data (labels ++ spare) hch).2 hbad]
  · constructor
    · intro _ hok
      have := ((labelsOk_iff_take _ _ _).1 hok).1
      rw [List.length_append] at this
      exact hcap this
    · intro _
      unfold parDBAForLabelsCap
      simp only [hch]
      rw [workers_short (fun es ls => reduceDBAForLabels space c es ls) data labels spare hch (by omega)]

/-- **C138 (sequential and parallel).** If the slice of labels is too short, `ReduceDBAForLabels` panics; but, if its
capacity is enough and the labels after its length are in range, `ParReduceDBAForLabels` returns a result in which these
labels count. -/
theorem C138_hidden_labels (space : Space E F) (c data : List E) (labels spare : List Int) (degree : Int)
    (hd : 1 ≤ degree) (hs : labels.length < data.length) (hok : LabelsOk c.length data.length (labels ++ spare)) :
    reduceDBAForLabels space c data labels = none ∧
    ∃ m m' cards, parDBAForLabelsCap space c data labels spare degree = some (m, cards) ∧
      reduceDBAForLabels space c data ((labels ++ spare).take data.length) = some (m', cards) := by
  obtain ⟨h1, h2⟩ := (labelsOk_iff_take _ _ _).1 hok
  constructor
  · rw [C138_dbaForLabels]
    intro h
    have := ((labelsOk_iff_take _ _ _).1 h).1
    omega
  · rw [(C138_parDbaForLabels space c data labels spare degree).2 (by rw [List.length_append] at h1; exact h1)]
    exact C09_parForLabels_cards space c data ((labels ++ spare).take data.length)
      (by rw [List.length_take]; omega) h2 degree hd

/-- **C138 (no spare capacity).** Without spare capacity the length is the bound: this is `parDBAForLabels`, the
function of the other theorems. -/
theorem C138_exact_capacity (space : Space E F) (c data : List E) (labels : List Int) (degree : Int) :
    parDBAForLabelsCap space c data labels [] degree = parDBAForLabels space c data labels degree := by
  by_cases hd : degree ≤ 0
  · unfold parDBAForLabelsCap parDBAForLabels
    simp [par_none hd]
  obtain ⟨chunks, hch⟩ : ∃ chunks, par data.length degree = some chunks := ⟨_, par_eq (by omega)⟩
  unfold parDBAForLabelsCap parDBAForLabels
  simp only [hch]
  by_cases hcap : data.length ≤ labels.length + ([] : List Int).length
  · rw [workers_cap (fun es ls => reduceDBAForLabels space c es ls) data labels [] hch hcap, List.append_nil]
    rfl
  · rw [workers_short (fun es ls => reduceDBAForLabels space c es ls) data labels [] hch (by omega),
      (workers_none (fun es ls => reduceDBAForLabels space c es ls)
          (fun es ls => reduceDBAForLabels_none space c es ls) data labels hch).2 fun hok => by
        have := ((labelsOk_iff_take _ _ _).1 hok).1
        simp at hcap
        omega]

variable [Add F] [GoMath F]

/-- **C138 (losses for labels).** The same for `ReduceLossForLabels` and `ParReduceLossForLabels`. -/
theorem C138_lossForLabels (space : Space E F) (c data : List E) (labels spare : List Int) (norm : F) (degree : Int) :
    (reduceLossForLabels space c data labels norm = none ↔ ¬ LabelsOk c.length data.length labels) ∧
    (parLossForLabelsCap space c data labels spare norm degree = none ↔
      degree ≤ 0 ∨ ¬ LabelsOk c.length data.length (labels ++ spare)) ∧
    (data.length ≤ labels.length + spare.length →
      parLossForLabelsCap space c data labels spare norm degree =
        parLossForLabels space c data ((labels ++ spare).take data.length) norm degree) ∧
    parLossForLabelsCap space c data labels [] norm degree = parLossForLabels space c data labels norm degree := by
  refine ⟨reduceLossForLabels_none space c data labels norm, ?_⟩
  by_cases hd : degree ≤ 0
  · simp only [hd, true_or, iff_true]
    unfold parLossForLabelsCap parLossForLabels
    simp [par_none hd]
  obtain ⟨chunks, hch⟩ : ∃ chunks, par data.length degree = some chunks := ⟨_, par_eq (by omega)⟩
  have htake : (chunks.map fun k => reduceLossForLabels space c (slice data k.start k.stop)
      (slice (labels ++ spare) k.start k.stop) norm) =
      chunks.map fun k => reduceLossForLabels space c (slice data k.start k.stop)
      (slice ((labels ++ spare).take data.length) k.start k.stop) norm := by
    apply List.map_congr_left
    intro k hk
    rw [slice_take _ _ _ _ (par_chunk_bounds hch k hk).2]
  simp only [hd, false_or]
  refine ⟨?_, fun hcap => ?_, ?_⟩
  · unfold parLossForLabelsCap
    simp only [hch]
    by_cases hcap : data.length ≤ labels.length + spare.length
    · rw [workers_cap (fun es ls => reduceLossForLabels space c es ls norm) data labels spare hch hcap]
      have hiff : ∀ x, allSome (chunks.map fun k : Chunk => reduceLossForLabels space c (slice data k.start k.stop)
          (slice (labels ++ spare) k.start k.stop) norm) = x →
          ((match x with | none => none | some parts => lossAggregate parts) = none ↔ x = none) := by
        intro x hx
        cases x with
        | none => simp
        | some parts =>
          obtain ⟨r, hr⟩ := lossParts_some (k := c.length) _ (fun a r h => reduceLossForLabels_lengths h) _ _ hx
          simp [hr]
      refine (hiff _ rfl).trans ?_
      exact workers_none (fun es ls => reduceLossForLabels space c es ls norm)
          (fun es ls => reduceLossForLabels_none space c es ls norm) data (labels ++ spare) hch
    · rw [workers_short (fun es ls => reduceLossForLabels space c es ls norm) data labels spare hch (by omega)]
      simp only [true_iff]
      intro hok
      have := ((labelsOk_iff_take _ _ _).1 hok).1
      rw [List.length_append] at this
      exact hcap this
  · unfold parLossForLabelsCap parLossForLabels
    simp only [hch]
    rw [workers_cap (fun es ls => reduceLossForLabels space c es ls norm) data labels spare hch hcap, htake]
    rfl
  · unfold parLossForLabelsCap parLossForLabels
    simp only [hch]
    by_cases hcap : data.length ≤ labels.length + ([] : List Int).length
    · rw [workers_cap (fun es ls => reduceLossForLabels space c es ls norm) data labels [] hch hcap, List.append_nil]
      rfl
    · rw [workers_short (fun es ls => reduceLossForLabels space c es ls norm) data labels [] hch (by omega),
        (workers_none (fun es ls => reduceLossForLabels space c es ls norm)
            (fun es ls => reduceLossForLabels_none space c es ls norm) data labels hch).2 fun hok => by
          have := ((labelsOk_iff_take _ _ _).1 hok).1
          simp at hcap
          omega]

end

/-- Two labels for three elements: the sequential reduction panics, as the parallel one does if the slice has no spare
capacity; with a spare element 1 the parallel one counts it. -/
example : reduceDBAForLabels exSpace [0, 10] [1, 9, 4] [0, 1] = none ∧
    parDBAForLabelsCap exSpace [0, 10] [1, 9, 4] [0, 1] [] 2 = none ∧
    parDBAForLabelsCap exSpace [0, 10] [1, 9, 4] [0, 1] [1] 2 = some ([some 1, some 6], [1, 2]) ∧
    parDBAForLabelsCap exSpace [0, 10] [1, 9, 4] [0, 1] [2] 2 = none := by decide
example : reduceDBA exSpace [] [1] = none ∧ parReduceDBA exSpace [] [1, 2] 2 = none ∧
    parReduceDBA exSpace [] [] 2 = some ([], []) ∧ parReduceDBA exSpace [3] [1] 0 = none := by decide
example : LabelsOk 2 3 [0, 1, 1, 7] := fun i hi => by
  interval_cases i
  · exact ⟨0, rfl, by decide⟩
  · exact ⟨1, rfl, by decide⟩
  · exact ⟨1, rfl, by decide⟩

end Distclus
