import Verif.Spec.Streaming
import Verif.Proof.Dba
import Verif.Spec.Float

set_option linter.unusedSectionVars false

namespace Distclus
open Spec
section
variable {E F R : Type}

/-! ### Accounts -/

theorem zip_snoc {A B : Type} (a : List A) (b : List B) (x : A) (y : B) (h : b.length = a.length) :
    (a ++ [x]).zip (b ++ [y]) = a.zip b ++ [(x, y)] := by
  rw [List.zip_append h.symm]; rfl

theorem members_out {space : Space E F} {els : List E} {labels : List Int} {clust : List E}
    {cards : List Int} (h : Accounts space els labels clust cards) (l : Nat) (hl : clust.length ≤ l) :
    members (els.zip labels) l = [] := by
  unfold members
  rw [List.map_eq_nil_iff, List.filter_eq_nil_iff]
  intro p hp
  have := h.range p.2 (List.of_mem_zip hp).2
  simp only [beq_iff_eq]
  omega

theorem Spec.Accounts.nil (space : Space E F) : Accounts space [] [] [] [] := by
  constructor <;> simp

/-- A new cluster is opened. -/
theorem Spec.Accounts.add {space : Space E F} (hcopy : ∀ a, space.copy a = a) {els : List E}
    {labels : List Int} {clust : List E} {cards : List Int}
    (h : Accounts space els labels clust cards) (e : E) :
    Accounts space (els ++ [e]) (labels ++ [(clust.length : Int)]) (clust ++ [e])
      (cards ++ [1]) := by
  have hz := zip_snoc els labels e (clust.length : Int) h.labelled
  have hm : ∀ l : Nat, members ((els ++ [e]).zip (labels ++ [(clust.length : Int)])) l =
      if l = clust.length then [e] else members (els.zip labels) l := by
    intro l
    rw [hz, members_append, members_single]
    by_cases hl : l = clust.length
    · subst hl
      simp [members_out h clust.length (le_refl _)]
    · have : ¬ ((clust.length : Int) = l) := by omega
      simp [hl, this]
  constructor
  · simp [h.labelled]
  · intro l hl
    rw [List.mem_append] at hl
    simp only [List.length_append, List.length_singleton]
    rcases hl with hl | hl
    · have := h.range l hl; push_cast; omega
    · simp only [List.mem_singleton] at hl; subst hl; push_cast; omega
  · simp [h.card_len]
  · intro l hl
    rw [hm]
    split
    · simp
    · exact h.nonempty l (by simp at hl; omega)
  · intro l hl
    rw [hm]
    simp only [List.length_append, List.length_singleton] at hl
    split
    · rename_i he; subst he
      rw [← h.card_len]; simp
    · rw [List.getElem?_append_left (by rw [h.card_len]; omega)]
      exact h.card l (by omega)
  · intro l hl
    rw [hm]
    simp only [List.length_append, List.length_singleton] at hl
    split
    · rename_i he; subst he
      simp [running, hcopy]
    · rw [List.getElem?_append_left (by omega)]
      exact h.center l (by omega)

/-- An element is merged in a cluster. -/
theorem Spec.Accounts.merge {space : Space E F} {els : List E} {labels : List Int} {clust : List E}
    {cards : List Int} (h : Accounts space els labels clust cards) (e : E) (j : Nat) (center : E)
    (card : Int) (hj : clust[j]? = some center) (hc : cards[j]? = some card) :
    Accounts space (els ++ [e]) (labels ++ [(j : Int)])
      (clust.set j (space.combine center card e 1)) (cards.set j (card + 1)) := by
  have hjl : j < clust.length := (List.getElem?_eq_some_iff.1 hj).1
  have hz := zip_snoc els labels e (j : Int) h.labelled
  have hm : ∀ l : Nat, members ((els ++ [e]).zip (labels ++ [(j : Int)])) l =
      members (els.zip labels) l ++ if l = j then [e] else [] := by
    intro l
    rw [hz, members_append, members_single]
    by_cases hl : l = j
    · simp [hl]
    · have : ¬ ((j : Int) = l) := by omega
      simp [hl, this]
  constructor
  · simp [h.labelled]
  · intro l hl
    rw [List.mem_append] at hl
    rw [List.length_set]
    rcases hl with hl | hl
    · exact h.range l hl
    · simp only [List.mem_singleton] at hl; subst hl; omega
  · simp [h.card_len]
  · intro l hl
    rw [hm]
    rw [List.length_set] at hl
    exact List.append_ne_nil_of_left_ne_nil (h.nonempty l hl) _
  · intro l hl
    rw [hm]
    rw [List.length_set] at hl
    have hcl := h.card l hl
    by_cases hlj : l = j
    · subst hlj
      rw [hc] at hcl
      have : card = ((members (els.zip labels) l).length : Int) := Option.some.inj hcl
      rw [List.getElem?_set_self (by rw [h.card_len]; omega)]
      simp [this]
    · rw [List.getElem?_set_ne (by omega)]
      simp [hlj, hcl]
  · intro l hl
    rw [hm]
    rw [List.length_set] at hl
    have hcl := h.center l hl
    by_cases hlj : l = j
    · subst hlj
      have hcard := h.card l hl
      rw [hc] at hcard
      have hcc : card = ((members (els.zip labels) l).length : Int) := Option.some.inj hcard
      rw [List.getElem?_set_self (by omega)]
      rw [hj] at hcl
      simp only [if_true]
      rw [running_snoc space _ e hcl.symm, hcc]
    · rw [List.getElem?_set_ne (by omega)]
      simp [hlj, hcl]

/-! ### The operations -/

section
variable [Zero F] [LT F] [DecidableLT F]

@[simp] theorem updateMaxDistance_clust (impl : StreamImpl E F R) (d : F) :
    (impl.updateMaxDistance d).clust = impl.clust := by
  unfold StreamImpl.updateMaxDistance; split <;> rfl

@[simp] theorem updateMaxDistance_cards (impl : StreamImpl E F R) (d : F) :
    (impl.updateMaxDistance d).cards = impl.cards := by
  unfold StreamImpl.updateMaxDistance; split <;> rfl

@[simp] theorem updateMaxDistance_c (impl : StreamImpl E F R) (d : F) :
    (impl.updateMaxDistance d).c = impl.c := by
  unfold StreamImpl.updateMaxDistance; split <;> rfl

@[simp] theorem updateMaxDistance_conf (impl : StreamImpl E F R) (d : F) :
    (impl.updateMaxDistance d).conf = impl.conf := by
  unfold StreamImpl.updateMaxDistance; split <;> rfl

@[simp] theorem updateMaxDistance_count (impl : StreamImpl E F R) (d : F) :
    (impl.updateMaxDistance d).count = impl.count := by
  unfold StreamImpl.updateMaxDistance; split <;> rfl

variable [One F] [Neg F] [BEq F] [Div F]

@[simp] theorem getRelativeDistance_clust (impl : StreamImpl E F R) (d : F) :
    (impl.getRelativeDistance d).1.clust = impl.clust := by
  unfold StreamImpl.getRelativeDistance; simp only; split <;> rfl

@[simp] theorem getRelativeDistance_cards (impl : StreamImpl E F R) (d : F) :
    (impl.getRelativeDistance d).1.cards = impl.cards := by
  unfold StreamImpl.getRelativeDistance; simp only; split <;> rfl

@[simp] theorem getRelativeDistance_c (impl : StreamImpl E F R) (d : F) :
    (impl.getRelativeDistance d).1.c = impl.c := by
  unfold StreamImpl.getRelativeDistance; simp only; split <;> rfl

@[simp] theorem getRelativeDistance_conf (impl : StreamImpl E F R) (d : F) :
    (impl.getRelativeDistance d).1.conf = impl.conf := by
  unfold StreamImpl.getRelativeDistance; simp only; split <;> rfl

@[simp] theorem getRelativeDistance_count (impl : StreamImpl E F R) (d : F) :
    (impl.getRelativeDistance d).1.count = impl.count := by
  unfold StreamImpl.getRelativeDistance; simp only; split <;> rfl

/-- What `Process` does to the clusters: one element is added to one cluster, new or not. -/
theorem process_cases (space : Space E F) (impl impl' : StreamImpl E F R) (t : F) (e : E)
    (h : impl.process space t e = some impl') :
    impl'.c = impl.c ∧ impl'.conf = impl.conf ∧ impl'.count = impl.count + 1 ∧
    ((impl'.clust = impl.clust ++ [e] ∧ impl'.cards = impl.cards ++ [1]) ∨
     ∃ (j : Nat) (center : E) (card : Int), (nearest space impl.clust e).1 = (j : Int) ∧
       impl.clust[j]? = some center ∧
       impl.cards[j]? = some card ∧ impl'.clust = impl.clust.set j (space.combine center card e 1) ∧
       impl'.cards = impl.cards.set j (card + 1)) := by
  unfold StreamImpl.process at h
  split at h
  · cases h
  · rename_i cent label distance hass
    simp only at h
    split at h
    · cases h
    · rename_i impl2 hr
      simp only [Option.some.injEq] at h
      subst h
      simp only
      split at hr
      · cases hr
        simp [StreamImpl.addOutlier]
      · split at hr
        · cases hr
          simp [StreamImpl.addCenter]
        · unfold StreamImpl.updateCenter at hr
          split at hr
          · rename_i center card hce hca
            cases hr
            simp only [updateMaxDistance_clust, updateMaxDistance_cards, updateMaxDistance_c, updateMaxDistance_conf,
              updateMaxDistance_count, getRelativeDistance_clust, getRelativeDistance_cards,
              getRelativeDistance_c, getRelativeDistance_conf, getRelativeDistance_count]
            refine ⟨trivial, trivial, trivial, Or.inr ⟨label.toNat, center, card, ?_, ?_, ?_, rfl, rfl⟩⟩
            · have hl : (nearest space impl.clust e).1 = label := by
                unfold assign at hass
                simp only at hass
                split at hass
                · split at hass
                  · cases hass; rfl
                  · cases hass
                · cases hass; rfl
              rw [hl]
              unfold idx? at hce
              split at hce
              · cases hce
              · omega
            · rw [getRelativeDistance_clust] at hce
              unfold idx? at hce
              split at hce
              · cases hce
              · exact hce
            · rw [getRelativeDistance_cards] at hca
              unfold idx? at hca
              split at hca
              · cases hca
              · exact hca
          · cases hr

/-- `Process` does not panic once there is a cluster. -/
theorem process_total (hneg : (-1 : F) < 0) (space : Space E F) (impl : StreamImpl E F R) (t : F)
    (e : E) (hc : impl.clust ≠ []) (hl : impl.cards.length = impl.clust.length) :
    ∃ impl', impl.process space t e = some impl' := by
  obtain ⟨j, x, hj, _, ha⟩ := assign_eq hneg space impl.clust e hc
  unfold StreamImpl.process
  rw [ha]
  simp only
  split
  · rename_i hr
    exfalso
    split at hr
    · cases hr
    · split at hr
      · cases hr
      · unfold StreamImpl.updateCenter at hr
        have hjl : j < impl.clust.length := (List.getElem?_eq_some_iff.1 hj).1
        rw [getRelativeDistance_clust, getRelativeDistance_cards, idx?_natCast, idx?_natCast, hj,
          List.getElem?_eq_getElem (show j < impl.cards.length by omega)] at hr
        cases hr
  · exact ⟨_, rfl⟩

/-! ### The calls, case by case -/

theorem step_push {space : Space E F} {impl impl' : StreamImpl E F R} {e : E} {r : StreamRes E F}
    (h : impl.step space (.push e) = some (impl', r)) :
    ((impl.c.length : Int) < impl.conf.bufferSize ∧ impl' = { impl with c := impl.c ++ [e] } ∧
      r = .push false) ∨
    (¬ (impl.c.length : Int) < impl.conf.bufferSize ∧ impl' = impl ∧ r = .push true) := by
  simp only [StreamImpl.step, StreamImpl.push] at h
  by_cases hl : (impl.c.length : Int) < impl.conf.bufferSize
  · simp only [hl, if_true, Option.some.injEq, Prod.mk.injEq] at h
    exact Or.inl ⟨hl, h.1.symm, h.2.symm⟩
  · simp only [hl, if_false, Option.some.injEq, Prod.mk.injEq] at h
    exact Or.inr ⟨hl, h.1.symm, h.2.symm⟩

theorem step_init {space : Space E F} {impl impl' : StreamImpl E F R} {r : StreamRes E F}
    (h : impl.step space .init = some (impl', r)) :
    (impl.c = [] ∧ impl' = impl ∧ r = .init none) ∨
    ∃ e q, impl.c = e :: q ∧ impl' = StreamImpl.addCenter { impl with c := q } e 0 ∧
      r = .init (some [e]) := by
  simp only [StreamImpl.step, StreamImpl.init] at h
  cases hq : impl.c with
  | nil =>
    simp only [hq, Option.some.injEq, Prod.mk.injEq] at h
    exact Or.inl ⟨rfl, h.1.symm, h.2.symm⟩
  | cons e q =>
    simp only [hq, Option.some.injEq, Prod.mk.injEq] at h
    exact Or.inr ⟨e, q, rfl, h.1.symm, h.2.symm⟩

theorem step_iterate {space : Space E F} {impl impl' : StreamImpl E F R} {t : F}
    {r : StreamRes E F} (h : impl.step space (.iterate t) = some (impl', r)) :
    (impl.c = [] ∧ impl' = impl ∧ r = .iterate none impl.maxDistance) ∨
    ∃ e q, impl.c = e :: q ∧ StreamImpl.process { impl with c := q } space t e = some impl' ∧
      r = .iterate (some impl'.clust) impl'.maxDistance := by
  simp only [StreamImpl.step, StreamImpl.iterate] at h
  cases hq : impl.c with
  | nil =>
    simp only [hq, Option.some.injEq, Prod.mk.injEq] at h
    exact Or.inl ⟨rfl, h.1.symm, h.2.symm⟩
  | cons e q =>
    simp only [hq] at h
    cases hp : StreamImpl.process { impl with c := q } space t e with
    | none => simp only [hp] at h; cases h
    | some i =>
      simp only [hp, Option.some.injEq, Prod.mk.injEq] at h
      obtain ⟨rfl, rfl⟩ := h
      exact Or.inr ⟨e, q, rfl, hp, rfl⟩

theorem run_cons {space : Space E F} {impl impl' : StreamImpl E F R} {op : StreamOp E F}
    {ops : List (StreamOp E F)} {rs : List (StreamRes E F)}
    (h : impl.run space (op :: ops) = some (impl', rs)) :
    ∃ i r rs', impl.step space op = some (i, r) ∧ i.run space ops = some (impl', rs') ∧
      rs = r :: rs' := by
  rw [StreamImpl.run] at h
  cases hs : impl.step space op with
  | none => simp only [hs] at h; cases h
  | some p =>
    obtain ⟨i, r⟩ := p
    simp only [hs] at h
    cases hr : i.run space ops with
    | none => simp only [hr] at h; cases h
    | some p' =>
      obtain ⟨i', rs'⟩ := p'
      simp only [hr, Option.some.injEq, Prod.mk.injEq] at h
      obtain ⟨rfl, rfl⟩ := h
      exact ⟨i, r, rs', rfl, hr, rfl⟩

end
end
end Distclus
