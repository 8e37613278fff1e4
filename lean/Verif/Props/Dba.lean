import Verif.Proof.ParDba
import Verif.Proof.Euclid
import Verif.Spec.Example
import Mathlib.Data.List.Perm.Basic
/-!
# C06, C07, C08, C09, C12: averages
-/

set_option linter.unusedSectionVars false

namespace Distclus
open Spec

section
variable {E F : Type} [Zero F] [One F] [Neg F] [LT F] [DecidableLT F]

/-- **C06.** For a non-empty clustering `ReduceDBA` never panics and returns, for each centroid,
the number of elements assigned to it and their running combination in input order (nothing when
there is none); the cardinalities sum to the number of elements. No law on the space is used. -/
theorem C06_reduceDBA (hneg : (-1 : F) < 0) (space : Space E F) (c elemts : List E)
    (hc : c ≠ []) :
    ∃ cents cards, reduceDBA space c elemts = some (cents, cards) ∧
      cents.length = c.length ∧ cards.length = c.length ∧
      (∀ l : Nat, l < c.length →
        let ms := elemts.filter fun e => (nearest space c e).1 == (l : Int)
        cards[l]? = some (ms.length : Int) ∧ cents[l]? = some (running space ms)) ∧
      cards.sum = elemts.length := by
  obtain ⟨⟨cents, cards⟩, h, hs⟩ := reduceDBA_state hneg space c elemts hc
  have hmem : ∀ l : Nat, members (labelled space c elemts) l =
      elemts.filter fun e => (nearest space c e).1 == (l : Int) := by
    intro l
    unfold members labelled
    rw [List.filter_map, List.map_map]
    exact List.map_id _
  refine ⟨cents, cards, h, hs.len1, hs.len2, ?_, ?_⟩
  · intro l hl
    simp only
    rw [← hmem]
    exact ⟨hs.card l hl, hs.cent l hl⟩
  · have : cards = (List.range c.length).map fun l =>
        ((members (labelled space c elemts) l).length : Int) := by
      apply List.ext_getElem?
      intro i
      by_cases hi : i < c.length
      · rw [hs.card i hi]; simp [hi]
      · rw [List.getElem?_eq_none (by have := hs.len2; simp only at this; omega)]; simp; omega
    rw [this, card_sum]
    · simp [labelled]
    · intro p hp
      simp only [labelled, List.mem_map] at hp
      obtain ⟨e, _, rfl⟩ := hp
      exact nearest_range hneg space c hc e

/-- `ReduceDBA` with no centroid panics as soon as there is an element. -/
theorem C06_reduceDBA_empty (space : Space E F) (e : E) (es : List E) :
    reduceDBA space [] (e :: es) = none := rfl

example : reduceDBA exSpace [0, 10, 50] [1, 9, 4, 5, 6] =
    some ([some 3, some 7, none], [3, 2, 0]) := by decide

/-- **C09** (agreement with `ReduceDBA`). `ReduceDBAForLabels` with the labels of `MapLabel` is
`ReduceDBA`. -/
theorem C09_forLabels_mapLabel (hneg : (-1 : F) < 0) (space : Space E F) (c elemts : List E)
    (hc : c ≠ []) :
    reduceDBAForLabels space c elemts (mapLabel space c elemts).1 = reduceDBA space c elemts := by
  unfold reduceDBA reduceDBAForLabels
  rw [reduceLoop_eq hneg space c elemts _ hc]

/-- **C08** (cardinalities, no law on the space). The parallel reduction never panics and returns
the cardinalities of the sequential one, and the previous centroid for every empty cluster. -/
theorem C08_parReduceDBA_cards (hneg : (-1 : F) < 0) (space : Space E F) (c data : List E)
    (hc : c ≠ []) (degree : Int) (hd : 1 ≤ degree) :
    ∃ cents cards r, reduceDBA space c data = some (cents, cards) ∧
      parReduceDBA space c data degree = some (r, cards) ∧ r.length = c.length ∧
      ∀ (l : Nat) (x : E), c[l]? = some x →
        (cards[l]? = some 0 → r[l]? = some (some x)) ∧ ∃ m, r[l]? = some (some m) := by
  obtain ⟨⟨cents, cards⟩, h1, hs⟩ := reduceDBA_state hneg space c data hc
  obtain ⟨st, hst, hp⟩ := parReduce_rep hneg (P := fun _ _ => True)
    (fun _ _ _ _ _ _ _ _ => trivial) (fun _ _ _ => trivial) c data hc degree hd
  have hcards : st.2 = cards := by
    apply List.ext_getElem?
    intro i
    by_cases hi : i < c.length
    · rw [hst.card i hi, hs.card i hi]
    · rw [List.getElem?_eq_none (by rw [hst.len2]; omega),
        List.getElem?_eq_none (by have := hs.len2; simp only at this; omega)]
  obtain ⟨r, hr, hl, hb⟩ := parBuildResult_rep c hst
  refine ⟨cents, cards, r, h1, by rw [hp, hr, hcards]; rfl, hl, ?_⟩
  intro l x hx
  obtain ⟨o, ho, he, hne⟩ := hb l x hx
  refine ⟨fun h0 => ?_, o, ho⟩
  have := hs.card l (List.getElem?_eq_some_iff.1 hx).1
  simp only [h0, Option.some.injEq] at this
  have : members (labelled space c data) l = [] := List.length_eq_zero_iff.1 (by omega)
  rw [ho, he this]

/-- **C08** (means). When `Combine` is the weighted mean in exact arithmetic the parallel reduction
returns, for every degree, exactly the centroids of the sequential one on the non-empty clusters
and the previous centroids on the empty ones. -/
theorem C08_parReduceDBA_means {V : Type} [AddCommGroup V] [Module ℝ V] (hneg : (-1 : F) < 0)
    {space : Space E F} {φ : E → V} (hb : Barycentric space φ) (c data : List E)
    (hc : c ≠ []) (degree : Int) (hd : 1 ≤ degree) :
    ∃ cents cards r, reduceDBA space c data = some (cents, cards) ∧
      parReduceDBA space c data degree = some (r, cards) ∧ r.length = c.length ∧
      ∀ (l : Nat) (x : E), c[l]? = some x →
        ∃ card o, cards[l]? = some card ∧ cents[l]? = some o ∧
          r[l]? = some (if card > 0 then o else some x) := by
  obtain ⟨⟨cents, cards⟩, h1, hs⟩ := reduceDBA_state hneg space c data hc
  have hrun := fun ms m => running_mean hb ms m
  obtain ⟨st, hst, hp⟩ := parReduce_rep hneg (P := fun ms m => φ m = mean (ms.map φ))
    (mean_append_combine hb) hrun c data hc degree hd
  have hs' := hs.rep hrun
  have hcards : st.2 = cards := by
    apply List.ext_getElem?
    intro i
    by_cases hi : i < c.length
    · rw [hst.card i hi, hs.card i hi]
    · rw [List.getElem?_eq_none (by rw [hst.len2]; omega),
        List.getElem?_eq_none (by have := hs.len2; simp only at this; omega)]
  obtain ⟨r, hr, hl, hbr⟩ := parBuildResult_rep c hst
  refine ⟨cents, cards, r, h1, by rw [hp, hr, hcards]; rfl, hl, ?_⟩
  intro l x hx
  have hlt := (List.getElem?_eq_some_iff.1 hx).1
  obtain ⟨o, ho, he, hne⟩ := hbr l x hx
  obtain ⟨o', ho', he', hne'⟩ := hs'.cent l hlt
  refine ⟨_, o', hs.card l hlt, ho', ?_⟩
  by_cases h0 : members (labelled space c data) l = []
  · rw [ho, he h0, h0]; simp
  · obtain ⟨m, rfl, hm⟩ := hne' h0
    have hpos : (members (labelled space c data) l).length > 0 := List.length_pos_iff.2 h0
    rw [ho, if_pos (by omega), hb.inj o m ((hne h0).trans hm.symm)]

/-- **C09** (parallel). `ParReduceDBAForLabels` returns, for every degree and every in-range
labelling, the cardinalities of `ReduceDBAForLabels`, and the same centroids when `Combine` is the
weighted mean in exact arithmetic. -/
theorem C09_parForLabels {V : Type} [AddCommGroup V] [Module ℝ V]
    {space : Space E F} {φ : E → V} (hb : Barycentric space φ) (c data : List E)
    (labels : List Int) (hl : labels.length = data.length)
    (hr : ∀ l ∈ labels, 0 ≤ l ∧ l < c.length) (degree : Int) (hd : 1 ≤ degree) :
    ∃ st, parDBAForLabels space c data labels degree = some st ∧
      reduceDBAForLabels space c data labels = some st := by
  have hrun := fun ms m => running_mean hb ms m
  obtain ⟨st, hst, hp⟩ := parForLabels_rep (P := fun ms m => φ m = mean (ms.map φ))
    (mean_append_combine hb) hrun c data labels hl hr degree hd
  obtain ⟨s, h1, hs⟩ := dbaLoop_inv data labels [] _ (DbaState.init space c.length)
    (by omega) (fun l h => hr l (List.mem_of_mem_take h))
  rw [List.nil_append] at hs
  have hs' := hs.rep hrun
  have : st = s := by
    apply Prod.ext
    · apply List.ext_getElem?
      intro i
      by_cases hi : i < c.length
      · obtain ⟨o, ho, he, hne⟩ := hst.cent i hi
        obtain ⟨o', ho', he', hne'⟩ := hs'.cent i hi
        rw [ho, ho']
        by_cases h0 : members (data.zip labels) i = []
        · rw [he h0, he' h0]
        · obtain ⟨m, rfl, hm⟩ := hne h0
          obtain ⟨m', rfl, hm'⟩ := hne' h0
          rw [hb.inj m m' (hm.trans hm'.symm)]
      · rw [List.getElem?_eq_none (by rw [hst.len1]; omega),
          List.getElem?_eq_none (by rw [hs.len1]; omega)]
    · apply List.ext_getElem?
      intro i
      by_cases hi : i < c.length
      · rw [hst.card i hi, hs.card i hi]
      · rw [List.getElem?_eq_none (by rw [hst.len2]; omega),
          List.getElem?_eq_none (by rw [hs.len2]; omega)]
  exact ⟨st, hp, by rw [this]; exact h1⟩

/-- **C09** (parallel, cardinalities without any law). -/
theorem C09_parForLabels_cards (space : Space E F) (c data : List E)
    (labels : List Int) (hl : labels.length = data.length)
    (hr : ∀ l ∈ labels, 0 ≤ l ∧ l < c.length) (degree : Int) (hd : 1 ≤ degree) :
    ∃ m m' cards, parDBAForLabels space c data labels degree = some (m, cards) ∧
      reduceDBAForLabels space c data labels = some (m', cards) := by
  obtain ⟨st, hst, hp⟩ := parForLabels_rep (space := space) (P := fun _ _ => True)
    (fun _ _ _ _ _ _ _ _ => trivial) (fun _ _ _ => trivial) c data labels hl hr degree hd
  obtain ⟨s, h1, hs⟩ := dbaLoop_inv data labels [] _ (DbaState.init space c.length)
    (by omega) (fun l h => hr l (List.mem_of_mem_take h))
  rw [List.nil_append] at hs
  refine ⟨st.1, s.1, st.2, by rw [hp], ?_⟩
  have : st.2 = s.2 := by
    apply List.ext_getElem?
    intro i
    by_cases hi : i < c.length
    · rw [hst.card i hi, hs.card i hi]
    · rw [List.getElem?_eq_none (by rw [hst.len2]; omega),
        List.getElem?_eq_none (by rw [hs.len2]; omega)]
  rw [this]
  exact h1

example : parReduceDBA exSpace [0, 10, 50] [1, 9, 4, 5, 6] 3 =
    some ([some 3, some 7, some 50], [3, 2, 0]) := by decide
example : parDBAForLabels exSpace [0, 10, 50] [1, 9, 4, 5, 6] [0, 1, 2, 2, 0] 3 =
    reduceDBAForLabels exSpace [0, 10, 50] [1, 9, 4, 5, 6] [0, 1, 2, 2, 0] := by decide
end

/-- **C07.** For the Euclidean space in exact arithmetic, every non-empty cluster's centroid is the
arithmetic mean of the elements assigned to it. -/
theorem C07_reduceDBA_mean {n : Nat} (c elemts : List (Vec ℝ n)) (hc : c ≠ []) :
    ∃ cents cards, reduceDBA (euclidSpace ℝ n) c elemts = some (cents, cards) ∧
      ∀ l : Nat, l < c.length →
        let ms := elemts.filter fun e => (nearest (euclidSpace ℝ n) c e).1 == (l : Int)
        (ms = [] ∧ cents[l]? = some none) ∨
        (ms ≠ [] ∧ ∃ m, cents[l]? = some (some m) ∧
          m.coords = (ms.length : ℝ)⁻¹ • (ms.map Vec.coords).sum) := by
  obtain ⟨cents, cards, h, _, _, hl, _⟩ := C06_reduceDBA (by norm_num) (euclidSpace ℝ n) c elemts hc
  refine ⟨cents, cards, h, fun l hlt => ?_⟩
  obtain ⟨_, hcent⟩ := hl l hlt
  simp only at hcent ⊢
  generalize elemts.filter _ = ms at hcent
  by_cases h0 : ms = []
  · left; exact ⟨h0, by rw [hcent, h0]; rfl⟩
  · right
    obtain ⟨m, hm⟩ := running_isSome (euclidSpace ℝ n) h0
    refine ⟨h0, m, by rw [hcent, hm], ?_⟩
    rw [running_mean (euclid_barycentric n) ms m hm]
    simp [mean]

/-- The hypotheses of C08/C09 hold of the Euclidean and of the cosine space. -/
theorem C08_euclid {n : Nat} (c data : List (Vec ℝ n)) (hc : c ≠ []) (degree : Int)
    (hd : 1 ≤ degree) :
    ∃ cents cards r, reduceDBA (euclidSpace ℝ n) c data = some (cents, cards) ∧
      parReduceDBA (euclidSpace ℝ n) c data degree = some (r, cards) ∧ r.length = c.length ∧
      ∀ (l : Nat) (x : Vec ℝ n), c[l]? = some x →
        ∃ card o, cards[l]? = some card ∧ cents[l]? = some o ∧
          r[l]? = some (if card > 0 then o else some x) :=
  C08_parReduceDBA_means (by norm_num) (euclid_barycentric n) c data hc degree hd

section
variable {E F V : Type} [AddCommGroup V] [Module ℝ V]

theorem dbaFold_eq (space : Space E F) (es : List E) (m : E) (w : Int) :
    dbaFold space es m w =
      (es.foldl (fun mw x => (space.combine mw.1 mw.2 x 1, mw.2 + 1)) (m, w)).1 := by
  induction es generalizing m w with
  | nil => rfl
  | cons e es ih => exact ih _ _

theorem dba_eq_running (space : Space E F) (l : List E) : dba space l = running space l := by
  cases l with
  | nil => rfl
  | cons e es => simp [dba, running, dbaFold_eq]

/-- **C12** (DBA). `DBA` fails exactly on an empty list; otherwise, in exact arithmetic, it returns
the mean. -/
theorem C12_dba {space : Space E F} {φ : E → V} (hb : Barycentric space φ) (l : List E) :
    (dba space l = none ↔ l = []) ∧
    (l ≠ [] → ∃ m, dba space l = some m ∧ φ m = mean (l.map φ)) := by
  rw [dba_eq_running]
  constructor
  · cases l <;> simp [running]
  · intro h
    obtain ⟨m, hm⟩ := running_isSome space h
    exact ⟨m, hm, running_mean hb l m hm⟩

/-- **C12** (order independence of DBA). -/
theorem C12_dba_perm {space : Space E F} {φ : E → V} (hb : Barycentric space φ) {l l' : List E}
    (hp : l.Perm l') : dba space l = dba space l' := by
  by_cases h : l = []
  · subst h; rw [List.nil_perm.1 hp]
  · have h' : l' ≠ [] := fun hc => h (by rw [hc] at hp; exact List.perm_nil.1 hp)
    obtain ⟨m, hm, e⟩ := (C12_dba hb l).2 h
    obtain ⟨m', hm', e'⟩ := (C12_dba hb l').2 h'
    rw [hm, hm', hb.inj m m']
    rw [e, e']
    simp only [mean, List.length_map, hp.length_eq, (hp.map φ).sum_eq]

theorem wdbaFold_spec {space : Space E F} {φ : E → V} (hb : Barycentric space φ) :
    ∀ (es : List E) (ws : List Int) (m : E) (w : Int) (pre : List (V × Int)),
    0 < w → w = (pre.map (·.2)).sum → φ m = wmean pre → es.length ≤ ws.length →
    (∀ x ∈ ws.take es.length, 0 < x) →
    ∃ r, wdbaFold space es ws m w = .ok r ∧ φ r = wmean (pre ++ (es.map φ).zip ws) := by
  intro es
  induction es with
  | nil => intro ws m w pre _ _ hm _ _; exact ⟨m, rfl, by simpa using hm⟩
  | cons e es ih =>
    intro ws m w pre hw hsum hm hlen hpos
    cases ws with
    | nil => simp at hlen
    | cons v ws =>
      have hv := hpos v (by simp)
      obtain ⟨r, hr, he⟩ := ih ws (space.combine m w e v) (w + v) (pre ++ [(φ e, v)]) (by omega)
        (by simp [hsum]) (by
          rw [hb.combine _ _ _ _ hw hv, hm]
          have hs : ((pre.map fun p => (p.2 : ℝ)).sum) = (w : ℝ) := by
            rw [hsum]
            clear hsum hm ih hpos hlen
            induction pre with
            | nil => simp
            | cons p pre ih => simp [ih]
          have hw' : (w : ℝ) ≠ 0 := by
            have : (0 : ℝ) < (w : ℝ) := by exact_mod_cast hw
            exact ne_of_gt this
          simp only [wmean, List.map_append, List.sum_append, hs, List.map_cons, List.map_nil,
            List.sum_cons, List.sum_nil, add_zero]
          rw [smul_inv_smul₀ hw'])
        (by simpa using hlen) (fun x hx => hpos x (by simp [hx]))
      exact ⟨r, hr, by simpa using he⟩

/-- **C12** (weighted DBA). Fails exactly on an empty list; with as many positive weights as
elements it returns, in exact arithmetic, the weighted mean. -/
theorem C12_weightedDBA {space : Space E F} {φ : E → V} (hb : Barycentric space φ) (l : List E)
    (ws : List Int) (hlen : ws.length = l.length) (hpos : ∀ w ∈ ws, 0 < w) :
    (weightedDBA space l ws = .error ↔ l = []) ∧
    (l ≠ [] → ∃ m, weightedDBA space l ws = .ok m ∧ φ m = wmean ((l.map φ).zip ws)) := by
  cases l with
  | nil => simp [weightedDBA]
  | cons e es =>
    cases ws with
    | nil => simp at hlen
    | cons w ws =>
      have hw := hpos w (by simp)
      have hw' : (w : ℝ) ≠ 0 := by
        have : (0 : ℝ) < (w : ℝ) := by exact_mod_cast hw
        exact ne_of_gt this
      obtain ⟨r, hr, he⟩ := wdbaFold_spec hb es ws (space.copy e) w [(φ e, w)] hw (by simp)
        (by rw [hb.copy]; simp [wmean, smul_smul, inv_mul_cancel₀ hw'])
        (by simp at hlen; omega) (fun x hx => hpos x (by simp [List.mem_of_mem_take hx]))
      refine ⟨by simp [weightedDBA, hr], fun _ => ⟨r, hr, by simpa using he⟩⟩

/-- **C12** (order independence of the weighted DBA). -/
theorem C12_weightedDBA_perm {space : Space E F} {φ : E → V} (hb : Barycentric space φ)
    (l l' : List E) (ws ws' : List Int) (hlen : ws.length = l.length)
    (hlen' : ws'.length = l'.length) (hpos : ∀ w ∈ ws, 0 < w)
    (hp : (l.zip ws).Perm (l'.zip ws')) : weightedDBA space l ws = weightedDBA space l' ws' := by
  have hpos' : ∀ w ∈ ws', 0 < w := by
    have h2 : ws.Perm ws' := by
      have := hp.map Prod.snd
      rwa [List.map_snd_zip (by omega), List.map_snd_zip (by omega)] at this
    exact fun w hw => hpos w (h2.mem_iff.2 hw)
  have h1 : l.Perm l' := by
    have := hp.map Prod.fst
    rwa [List.map_fst_zip (by omega), List.map_fst_zip (by omega)] at this
  by_cases h : l = []
  · subst h; rw [List.nil_perm.1 h1]; rfl
  · have h' : l' ≠ [] := fun hc => h (by rw [hc] at h1; exact List.perm_nil.1 h1)
    obtain ⟨m, hm, e⟩ := (C12_weightedDBA hb l ws hlen hpos).2 h
    obtain ⟨m', hm', e'⟩ := (C12_weightedDBA hb l' ws' hlen' hpos').2 h'
    rw [hm, hm', hb.inj m m']
    rw [e, e']
    have hz : ((l.map φ).zip ws).Perm ((l'.map φ).zip ws') := by
      rw [List.zip_map_left, List.zip_map_left]
      exact hp.map _
    simp only [wmean, (hz.map _).sum_eq]

end

/-- Non-vacuity: the Euclidean space satisfies the hypothesis of C08, C09 and C12. -/
example : Barycentric (euclidSpace ℝ 3) (Vec.coords : Vec ℝ 3 → Fin 3 → ℝ) := euclid_barycentric 3

/-- The mean of (0,2) and (4,0) is (2,1). -/
example : ∃ m, dba (euclidSpace ℝ 2) [Vec.of ![0, 2], Vec.of ![4, 0]] = some m ∧
    m.coords = ![2, 1] := by
  obtain ⟨m, hm, h⟩ := (C12_dba (euclid_barycentric 2) [Vec.of ![0, 2], Vec.of ![4, 0]]).2 (by simp)
  refine ⟨m, hm, ?_⟩
  rw [h]
  funext i
  fin_cases i <;> (simp [mean, Vec.coords_of]; try norm_num)

end Distclus
