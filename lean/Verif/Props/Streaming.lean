import Verif.Proof.Streaming
import Verif.Proof.ParDba
import Verif.Proof.Euclid
import Verif.Proof.XReal
import Verif.Props.Nearest
import Verif.Spec.Example
/-!
# C35, C36, C37, C38, C39: the streaming algorithm
-/

set_option linter.unusedSectionVars false

namespace Distclus
open Spec
section
variable {E F R : Type} [Zero F] [One F] [Neg F] [LT F] [DecidableLT F] [BEq F] [Div F]

/-- What any sequence of calls does, from any state whose clusters account for `els`. -/
theorem run_accounts {space : Space E F} (hcopy : ∀ a, space.copy a = a) :
    ∀ (ops : List (StreamOp E F)) (impl impl' : StreamImpl E F R) (rs : List (StreamRes E F))
      (els : List E) (labels : List Int), Accounts space els labels impl.clust impl.cards →
      impl.run space ops = some (impl', rs) →
      consumptions rs ≤ (impl.c ++ accepted ops rs).length ∧
      impl'.c = (impl.c ++ accepted ops rs).drop (consumptions rs) ∧
      impl'.conf = impl.conf ∧ impl.clust.length ≤ impl'.clust.length ∧
      (impl.c.length ≤ impl.conf.bufferSize → impl'.c.length ≤ impl.conf.bufferSize) ∧
      ∃ labels', Accounts space (els ++ (impl.c ++ accepted ops rs).take (consumptions rs))
        (labels ++ labels') impl'.clust impl'.cards := by
  intro ops
  induction ops with
  | nil =>
    intro impl impl' rs els labels hacc h
    cases h
    exact ⟨by simp [consumptions], by simp [consumptions, accepted], rfl, le_refl _, id, [],
      by simpa [consumptions] using hacc⟩
  | cons op ops ih =>
    intro impl impl' rs els labels hacc h
    obtain ⟨impl1, r, rs', hstep, hrun, rfl⟩ := run_cons h
    cases op with
    | push e =>
      rcases step_push hstep with ⟨hlt, rfl, rfl⟩ | ⟨_, rfl, rfl⟩
      · obtain ⟨h1, h2, h3, h4, h5, labels', h6⟩ := ih { impl with c := impl.c ++ [e] } _ _ els labels hacc hrun
        simp only [List.append_assoc, List.cons_append, List.nil_append] at h1 h2 h6
        refine ⟨h1, h2, h3, h4, fun _ => h5 ?_, labels', h6⟩
        simp only [List.length_append, List.length_singleton]; push_cast; omega
      · exact ih _ _ _ els labels hacc hrun
    | init =>
      rcases step_init hstep with ⟨hq, rfl, rfl⟩ | ⟨e, q, hq, rfl, rfl⟩
      · exact ih _ _ _ els labels hacc hrun
      · have hacc' := hacc.add hcopy e
        obtain ⟨h1, h2, h3, h4, h5, labels', h6⟩ := ih _ _ _ (els ++ [e])
          (labels ++ [(impl.clust.length : Int)]) (by
            simp only [StreamImpl.addCenter, updateMaxDistance_clust, updateMaxDistance_cards]
            exact hacc') hrun
        simp only [StreamImpl.addCenter, updateMaxDistance_clust, updateMaxDistance_c,
          updateMaxDistance_conf, List.length_append, List.length_singleton] at h1 h2 h3 h4 h5 h6
        rw [hq]
        refine ⟨?_, ?_, h3, by omega, fun hb => h5 ?_,
          (impl.clust.length : Int) :: labels', ?_⟩
        · simp only [consumptions, accepted, List.cons_append, List.length_cons,
            List.length_append]; omega
        · simpa [consumptions, accepted] using h2
        · simp only [List.length_cons] at hb; push_cast at hb; omega
        · simpa [consumptions, accepted] using h6
    | iterate t =>
      rcases step_iterate hstep with ⟨hq, rfl, rfl⟩ | ⟨e, q, hq, hp, rfl⟩
      · exact ih _ _ _ els labels hacc hrun
      · obtain ⟨p1, p2, _, p4⟩ := process_cases space _ _ _ _ hp
        have hstep' : ∃ l, Accounts space (els ++ [e]) (labels ++ [l]) impl1.clust
            impl1.cards ∧ impl.clust.length ≤ impl1.clust.length := by
          rcases p4 with ⟨q1, q2⟩ | ⟨j, center, card, _, q1, q2, q3, q4⟩
          · exact ⟨_, by rw [q1, q2]; exact hacc.add hcopy e, by rw [q1]; simp⟩
          · exact ⟨_, by rw [q3, q4]; exact hacc.merge e j center card q1 q2,
              by rw [q3]; simp⟩
        obtain ⟨l, hacc', hle⟩ := hstep'
        obtain ⟨h1, h2, h3, h4, h5, labels', h6⟩ := ih _ _ _ (els ++ [e]) (labels ++ [l])
          hacc' hrun
        rw [p1] at h1 h2 h5 h6
        rw [p2] at h3 h5
        rw [hq]
        refine ⟨?_, ?_, h3, by omega, fun hb => h5 ?_, l :: labels', ?_⟩
        · simp only [consumptions, accepted, List.cons_append, List.length_cons,
            List.length_append] at h1 ⊢; omega
        · simpa [consumptions, accepted] using h2
        · simp only [List.length_cons] at hb; push_cast at hb; simp only; omega
        · simpa [consumptions, accepted] using h6

theorem new_accounts {conf : StreamingConf F R} {data : List E} {impl : StreamImpl E F R}
    (h : StreamImpl.new conf data = some impl) (space : Space E F) :
    Accounts space [] [] impl.clust impl.cards ∧ impl.c = data ∧ impl.conf = conf ∧
      (data.length : Int) ≤ conf.bufferSize ∧ impl.maxDistance = 0 := by
  unfold StreamImpl.new at h
  split at h
  · cases h
  · cases h
    exact ⟨Accounts.nil space, rfl, rfl, by omega, rfl⟩

/-- **C35.** After any history of calls, with `stream` the initial data followed by the successfully
pushed elements and `n` the number of calls of `Init` and `Iterate` that returned a clustering: the
waiting elements are exactly those of the stream after the first `n`, and the clusters account for
exactly the first `n`, in order. -/
theorem C35_stream {space : Space E F} (hcopy : ∀ a, space.copy a = a) (conf : StreamingConf F R)
    (data : List E) (impl0 impl : StreamImpl E F R) (h0 : StreamImpl.new conf data = some impl0)
    (ops : List (StreamOp E F)) (rs : List (StreamRes E F))
    (h : impl0.run space ops = some (impl, rs)) :
    let stream := data ++ accepted ops rs
    let n := consumptions rs
    n ≤ stream.length ∧ impl.c = stream.drop n ∧
      ∃ labels, Accounts space (stream.take n) labels impl.clust impl.cards := by
  obtain ⟨a1, a2, a3, _, _⟩ := new_accounts h0 space
  obtain ⟨h1, h2, h3, h4, _, labels, h6⟩ := run_accounts hcopy ops impl0 impl rs [] [] a1 h
  rw [a2] at h1 h2 h6
  exact ⟨h1, h2, labels, by simpa using h6⟩

/-- **C35** (order, call by call). `Init` and `Iterate` take the oldest waiting element; without
one, `Init` fails and `Iterate` returns no clustering, and nothing changes. -/
theorem C35_calls (space : Space E F) (impl : StreamImpl E F R) (t : F) :
    (impl.c = [] → impl.init = (impl, none) ∧
      impl.iterate space t = some (impl, none, impl.maxDistance)) ∧
    (∀ e q, impl.c = e :: q → impl.init.2 = some [e] ∧ impl.init.1.c = q ∧
      impl.init.1.clust = impl.clust ++ [e] ∧
      ∀ r, impl.iterate space t = some r → r.1.c = q ∧ r.2.1 = some r.1.clust ∧
        r.2.2 = r.1.maxDistance) := by
  constructor
  · intro h
    simp [StreamImpl.init, StreamImpl.iterate, h]
  · intro e q h
    refine ⟨by simp [StreamImpl.init, h], by simp [StreamImpl.init, h, StreamImpl.addCenter],
      by simp [StreamImpl.init, h, StreamImpl.addCenter], ?_⟩
    intro r hr
    simp only [StreamImpl.iterate, h] at hr
    split at hr
    · cases hr
    · rename_i impl' hp
      cases hr
      exact ⟨(process_cases space _ _ _ _ hp).1, rfl, rfl⟩

theorem run_total (hneg : (-1 : F) < 0) {space : Space E F} (hcopy : ∀ a, space.copy a = a) :
    ∀ (ops : List (StreamOp E F)) (impl : StreamImpl E F R) (els : List E) (labels : List Int),
      Accounts space els labels impl.clust impl.cards → impl.clust ≠ [] →
      ∃ r, impl.run space ops = some r := by
  intro ops
  induction ops with
  | nil => intro impl _ _ _ _; exact ⟨_, rfl⟩
  | cons op ops ih =>
    intro impl els labels hacc hne
    have hstep : ∃ impl1 r, impl.step space op = some (impl1, r) := by
      cases op with
      | push e => exact ⟨_, _, rfl⟩
      | init => exact ⟨_, _, rfl⟩
      | iterate t =>
        simp only [StreamImpl.step, StreamImpl.iterate]
        cases hq : impl.c with
        | nil => exact ⟨_, _, rfl⟩
        | cons e q =>
          obtain ⟨impl', hp⟩ := process_total hneg space { impl with c := q } t e hne hacc.card_len
          simp only [hp]
          exact ⟨_, _, rfl⟩
    obtain ⟨impl1, r, hs⟩ := hstep
    have hone : impl.run space [op] = some (impl1, [r]) := by
      simp [StreamImpl.run, hs]
    obtain ⟨_, _, _, hle, _, labels', hacc'⟩ := run_accounts hcopy [op] impl impl1 [r] els labels hacc hone
    obtain ⟨r', hr'⟩ := ih impl1 _ _ hacc' (by
      have := List.length_pos_iff.2 hne
      exact List.length_pos_iff.1 (by omega))
    exact ⟨(r'.1, r :: r'.2), by simp [StreamImpl.run, hs, hr']⟩

theorem consumptions_pos {cl : List E} : ∀ {rs : List (StreamRes E F)},
    StreamRes.init (some cl) ∈ rs → 0 < consumptions rs := by
  intro rs
  induction rs with
  | nil => intro h; cases h
  | cons r rs ih =>
    intro hm
    rcases List.mem_cons.1 hm with rfl | hm
    · simp [consumptions]
    · have := ih hm
      cases r with
      | push _ => exact this
      | init c => cases c <;> simp only [consumptions] <;> omega
      | iterate c _ => cases c <;> simp only [consumptions] <;> omega

/-- **C35** (no panic). Once an `Init` has succeeded no later call panics. -/
theorem C35_no_panic (hneg : (-1 : F) < 0) {space : Space E F} (hcopy : ∀ a, space.copy a = a)
    (conf : StreamingConf F R) (data : List E) (impl0 impl : StreamImpl E F R)
    (h0 : StreamImpl.new conf data = some impl0) (ops : List (StreamOp E F))
    (rs : List (StreamRes E F)) (h : impl0.run space ops = some (impl, rs)) (cl : List E)
    (hinit : StreamRes.init (some cl) ∈ rs) (later : List (StreamOp E F)) :
    ∃ r, impl.run space later = some r := by
  obtain ⟨h1, h2, labels, h3⟩ := C35_stream hcopy conf data impl0 impl h0 ops rs h
  refine run_total hneg hcopy later impl _ _ h3 ?_
  have := consumptions_pos hinit
  intro hnil
  have hl := h3.labelled
  rw [List.length_take] at hl
  cases hlab : labels with
  | nil => rw [hlab] at hl; simp only [List.length_nil] at hl; omega
  | cons l ls =>
    have := h3.range l (by rw [hlab]; simp)
    rw [hnil] at this
    simp at this
    omega

/-- **C36.** In every state reached, at most `BufferSize` elements are waiting and a push returns an
error exactly when `BufferSize` elements are; a refused push changes nothing and an accepted one only
adds the element at the end of the queue. -/
theorem C36_push {space : Space E F} (hcopy : ∀ a, space.copy a = a) (conf : StreamingConf F R)
    (data : List E) (impl0 impl : StreamImpl E F R) (h0 : StreamImpl.new conf data = some impl0)
    (ops : List (StreamOp E F)) (rs : List (StreamRes E F))
    (h : impl0.run space ops = some (impl, rs)) (e : E) :
    (impl.c.length : Int) ≤ conf.bufferSize ∧
    ((impl.push e).2 = true ↔ (impl.c.length : Int) = conf.bufferSize) ∧
    ((impl.push e).2 = true → (impl.push e).1 = impl) ∧
    ((impl.push e).2 = false → (impl.push e).1 = { impl with c := impl.c ++ [e] }) := by
  obtain ⟨a1, a2, a3, a4, _⟩ := new_accounts h0 space
  obtain ⟨h1, h2, h3, h4, h5, _⟩ := run_accounts hcopy ops impl0 impl rs [] [] a1 h
  rw [a2, a3] at h5
  have hb := h5 a4
  refine ⟨hb, ?_, ?_, ?_⟩ <;> unfold StreamImpl.push <;> rw [h3, a3] <;> split <;> simp <;> omega

/-- **C36** (`NewImpl`). Building the implementation fails exactly on more data than `BufferSize` (or
a negative size); see `C21_streaming_accepts` for the configuration. -/
theorem C36_new (conf : StreamingConf F R) (data : List E) :
    StreamImpl.new conf data = none ↔ conf.bufferSize < data.length := by
  unfold StreamImpl.new
  constructor
  · intro h
    by_contra hc
    rw [if_neg (by omega)] at h
    cases h
  · intro h
    rw [if_pos (Or.inr h)]

theorem Spec.Accounts.cards_sum {space : Space E F} {els : List E} {labels : List Int}
    {clust : List E} {cards : List Int} (h : Accounts space els labels clust cards) :
    cards.sum = els.length := by
  have hs := card_sum clust.length (els.zip labels) (by
    intro p hp
    exact h.range p.2 (List.of_mem_zip hp).2)
  have hc : cards = (List.range clust.length).map
      fun l => ((members (els.zip labels) l).length : Int) := by
    apply List.ext_getElem?
    intro l
    by_cases hl : l < clust.length
    · rw [h.card l hl]; simp [hl]
    · rw [List.getElem?_eq_none (by rw [h.card_len]; omega), List.getElem?_eq_none (by simp; omega)]
  rw [hc, hs, List.length_zip, h.labelled]; simp

/-- **C37.** After any history there is one cardinality per cluster, each at least 1; they sum to the
number of consumed elements; and further calls never make the number of clusters smaller. -/
theorem C37_cards {space : Space E F} (hcopy : ∀ a, space.copy a = a) (conf : StreamingConf F R)
    (data : List E) (impl0 impl : StreamImpl E F R) (h0 : StreamImpl.new conf data = some impl0)
    (ops : List (StreamOp E F)) (rs : List (StreamRes E F))
    (h : impl0.run space ops = some (impl, rs)) :
    impl.cards.length = impl.clust.length ∧ (∀ n ∈ impl.cards, 1 ≤ n) ∧
    impl.cards.sum = consumptions rs ∧
    ∀ ops' impl' rs', impl.run space ops' = some (impl', rs') →
      impl.clust.length ≤ impl'.clust.length := by
  obtain ⟨h1, h2, labels, h3⟩ := C35_stream hcopy conf data impl0 impl h0 ops rs h
  refine ⟨h3.card_len, ?_, ?_, ?_⟩
  · intro n hn
    obtain ⟨l, hl, rfl⟩ := List.getElem_of_mem hn
    have hl' : l < impl.clust.length := by rw [← h3.card_len]; exact hl
    have hc := h3.card l hl'
    rw [List.getElem?_eq_getElem hl] at hc
    have := List.length_pos_iff.2 (h3.nonempty l hl')
    have := Option.some.inj hc
    omega
  · have := h3.cards_sum
    rw [List.length_take] at this
    omega
  · intro ops' impl' rs' h'
    exact (run_accounts hcopy ops' impl impl' rs' _ _ h3 h').2.2.2.1

end

/-! ### C38 -/

section
variable {E F R V : Type} [AddCommGroup V] [Module ℝ V]

theorem sum_members_vec (φ : E → V) (k : Nat) : ∀ (els : List (E × Int)),
    (∀ p ∈ els, 0 ≤ p.2 ∧ p.2 < k) →
    ((List.range k).map fun l => ((members els l).map φ).sum).sum = (els.map fun p => φ p.1).sum := by
  intro els
  induction els with
  | nil => intro _; simp [members]
  | cons p els ih =>
    intro h
    have hp := h p (List.mem_cons_self ..)
    obtain ⟨j, hj⟩ := Int.eq_ofNat_of_zero_le hp.1
    have hcons : ∀ l : Nat, ((members (p :: els) l).map φ).sum =
        (if l = j then φ p.1 else 0) + ((members els l).map φ).sum := by
      intro l
      have : p :: els = [(p.1, p.2)] ++ els := rfl
      rw [this, members_append, members_single]
      by_cases hl : l = j
      · subst hl; simp [hj]
      · have : ¬ (p.2 = (l : Int)) := by omega
        simp [hl, this]
    have hsplit : ∀ (f g : Nat → V) (m : Nat), ((List.range m).map fun l => f l + g l).sum =
        ((List.range m).map f).sum + ((List.range m).map g).sum := by
      intro f g m
      induction m with
      | zero => simp
      | succ m ih => simp only [List.range_succ, List.map_append, List.sum_append, ih, List.map_cons,
                       List.map_nil, List.sum_cons, List.sum_nil]; abel
    have hone : ∀ m : Nat, ((List.range m).map fun l => if l = j then φ p.1 else 0).sum =
        if j < m then φ p.1 else 0 := by
      intro m
      induction m with
      | zero => simp
      | succ m ih =>
        simp only [List.range_succ, List.map_append, List.sum_append, ih, List.map_cons,
          List.map_nil, List.sum_cons, List.sum_nil, add_zero]
        by_cases h1 : j < m
        · have h2 : ¬ m = j := by omega
          have h3 : j < m + 1 := by omega
          simp [h1, h2, h3]
        · by_cases h2 : m = j
          · subst h2; simp
          · have h3 : ¬ j < m + 1 := by omega
            simp [h1, h2, h3]
    simp only [hcons]
    rw [hsplit, hone, if_pos (by omega), ih fun q hq => h q (List.mem_cons_of_mem _ hq)]
    simp

theorem Spec.Accounts.mass {space : Space E F} {φ : E → V} (hb : Barycentric space φ) {els : List E}
    {labels : List Int} {clust : List E} {cards : List Int}
    (h : Accounts space els labels clust cards) :
    ((clust.zip cards).map fun p => (p.2 : ℝ) • φ p.1).sum = (els.map φ).sum := by
  have hz : (clust.zip cards).map (fun p => (p.2 : ℝ) • φ p.1) =
      (List.range clust.length).map fun l => ((members (els.zip labels) l).map φ).sum := by
    apply List.ext_getElem?
    intro l
    by_cases hl : l < clust.length
    · have hc := h.center l hl
      have hk := h.card l hl
      obtain ⟨m, hm⟩ := running_isSome space (h.nonempty l hl)
      rw [hm] at hc
      have : (clust.zip cards)[l]? = some (m, ((members (els.zip labels) l).length : Int)) := by
        rw [List.getElem?_zip_eq_some]; exact ⟨hc, hk⟩
      simp only [List.getElem?_map, this, Option.map_some, List.getElem?_range hl, Option.some.injEq]
      rw [running_mean hb _ m hm]
      unfold mean
      have hpos : ((members (els.zip labels) l).length : ℝ) ≠ 0 := by
        have := List.length_pos_iff.2 (h.nonempty l hl)
        positivity
      rw [List.length_map, smul_smul, Int.cast_natCast, mul_inv_cancel₀ hpos, one_smul]
    · rw [List.getElem?_eq_none (by simp; omega), List.getElem?_eq_none (by simp; omega)]
  rw [hz, sum_members_vec φ clust.length _ (by
    intro p hp
    exact h.range p.2 (List.of_mem_zip hp).2)]
  congr 1
  have : ∀ (a : List E) (b : List Int), b.length = a.length →
      (a.zip b).map (fun p => φ p.1) = a.map φ := by
    intro a b hab
    rw [show (fun p : E × Int => φ p.1) = φ ∘ Prod.fst from rfl, ← List.map_map,
      List.map_fst_zip (by omega)]
  exact this _ _ h.labelled

variable [Zero F] [One F] [Neg F] [LT F] [DecidableLT F] [BEq F] [Div F]

/-- **C38.** In exact arithmetic, after any history, every centre is the mean of its members for some
labelling of the consumed elements in which the cardinalities are the numbers of members, and the
cardinality-weighted sum of the centres is the sum of the consumed elements. -/
theorem C38_mass {space : Space E F} {φ : E → V} (hb : Barycentric space φ)
    (conf : StreamingConf F R) (data : List E) (impl0 impl : StreamImpl E F R)
    (h0 : StreamImpl.new conf data = some impl0) (ops : List (StreamOp E F))
    (rs : List (StreamRes E F)) (h : impl0.run space ops = some (impl, rs)) :
    let consumed := (data ++ accepted ops rs).take (consumptions rs)
    (((impl.clust.zip impl.cards).map fun p => (p.2 : ℝ) • φ p.1).sum = (consumed.map φ).sum) ∧
    ∃ labels : List Int, labels.length = consumed.length ∧
      ∀ (l : Nat) (m : E), impl.clust[l]? = some m →
        let ms := members (consumed.zip labels) l
        ms ≠ [] ∧ impl.cards[l]? = some (ms.length : Int) ∧ φ m = mean (ms.map φ) := by
  obtain ⟨h1, h2, labels, h3⟩ := C35_stream hb.copy conf data impl0 impl h0 ops rs h
  refine ⟨h3.mass hb, labels, h3.labelled, fun l m hm => ?_⟩
  have hl : l < impl.clust.length := (List.getElem?_eq_some_iff.1 hm).1
  refine ⟨h3.nonempty l hl, h3.card l hl, running_mean hb _ m ?_⟩
  rw [← h3.center l hl]; exact hm

/-- C38 for the Euclidean space over the reals, as coordinates. -/
theorem C38_euclid {n : Nat} [BEq ℝ] (conf : StreamingConf ℝ R) (data : List (Vec ℝ n))
    (impl0 impl : StreamImpl (Vec ℝ n) ℝ R) (h0 : StreamImpl.new conf data = some impl0)
    (ops : List (StreamOp (Vec ℝ n) ℝ)) (rs : List (StreamRes (Vec ℝ n) ℝ))
    (h : impl0.run (euclidSpace ℝ n) ops = some (impl, rs)) :
    ((impl.clust.zip impl.cards).map fun p => (p.2 : ℝ) • p.1.coords).sum =
      (((data ++ accepted ops rs).take (consumptions rs)).map Vec.coords).sum :=
  (C38_mass (euclid_barycentric n) conf data impl0 impl h0 ops rs h).1

end

/-! ### C39 -/

section
variable {E F R : Type} [Zero F] [One F] [Neg F] [LT F] [DecidableLT F] [BEq F] [Div F]

theorem process_max (space : Space E F) (impl impl' : StreamImpl E F R) (t : F) (e : E)
    (h : impl.process space t e = some impl') :
    let d := (nearest space impl.clust e).2
    let m := if impl.maxDistance == 0 then d else impl.maxDistance
    impl'.maxDistance = m ∨ (m < d ∧ impl'.maxDistance = d) := by
  unfold StreamImpl.process at h
  split at h
  · cases h
  · rename_i cent label distance hass
    have hd : (nearest space impl.clust e).2 = distance := by
      unfold assign at hass
      simp only at hass
      split at hass
      · split at hass
        · cases hass; rfl
        · cases hass
      · cases hass; rfl
    have hm : (impl.getRelativeDistance distance).1.maxDistance =
        if impl.maxDistance == 0 then distance else impl.maxDistance := by
      unfold StreamImpl.getRelativeDistance; simp only; split <;> rfl
    have hu : ∀ (i : StreamImpl E F R), (i.updateMaxDistance distance).maxDistance = i.maxDistance ∨
        (i.maxDistance < distance ∧ (i.updateMaxDistance distance).maxDistance = distance) := by
      intro i
      unfold StreamImpl.updateMaxDistance
      split
      · rename_i hlt; exact Or.inr ⟨hlt, rfl⟩
      · exact Or.inl rfl
    simp only [hd]
    rw [← hm]
    simp only at h
    split at h
    · cases h
    · rename_i impl2 hr
      simp only [Option.some.injEq] at h
      subst h
      simp only
      split at hr
      · cases hr; exact Or.inl rfl
      · split at hr
        · cases hr; exact hu _
        · unfold StreamImpl.updateCenter at hr
          split at hr
          · cases hr; exact hu _
          · cases hr

/-- What is used of the test `== 0` on floats. -/
structure ZeroTest (F : Type) [Zero F] [LT F] [BEq F] [FloatOrder F] : Prop where
  /-- a number equal to 0 compares as 0 -/
  eq : ∀ x y : F, (x == 0) = true → (y < x ↔ y < 0)
  /-- NaN is not equal to 0 -/
  nan : ∀ x : F, isNaN x → (x == 0) = false
  /-- 0 is not NaN and equal to itself -/
  zero : ¬ isNaN (0 : F)

theorem step_max [FloatOrder F] (hz : ZeroTest F) (hneg : (-1 : F) < 0) {space : Space E F}
    (hd : ∀ a b, ¬ space.dist a b < 0) (impl impl' : StreamImpl E F R) (op : StreamOp E F)
    (r : StreamRes E F) (hne : (∃ t, op = .iterate t) → impl.clust ≠ [])
    (h : impl.step space op = some (impl', r)) (hm : ¬ impl.maxDistance < 0) :
    ¬ impl'.maxDistance < 0 ∧ ¬ impl'.maxDistance < impl.maxDistance ∧
    (isNaN impl.maxDistance → impl'.maxDistance = impl.maxDistance) := by
  have hirr := FloatOrder.irrefl (F := F)
  cases op with
  | push e =>
    rcases step_push h with ⟨_, rfl, _⟩ | ⟨_, rfl, _⟩ <;> exact ⟨hm, hirr _, fun _ => rfl⟩
  | init =>
    rcases step_init h with ⟨_, rfl, _⟩ | ⟨e, q, _, rfl, _⟩
    · exact ⟨hm, hirr _, fun _ => rfl⟩
    · simp only [StreamImpl.addCenter, StreamImpl.updateMaxDistance]
      rw [if_neg hm]
      exact ⟨hm, hirr _, fun _ => rfl⟩
  | iterate t =>
    rcases step_iterate h with ⟨_, rfl, _⟩ | ⟨e, q, _, hp, _⟩
    · exact ⟨hm, hirr _, fun _ => rfl⟩
    · have hpm := process_max space _ _ t e hp
      obtain ⟨j, x, _, hx⟩ := nearest_mem hneg space impl.clust e (hne ⟨t, rfl⟩)
      simp only [hx] at hpm
      have hd0 := hd e x
      by_cases hzero : (impl.maxDistance == 0) = true
      · simp only [hzero, if_true] at hpm
        have hv : impl'.maxDistance = space.dist e x := by
          rcases hpm with h | ⟨_, h⟩ <;> exact h
        rw [hv]
        refine ⟨hd0, fun hc => hd0 ((hz.eq _ _ hzero).1 hc), fun hnan => ?_⟩
        rw [hz.nan _ hnan] at hzero
        cases hzero
      · simp only [hzero, if_false, Bool.false_eq_true] at hpm
        rcases hpm with h | ⟨hlt, h⟩
        · rw [h]; exact ⟨hm, hirr _, fun _ => rfl⟩
        · rw [h]
          refine ⟨hd0, fun hc => hirr _ (FloatOrder.trans hc hlt), fun hnan => ?_⟩
          exact absurd hlt (FloatOrder.nan_not_lt hnan)

/-- **C39** (monotone). With distances that are not negative (they may be NaN), in any history whose
first `Iterate` comes after a successful `Init`, the figure `maxDistance` is never negative and never
decreases, between any two moments. -/
theorem C39_monotone [FloatOrder F] (hz : ZeroTest F) (hneg : (-1 : F) < 0) {space : Space E F}
    (hcopy : ∀ a, space.copy a = a)
    (hd : ∀ a b, ¬ space.dist a b < 0) (conf : StreamingConf F R)
    (data : List E) (impl0 impl impl' : StreamImpl E F R)
    (h0 : StreamImpl.new conf data = some impl0) (ops ops' : List (StreamOp E F))
    (rs rs' : List (StreamRes E F)) (h : impl0.run space ops = some (impl, rs)) (cl : List E)
    (hops : ∀ pre t post, ops = pre ++ .iterate t :: post →
      ∃ i r cl, impl0.run space pre = some (i, r) ∧ StreamRes.init (some cl) ∈ r)
    (hinit : StreamRes.init (some cl) ∈ rs) (h' : impl.run space ops' = some (impl', rs')) :
    ¬ impl.maxDistance < 0 ∧ ¬ impl'.maxDistance < impl.maxDistance := by
  -- from a state with a cluster, or without `Iterate`
  have key : ∀ (ops : List (StreamOp E F)) (i i' : StreamImpl E F R) rs els labels,
      Accounts space els labels i.clust i.cards →
      (∀ pre t post, ops = pre ++ .iterate t :: post → ∃ i2 r2, i.run space pre = some (i2, r2) ∧
        i2.clust ≠ []) →
      ¬ i.maxDistance < 0 → i.run space ops = some (i', rs) →
      ¬ i'.maxDistance < 0 ∧ ¬ i'.maxDistance < i.maxDistance ∧
      (isNaN i.maxDistance → i'.maxDistance = i.maxDistance) := by
    intro ops
    induction ops with
    | nil =>
      intro i i' rs els labels _ _ hm h
      cases h
      exact ⟨hm, FloatOrder.irrefl _, fun _ => rfl⟩
    | cons op ops ih =>
      intro i i' rs els labels hacc hit hm h
      obtain ⟨i1, r, rs', hstep, hrun, rfl⟩ := run_cons h
      have hs := step_max hz hneg hd i i1 op r (by
        rintro ⟨t, rfl⟩
        obtain ⟨i2, r2, hr, hne⟩ := hit [] t ops rfl
        cases hr
        exact hne) hstep hm
      have hone : i.run space [op] = some (i1, [r]) := by simp [StreamImpl.run, hstep]
      obtain ⟨_, _, _, _, _, labels', hacc'⟩ := run_accounts hcopy [op] i i1 [r] els labels hacc hone
      have hr := ih i1 i' rs' _ _ hacc' (by
        intro pre t post he
        obtain ⟨i2, r2, hr, hne⟩ := hit (op :: pre) t post (by rw [he]; rfl)
        obtain ⟨i3, r3, rs3, hs3, hr3, _⟩ := run_cons hr
        rw [hstep] at hs3
        cases hs3
        exact ⟨i2, rs3, hr3, hne⟩) hs.1 hrun
      refine ⟨hr.1, fun hc => ?_, fun hnan => ?_⟩
      · by_cases hnan : isNaN i1.maxDistance
        · rw [hr.2.2 hnan] at hc; exact hs.2.1 hc
        · rcases FloatOrder.cotrans i1.maxDistance hnan hc with h | h
          · exact hr.2.1 h
          · exact hs.2.1 h
      · have e1 := hs.2.2 hnan
        rw [← e1]
        exact hr.2.2 (by rw [e1]; exact hnan)
  have hclust : ∀ (ops : List (StreamOp E F)) i r cl, impl0.run space ops = some (i, r) →
      StreamRes.init (some cl) ∈ r → i.clust ≠ [] := by
    intro ops i r cl hr hmem hnil
    have h37 := C37_cards hcopy conf data impl0 i h0 ops r hr
    rw [hnil] at h37
    have hl : i.cards = [] := List.length_eq_zero_iff.1 (by simpa using h37.1)
    have := h37.2.2.1
    rw [hl] at this
    have := consumptions_pos hmem
    simp at *
    omega
  obtain ⟨a1, a2, a3, a4, a5⟩ := new_accounts h0 space
  have hm := key ops impl0 impl rs [] [] a1 (by
    intro pre t post he
    obtain ⟨i, r, cl, hr, hmem⟩ := hops pre t post he
    exact ⟨i, r, hr, hclust pre i r cl hr hmem⟩) (by rw [a5]; exact FloatOrder.irrefl _) h
  obtain ⟨_, _, labels, h3⟩ := C35_stream hcopy conf data impl0 impl h0 ops rs h
  have hm' := key ops' impl impl' rs' _ _ h3 (by
    intro pre t post he
    have hne := hclust ops impl rs cl h hinit
    obtain ⟨⟨i2, r2⟩, hr⟩ := run_total hneg hcopy pre impl _ _ h3 hne
    obtain ⟨_, _, _, hle, _⟩ := run_accounts hcopy pre impl i2 r2 _ _ h3 hr
    exact ⟨i2, r2, hr, by
      have := List.length_pos_iff.2 hne
      exact List.length_pos_iff.1 (by omega)⟩) hm.1 h'
  exact ⟨hm.1, hm'.2.1⟩

/-- **C39** (outliers). Once the maximal distance is set (not equal to 0), an element treated as an
outlier does not change it, whatever its distance. -/
theorem C39_outlier (space : Space E F) (impl impl' : StreamImpl E F R) (t : F) (e : E)
    (hm : (impl.maxDistance == 0) = false) (hafter : impl.conf.outAfter ≤ impl.count)
    (hfar : impl.conf.outRatio < (nearest space impl.clust e).2 / impl.maxDistance)
    (h : impl.process space t e = some impl') :
    impl'.maxDistance = impl.maxDistance ∧ impl'.clust = impl.clust ++ [e] ∧
      impl'.cards = impl.cards ++ [1] := by
  unfold StreamImpl.process at h
  split at h
  · cases h
  · rename_i cent label distance hass
    have hd : (nearest space impl.clust e).2 = distance := by
      unfold assign at hass
      simp only at hass
      split at hass
      · split at hass
        · cases hass; rfl
        · cases hass
      · cases hass; rfl
    rw [hd] at hfar
    have hrel : impl.getRelativeDistance distance = (impl, distance / impl.maxDistance) := by
      unfold StreamImpl.getRelativeDistance
      simp [hm]
    rw [hrel] at h
    simp only [hafter, hfar, and_self, if_true, Option.some.injEq] at h
    subst h
    simp [StreamImpl.addOutlier]

end

section
open XReal
variable {E R : Type}

/-- The floats with NaN and infinities satisfy the laws used by `C39_monotone`. -/
theorem zeroTest_xreal : ZeroTest XReal where
  eq x y h := by
    have h' : XReal.beq x (fin 0) = true := h
    cases x with
    | fin r =>
      simp only [XReal.beq, decide_eq_true_eq] at h'
      subst h'
      exact Iff.rfl
    | nan => cases h'
    | negInf => cases h'
    | posInf => cases h'
  nan x h := by
    have h' : x = nan := h
    subst h'; rfl
  zero h := by
    have h' : (fin 0 : XReal) = nan := h
    cases h'

/-- **C39** (zero over zero). While the maximal distance is 0, an element at distance 0 of its nearest
centre has the relative distance NaN: it is merged in that centre, whatever the draw, and never
opens a cluster. -/
theorem C39_zero_distance (space : Space E XReal) (impl : StreamImpl E XReal R) (t : XReal) (e : E)
    (hm : impl.maxDistance = fin 0) (hc : impl.clust ≠ [])
    (hl : impl.cards.length = impl.clust.length)
    (hd : (nearest space impl.clust e).2 = fin 0) :
    ∃ impl' j center card, impl.process space t e = some impl' ∧ impl.clust[j]? = some center ∧
      impl.cards[j]? = some card ∧ (nearest space impl.clust e).1 = (j : Nat) ∧
      impl'.clust = impl.clust.set j (space.combine center card e 1) ∧
      impl'.cards = impl.cards.set j (card + 1) ∧ impl'.clust.length = impl.clust.length ∧
      impl'.maxDistance = fin 0 := by
  have hneg : (-1 : XReal) < 0 := by
    show XReal.lt (XReal.neg (fin 1)) (fin 0)
    simp [XReal.neg, XReal.lt]
  obtain ⟨j, x, hj, hn, ha⟩ := assign_eq hneg space impl.clust e hc
  rw [hn] at hd
  simp only at hd
  have hbeq : ((fin 0 : XReal) == 0) = true := by
    show XReal.beq (fin 0) (fin 0) = true
    simp [XReal.beq]
  have hdiv : (fin 0 : XReal) / fin 0 = nan := by
    show XReal.div (fin 0) (fin 0) = nan
    simp [XReal.div, XReal.infOf]
  have hrel : impl.getRelativeDistance (fin 0) = (impl, nan) := by
    unfold StreamImpl.getRelativeDistance
    simp only [hm, hbeq, if_true, hdiv]
    cases impl; simp only at hm; subst hm; rfl
  have hlt : ∀ y : XReal, ¬ y < nan := by
    intro y hy
    cases y <;> exact hy
  have hjl : j < impl.clust.length := (List.getElem?_eq_some_iff.1 hj).1
  have hcard := List.getElem?_eq_getElem (l := impl.cards) (show j < impl.cards.length by omega)
  have hnlt : ¬ ((fin 0 : XReal) < fin 0) := by
    intro h
    have : (0 : ℝ) < 0 := h
    exact lt_irrefl _ this
  refine ⟨{ impl with clust := impl.clust.set j (space.combine x impl.cards[j] e 1),
                      cards := impl.cards.set j (impl.cards[j] + 1), count := impl.count + 1 },
    j, x, _, ?_, hj, hcard, by rw [hn], rfl, rfl, by simp, hm⟩
  unfold StreamImpl.process
  rw [ha]
  simp only [hd, hrel, hlt, and_false, if_false]
  unfold StreamImpl.updateCenter
  rw [idx?_natCast, idx?_natCast, hj, hcard]
  simp only [Int.toNat_natCast]
  unfold StreamImpl.updateMaxDistance
  simp only [hm, hnlt, if_false]

end

/-! ### C69, C70 -/

section
variable {E F R : Type} [Zero F] [One F] [Neg F] [LT F] [DecidableLT F] [BEq F] [Div F]

/-- **C69.** Initialising again does not start from scratch: the clustering returned has the single
oldest waiting element, while the implementation keeps all its former clusters and cardinalities and
appends it; a following `Iterate` that consumes an element returns at least that many clusters. -/
theorem C69_reinit {space : Space E F} (hcopy : ∀ a, space.copy a = a) (impl : StreamImpl E F R)
    (els : List E) (labels : List Int) (hacc : Accounts space els labels impl.clust impl.cards)
    (hne : impl.clust ≠ []) (e : E) (q : List E) (hq : impl.c = e :: q) :
    impl.init.2 = some [e] ∧ impl.init.1.clust = impl.clust ++ [e] ∧
    impl.init.1.cards = impl.cards ++ [1] ∧ impl.init.2 ≠ some impl.init.1.clust ∧
    ∀ t r cl, impl.init.1.iterate space t = some r → r.2.1 = some cl → 2 ≤ cl.length := by
  have hi : impl.init = (StreamImpl.addCenter { impl with c := q } e 0, some [e]) := by
    simp [StreamImpl.init, hq]
  have hpos := List.length_pos_iff.2 hne
  have hcl : impl.init.1.clust = impl.clust ++ [e] := by rw [hi]; simp [StreamImpl.addCenter]
  have hca : impl.init.1.cards = impl.cards ++ [1] := by rw [hi]; simp [StreamImpl.addCenter]
  refine ⟨by rw [hi], hcl, hca, ?_, ?_⟩
  · rw [hcl, hi]
    intro h
    have := congrArg (Option.map List.length) h
    simp at this
    exact hne this
  · intro t r cl hr hr2
    have hacc' : Accounts space (els ++ [e]) (labels ++ [(impl.clust.length : Int)])
        impl.init.1.clust impl.init.1.cards := by
      rw [hcl, hca]; exact hacc.add hcopy e
    have hrun : impl.init.1.run space [.iterate t] = some (r.1, [.iterate r.2.1 r.2.2]) := by
      simp [StreamImpl.run, StreamImpl.step, hr]
    have hle := (run_accounts hcopy _ _ _ _ _ _ hacc' hrun).2.2.2.1
    have hcl' : cl = r.1.clust := by
      cases hc : impl.init.1.c with
      | nil => simp only [StreamImpl.iterate, hc] at hr; cases hr; cases hr2
      | cons e' q' =>
        have := ((C35_calls space impl.init.1 t).2 e' q' hc).2.2.2 r hr
        rw [this.2.1] at hr2
        exact (Option.some.inj hr2).symm
    rw [hcl']
    rw [hcl] at hle
    simp only [List.length_append, List.length_singleton] at hle
    omega

/-- **C70.** With distances that are non-negative numbers, an element processed by the streaming
algorithm either becomes a new cluster of its own or is merged, with weight 1 against the cardinality
of the cluster, in the first nearest centre; all other centres and cardinalities are unchanged. -/
theorem C70_process [FloatOrder F] (hneg : (-1 : F) < 0) (space : Space E F)
    (impl impl' : StreamImpl E F R) (t : F) (e : E) (hne : impl.clust ≠ [])
    (hnan : ∀ y ∈ impl.clust, ¬ isNaN (space.dist e y))
    (h0 : ∀ y ∈ impl.clust, ¬ space.dist e y < 0)
    (h : impl.process space t e = some impl') :
    (impl'.clust = impl.clust ++ [e] ∧ impl'.cards = impl.cards ++ [1]) ∨
    ∃ (j : Nat) (center : E) (card : Int),
      Spec.IsNearest (space.dist e) (fun _ => True) impl.clust j center ∧
      impl.cards[j]? = some card ∧ impl'.clust[j]? = some (space.combine center card e 1) ∧
      impl'.cards[j]? = some (card + 1) ∧ impl'.clust.length = impl.clust.length ∧
      impl'.cards.length = impl.cards.length ∧
      ∀ i, i ≠ j → impl'.clust[i]? = impl.clust[i]? ∧ impl'.cards[i]? = impl.cards[i]? := by
  obtain ⟨_, _, _, h | ⟨j, center, card, hj, h1, h2, h3, h4⟩⟩ := process_cases space _ _ _ _ h
  · exact Or.inl h
  · right
    obtain ⟨k, x, ha, hk⟩ := C03_assign_nearest hneg space impl.clust e hne hnan h0
    obtain ⟨k', x', _, hn', ha'⟩ := assign_eq hneg space impl.clust e hne
    rw [ha] at ha'
    have hkk : k = j := by
      simp only [Option.some.injEq, Prod.mk.injEq] at ha'
      rw [hn'] at hj
      have := ha'.2.1
      simp only at hj
      omega
    subst hkk
    have hx : x = center := by
      have := hk.at_label
      rw [h1] at this
      exact (Option.some.inj this).symm
    subst hx
    have hl1 := (List.getElem?_eq_some_iff.1 h1).1
    have hl2 := (List.getElem?_eq_some_iff.1 h2).1
    refine ⟨k, x, card, hk, h2, ?_, ?_, by rw [h3]; simp, by rw [h4]; simp, fun i hi => ⟨?_, ?_⟩⟩
    · rw [h3, List.getElem?_set_self hl1]
    · rw [h4, List.getElem?_set_self hl2]
    · rw [h3, List.getElem?_set_ne (by omega)]
    · rw [h4, List.getElem?_set_ne (by omega)]

/-- **C70 (decision).** Let `d` be the distance to the nearest centre and `m` the maximal distance (`d` if it
is 0).  A cluster is opened exactly when the element is an outlier, which needs `outAfter` elements before,
or when the draw is below `d / m`.  Only an outlier leaves `m` aside; any other element raises it to `d`. -/
theorem C70_decision (space : Space E F) (impl impl' : StreamImpl E F R) (t : F) (e : E)
    (h : impl.process space t e = some impl') :
    let d := (nearest space impl.clust e).2
    let m := if impl.maxDistance == 0 then d else impl.maxDistance
    let outlier := impl.conf.outAfter ≤ impl.count ∧ impl.conf.outRatio < d / m
    (impl'.clust.length = impl.clust.length + 1 ↔ outlier ∨ t < d / m) ∧
    (outlier → impl'.maxDistance = m) ∧ (¬ outlier → impl'.maxDistance = if m < d then d else m) ∧
    impl'.count = impl.count + 1 := by
  intro d m outlier
  unfold StreamImpl.process at h
  split at h
  · cases h
  · rename_i cent label distance hass
    have hd : d = distance := by
      unfold assign at hass
      simp only at hass
      split at hass
      · split at hass
        · cases hass; rfl
        · cases hass
      · cases hass; rfl
    subst hd
    have hrel : impl.getRelativeDistance d = ({ impl with maxDistance := m }, d / m) := by
      unfold StreamImpl.getRelativeDistance
      simp only [m]
      split <;> rfl
    rw [hrel] at h
    simp only at h
    by_cases ho : outlier
    · rw [if_pos ho] at h
      cases h
      exact ⟨⟨fun _ => .inl ho, fun _ => by simp [StreamImpl.addOutlier]⟩, fun _ => rfl,
        fun h => absurd ho h, rfl⟩
    · rw [if_neg ho] at h
      by_cases ht : t < d / m
      · rw [if_pos ht] at h
        cases h
        refine ⟨⟨fun _ => .inr ht, fun _ => ?_⟩, fun h => absurd h ho, fun _ => ?_, ?_⟩ <;>
          (simp only [StreamImpl.addCenter, StreamImpl.updateMaxDistance]; split <;> simp)
      · rw [if_neg ht] at h
        unfold StreamImpl.updateCenter at h
        simp only at h
        split at h
        · cases h
        · rename_i i1 hu
          split at hu
          · cases hu
            cases h
            refine ⟨⟨fun hl => ?_, fun h => absurd h (by simp [ho, ht])⟩, fun h => absurd h ho, fun _ => ?_, ?_⟩
            · exfalso
              revert hl
              simp only [StreamImpl.updateMaxDistance]
              split <;> simp
            all_goals (simp only [StreamImpl.updateMaxDistance]; split <;> simp)
          · cases hu

/-- **C71.** Copying a streaming implementation keeps only the centres, as waiting elements: the copy
has no cluster, no cardinality, a null maximal distance and a null count; and it panics exactly when
there are more clusters than `BufferSize`. -/
theorem C71_copy (impl : StreamImpl E F R) (conf : StreamingConf F R) :
    (impl.copy conf = none ↔ conf.bufferSize < impl.clust.length) ∧
    ∀ impl', impl.copy conf = some impl' → impl'.c = impl.clust ∧ impl'.clust = [] ∧
      impl'.cards = [] ∧ impl'.maxDistance = 0 ∧ impl'.count = 0 := by
  unfold StreamImpl.copy StreamImpl.new
  constructor
  · constructor
    · intro h
      by_contra hc
      rw [if_neg hc, if_neg (by omega)] at h
      cases h
    · intro h; rw [if_pos h]
  · intro impl' h
    split at h
    · cases h
    · split at h
      · cases h
      · cases h; exact ⟨rfl, rfl, rfl, rfl, rfl⟩

end

/-! ### Examples -/

/-- A configuration for the examples. -/
def exStreamConf : StreamingConf Int Unit :=
  { ctrl := { iter := 0, iterFreq := 0, timeout := 0, dataPerIter := 0, iterPerData := 0 },
    bufferSize := 3, mu := 0, sigma := 0, outRatio := 2, outAfter := 5, rgen := some () }

/-- A history: three pushes are accepted on top of one initial element, minus one consumed; the
fourth is refused. -/
example : ((StreamImpl.new exStreamConf [10]).bind fun i => (i.run exSpace
      [.init, .push 4, .push 5, .push 30, .push 7, .iterate 0, .iterate 5, .iterate 5]).map
      fun r => (r.1.clust, r.1.cards, r.1.c, r.1.maxDistance, r.2.length)) =
    some ([20, 4], [2, 2], [], 20, 8) := by decide

/-- Initialising twice: the second result has one centre, the implementation two. -/
example : ((StreamImpl.new exStreamConf [10, 20]).map fun i =>
      (i.init.1.init.2, i.init.1.init.1.clust)) = some (some [20], [10, 20]) := by decide

/-- Four clusters do not fit in the buffer of three of the copy. -/
example : (StreamImpl.copy (⟨0, [1, 2, 3, 4], [1, 1, 1, 1], [], exStreamConf, 0⟩ :
    StreamImpl Int Int Unit) exStreamConf).isNone = true := by decide

end Distclus
