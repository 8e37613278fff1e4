import Verif.Proof.StreamPanic
import Verif.Props.ParPanic
import Verif.Props.DtwKMeans
/-!
# C149: streaming with elements on which the operations of the space panic

Model: `Verif/Model/StreamPanic.lean`.
-/
namespace Distclus
open Spec PSpace

section
variable {E F R : Type} [Zero F] [LT F] [DecidableLT F] [One F] [Neg F] [BEq F] [Div F]

/-! ### Agreement with the other properties -/

theorem run_same {E' : Type} {sp : PSpace E F} {space : Space E' F} {φ : E' → E} (h : Embeds sp space φ) :
    ∀ (ops : List (StreamOp E' F)) (impl i' : StreamImpl E' F R) (rs : List (StreamRes E' F)),
      StreamImpl.run space impl ops = some (i', rs) →
      StreamImpl.runP sp (impl.image φ) (ops.map (StreamOp.image φ)) =
        (i'.image φ, rs.map fun r => some (r.image φ))
  | [], impl, i', rs, hr => by cases hr; rfl
  | op :: ops, impl, i', rs, hr => by
    simp only [StreamImpl.run] at hr
    cases hs : impl.step space op with
    | none => rw [hs] at hr; cases hr
    | some p =>
      obtain ⟨i1, r1⟩ := p
      simp only [hs] at hr
      cases ht : StreamImpl.run space i1 ops with
      | none => rw [ht] at hr; cases hr
      | some p =>
        obtain ⟨i2, r2⟩ := p
        simp only [ht] at hr
        cases hr
        simp only [List.map_cons, StreamImpl.runP, (image_step h impl op).1 _ _ hs, run_same h ops _ _ _ ht]

/-- **C149.** On vectors of one dimension the calls are those of the other properties of streaming, and they panic when
these do. -/
theorem C149_same [Add F] [Sub F] [Mul F] [GoMath F] {n : Nat} (impl : StreamImpl (Vec F n) F R)
    (ops : List (StreamOp (Vec F n) F)) (op : StreamOp (Vec F n) F) :
    (∀ i' rs, StreamImpl.run (euclidSpace F n) impl ops = some (i', rs) →
      StreamImpl.runP euclidP (impl.image (·.1)) (ops.map (StreamOp.image (·.1))) =
        (i'.image (·.1), rs.map fun r => some (r.image (·.1)))) ∧
    (impl.step (euclidSpace F n) op = none → ((impl.image (·.1)).stepP euclidP (op.image (·.1))).2 = none) := by
  have h1 : Embeds (euclidP (F := F)) (euclidSpace F n) (·.1) :=
    ⟨fun a b => (euclid_total a b 0 0).1, fun a w b v => (euclid_total a b w v).2, fun a => rfl⟩
  exact ⟨fun i' rs => run_same h1 ops impl i' rs, (image_step h1 impl op).2⟩

/-! ### What a panic leaves behind -/

/-- **C149.** A call of `Iterate` which panics has taken the oldest element from the channel: that element is lost. The
centres, their counts, the number of elements and the other elements of the channel are as before. The largest distance
too if a distance panics; otherwise, if it was zero, it is now the distance of the lost element to its nearest centre. -/
theorem C149_leaves (hneg : (-1 : F) < 0) (sp : PSpace E F) (impl i' : StreamImpl E F R) (t : F)
    (h : impl.iterateP sp t = (i', none)) :
    ∃ e q, impl.c = e :: q ∧
      ((∃ x ∈ impl.clust, sp.dist e x = none) → i' = { impl with c := q }) ∧
      ((∀ x ∈ impl.clust, sp.dist e x ≠ none) → i' = { impl with
        c := q
        maxDistance :=
          if impl.maxDistance == 0 then (nearest sp.total impl.clust e).2 else impl.maxDistance }) := by
  simp only [StreamImpl.iterateP] at h
  cases hc : impl.c with
  | nil => rw [hc] at h; cases h
  | cons e q =>
    refine ⟨e, q, rfl, ?_⟩
    simp only [hc] at h
    obtain ⟨n1, n2⟩ := nearestLoop_total (sp := sp) e impl.clust 0 (-1) (-1)
    rcases processP_cases { impl with c := q } sp t e with ⟨hn, p⟩ | ⟨l, d, hn, hh⟩
    · refine ⟨fun _ => ?_, fun hall => ?_⟩
      · rw [p] at h; cases h; rfl
      · rw [show nearestP sp impl.clust e = some _ from n1 hall] at hn; cases hn
    · refine ⟨fun hx => ?_, fun hall => ?_⟩
      · rw [show nearestP sp impl.clust e = none from n2 hx] at hn; cases hn
      · have hld : nearest sp.total impl.clust e = (l, d) := by
          have := n1 hall
          rw [show nearestLoopP sp e impl.clust 0 (-1) (-1) = some (l, d) from hn] at this
          exact (Option.some.inj this).symm
        rcases hh with ⟨-, i, p, -⟩ | ⟨-, x, k, y, -, -, -, i, p, -⟩ | ⟨-, -, p⟩ | ⟨h0, hno, -⟩
        · rw [p] at h; cases h
        · rw [p] at h; cases h
        · rw [p] at h; cases h; rw [hld]
        · by_cases hcl : impl.clust = []
          · rw [hcl] at hld; cases hld; omega
          · have hr := (nearest_range hneg sp.total impl.clust hcl e).2
            rw [hld] at hr
            obtain ⟨x, hx⟩ := idx?_in_range impl.clust h0 hr
            rw [show idx? impl.clust l = none from hno] at hx; cases hx

/-! ### Elements on which nothing panics -/

/-- **C149.** If the operations do not panic on the elements which are `G`, and lead to such elements, then no sequence
of calls panics, and the centres stay such elements. -/
theorem C149_steady {sp : PSpace E F} {G : E → Prop} (hneg : (-1 : F) < 0) (hs : SafeOn sp G) :
    ∀ (ops : List (StreamOp E F)) (impl : StreamImpl E F R), StreamSteady G impl → Pushes G ops →
      none ∉ (StreamImpl.runP sp impl ops).2 ∧ StreamSteady G (StreamImpl.runP sp impl ops).1
  | [], impl, h, _ => ⟨by simp [StreamImpl.runP], h⟩
  | op :: ops, impl, h, hp => by
    obtain ⟨i', r, e, h'⟩ := h.step hneg hs op fun e he => hp e (by simp [he])
    obtain ⟨h1, h2⟩ := C149_steady hneg hs ops i' h' fun e he => hp e (by simp [he])
    simp only [StreamImpl.runP, e]
    exact ⟨by simpa using h1, h2⟩

/-- **C149.** The same from the construction: an implementation built on some elements, then initialised, then called in
any way. -/
theorem C149_safe {sp : PSpace E F} {G : E → Prop} (hneg : (-1 : F) < 0) (hs : SafeOn sp G) (conf : StreamingConf F R)
    (elemts : List E) (hne : elemts ≠ []) (hg : ∀ e ∈ elemts, G e) (impl : StreamImpl E F R)
    (hnew : StreamImpl.new conf elemts = some impl) (ops : List (StreamOp E F)) (hp : Pushes G ops) :
    none ∉ (StreamImpl.runP sp impl (.init :: ops)).2 ∧
    (StreamImpl.runP sp impl (.init :: ops)).1.clust ≠ [] ∧
    ∀ x ∈ (StreamImpl.runP sp impl (.init :: ops)).1.clust, G x := by
  unfold StreamImpl.new at hnew
  split at hnew
  · cases hnew
  · cases hnew
    cases elemts with
    | nil => exact (hne rfl).elim
    | cons e q =>
      have h0 : StreamSteady G (StreamImpl.init (⟨0, [], [], e :: q, conf, 0⟩ : StreamImpl E F R)).1 := by
        simp only [StreamImpl.init, StreamImpl.addCenter]
        obtain ⟨u1, u2, u3, -⟩ := updateMax_eq (⟨0, [] ++ [e], [] ++ [1], q, conf, 0⟩ : StreamImpl E F R) 0
        refine ⟨by rw [u1]; simp, ?_, ?_, by rw [u1, u2]; simp, ?_⟩
        · rw [u1]; simp only [List.nil_append, List.mem_singleton]; rintro z rfl; exact hg z (by simp)
        · rw [u3]; exact fun x hx => hg x (by simp [hx])
        · rw [u2]; simp
      obtain ⟨h1, h2⟩ := C149_steady hneg hs ops _ h0 hp
      have hr : StreamImpl.runP sp (⟨0, [], [], e :: q, conf, 0⟩ : StreamImpl E F R) (.init :: ops) =
          ((StreamImpl.runP sp (StreamImpl.init (⟨0, [], [], e :: q, conf, 0⟩ : StreamImpl E F R)).1 ops).1,
            some (.init (some [e])) ::
              (StreamImpl.runP sp (StreamImpl.init (⟨0, [], [], e :: q, conf, 0⟩ : StreamImpl E F R)).1 ops).2) := rfl
      rw [hr]
      exact ⟨by simpa using h1, h2.started, h2.centres⟩

/-! ### Elements of different sizes -/

variable {sp : PSpace E F} {size : E → Nat}

/-- **C149.** Exactly when a call of `Iterate` panics on the oldest element `e` of the channel: when `e` has more
coordinates than a centre, or when it has fewer than its nearest centre and would be merged with it. -/
theorem C149_panics_iff (hneg : (-1 : F) < 0) (hz : Sized sp size) (impl : StreamImpl E F R) (hc : impl.clust ≠ [])
    (hk : impl.cards.length = impl.clust.length) (e : E) (q : List E) (he : impl.c = e :: q) (t : F) :
    (impl.iterateP sp t).2 = none ↔
      (∃ x ∈ impl.clust, size x < size e) ∨
      (Merges impl t (nearest sp.total impl.clust e).2 ∧
        ∃ x, idx? impl.clust (nearest sp.total impl.clust e).1 = some x ∧ size e < size x) := by
  have hit : (impl.iterateP sp t).2 = none ↔ (StreamImpl.processP { impl with c := q } sp t e).2 = true := by
    simp only [StreamImpl.iterateP, he]
    cases StreamImpl.processP { impl with c := q } sp t e with
    | mk i b => cases b <;> simp
  rw [hit]
  by_cases hx : ∃ x ∈ impl.clust, size x < size e
  · have hn : nearestP sp impl.clust e = none := by
      obtain ⟨x, hx, hlt⟩ := hx
      exact (nearestLoop_total e _ _ _ _).2 ⟨x, hx, (hz.dist e x).2 hlt⟩
    refine iff_of_true ?_ (.inl hx)
    rcases processP_cases { impl with c := q } sp t e with ⟨-, p⟩ | ⟨l, d, h, -⟩
    · rw [p]
    · rw [show nearestP sp impl.clust e = some (l, d) from h] at hn; cases hn
  · have hn : nearestP sp impl.clust e = some (nearest sp.total impl.clust e) :=
      (nearestLoop_total e _ _ _ _).1 fun x hxm h => hx ⟨x, hxm, (hz.dist e x).1 h⟩
    obtain ⟨r1, r2⟩ := nearest_range hneg sp.total impl.clust hc e
    rw [or_iff_right hx]
    generalize nearest sp.total impl.clust e = ld at hn r1 r2
    obtain ⟨l, d⟩ := ld
    simp only at r1 r2 ⊢
    obtain ⟨x, hxl⟩ := idx?_in_range impl.clust r1 r2
    obtain ⟨k, hkl⟩ := idx?_in_range impl.cards r1 (by rw [hk]; exact r2)
    rcases processP_cases { impl with c := q } sp t e with ⟨h, -⟩ | ⟨l', d', h, hh⟩
    · rw [show nearestP sp impl.clust e = none from h] at hn; cases hn
    · rw [show nearestP sp impl.clust e = some (l', d') from h] at hn
      cases hn
      have hcomb : sp.combine x k e 1 = none ↔ size e < size x := hz.combine x k e 1
      rcases hh with ⟨hm, i, p, -⟩ | ⟨hm, x', k', y, hx', hk', hy, i, p, -⟩ | ⟨hm, hno, p⟩ | ⟨-, hno, -⟩
      · rw [p]
        exact iff_of_false (by simp) fun h => hm h.1
      · rw [p]
        rw [show idx? impl.clust l = some x' from hx'] at hxl; cases hxl
        rw [show idx? impl.cards l = some k' from hk'] at hkl; cases hkl
        refine iff_of_false (by simp) ?_
        rintro ⟨-, z, hz', hlt⟩
        rw [show idx? impl.clust l = some x from hx'] at hz'; cases hz'
        rw [hcomb.2 hlt] at hy; cases hy
      · rw [p]
        exact iff_of_true rfl ⟨hm, x, hxl, hcomb.1 (hno x k hxl hkl)⟩
      · rw [show idx? impl.clust l = none from hno] at hxl; cases hxl

/-- **C149.** On an element with more coordinates than a centre the only effect is that the element is lost. -/
theorem C149_larger (hz : Sized sp size) (impl : StreamImpl E F R) (e : E) (q : List E) (he : impl.c = e :: q) (t : F)
    {x : E} (hx : x ∈ impl.clust) (hlt : size x < size e) : impl.iterateP sp t = ({ impl with c := q }, none) := by
  have hn : nearestP sp impl.clust e = none := (nearestLoop_total e _ _ _ _).2 ⟨x, hx, (hz.dist e x).2 hlt⟩
  simp only [StreamImpl.iterateP, he]
  rcases processP_cases { impl with c := q } sp t e with ⟨-, p⟩ | ⟨l, d, h, -⟩
  · rw [p]
  · rw [show nearestP sp impl.clust e = some (l, d) from h] at hn; cases hn

/-- **C149.** An element with at most as many coordinates as every centre which is not merged becomes a centre. -/
theorem C149_opens (hneg : (-1 : F) < 0) (hz : Sized sp size) (impl : StreamImpl E F R) (e : E) (q : List E) (he : impl.c = e :: q) (t : F)
    (hle : ∀ x ∈ impl.clust, size e ≤ size x) (hm : ¬ Merges impl t (nearest sp.total impl.clust e).2) :
    ∃ i', impl.iterateP sp t = (i', some (some (impl.clust ++ [e]), i'.maxDistance)) ∧ i'.clust = impl.clust ++ [e] ∧
      i'.c = q := by
  have hn : nearestP sp impl.clust e = some (nearest sp.total impl.clust e) :=
    (nearestLoop_total e _ _ _ _).1 fun x hx h => by have := (hz.dist e x).1 h; have := hle x hx; omega
  have hrange : impl.clust ≠ [] → (nearest sp.total impl.clust e).1 < impl.clust.length := fun hc =>
    (nearest_range hneg sp.total impl.clust hc e).2
  generalize nearest sp.total impl.clust e = ld at hn hm hrange
  simp only [StreamImpl.iterateP, he]
  rcases processP_cases { impl with c := q } sp t e with ⟨h, -⟩ | ⟨l, d, h, hh⟩
  · rw [show nearestP sp impl.clust e = none from h] at hn; cases hn
  · rw [show nearestP sp impl.clust e = some (l, d) from h] at hn
    cases hn
    rcases hh with ⟨-, i, p, c1, -, c3, -⟩ | ⟨h, -⟩ | ⟨h, -⟩ | ⟨h0, hno, -⟩
    · rw [p]
      exact ⟨i, by simp only [c1], c1, c3⟩
    · exact (hm h).elim
    · exact (hm h).elim
    · by_cases hc : impl.clust = []
      · have : nearestP sp impl.clust e = some (-1, -1) := by rw [hc]; rfl
        rw [show nearestP sp impl.clust e = some (l, d) from h] at this
        cases this; omega
      · obtain ⟨x, hx⟩ := idx?_in_range impl.clust h0 (hrange hc)
        rw [show idx? impl.clust l = none from hno] at hx; cases hx

/-- **C149.** The number of coordinates of a centre never changes, whatever is pushed. -/
theorem C149_sizes (hz : Sized sp size) : ∀ (ops : List (StreamOp E F)) (impl : StreamImpl E F R),
    impl.clust.map size <+: (StreamImpl.runP sp impl ops).1.clust.map size
  | [], impl => by simp [StreamImpl.runP]
  | op :: ops, impl => (step_sizes hz impl op).trans (C149_sizes hz ops (impl.stepP sp op).1)

/-- **C149.** One centre with fewer coordinates than the elements which follow stops the algorithm for ever: whatever
the calls of `Push` and `Iterate`, each `Iterate` which takes an element panics, and the centres, their counts, the
number of elements and the largest distance never change again. -/
theorem C149_stuck (hz : Sized sp size) (x : E) :
    ∀ (ops : List (StreamOp E F)) (impl : StreamImpl E F R), x ∈ impl.clust → (∀ e ∈ impl.c, size x < size e) →
      Pushes (fun e => size x < size e) ops → .init ∉ ops →
      (∃ q, (StreamImpl.runP sp impl ops).1 = { impl with c := q }) ∧
      ∀ r ∈ (StreamImpl.runP sp impl ops).2, r = none ∨ (∃ b, r = some (.push b)) ∨ r = some (.iterate none impl.maxDistance)
  | [], impl, _, _, _, _ => ⟨⟨impl.c, rfl⟩, by simp [StreamImpl.runP]⟩
  | op :: ops, impl, hx, hq, hp, hi => by
    have hstep : ∃ q r, impl.stepP sp op = ({ impl with c := q }, r) ∧ (∀ e ∈ q, size x < size e) ∧
        (r = none ∨ (∃ b, r = some (.push b)) ∨ r = some (.iterate none impl.maxDistance)) := by
      cases op with
      | init => exact (hi (by simp)).elim
      | push e =>
        simp only [StreamImpl.stepP, StreamImpl.push]
        split
        · refine ⟨impl.c ++ [e], _, rfl, ?_, .inr (.inl ⟨_, rfl⟩)⟩
          simp only [List.mem_append, List.mem_singleton]
          rintro z (hz' | rfl)
          exacts [hq z hz', hp z (by simp)]
        · exact ⟨impl.c, _, rfl, hq, .inr (.inl ⟨_, rfl⟩)⟩
      | iterate t =>
        cases hc : impl.c with
        | nil =>
          refine ⟨[], _, ?_, by simp, .inr (.inr rfl)⟩
          simp only [StreamImpl.stepP, StreamImpl.iterateP, hc]
          rw [← hc]
        | cons e q =>
          refine ⟨q, none, ?_, fun z hz' => hq z (by simp [hc, hz']), .inl rfl⟩
          simp only [StreamImpl.stepP, C149_larger hz impl e q hc t hx (hq e (by simp [hc]))]
    obtain ⟨q, r, e1, e2, e3⟩ := hstep
    obtain ⟨⟨q', h1⟩, h2⟩ := C149_stuck hz x ops { impl with c := q } hx e2 (fun e he => hp e (by simp [he]))
      fun h => hi (by simp [h])
    simp only [StreamImpl.runP, e1]
    refine ⟨⟨q', h1⟩, fun y hy => ?_⟩
    rcases List.mem_cons.1 hy with rfl | hy
    · exact e3
    · exact h2 y hy

/-- **C149.** So it is after an element with fewer coordinates than the others which is not merged. -/
theorem C149_short (hneg : (-1 : F) < 0) (hz : Sized sp size) (impl : StreamImpl E F R) (e : E) (q : List E)
    (he : impl.c = e :: q) (t : F) (hle : ∀ x ∈ impl.clust, size e ≤ size x)
    (hm : ¬ Merges impl t (nearest sp.total impl.clust e).2) (hq : ∀ y ∈ q, size e < size y)
    (ops : List (StreamOp E F)) (hp : Pushes (fun y => size e < size y) ops) (hi : .init ∉ ops) :
    (StreamImpl.runP sp impl (.iterate t :: ops)).1.clust = impl.clust ++ [e] ∧
    ∀ c m, some (.iterate (some c) m) ∉ (StreamImpl.runP sp impl (.iterate t :: ops)).2.tail := by
  obtain ⟨i', h1, h2, h3⟩ := C149_opens hneg hz impl e q he t hle hm
  obtain ⟨⟨q', h4⟩, h5⟩ := C149_stuck hz e ops i' (by simp [h2]) (by rw [h3]; exact hq) hp hi
  simp only [StreamImpl.runP, StreamImpl.stepP, h1]
  refine ⟨by rw [h4]; exact h2, fun c m hm => ?_⟩
  rcases h5 _ hm with h | ⟨b, h⟩ | h <;> cases h

/-- **C149.** So it is when the first element has fewer coordinates than all the others: after `Init`, the only centre
is this element, for ever. -/
theorem C149_first (hz : Sized sp size) (conf : StreamingConf F R) (e : E) (es : List E)
    (hes : ∀ y ∈ es, size e < size y) (impl : StreamImpl E F R) (hnew : StreamImpl.new conf (e :: es) = some impl)
    (ops : List (StreamOp E F)) (hp : Pushes (fun y => size e < size y) ops) (hi : .init ∉ ops) :
    (StreamImpl.runP sp impl (.init :: ops)).1.clust = [e] ∧
    (StreamImpl.runP sp impl (.init :: ops)).1.cards = [1] ∧
    (StreamImpl.runP sp impl (.init :: ops)).1.count = 0 ∧
    ∀ c m, some (.iterate (some c) m) ∉ (StreamImpl.runP sp impl (.init :: ops)).2 := by
  unfold StreamImpl.new at hnew
  split at hnew
  · cases hnew
  · cases hnew
    have hr : StreamImpl.runP sp (⟨0, [], [], e :: es, conf, 0⟩ : StreamImpl E F R) (.init :: ops) =
        ((StreamImpl.runP sp (StreamImpl.init (⟨0, [], [], e :: es, conf, 0⟩ : StreamImpl E F R)).1 ops).1,
          some (.init (some [e])) ::
            (StreamImpl.runP sp (StreamImpl.init (⟨0, [], [], e :: es, conf, 0⟩ : StreamImpl E F R)).1 ops).2) := rfl
    obtain ⟨u1, u2, u3, -, u5⟩ := updateMax_eq (⟨0, [] ++ [e], [] ++ [1], es, conf, 0⟩ : StreamImpl E F R) 0
    have hi0 : (StreamImpl.init (⟨0, [], [], e :: es, conf, 0⟩ : StreamImpl E F R)).1 =
        StreamImpl.updateMaxDistance (⟨0, [] ++ [e], [] ++ [1], es, conf, 0⟩ : StreamImpl E F R) 0 := rfl
    rw [hr, hi0]
    obtain ⟨⟨q, h1⟩, h2⟩ := C149_stuck hz e ops
      (StreamImpl.updateMaxDistance (⟨0, [] ++ [e], [] ++ [1], es, conf, 0⟩ : StreamImpl E F R) 0)
      (by rw [u1]; simp) (by rw [u3]; exact hes) hp hi
    rw [h1]
    refine ⟨u1, u2, u5, fun c m hm => ?_⟩
    rcases List.mem_cons.1 hm with h | h
    · cases h
    · rcases h2 _ h with h | ⟨b, h⟩ | h <;> cases h

end

/-! ### Series -/

/-- **C149.** Series of lengths from `m ≥ 1` to `n` with points in a set closed under combination, with a positive
window, or without window if `n ≤ 2 * m`: no call panics, and the centres have lengths from `m` to `n` and points in the
set. -/
theorem C149_series {P F R : Type} [LinearOrder F] [OrderTop F] [Add F] [Zero F] [One F] [Neg F] [BEq F] [Div F]
    (hneg : (-1 : F) < 0) (hadd : ∀ a b x : F, a ≤ b → a + x ≤ b + x) (sp : DtwSpace P F) (m n : Nat) (hm : 1 ≤ m)
    (hwin : 0 < sp.window ∨ (sp.window = 0 ∧ n ≤ 2 * m)) (C : P → Prop)
    (hC : ∀ p q a b, C p → C q → 0 ≤ a → 0 ≤ b → 0 < a + b → C (sp.inner.combine p a q b))
    (conf : StreamingConf F R) (elemts : List (List P)) (hne : elemts ≠ [])
    (hin : ∀ x ∈ elemts, m ≤ x.length ∧ x.length ≤ n ∧ ∀ p ∈ x, C p) (impl : StreamImpl (List P) F R)
    (hnew : StreamImpl.new conf elemts = some impl) (ops : List (StreamOp (List P) F))
    (hops : ∀ x, .push x ∈ ops → m ≤ x.length ∧ x.length ≤ n ∧ ∀ p ∈ x, C p) :
    none ∉ (StreamImpl.runP (dtwP sp) impl (.init :: ops)).2 ∧
    ∀ x ∈ (StreamImpl.runP (dtwP sp) impl (.init :: ops)).1.clust, m ≤ x.length ∧ x.length ≤ n ∧ ∀ p ∈ x, C p := by
  obtain ⟨h1, -, h3⟩ := C149_safe hneg (dtw_safeOn hadd sp m n hm hwin C hC) conf elemts hne hin impl hnew ops hops
  exact ⟨h1, h3⟩

/-! ### Witnesses -/

namespace Ex149

/-- A configuration: no outliers before a hundred elements. -/
def conf (F : Type) [Zero F] [One F] : StreamingConf F Unit :=
  { ctrl := ⟨0, 0, 0, 0, 0⟩, bufferSize := 10, mu := 0, sigma := 0, outRatio := 1, outAfter := 100, rgen := none }

/-- The only centre is the origin of the plane, and a point of the line waits. -/
def plane : StreamImpl (List ℝ) ℝ Unit := ⟨0, [[0, 0]], [1], [[1]], conf ℝ, 0⟩

theorem plane_dist : (nearest (euclidP (F := ℝ)).total [[0, 0]] [1]).2 = 1 := by
  simp [nearest, nearestLoop, PSpace.total, euclidP, pointDist?, sumSq?]
  exact Real.sqrt_one

/-- The point of the line becomes a centre with the draw 0. -/
theorem plane_opens : ¬ Merges plane 0 (nearest (euclidP (F := ℝ)).total [[0, 0]] [1]).2 := by
  rw [plane_dist]
  intro h
  exact h.2 (by simp [plane])

/-- After a point of the line, no point of the plane is taken into account. -/
example (ops : List (StreamOp (List ℝ) ℝ)) (hp : Pushes (fun y => 1 < y.length) ops) (hi : .init ∉ ops) :
    (StreamImpl.runP euclidP plane (.iterate 0 :: ops)).1.clust = [[0, 0], [1]] :=
  (C149_short (by norm_num) C124_euclid plane [1] [] rfl 0 (by simp [plane]) plane_opens (by simp) ops hp hi).1

/-- The first point is on the line. -/
example (ops : List (StreamOp (List ℝ) ℝ)) (hp : Pushes (fun y => 1 < y.length) ops) (hi : .init ∉ ops) :
    (StreamImpl.runP euclidP (⟨0, [], [], [[1], [1, 2], [3, 4]], conf ℝ, 0⟩ : StreamImpl (List ℝ) ℝ Unit)
      (.init :: ops)).1.clust = [[1]] :=
  (C149_first C124_euclid (conf ℝ) [1] [[1, 2], [3, 4]] (by simp) _ rfl ops hp hi).1

/-- Quotients of numbers, for the witness on series. -/
instance : Div (WithTop ℚ) := ⟨fun a b => match a, b with | some x, some y => some (x / y) | _, _ => ⊤⟩

end Ex149

/-- **C149, witness.** Without window, after a series of length 1 a series of length 3 is lost in a panic and one of
length 2 is not. -/
theorem C149_series_panics :
    (StreamImpl.runP ratSeries (⟨0, [], [], [[0], [1, 2, 3], [1, 1]], Ex149.conf (WithTop ℚ), 0⟩ :
        StreamImpl (List ℚ) (WithTop ℚ) Unit) [.init, .iterate 2, .iterate 2]).1.count = 1 ∧
    ((StreamImpl.runP ratSeries (⟨0, [], [], [[0], [1, 2, 3], [1, 1]], Ex149.conf (WithTop ℚ), 0⟩ :
        StreamImpl (List ℚ) (WithTop ℚ) Unit) [.init, .iterate 2, .iterate 2]).2.map Option.isNone) =
      [false, true, false] := by decide +kernel

end Distclus
