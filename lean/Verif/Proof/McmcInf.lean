import Verif.Spec.McmcInf
import Verif.Proof.McmcStuck
import Verif.Proof.FlEuclid
import Verif.Proof.Nan
/-!
# Losses which are not finite: lemmas
-/
set_option linter.unusedSectionVars false

namespace Distclus
open Spec

/-! ### A property which absorbs addition -/

section
variable {E F : Type} [Zero F] [One F] [Neg F] [LT F] [DecidableLT F] [Add F] [GoMath F]

/-- The property passes from the terms to the sums. -/
structure Absorbs (B : F → Prop) : Prop where
  left : ∀ {a : F} (b : F), B a → B (a + b)
  right : ∀ (a : F) {b : F}, B b → B (a + b)

theorem Absorbs.foldl {B : F → Prop} (h : Absorbs B) : ∀ (l : List F) (a : F), (B a ∨ ∃ x ∈ l, B x) → B (l.foldl (· + ·) a)
  | [], a, ha => by
    rcases ha with ha | ⟨x, hx, _⟩
    · exact ha
    · cases hx
  | y :: l, a, ha => by
    refine Absorbs.foldl h l (a + y) ?_
    rcases ha with ha | ⟨x, hx, hb⟩
    · exact .inl (h.left _ ha)
    · rcases List.mem_cons.1 hx with rfl | hx
      · exact .inl (h.right _ hb)
      · exact .inr ⟨x, hx, hb⟩

theorem reduceLoss_absorbs {B : F → Prop} (h : Absorbs B) (hneg : (-1 : F) < 0) {space : Space E F} (norm : F)
    {e : E} (c es : List E) (hc : c ≠ []) (he : B (GoMath.pow (nearest space c e).2 norm)) :
    ∃ st, reduceLoss space c es norm = some st ∧ (e ∈ es → ∃ x ∈ st.1, B x) := by
  obtain ⟨st, h1, h2⟩ := reduceLoss_state hneg space c es hc norm
  refine ⟨st, h1, fun hm => ?_⟩
  obtain ⟨j, y, hj, hn⟩ := nearest_mem hneg space c e hc
  refine ⟨_, List.mem_of_getElem? (h2.loss j (List.getElem?_eq_some_iff.1 hj).1), ?_⟩
  refine h.foldl _ _ (.inr ⟨GoMath.pow (nearest space c e).2 norm, ?_, he⟩)
  simp only [members, List.mem_map, List.mem_filter]
  refine ⟨(_, (nearest space c e).1), ⟨List.mem_map.2 ⟨e, hm, rfl⟩, ?_⟩, rfl⟩
  simp [hn]

theorem addLoop_absorbs {B : F → Prop} (h : Absorbs B) : ∀ (ls' : List F) (cs' : List Int) (ls : List F) (cs : List Int)
    (r : List F × List Int), addLoop ls' cs' ls cs = some r →
    (∃ x ∈ ls, B x) ∨ (∃ x ∈ ls', B x) → ∃ x ∈ r.1, B x := by
  intro ls'
  induction ls' with
  | nil =>
    intro cs' ls cs r hr hn
    simp only [addLoop, Option.some.injEq] at hr
    subst hr
    rcases hn with hn | ⟨x, hx, _⟩
    · exact hn
    · cases hx
  | cons l' ls' ih =>
    intro cs' ls cs r hr hn
    cases cs' with
    | nil => simp [addLoop] at hr
    | cons c' cs' =>
      cases ls with
      | nil => simp [addLoop] at hr
      | cons l ls =>
        cases cs with
        | nil => simp [addLoop] at hr
        | cons c cs =>
          simp only [addLoop] at hr
          cases hq : addLoop ls' cs' ls cs with
          | none => simp [hq] at hr
          | some q =>
            rw [hq] at hr
            cases hr
            have hrest := ih cs' ls cs q hq
            rcases hn with ⟨x, hx, hn⟩ | ⟨x, hx, hn⟩
            · rcases List.mem_cons.1 hx with rfl | hx
              · exact ⟨_, List.mem_cons_self, h.left _ hn⟩
              · obtain ⟨y, hy, hyn⟩ := hrest (Or.inl ⟨x, hx, hn⟩)
                exact ⟨y, List.mem_cons_of_mem _ hy, hyn⟩
            · rcases List.mem_cons.1 hx with rfl | hx
              · exact ⟨_, List.mem_cons_self, h.right _ hn⟩
              · obtain ⟨y, hy, hyn⟩ := hrest (Or.inr ⟨x, hx, hn⟩)
                exact ⟨y, List.mem_cons_of_mem _ hy, hyn⟩

theorem lossAggregateLoop_absorbs {B : F → Prop} (h : Absorbs B) : ∀ (ps : List (List F × List Int))
    (agg r : List F × List Int), lossAggregateLoop ps agg = some r →
    (∃ p ∈ agg :: ps, ∃ x ∈ p.1, B x) → ∃ x ∈ r.1, B x := by
  intro ps
  induction ps with
  | nil =>
    rintro agg r hr ⟨p, hp, hn⟩
    cases hr
    rcases List.mem_cons.1 hp with rfl | hp
    · exact hn
    · cases hp
  | cons o ps ih =>
    rintro agg r hr ⟨p, hp, hn⟩
    simp only [lossAggregateLoop] at hr
    cases hq : addLists agg o with
    | none => simp [hq] at hr
    | some agg' =>
      rw [hq] at hr
      have hnew : p = agg ∨ p = o → ∃ x ∈ agg'.1, B x := by
        rintro (rfl | rfl)
        · exact addLoop_absorbs h _ _ _ _ _ hq (Or.inl hn)
        · exact addLoop_absorbs h _ _ _ _ _ hq (Or.inr hn)
      rcases List.mem_cons.1 hp with rfl | hp
      · exact ih agg' r hr ⟨agg', by simp, hnew (Or.inl rfl)⟩
      · rcases List.mem_cons.1 hp with rfl | hp
        · exact ih agg' r hr ⟨agg', by simp, hnew (Or.inr rfl)⟩
        · exact ih agg' r hr ⟨p, by simp [hp], hn⟩

theorem parLoss_absorbs {B : F → Prop} (h : Absorbs B) (hneg : (-1 : F) < 0) {space : Space E F} (norm : F)
    {e : E} (c es : List E) (hc : c ≠ []) (he : B (GoMath.pow (nearest space c e).2 norm)) (degree : Int)
    (st : List F × List Int) (hst : parLoss space c es norm degree = some st) (hm : e ∈ es) : ∃ x ∈ st.1, B x := by
  unfold parLoss at hst
  cases hch : par es.length degree with
  | none => simp [hch] at hst
  | some chunks =>
    obtain ⟨parts, hparts, hall⟩ := allSome_forall₂
      (f := fun k : Chunk => reduceLoss space c (slice es k.start k.stop) norm)
      (Q := fun k p => e ∈ slice es k.start k.stop → ∃ x ∈ p.1, B x) chunks
      (fun k _ => reduceLoss_absorbs h hneg norm c _ hc he)
    rw [hch] at hst
    simp only [hparts] at hst
    rw [← par_slices es hch] at hm
    obtain ⟨k, hk, hek⟩ := List.mem_flatMap.1 hm
    have : ∃ p ∈ parts, ∃ x ∈ p.1, B x := by
      clear hparts hst hch hm
      induction hall with
      | nil => cases hk
      | cons hq _ ih =>
        rcases List.mem_cons.1 hk with rfl | hk
        · exact ⟨_, List.mem_cons_self, hq hek⟩
        · obtain ⟨p, hp, hn⟩ := ih hk
          exact ⟨p, List.mem_cons_of_mem _ hp, hn⟩
    cases parts with
    | nil => obtain ⟨p, hp, _⟩ := this; cases hp
    | cons p ps => exact lossAggregateLoop_absorbs h ps p st hst this

end

section
variable {D E F R : Type} [Zero F] [One F] [Neg F] [LT F] [DecidableLT F] [Add F] [Sub F] [Mul F] [Div F] [BEq F] [GoMath F]

/-- The loss has the property if the power of the distance of an element to its nearest centroid has it. -/
theorem mcmcLoss_absorbs [FloatOrder F] {B : F → Prop} (h : Absorbs B) (hneg : (-1 : F) < 0) (p : McmcParams D E F R)
    {e : E} (c data : List E) (he : c ≠ [] → B (GoMath.pow (nearest p.space c e).2 p.conf.norm)) (hm : e ∈ data) (loss : F)
    (hl : mcmcLoss p c data = some loss) : B loss := by
  have hne : data ≠ [] := List.ne_nil_of_mem hm
  unfold mcmcLoss at hl
  by_cases hc : c = []
  · subst hc
    simp [totalLoss, parTotalLoss, reduceLoss_nil p.space _ hne p.conf.norm, parLoss_nil p.space _ hne p.conf.norm p.conf.numCPU] at hl
  · split at hl
    · obtain ⟨st, hst, rfl⟩ := Option.map_eq_some_iff.1 hl
      exact h.foldl _ _ (.inr (parLoss_absorbs h hneg _ c data hc (he hc) _ st hst hm))
    · obtain ⟨st, hst, rfl⟩ := Option.map_eq_some_iff.1 hl
      obtain ⟨st', hst', hn⟩ := reduceLoss_absorbs h hneg _ c data hc (he hc)
      rw [hst] at hst'
      cases hst'
      exact h.foldl _ _ (.inr (hn hm))

/-- If each iteration of a state with the invariant `P` rejects its proposal, nothing is ever accepted. -/
theorem mcmc_rejects (p : McmcParams D E F R) (P : McmcSys E F → Prop) (Q : McmcDraws E F → Prop)
    (hstep : ∀ s s' op, P s → s.step p op = some s' → P s')
    (hrej : ∀ (s : McmcSys E F) d impl' clust fig, P s → Q d →
      s.impl.iterate p s.centroids d = some (impl', clust, fig) → ¬ d.accept < impl'.rho) :
    ∀ (ops : List (McmcOp D E F)) (s s' : McmcSys E F), P s → (∀ d, .iterate d ∈ ops → Q d) → s.run p ops = some s' →
      P s' ∧ s'.impl.acc = s.impl.acc ∧ s'.impl.store = s.impl.store ∧
      ((∀ op ∈ ops, ∀ d, op ≠ .init d) → s'.centroids = s.centroids ∧ s'.impl.current = s.impl.current) := by
  intro ops
  induction ops with
  | nil => intro s s' hP _ hr; cases hr; exact ⟨hP, rfl, rfl, fun _ => ⟨rfl, rfl⟩⟩
  | cons op ops ih =>
    intro s s' hP hQ hr
    simp only [McmcSys.run] at hr
    cases hs : s.step p op with
    | none => simp [hs] at hr
    | some s1 =>
      rw [hs] at hr
      have hP1 := hstep s s1 op hP hs
      have h1 : s1.impl.acc = s.impl.acc ∧ s1.impl.store = s.impl.store ∧
          ((∀ d, op ≠ .init d) → s1.centroids = s.centroids ∧ s1.impl.current = s.impl.current) := by
        cases op with
        | init d =>
          simp only [McmcSys.step] at hs
          split at hs
          · rename_i impl c hin
            cases hs
            obtain ⟨_, b2, b3, _⟩ := init_cases p s.impl impl d _ hin
            exact ⟨b3, b2, fun h => absurd rfl (h d)⟩
          · rename_i impl r hne hin
            cases hs
            obtain ⟨_, b2, b3, _⟩ := init_cases p s.impl impl d _ hin
            exact ⟨b3, b2, fun h => absurd rfl (h d)⟩
        | push e r =>
          simp only [McmcSys.step] at hs
          split at hs
          · cases hs
          · cases hs; exact ⟨rfl, rfl, fun _ => ⟨rfl, rfl⟩⟩
        | iterate d =>
          simp only [McmcSys.step] at hs
          split at hs
          · split at hs
            · cases hs; exact ⟨rfl, rfl, fun _ => ⟨rfl, rfl⟩⟩
            · rename_i impl' clust fig hit
              cases hs
              have hn := hrej s d impl' clust fig hP (hQ d (by simp)) hit
              obtain ⟨prop, _, _, _, _, _, _, hc⟩ := iterate_cases p _ _ _ _ _ _ hit
              rcases hc with ⟨h, _⟩ | ⟨_, h2, h3, h4, h5⟩
              · exact absurd h hn
              · exact ⟨h2, h5, fun _ => ⟨h4, h3⟩⟩
          · cases hs
      obtain ⟨a1, a2, a3⟩ := h1
      obtain ⟨b0, b1, b2, b3⟩ := ih s1 s' hP1 (fun d hd => hQ d (by simp [hd])) hr
      refine ⟨b0, b1.trans a1, b2.trans a2, fun hop => ?_⟩
      obtain ⟨c1, c2⟩ := a3 (hop op (by simp))
      obtain ⟨d1, d2⟩ := b3 fun o ho => hop o (by simp [ho])
      exact ⟨d1.trans c1, d2.trans c2⟩

/-- What a proposal has been given as its loss. -/
theorem propose_loss (impl : McmcImpl E F) (p : McmcParams D E F R) (cur : Proposal E F) (centroids data : List E)
    (time : Nat) (d : McmcDraws E F) (prop : Proposal E F) (h : impl.propose p cur centroids data time d = some prop) :
    mcmcLoss p prop.centers data = some prop.loss := by
  unfold McmcImpl.propose at h
  split at h
  · cases h
  · split at h
    · cases h
    · split at h
      · rename_i hl _
        cases h
        exact hl
      · cases h

end

/-! ### An unlimited buffer keeps its data -/

section
variable {E : Type}

theorem DataBuffer.store_keeps (b : DataBuffer E) (e : E) (h : b.strategy = .infinite) :
    (b.store e).strategy = .infinite ∧ (b.store e).data = b.data ++ [e] := by
  unfold DataBuffer.store
  rw [h]
  exact ⟨rfl, rfl⟩

theorem DataBuffer.applyLoop_keeps : ∀ (n : Nat) (b : DataBuffer E), b.strategy = .infinite →
    (applyLoop n b).strategy = .infinite ∧ ∀ e ∈ b.data, e ∈ (applyLoop n b).data
  | 0, b, h => ⟨h, fun _ he => he⟩
  | n + 1, b, h => by
    unfold DataBuffer.applyLoop DataBuffer.applyNext
    cases hp : b.pipe with
    | nil => exact ⟨h, fun _ he => he⟩
    | cons x rest =>
      simp only
      obtain ⟨h1, h2⟩ := DataBuffer.store_keeps { b with pipe := rest } x h
      obtain ⟨g1, g2⟩ := DataBuffer.applyLoop_keeps n _ h1
      exact ⟨g1, fun e he => g2 e (by rw [h2]; exact List.mem_append_left _ he)⟩

theorem DataBuffer.push_keeps {b b' : DataBuffer E} {x : E} {r : Bool} (h : b.strategy = .infinite)
    (hp : b.push x r = some b') : b'.strategy = .infinite ∧ ∀ e ∈ b.data, e ∈ b'.data := by
  unfold DataBuffer.push at hp
  split at hp
  · split at hp
    · cases hp; exact ⟨h, fun _ he => he⟩
    · cases hp
  · cases hp
    obtain ⟨h1, h2⟩ := DataBuffer.store_keeps b x h
    exact ⟨h1, fun e he => by rw [h2]; exact List.mem_append_left _ he⟩

end

/-! ### `Ieee` -/

section
variable {f : Format}

theorem Spec.Blown.add_right (a : Ieee f) {b : Ieee f} (h : Blown b) : Blown (a + b) := by
  refine Blown.of (x := XReal.add a.1 b.1) ?_
  rcases h with h | h <;> rw [h] <;> cases a.1 <;> simp [XReal.add]

theorem blown_absorbs : Absorbs (Blown (f := f)) := ⟨fun b h => h.add b, fun a _ h => h.add_right a⟩

theorem Spec.Wild.cases {x : Ieee f} (h : Wild x) : x.1 = .nan ∨ x.1 = .posInf ∨ x.1 = .negInf := by
  cases hx : x.1 with
  | fin r => exact absurd hx (h r)
  | nan => exact .inl rfl
  | posInf => exact .inr (.inl rfl)
  | negInf => exact .inr (.inr rfl)

theorem Spec.Wild.of {x : XReal} (h : x = .nan ∨ x = .posInf ∨ x = .negInf) : Wild (Ieee.of f x) := by
  intro r
  rcases h with rfl | rfl | rfl <;> exact XReal.noConfusion

theorem Spec.Wild.sub {x : Ieee f} (h : Wild x) (y : Ieee f) : Wild (x - y) := by
  refine Wild.of (x := XReal.add x.1 (XReal.neg y.1)) ?_
  rcases h.cases with h | h | h <;> rw [h] <;> cases y.1 <;> simp [XReal.add, XReal.neg]

theorem Spec.Wild.mul {x : Ieee f} (h : Wild x) (y : Ieee f) : Wild (x * y) := by
  refine Wild.of (x := XReal.mul x.1 y.1) ?_
  rcases h.cases with h | h | h <;> rw [h] <;> cases y.1 <;> simp only [XReal.mul, XReal.infOf] <;> (try split_ifs) <;> simp

theorem Spec.Wild.add {x : Ieee f} (h : Wild x) (y : Ieee f) : Wild (x + y) := by
  refine Wild.of (x := XReal.add x.1 y.1) ?_
  rcases h.cases with h | h | h <;> rw [h] <;> cases y.1 <;> simp [XReal.add]

theorem Spec.Wild.add_right (x : Ieee f) {y : Ieee f} (h : Wild y) : Wild (x + y) := by
  refine Wild.of (x := XReal.add x.1 y.1) ?_
  rcases h.cases with h | h | h <;> rw [h] <;> cases x.1 <;> simp [XReal.add]

theorem Spec.Wild.square {x : Ieee f} (h : Wild x) : Blown (x * x) := by
  refine Blown.of (x := XReal.mul x.1 x.1) ?_
  rcases h.cases with h | h | h <;> rw [h] <;> simp [XReal.mul]

theorem Spec.Blown.sqrt {x : Ieee f} (h : Blown x) : Blown (GoMath.sqrt x) := by
  refine Blown.of (x := GoMath.sqrt x.1) ?_
  rcases h with h | h <;> rw [h]
  · exact .inl rfl
  · exact .inr rfl

theorem Spec.Wild.div_blown {x y : Ieee f} (h : Wild x) (h' : Blown y) : (x / y).1 = .nan := by
  show (Ieee.of f (XReal.div x.1 y.1)).1 = _
  rcases h.cases with h | h | h <;> rcases h' with h' | h' <;> rw [h, h'] <;> rfl

theorem Ieee.nan_div {x : Ieee f} (h : x.1 = .nan) (y : Ieee f) : (x / y).1 = .nan := by
  show (Ieee.of f (XReal.div x.1 y.1)).1 = _
  rw [h]; cases y.1 <;> rfl

theorem Ieee.sub_nan (x : Ieee f) {y : Ieee f} (h : y.1 = .nan) : (x - y).1 = .nan := by
  show (Ieee.of f (XReal.add x.1 (XReal.neg y.1))).1 = _
  rw [h]; cases x.1 <;> rfl

/-- A fold of additions of terms, one of which has the property. -/
theorem foldl_absorbs {A F : Type} [Add F] {B : F → Prop} (h : Absorbs B) (t : A → F) : ∀ (l : List A) (s : F),
    (B s ∨ ∃ x ∈ l, B (t x)) → B (l.foldl (fun s x => s + t x) s)
  | [], s, hs => by
    rcases hs with hs | ⟨x, hx, _⟩
    · exact hs
    · cases hx
  | y :: l, s, hs => by
    refine foldl_absorbs h t l _ ?_
    rcases hs with hs | ⟨x, hx, hb⟩
    · exact .inl (h.left _ hs)
    · rcases List.mem_cons.1 hx with rfl | hx
      · exact .inl (h.right _ hb)
      · exact .inr ⟨x, hx, hb⟩

theorem zip_left {A B : Type} : ∀ (p : List A) (q : List B), p.length = q.length → ∀ x ∈ p, ∃ y, (x, y) ∈ p.zip q
  | [], _, _, x, hx => by cases hx
  | _ :: _, [], h, _, _ => by simp at h
  | a :: p, b :: q, h, x, hx => by
    rcases List.mem_cons.1 hx with rfl | hx
    · exact ⟨b, by simp⟩
    · obtain ⟨y, hy⟩ := zip_left p q (by simpa using h) x hx
      exact ⟨y, by simp [hy]⟩

theorem Spec.Blown.pow {x y : Ieee f} {b : ℝ} (h : Blown x) (hy : y.1 = .fin b) (hb : 0 < b) : Blown (GoMath.pow x y) := by
  refine Blown.of (x := XReal.pow x.1 y.1) ?_
  rcases h with h | h <;> rw [h, hy]
  · left
    show (if b = 0 then _ else if 0 < b then _ else _) = _
    rw [if_neg hb.ne', if_pos hb]
  · right
    exact if_neg hb.ne'

/-! ### The ratio -/

theorem Spec.Sunk.of {x : XReal} (h : x = .negInf ∨ x = .nan) : Sunk (Ieee.of f x) := by
  rcases h with rfl | rfl
  · exact Or.inl rfl
  · exact Or.inr rfl

theorem Spec.Sunk.add {x : Ieee f} (h : Sunk x) (y : Ieee f) : Sunk (x + y) := by
  refine Sunk.of (x := XReal.add x.1 y.1) ?_
  rcases h with h | h <;> rw [h] <;> cases y.1 <;> simp [XReal.add]

theorem Spec.Blown.sunk (x : Ieee f) {y : Ieee f} (h : Blown y) : Sunk (x - y) := by
  refine Sunk.of (x := XReal.add x.1 (XReal.neg y.1)) ?_
  rcases h with h | h <;> rw [h] <;> cases x.1 <;> simp [XReal.add, XReal.neg]

theorem Ieee.lt_zero_iff {x : Ieee f} : x < 0 ↔ XReal.lt x.1 (.fin 0) := by
  show XReal.lt x.1 (0 : Ieee f).1 ↔ _
  rw [Ieee.zero_val]

theorem Ieee.round_nonneg {x : XReal} (h : ¬ XReal.lt x (.fin 0)) : ¬ Ieee.of f x < 0 := by
  rw [Ieee.lt_zero_iff]
  show ¬ XReal.lt (f.round x) (.fin 0)
  cases x with
  | fin r =>
    have hr : 0 ≤ r := not_lt.1 h
    by_cases ht : |f.r.rnd r| < f.top
    · simp only [Format.round, if_pos ht]
      exact not_lt.2 (f.r.rnd_nonneg hr)
    · by_cases h0 : 0 < r
      · simp only [Format.round, if_neg ht, if_pos h0]
        exact id
      · have : r = 0 := le_antisymm (not_lt.1 h0) hr
        subst this
        rw [f.r.zero, abs_zero] at ht
        exact absurd (by linarith [f.one_lt_top]) ht
  | _ => exact h

theorem Ieee.mul_nonneg {x y : Ieee f} (hx : ¬ x < 0) (hy : ¬ y < 0) : ¬ x * y < 0 := by
  rw [Ieee.lt_zero_iff] at hx hy
  refine Ieee.round_nonneg (x := XReal.mul x.1 y.1) ?_
  cases h1 : x.1 <;> cases h2 : y.1 <;> rw [h1] at hx <;> rw [h2] at hy <;>
    simp only [XReal.lt, not_true_eq_false, not_lt] at hx hy <;> simp only [XReal.mul, XReal.infOf]
  all_goals first
    | exact id
    | (split_ifs <;> first | exact id | (exfalso; linarith))
    | exact not_lt.2 (_root_.mul_nonneg hx hy)

theorem Ieee.sqrt_nonneg (x : Ieee f) : ¬ GoMath.sqrt x < (0 : Ieee f) := by
  refine Ieee.round_nonneg (x := GoMath.sqrt x.1) ?_
  cases x.1 with
  | fin r =>
    show ¬ XReal.lt (if r < 0 then .nan else .fin (Real.sqrt r)) _
    split_ifs
    · exact id
    · exact not_lt.2 (Real.sqrt_nonneg r)
  | _ => exact id

theorem Spec.Sunk.mul {x y : Ieee f} (hx : ¬ x < 0) (h : Sunk y) : Sunk (x * y) := by
  rw [Ieee.lt_zero_iff] at hx
  refine Sunk.of (x := XReal.mul x.1 y.1) ?_
  rcases h with h | h <;> rw [h]
  · cases h1 : x.1 <;> rw [h1] at hx
    · exact .inr rfl
    · exact absurd trivial hx
    · rename_i r
      simp only [XReal.mul, XReal.infOf]
      have : ¬ r < 0 := hx
      split_ifs
      · exfalso; linarith
      · exact .inl rfl
      · exact .inr rfl
    · exact .inl rfl
  · cases x.1 <;> exact .inr rfl

theorem Spec.Sunk.exp {x : Ieee f} (h : Sunk x) {u : Ieee f} (hu : ¬ u < 0) : ¬ u < GoMath.exp x := by
  show ¬ XReal.lt u.1 (f.round (GoMath.exp x.1))
  rcases h with h | h <;> rw [h]
  · show ¬ XReal.lt u.1 (f.round (.fin 0))
    have : f.round (.fin 0) = .fin 0 := Ieee.zero_val
    rw [this]
    exact fun h' => hu (Ieee.lt_zero_iff.2 h')
  · show ¬ XReal.lt u.1 .nan
    cases u.1 <;> exact id

/-- A proposal whose loss is `+Inf` or NaN is rejected. -/
theorem ratio_blown {E R : Type} (conf : McmcConf (Ieee f) R) (ha : ¬ conf.amp < 0) (dim : Nat) (cur prop : Proposal E (Ieee f))
    (time : Nat) (hp : Blown prop.loss) {u : Ieee f} (hu : ¬ u < 0) : ¬ u < (ratio conf dim cur prop time).2.1 :=
  Sunk.exp (((hp.sunk _).mul (Ieee.mul_nonneg ha (Ieee.sqrt_nonneg _)) |>.add _).add _) hu

end
end Distclus
