import Verif.Spec.Gens
/-!
# Which generators a call draws from
-/
namespace Distclus
open Spec
variable {G α β E F R D : Type}
set_option linter.unusedSectionVars false

/-- Draws only from the generators at the addresses in `P`. -/
def Draw.Local (P : Nat → Prop) (m : Draw G α) : Prop :=
  (∀ h h' : Gens G, (∀ a, P a → h a = h' a) → (m h).1 = (m h').1 ∧ ∀ a, P a → (m h).2 a = (m h').2 a) ∧
  ∀ (h : Gens G) (a : Nat), ¬P a → (m h).2 a = h a

theorem Draw.Local.pure {P : Nat → Prop} (x : α) : (Pure.pure x : Draw G α).Local P :=
  ⟨fun _ _ hh => ⟨rfl, hh⟩, fun _ _ _ => rfl⟩

theorem Draw.Local.bind {P : Nat → Prop} {m : Draw G α} {f : α → Draw G β} (hm : m.Local P)
    (hf : ∀ x, (f x).Local P) : (m >>= f).Local P := by
  refine ⟨fun h h' hh => ?_, fun h a ha => ?_⟩
  · have h1 := hm.1 h h' hh
    show (f (m h).1 (m h).2).1 = (f (m h').1 (m h').2).1 ∧ _
    rw [← h1.1]
    have h2 := (hf (m h).1).1 _ _ h1.2
    refine ⟨h2.1, fun a ha => ?_⟩
    show (f (m h).1 (m h).2).2 a = (f (m h').1 (m h').2).2 a
    rw [← h1.1]
    exact h2.2 a ha
  · show (f (m h).1 (m h).2).2 a = h a
    rw [(hf _).2 _ a ha, hm.2 _ a ha]

theorem Draw.Local.take {P : Nat → Prop} {a : Nat} (ha : P a) (f : G → α × G) : (Draw.take a f).Local P := by
  refine ⟨fun h h' hh => ?_, fun h b hb => ?_⟩
  · refine ⟨by simp only [Draw.take, hh a ha], fun b hb => ?_⟩
    simp only [Draw.take]
    rw [hh a ha, hh b hb]
  · simp only [Draw.take]
    rw [if_neg]
    rintro rfl
    exact hb ha

section
variable [Zero F] [One F] [Neg F] [LT F] [DecidableLT F] [Add F] [Sub F] [Mul F] [BEq F]

theorem drawCenters_local {P : Nat → Prop} (rng : Rng G F) {own : Nat} (ho : P own) (store : CenterStore E)
    (space : Space E F) (data : List E) (k : Int) (clust : List E) :
    (drawCenters rng own store space data k clust).Local P := by
  unfold drawCenters
  split
  · exact .pure _
  · split
    · split
      · exact .pure _
      · exact .bind (.take ho _) fun _ => .pure _
    · split
      · exact .bind (.take ho _) fun _ => .pure _
      · exact .pure _

variable [GoMath F] [Div F]

theorem mcmcDraw_local (rng : Rng G F) (smp : E → Nat → G → E × G) (p : McmcParams D E F R) (g : McmcGens)
    (impl : McmcImpl E F) (c : List E) : (mcmcDraw rng smp p g impl c).Local (Spec.McmcGens.Has g) := by
  have hc : Spec.McmcGens.Has g g.conf := .inl rfl
  have ho : Spec.McmcGens.Has g g.own := .inr (.inl rfl)
  have hd : Spec.McmcGens.Has g g.distrib := .inr (.inr rfl)
  unfold mcmcDraw
  dsimp only
  refine Draw.Local.bind ?_ fun move => ?_
  · unfold drawMove; split <;> first | exact .pure _ | exact .take hc _
  split
  · exact .pure _
  · refine .bind (drawCenters_local rng ho ..) fun x => ?_
    split
    · exact .pure _
    · refine Draw.Local.bind ?_ fun y => ?_
      · unfold drawAgain; split <;> first | exact .pure _ | exact drawCenters_local rng ho ..
      split
      · exact .pure _
      · refine .bind (.take hd _) fun es => ?_
        split
        · exact .pure _
        · exact .bind (.take ho _) fun _ => .pure _

theorem mcmcStep_local (rng : Rng G F) (smp : E → Nat → G → E × G) (gi : Int → List E → G → D × G)
    (p : McmcParams D E F R) (g : McmcGens) (o : ImplOp E) (s : McmcImpl E F × List E) :
    (mcmcStep rng smp gi p g o s).Local (Spec.McmcGens.Has g) := by
  unfold mcmcStep
  split
  · exact .pure _
  · refine .bind (.take (.inl rfl) _) fun d => ?_
    split <;> exact .pure _
  · exact .bind (mcmcDraw_local ..) fun _ => .pure _
end

theorem kmeansGenStep_local (ini : Int → List E → G → Option (List E) × G) (k : Int)
    (step : List E → List E → Option (List E)) (conf : Nat) (o : ImplOp E) (s : DataBuffer E × List E) :
    (kmeansGenStep ini k step conf o s).Local (· = conf) := by
  unfold kmeansGenStep
  split
  · exact .pure _
  · exact .bind (.take (P := (· = conf)) rfl _) fun d => .pure _
  · exact .pure _

theorem soloGens_none {A O : Type} (f : O → A → Draw G (Option A)) : ∀ (os : List O) (h : Gens G),
    soloGens f os none h = (none, h) := by
  intro os
  induction os with
  | nil => intro h; rfl
  | cons o os ih => intro h; exact ih h

theorem soloGens_local {A O : Type} {P : Nat → Prop} {f : O → A → Draw G (Option A)}
    (hf : ∀ o a, (f o a).Local P) : ∀ (os : List O) (s : Option A), (soloGens f os s).Local P := by
  intro os
  induction os with
  | nil => intro s; exact .pure _
  | cons o os ih =>
    intro s
    cases s with
    | none => exact ih none
    | some a => exact .bind (hf o a) fun a' => ih a'

/-- Two algorithms without a common generator do not influence each other, whatever the order of their calls. -/
theorem pairGens_eq {A B O : Type} {P Q : Nat → Prop} {f : O → A → Draw G (Option A)}
    {f' : O → B → Draw G (Option B)} (hf : ∀ o a, (f o a).Local P) (hf' : ∀ o b, (f' o b).Local Q)
    (hd : ∀ a, P a → ¬Q a) : ∀ (os : List (O ⊕ O)) (a : Option A) (b : Option B) (h hP hQ : Gens G),
    (∀ x, P x → h x = hP x) → (∀ x, Q x → h x = hQ x) →
    (pairGens f f' os (a, b) h).1 =
      ((soloGens f (lefts os) a hP).1, (soloGens f' (rights os) b hQ).1) := by
  intro os
  induction os with
  | nil => intro a b h hP hQ _ _; rfl
  | cons o os ih =>
    intro a b h hP hQ eP eQ
    cases o with
    | inl o =>
      cases a with
      | none => exact ih none b h hP hQ eP eQ
      | some a =>
        have h1 := (hf o a).1 h hP eP
        show (pairGens f f' os ((f o a h).1, b) (f o a h).2).1 =
          ((soloGens f (lefts os) (f o a hP).1 (f o a hP).2).1, (soloGens f' (rights os) b hQ).1)
        rw [← h1.1]
        exact ih _ b _ _ _ h1.2 fun x hx => ((hf o a).2 h x fun hp => hd x hp hx).trans (eQ x hx)
    | inr o =>
      cases b with
      | none =>
        have : pairGens f f' (.inr o :: os) (a, none) h = pairGens f f' os (a, none) h := by cases a <;> rfl
        rw [this]
        exact ih a none h hP hQ eP eQ
      | some b =>
        have h1 := (hf' o b).1 h hQ eQ
        have : pairGens f f' (.inr o :: os) (a, some b) h =
            pairGens f f' os (a, (f' o b h).1) (f' o b h).2 := by cases a <;> rfl
        rw [this]
        show _ = ((soloGens f (lefts os) a hP).1, (soloGens f' (rights os) (f' o b hQ).1 (f' o b hQ).2).1)
        rw [← h1.1]
        exact ih a _ _ _ _ (fun x hx => ((hf' o b).2 h x (hd x hx)).trans (eP x hx)) h1.2

/-! ### What a call of the copy does to the generator of the original -/

/-- No generator gets younger. -/
def Draw.Mono (age : G → Nat) (m : Draw G α) : Prop := ∀ h a, age (h a) ≤ age ((m h).2 a)

theorem Draw.Mono.pure {age : G → Nat} (x : α) : (Pure.pure x : Draw G α).Mono age := fun _ _ => Nat.le_refl _

theorem Draw.Mono.bind {age : G → Nat} {m : Draw G α} {f : α → Draw G β} (hm : m.Mono age)
    (hf : ∀ x, (f x).Mono age) : (m >>= f).Mono age :=
  fun h a => Nat.le_trans (hm h a) (hf _ _ a)

theorem Draw.Mono.take {age : G → Nat} {b : Nat} {f : G → α × G} (hf : ∀ g, age g ≤ age (f g).2) :
    (Draw.take b f).Mono age := by
  intro h a
  simp only [Draw.take]
  split
  · rename_i e; rw [e]; exact hf _
  · exact Nat.le_refl _

/-- The generator at `a` gets older unless the result is in `Q`. -/
def Draw.Grows (age : G → Nat) (a : Nat) (Q : α → Prop) (m : Draw G α) : Prop :=
  ∀ h, Q (m h).1 ∨ age (h a) < age ((m h).2 a)

theorem Draw.Grows.pure {age : G → Nat} {a : Nat} {Q : α → Prop} {x : α} (hx : Q x) :
    (Pure.pure x : Draw G α).Grows age a Q := fun _ => .inl hx

theorem Draw.Grows.bind {age : G → Nat} {a : Nat} {Q : β → Prop} {m : Draw G α} {f : α → Draw G β}
    (hm : m.Mono age) (hf : ∀ x, (f x).Grows age a Q) : (m >>= f).Grows age a Q := by
  intro h
  rcases hf (m h).1 (m h).2 with h1 | h1
  · exact .inl h1
  · exact .inr (Nat.lt_of_le_of_lt (hm h a) h1)

section
variable [Zero F] [One F] [Neg F] [LT F] [DecidableLT F] [Add F] [Sub F] [Mul F] [BEq F]
variable {rng : Rng G F} {smp : E → Nat → G → E × G} {age : G → Nat}

theorem drawCenters_mono (hA : Ages rng smp age) (own : Nat) (store : CenterStore E)
    (space : Space E F) (data : List E) (k : Int) (clust : List E) :
    (drawCenters rng own store space data k clust).Mono age := by
  unfold drawCenters
  split
  · exact .pure _
  · split
    · split
      · exact .pure _
      · exact .bind (.take fun g => Nat.le_of_lt (hA.float64 g)) fun _ => .pure _
    · split
      · exact .bind (.take fun g => Nat.le_of_lt (hA.intn _ g)) fun _ => .pure _
      · exact .pure _

theorem sampleAll_mono (hA : Ages rng smp age) (t : Nat) : ∀ (es : List E) (g : G),
    age g ≤ age (sampleAll smp t es g).2 := by
  intro es
  induction es with
  | nil => intro g; exact Nat.le_refl _
  | cons e es ih => intro g; exact Nat.le_trans (hA.sample e t g) (ih _)

variable [GoMath F] [Div F]

theorem McmcImpl.iterate_none {p : McmcParams D E F R} {impl : McmcImpl E F} {c : List E} {d : McmcDraws E F}
    (h : impl.propose p impl.current c impl.buffer.data impl.buffer.data.length d = none) :
    impl.iterate p c d = none := by
  simp only [McmcImpl.iterate, McmcImpl.doIter, h]

theorem McmcImpl.propose_none {p : McmcParams D E F R} {impl : McmcImpl E F} {cur : Proposal E F} {c data : List E}
    {t : Nat} {d : McmcDraws E F} (h : impl.getKCenters p cur c data d = none) :
    impl.propose p cur c data t d = none := by
  simp only [McmcImpl.propose, h]

theorem mcmcDraw_grows (hA : Ages rng smp age) (p : McmcParams D E F R) (g : McmcGens) (impl : McmcImpl E F)
    (c : List E) :
    (mcmcDraw rng smp p g impl c).Grows age g.own (fun d => impl.iterate p c d = none) := by
  unfold mcmcDraw
  dsimp only
  refine .bind ?_ fun move => ?_
  · unfold drawMove; split <;> first | exact .pure _ | exact .take fun g => Nat.le_of_lt (hA.float64 g)
  split
  · rename_i hk
    refine .pure (McmcImpl.iterate_none (McmcImpl.propose_none ?_))
    simp only [McmcImpl.getKCenters, hk]
  · rename_i k hk
    refine .bind (drawCenters_mono hA _ _ _ _ _ _) fun x => ?_
    split
    · rename_i hg
      refine .pure (McmcImpl.iterate_none (McmcImpl.propose_none ?_))
      simp only [McmcImpl.getKCenters, hk, hg]
    · refine .bind ?_ fun y => ?_
      · unfold drawAgain; split <;> first | exact .pure _ | exact drawCenters_mono hA _ _ _ _ _ _
      split
      · rename_i hn
        exact .pure (McmcImpl.iterate_none (McmcImpl.propose_none hn))
      · refine .bind (.take fun g => sampleAll_mono hA _ _ g) fun es => ?_
        split
        · rename_i hn
          exact .pure (McmcImpl.iterate_none hn)
        · intro h4
          refine .inr ?_
          show age (h4 g.own) < age (if g.own = g.own then (rng.float64 (h4 g.own)).2 else h4 g.own)
          rw [if_pos rfl]
          exact hA.float64 _

end

end Distclus
