import Verif.Props.McmcInf
import Verif.Props.Nan
/-!
# C144: null vectors in the cosine space (examined)

A vector all of whose coordinates are 0 is an ordinary finite datum, but its cosine with any vector is 0 / 0.  `Blind`
elements are those whose distances are all NaN; contrary to those with a NaN (C126), what is combined with them is not
blind.
-/
set_option linter.unusedSectionVars false

namespace Distclus
open Spec

namespace Spec

/-- The distances from and to the blind elements are NaN. -/
def Blind {E F : Type} [LT F] [FloatOrder F] (space : Space E F) (blind : E → Prop) : Prop :=
  ∀ {a b : E}, blind a ∨ blind b → isNaN (space.dist a b)

/-- Every coordinate is 0. -/
def NullVec {f : Format} {n : Nat} (p : Vec (Ieee f) n) : Prop := ∀ x ∈ p.1, x.1 = .fin 0

end Spec

/-! ### The distances -/

section
variable {f : Format} {n : Nat}

/-- 0 or NaN. -/
def Faint (x : Ieee f) : Prop := x.1 = .fin 0 ∨ x.1 = .nan

theorem Ieee.of_zero : (Ieee.of f (.fin 0)).1 = .fin 0 := by
  have h : f.r.rnd 0 = 0 := f.r.zero
  rw [Ieee.of_fin (by rw [h, abs_zero]; linarith [f.one_lt_top]), h]

theorem infOf_zero : XReal.infOf 0 = .nan := by simp [XReal.infOf]

theorem faint_of {x : XReal} (h : x = .fin 0 ∨ x = .nan) : Faint (Ieee.of f x) := by
  rcases h with rfl | rfl
  · exact .inl Ieee.of_zero
  · exact .inr rfl

theorem faint_mul {x : Ieee f} (hx : x.1 = .fin 0) (y : Ieee f) : Faint (x * y) := by
  refine faint_of (x := XReal.mul x.1 y.1) ?_
  rw [hx]
  cases y.1 with
  | fin b => exact .inl (by simp [XReal.mul])
  | nan => exact .inr rfl
  | posInf => exact .inr (by simp [XReal.mul, infOf_zero])
  | negInf => exact .inr (by simp [XReal.mul, infOf_zero])

theorem faint_mul' (y : Ieee f) {x : Ieee f} (hx : x.1 = .fin 0) : Faint (y * x) := by
  refine faint_of (x := XReal.mul y.1 x.1) ?_
  rw [hx]
  cases y.1 with
  | fin b => exact .inl (by simp [XReal.mul])
  | nan => exact .inr rfl
  | posInf => exact .inr (by simp [XReal.mul, infOf_zero])
  | negInf => exact .inr (by simp [XReal.mul, infOf_zero])

theorem faint_add {x y : Ieee f} (hx : Faint x) (hy : Faint y) : Faint (x + y) := by
  refine faint_of (x := XReal.add x.1 y.1) ?_
  rcases hx with hx | hx <;> rcases hy with hy | hy <;> rw [hx, hy]
  · exact .inl (by simp [XReal.add])
  all_goals exact .inr rfl

theorem faint_foldl : ∀ (l : List (Ieee f × Ieee f)) (s : Ieee f), Faint s → (∀ p ∈ l, Faint (p.1 * p.2)) →
    Faint (l.foldl (fun s ab => s + ab.1 * ab.2) s)
  | [], _, hs, _ => hs
  | p :: l, _, hs, h => faint_foldl l _ (faint_add hs (h p (by simp))) fun q hq => h q (by simp [hq])

theorem faint_zero : Faint (0 : Ieee f) := .inl Ieee.zero_val

theorem faint_scalar {a b : Vec (Ieee f) n} (h : NullVec a ∨ NullVec b) : Faint (scalarProduct a.1 b.1) := by
  refine faint_foldl _ _ faint_zero fun p hp => ?_
  obtain ⟨h1, h2⟩ := List.of_mem_zip hp
  rcases h with h | h
  · exact faint_mul (h _ h1) _
  · exact faint_mul' _ (h _ h2)

theorem scalar_null {a : Vec (Ieee f) n} (h : NullVec a) : (scalarProduct a.1 a.1).1 = .fin 0 := by
  have : ∀ (l : List (Ieee f × Ieee f)) (s : Ieee f), s.1 = .fin 0 → (∀ p ∈ l, p.1.1 = .fin 0 ∧ p.2.1 = .fin 0) →
      (l.foldl (fun s ab => s + ab.1 * ab.2) s).1 = .fin 0 := by
    intro l
    induction l with
    | nil => exact fun _ hs _ => hs
    | cons p l ih =>
      intro s hs hl
      refine ih _ ?_ fun q hq => hl q (by simp [hq])
      obtain ⟨h1, h2⟩ := hl p (by simp)
      show (Ieee.of f (XReal.add s.1 (Ieee.of f (XReal.mul p.1.1 p.2.1)).1)).1 = _
      rw [h1, h2, hs, show XReal.mul (.fin 0) (.fin 0) = .fin 0 by simp [XReal.mul], Ieee.of_zero,
        show XReal.add (.fin 0) (.fin 0) = .fin 0 by simp [XReal.add], Ieee.of_zero]
  refine this _ _ Ieee.zero_val fun p hp => ?_
  obtain ⟨h1, h2⟩ := List.of_mem_zip hp
  exact ⟨h _ h1, h _ h2⟩

theorem sqrt_null {x : Ieee f} (h : x.1 = .fin 0) : (GoMath.sqrt x).1 = .fin 0 := by
  show (Ieee.of f (GoMath.sqrt x.1)).1 = _
  rw [h, show (GoMath.sqrt (XReal.fin 0)) = XReal.fin 0 by simp [GoMath.sqrt], Ieee.of_zero]

theorem faint_div_null {x y : Ieee f} (hx : Faint x) (hy : y.1 = .fin 0) : (x / y).1 = .nan := by
  show (Ieee.of f (XReal.div x.1 y.1)).1 = _
  rcases hx with hx | hx <;> rw [hx, hy]
  · rw [show XReal.div (.fin 0) (.fin 0) = .nan by simp [XReal.div, infOf_zero]]; rfl
  · rfl

theorem faint_div {x : Ieee f} (hx : Faint x) (y : Ieee f) : Faint (x / y) := by
  refine faint_of (x := XReal.div x.1 y.1) ?_
  rcases hx with hx | hx <;> rw [hx]
  · cases y.1 with
    | fin b =>
      by_cases hb : b = 0
      · exact .inr (by simp [XReal.div, hb, infOf_zero])
      · exact .inl (by simp [XReal.div, hb])
    | nan => exact .inr rfl
    | posInf => exact .inl rfl
    | negInf => exact .inl rfl
  · exact .inr (by cases y.1 <;> rfl)

/-- **C144, distances.** With rounding, overflow and the special values, the cosine distance between a null vector and
any vector — finite or not, null or not — is NaN, in both orders. -/
theorem C144_distance : Blind (cosinusSpace (Ieee f) n) NullVec := by
  intro a b h
  show (cosDist a.1 b.1).1 = XReal.nan
  refine Ieee.sub_nan _ ?_
  have hs := faint_scalar h
  rcases h with h | h
  · exact Ieee.nan_div (faint_div_null hs (sqrt_null (scalar_null h))) _
  · exact faint_div_null (faint_div hs _) (sqrt_null (scalar_null h))
end

/-! ### Labels and k-means -/

section
variable {E F : Type} [Zero F] [One F] [Neg F] [LT F] [DecidableLT F] [FloatOrder F]

/-- **C144, labels.** A blind datum has the label 0 and the distance NaN, whatever the centroids. If the first centroid
is blind, every datum has the label 0 and the distance NaN. -/
theorem C144_label (hneg : (-1 : F) < 0) {space : Space E F} {blind : E → Prop} (hb : Blind space blind) (c0 : E)
    (cs : List E) (e : E) (h : blind c0 ∨ blind e) :
    (nearest space (c0 :: cs) e).1 = 0 ∧ isNaN (nearest space (c0 :: cs) e).2 := by
  have hn : isNaN (space.dist e c0) := hb h.symm
  rw [C04_nan_first_sticks hneg space c0 cs e hn]
  exact ⟨rfl, hn⟩

/-- **C144, k-means.** If the first centroid is blind, an iteration merges all the data in it: the other centroids do not
change, the first one becomes the combination of all the data. -/
theorem C144_kmeans (hneg : (-1 : F) < 0) {space : Space E F} {blind : E → Prop} (hb : Blind space blind)
    (s : KStrategy) (hs : s.Valid) (c0 : E) (cs data : List E) (h : blind c0) :
    ∃ m, kmeansStep s space data (c0 :: cs) = some (m :: cs) ∧ (data = [] → m = c0) ∧
      (s = .seq → data ≠ [] → running space data = some m) := by
  obtain ⟨out, h1, h2, h3⟩ := iterate_spec hneg (P := fun _ _ => True) (fun _ _ _ _ _ _ _ _ => trivial)
    (fun _ _ _ => trivial) s hs (c0 :: cs) data (by simp)
  have hl : ∀ e, (nearest space (c0 :: cs) e).1 = 0 := fun e => (C144_label hneg hb c0 cs e (.inl h)).1
  cases out with
  | nil => cases h2
  | cons m out =>
    have hcs : out = cs := by
      apply List.ext_getElem?
      intro i
      by_cases hi : i < cs.length
      · obtain ⟨m', hm', he, -⟩ := h3 (i + 1) cs[i] (by simp [hi])
        have : (data.filter fun e => (nearest space (c0 :: cs) e).1 == ((i + 1 : Nat) : Int)) = [] := by
          rw [List.filter_eq_nil_iff]
          intro e _
          rw [hl e]
          simp only [beq_iff_eq]
          omega
        have hm'' : out[i]? = some m' := by simpa using hm'
        rw [hm'', he this, List.getElem?_eq_getElem hi]
      · have : out.length = cs.length := by simpa using h2
        rw [List.getElem?_eq_none (by omega), List.getElem?_eq_none (by omega)]
    subst hcs
    refine ⟨m, by rw [kmeansStep, h1]; exact allSome_map_some (m :: out), ?_, ?_⟩
    · rintro rfl
      obtain ⟨m', hm', he, -⟩ := h3 0 c0 rfl
      cases hm'
      exact he rfl
    · rintro rfl hne
      have hm := C23_seq_members hneg space (c0 :: out) data (by simp) (m :: out) h1 0 (by simp)
      have hall : (data.filter fun e => (nearest space (c0 :: out) e).1 == ((0 : Nat) : Int)) = data := by
        rw [List.filter_eq_self]
        intro e _
        rw [hl e]
        rfl
      rw [hall] at hm
      rw [← hm hne]
      rfl
end

/-! ### k-means++ -/

section
variable {E F : Type} [Zero F] [One F] [Neg F] [LT F] [DecidableLT F] [FloatOrder F] [BEq F] [Add F]
  [Sub F] [Mul F] [Div F] [GoMath F]

/-- **C144, `WeightedChoice`.** With a weight which is NaN the index returned is -1, whatever is drawn. -/
theorem C144_choice (h : NanLaws F) (ws : List F) (hw : ∃ w ∈ ws, isNaN w) (u : F) :
    weightedChoice ws u = .ok (-1) := by
  have hs := sumF_nan h ws hw
  have hc : ¬ (0 : F) < u * sumF ws := FloatOrder.not_lt_nan (h.mul_right _ hs)
  unfold weightedChoice
  simp only [h.beq hs, Bool.false_eq_true, if_false]
  cases ws with
  | nil => obtain ⟨w, hw, -⟩ := hw; cases hw
  | cons w ws => simp only [choiceLoop, if_neg hc]; rfl

/-- **C144, `PPIter`.** With a blind datum, or data and a blind first centroid, `PPIter` panics, whatever is drawn. -/
theorem C144_ppIter (h : NanLaws F) (hneg : (-1 : F) < 0) {space : Space E F} {blind : E → Prop}
    (hb : Blind space blind) (c0 : E) (cs data : List E) (hd : ∃ e ∈ data, blind c0 ∨ blind e) (u : F) :
    ppIter space (c0 :: cs) data u = .panic := by
  obtain ⟨e, he, hbe⟩ := hd
  unfold ppIter
  rw [C144_choice h (mapLabel space (c0 :: cs) data).2
    ⟨_, List.mem_map.2 ⟨e, he, rfl⟩, (C144_label hneg hb c0 cs e hbe).2⟩ u]
  rfl

/-- **C144, `PPInitializer`.** On data with a blind element, `PPInitializer` panics as soon as two centroids or more
are asked for, whatever is drawn. -/
theorem C144_pp (h : NanLaws F) (hneg : (-1 : F) < 0) {space : Space E F} {blind : E → Prop}
    (hb : Blind space blind) (k : Int) (data : List E) (hk : 2 ≤ k) (hkd : k ≤ data.length)
    (hd : ∃ e ∈ data, blind e) (first : Nat) (u : F) (us : List F) :
    ppInitializer k data space first (u :: us) = some .panic := by
  unfold ppInitializer
  rw [if_neg (by omega), if_pos (by simp [initCheck]; omega)]
  cases hf : data[first]? with
  | none => rfl
  | some e =>
    have hd' : ∃ x ∈ data, blind e ∨ blind x := hd.imp fun _ hx => ⟨hx.1, .inr hx.2⟩
    obtain ⟨j, hj⟩ : ∃ j, k.toNat - 1 = j + 1 := ⟨k.toNat - 2, by omega⟩
    simp only [hj, ppLoop, C144_ppIter h hneg hb e [] data hd' u]
end

/-! ### Streaming -/

section
variable {E F R : Type} [Zero F] [One F] [Neg F] [LT F] [DecidableLT F] [FloatOrder F] [BEq F] [Add F]
  [Sub F] [Mul F] [Div F] [GoMath F]

/-- **C144, streaming, one element.** If the element processed or the first centre is blind, the element is merged in
the first centre. If no distance was known, the maximal distance becomes NaN. -/
theorem C144_stream (h : NanLaws F) (hneg : (-1 : F) < 0) {space : Space E F} {blind : E → Prop}
    (hb : Blind space blind) (impl : StreamImpl E F R) (c0 : E) (cs : List E) (k : Int) (ks : List Int)
    (hc : impl.clust = c0 :: cs) (hk : impl.cards = k :: ks) (threshold : F) (e : E) (hbl : blind c0 ∨ blind e) :
    ∃ impl', impl.process space threshold e = some impl' ∧ impl'.clust = space.combine c0 k e 1 :: cs ∧
      impl'.cards = (k + 1) :: ks ∧ ((impl.maxDistance == 0) = true → isNaN impl'.maxDistance) ∧
      ((impl.maxDistance == 0) = false → impl'.maxDistance = impl.maxDistance) := by
  have hn : isNaN (space.dist e c0) := hb hbl.symm
  have ht : ∃ impl', impl.process space threshold e = some impl' ∧ impl' = { impl with
        clust := space.combine c0 k e 1 :: cs
        cards := (k + 1) :: ks
        count := impl.count + 1
        maxDistance := if impl.maxDistance == 0 then space.dist e c0 else impl.maxDistance } := by
    refine ⟨_, ?_, rfl⟩
    have hrel : ∀ m : F, isNaN (space.dist e c0 / m) := fun m => h.div_left m hn
    have hnear := C04_nan_first_sticks hneg space c0 cs e hn
    unfold StreamImpl.process
    simp only [assign, hc, hnear, ge_iff_le, le_refl, if_true, idx?, lt_irrefl, if_false,
      Int.toNat_zero, List.getElem?_cons_zero, StreamImpl.getRelativeDistance]
    rw [if_neg (fun hx => FloatOrder.not_lt_nan (hrel _) hx.2),
      if_neg (FloatOrder.not_lt_nan (hrel _))]
    by_cases hz : (impl.maxDistance == 0) = true
    · simp only [hz, if_true, StreamImpl.updateCenter, idx?, lt_irrefl, if_false, Int.toNat_zero, hk,
        List.getElem?_cons_zero, List.set_cons_zero, StreamImpl.updateMaxDistance]
      rw [if_neg (FloatOrder.not_lt_nan hn)]
    · simp only [hz, Bool.false_eq_true, StreamImpl.updateCenter, idx?, lt_irrefl, if_false, Int.toNat_zero, hc, hk,
        List.getElem?_cons_zero, List.set_cons_zero, StreamImpl.updateMaxDistance]
      rw [if_neg (FloatOrder.not_lt_nan hn)]
  obtain ⟨impl', h1, rfl⟩ := ht
  exact ⟨_, h1, rfl, rfl, fun hz => by simp only [hz, if_true]; exact hn, fun hz => by simp [hz]⟩

theorem process_nanMax (h : NanLaws F) (hdiv : ∀ a b : F, isNaN b → isNaN (a / b)) (space : Space E F)
    (impl impl' : StreamImpl E F R) (hm : isNaN impl.maxDistance) (t : F) (e : E)
    (hp : impl.process space t e = some impl') :
    impl'.clust.length = impl.clust.length ∧ isNaN impl'.maxDistance := by
  unfold StreamImpl.process at hp
  cases ha : assign space impl.clust e with
  | none => simp [ha] at hp
  | some r =>
    obtain ⟨x, label, distance⟩ := r
    have hr : isNaN (distance / impl.maxDistance) := hdiv _ _ hm
    simp only [ha, StreamImpl.getRelativeDistance, h.beq hm, Bool.false_eq_true, if_false] at hp
    rw [if_neg (fun hx => FloatOrder.not_lt_nan hr hx.2), if_neg (FloatOrder.not_lt_nan hr)] at hp
    unfold StreamImpl.updateCenter at hp
    cases h1 : idx? impl.clust label with
    | none => simp [h1] at hp
    | some c =>
      cases h2 : idx? impl.cards label with
      | none => simp [h1, h2] at hp
      | some k =>
        simp only [h1, h2, StreamImpl.updateMaxDistance, if_neg (FloatOrder.nan_not_lt hm)] at hp
        cases hp
        exact ⟨by simp, hm⟩

/-- **C144, streaming, for ever.** Once the maximal distance is NaN, no centre is ever added again, whatever is pushed,
until `Init` is called again. -/
theorem C144_stream_run (h : NanLaws F) (hdiv : ∀ a b : F, isNaN b → isNaN (a / b)) (space : Space E F) :
    ∀ (ops : List (StreamOp E F)) (impl impl' : StreamImpl E F R) (rs : List (StreamRes E F)),
    isNaN impl.maxDistance → (∀ op ∈ ops, op ≠ .init) → impl.run space ops = some (impl', rs) →
    impl'.clust.length = impl.clust.length ∧ isNaN impl'.maxDistance ∧
      ∀ cl m, .iterate (some cl) m ∈ rs → cl.length = impl.clust.length ∧ isNaN m := by
  intro ops
  induction ops with
  | nil =>
    intro impl impl' rs hm _ hr
    cases hr
    exact ⟨rfl, hm, by simp⟩
  | cons op ops ih =>
    intro impl impl' rs hm hop hr
    have hop' : ∀ op ∈ ops, op ≠ .init := fun o ho => hop o (by simp [ho])
    simp only [StreamImpl.run] at hr
    cases hs : impl.step space op with
    | none => simp [hs] at hr
    | some x =>
      obtain ⟨i, r⟩ := x
      simp only [hs] at hr
      cases hrun : i.run space ops with
      | none => simp [hrun] at hr
      | some y =>
        obtain ⟨i', rs'⟩ := y
        simp only [hrun] at hr
        cases hr
        have key : i.clust.length = impl.clust.length ∧ isNaN i.maxDistance ∧
            ∀ cl m, r = .iterate (some cl) m → cl.length = impl.clust.length ∧ isNaN m := by
          cases op with
          | init => exact absurd rfl (hop _ (by simp))
          | push e =>
            simp only [StreamImpl.step, StreamImpl.push] at hs
            split at hs <;> cases hs <;> exact ⟨rfl, hm, fun _ _ h => by cases h⟩
          | iterate t =>
            simp only [StreamImpl.step, StreamImpl.iterate] at hs
            cases hq : impl.c with
            | nil =>
              simp only [hq] at hs
              cases hs
              exact ⟨rfl, hm, fun _ _ h => by cases h⟩
            | cons e q =>
              simp only [hq] at hs
              cases hp : StreamImpl.process { impl with c := q } space t e with
              | none => simp [hp] at hs
              | some j =>
                simp only [hp] at hs
                cases hs
                obtain ⟨g1, g2⟩ := process_nanMax h hdiv space { impl with c := q } i hm t e hp
                exact ⟨g1, g2, fun _ _ h => by cases h; exact ⟨g1, g2⟩⟩
        obtain ⟨k1, k2, k3⟩ := key
        obtain ⟨g1, g2, g3⟩ := ih i impl' rs' k2 hop' hrun
        refine ⟨g1.trans k1, g2, fun cl m hmem => ?_⟩
        rcases List.mem_cons.1 hmem with hr | hr
        · exact k3 cl m hr.symm
        · obtain ⟨a, b⟩ := g3 cl m hr
          exact ⟨a.trans k1, b⟩
end

/-! ### MCMC -/

section
variable {D E F R : Type} [Zero F] [One F] [Neg F] [LT F] [DecidableLT F] [FloatOrder F] [BEq F] [Add F]
  [Sub F] [Mul F] [Div F] [GoMath F]

/-- **C144, mcmc.** While a blind element is in the data, an iteration panics or rejects its proposal; if it proposes
more clusters than there are centroids, and no such number of centres was accepted before, it panics, whatever is
drawn. -/
theorem C144_mcmc (h : NanLaws F) (hneg : (-1 : F) < 0) (p : McmcParams D E F R) {blind : E → Prop}
    (hb : Blind p.space blind) (hp : ∀ a : F, isNaN a → isNaN (GoMath.pow a p.conf.norm)) (impl : McmcImpl E F)
    (hd : ∃ e ∈ impl.buffer.data, blind e) (centroids : List E) (d : McmcDraws E F) :
    (∀ impl' clust fig, impl.iterate p centroids d = some (impl', clust, fig) →
      clust = centroids ∧ impl'.current = impl.current ∧ impl'.acc = impl.acc ∧ impl'.store = impl.store) ∧
    (∀ k, centroids ≠ [] → nextK p.conf impl.current.k impl.buffer.data d.move = some k →
      (centroids.length : Int) < k → impl.store k = none → impl.iterate p centroids d = none) := by
  constructor
  · intro impl' clust fig hit
    refine iterate_nan h impl p centroids d (.inr fun cs loss hl => ?_) impl' clust fig hit
    obtain ⟨e, he, hbe⟩ := hd
    refine mcmcLoss_absorbs (B := fun x : F => isNaN x) ⟨fun b h1 => h.add_left b h1, fun a _ h1 => h.add_right a h1⟩ hneg p
      (e := e) cs _ (fun hc => hp _ ?_) he loss hl
    cases cs with
    | nil => exact absurd rfl hc
    | cons c0 cs => exact (C144_label hneg hb c0 cs e (.inr hbe)).2
  · intro k hc hk hlt hst
    have : impl.getKCenters p impl.current centroids impl.buffer.data d = none := by
      cases centroids with
      | nil => exact absurd rfl hc
      | cons c0 cs =>
        simp only [McmcImpl.getKCenters, hk, CenterStore.getCenters, hst, genCenters, if_pos hlt, addCenter,
          C144_ppIter h hneg hb c0 cs _ (hd.imp fun _ hx => ⟨hx.1, .inr hx.2⟩)]
    simp only [McmcImpl.iterate, McmcImpl.doIter, McmcImpl.propose, this]

/-- **C144, mcmc, `Init`.** If a blind element is in the data known to `Init`, the current loss is NaN, so that nothing
is accepted until the next `Init` (C126), even when the element has left the data. -/
theorem C144_mcmc_init (h : NanLaws F) (hneg : (-1 : F) < 0) (p : McmcParams D E F R) {blind : E → Prop}
    (hb : Blind p.space blind) (hp : ∀ a : F, isNaN a → isNaN (GoMath.pow a p.conf.norm)) (impl : McmcImpl E F)
    (hd : ∃ e ∈ impl.buffer.apply.data, blind e) (d : D) (impl' : McmcImpl E F) (c : List E)
    (hi : impl.init p d = (impl', .ok c)) :
    isNaN impl'.current.loss ∧ ∀ (ops : List (McmcOp D E F)) (s' : McmcSys E F), (∀ op ∈ ops, ∀ d, op ≠ .init d) →
      McmcSys.run p ⟨impl', c, true⟩ ops = some s' → s'.centroids = c ∧ s'.impl.acc = impl'.acc := by
  have hn : isNaN impl'.current.loss := by
    obtain ⟨_, _, _, hx⟩ := init_cases p _ _ _ _ hi
    obtain ⟨_, _, _, _, _, hl, _⟩ := hx c rfl
    obtain ⟨e, he, hbe⟩ := hd
    refine mcmcLoss_absorbs (B := fun x : F => isNaN x) ⟨fun b h1 => h.add_left b h1, fun a _ h1 => h.add_right a h1⟩ hneg p
      (e := e) c _ (fun hc => hp _ ?_) he _ hl
    cases c with
    | nil => exact absurd rfl hc
    | cons c0 cs => exact (C144_label hneg hb c0 cs e (.inr hbe)).2
  refine ⟨hn, fun ops s' hops hr => ?_⟩
  obtain ⟨h1, -, h3, -⟩ := C126_mcmc_frozen h p ops _ s' hn hops hr
  exact ⟨h1, h3⟩
end

/-! ### `float64` -/

section
variable {f : Format}

theorem Ieee.div_nan (a b : Ieee f) (h : isNaN b) : isNaN (a / b) := by
  show (Ieee.of f (XReal.div a.1 b.1)).1 = XReal.nan
  have hb : b.1 = .nan := h
  rw [hb]; cases a.1 <;> rfl

theorem Ieee.pow_nan {norm : Ieee f} (h : norm.1 ≠ .fin 0) (a : Ieee f) (ha : isNaN a) : isNaN (GoMath.pow a norm) := by
  show (Ieee.of f (XReal.pow a.1 norm.1)).1 = XReal.nan
  have hb : a.1 = .nan := ha
  rw [hb]
  cases hn : norm.1 with
  | fin b =>
    have : b ≠ 0 := fun hb => h (by rw [hn, hb])
    simp only [XReal.pow, if_neg this]; rfl
  | _ => rfl

/-- **C144, `float64`.** The hypotheses hold of the null vectors of the cosine space: `PPInitializer` panics whenever
the data have one and two centroids or more are asked for; streaming started by `Init` and which then receives a null
vector has one cluster for ever, whatever its configuration, the draws and the data. -/
theorem C144_cosine {n : Nat} {R : Type} :
    (∀ (k : Int) (data : List (Vec (Ieee f) n)), 2 ≤ k → k ≤ data.length → (∃ e ∈ data, NullVec e) →
      ∀ (first : Nat) (u : Ieee f) (us : List (Ieee f)),
      ppInitializer k data (cosinusSpace (Ieee f) n) first (u :: us) = some .panic) ∧
    (∀ (conf : StreamingConf (Ieee f) R) (e0 z : Vec (Ieee f) n) (data : List (Vec (Ieee f) n))
      (impl0 impl : StreamImpl (Vec (Ieee f) n) (Ieee f) R) (t : Ieee f)
      (ops : List (StreamOp (Vec (Ieee f) n) (Ieee f))) (rs : List (StreamRes (Vec (Ieee f) n) (Ieee f))),
      StreamImpl.new conf (e0 :: z :: data) = some impl0 → NullVec e0 ∨ NullVec z → (∀ op ∈ ops, op ≠ .init) →
      impl0.run (cosinusSpace (Ieee f) n) (.init :: .iterate t :: ops) = some (impl, rs) →
      impl.clust.length = 1 ∧ isNaN impl.maxDistance) := by
  constructor
  · intro k data hk hkd hd first u us
    exact C144_pp (C131_nan f) Ieee.neg_one_lt C144_distance k data hk hkd hd first u us
  · intro conf e0 z data impl0 impl t ops rs hnew hnull hops hr
    have hz0 : ((0 : Ieee f) == 0) = true := by
      show XReal.beq (0 : Ieee f).1 (0 : Ieee f).1 = true
      rw [Ieee.zero_val]; simp [XReal.beq]
    unfold StreamImpl.new at hnew
    split at hnew
    · cases hnew
    · cases hnew
      have hlt : ¬ (0 : Ieee f) < 0 := FloatOrder.irrefl (0 : Ieee f)
      obtain ⟨i, h1, h2, -, h4, -⟩ := C144_stream (R := R) (C131_nan f) Ieee.neg_one_lt (C144_distance (f := f) (n := n))
        { maxDistance := 0, clust := [e0], cards := [1], c := data, conf, count := 0 } e0 [] 1 [] rfl rfl t z hnull
      simp only [StreamImpl.run, StreamImpl.step, StreamImpl.init, StreamImpl.addCenter, StreamImpl.updateMaxDistance,
        if_neg hlt, List.nil_append, StreamImpl.iterate, h1] at hr
      cases hrun : i.run (cosinusSpace (Ieee f) n) ops with
      | none => simp [hrun] at hr
      | some y =>
        obtain ⟨i', rs'⟩ := y
        simp only [hrun] at hr
        cases hr
        obtain ⟨g1, g2, -⟩ := C144_stream_run (C131_nan f) Ieee.div_nan (cosinusSpace (Ieee f) n) ops i impl rs'
          (h4 hz0) hops hrun
        exact ⟨by rw [g1, h2]; rfl, g2⟩
end

/-! ### Vectors which are almost null -/

theorem binary64_underflow {k : ℕ} (hk : 1076 ≤ k) : binary64.rnd ((2 : ℝ) ^ (-(k : ℤ))) = 0 := by
  have hpos := two_zpow_pos (-(k : ℤ))
  have hu : ulpExp 53 (-1074) ((2 : ℝ) ^ (-(k : ℤ))) = -1074 := by
    have : Int.log 2 |(2 : ℝ) ^ (-(k : ℤ))| ≤ -(k : ℤ) := by
      rw [abs_of_pos hpos]
      exact log_le_of_lt hpos (zpow_lt_zpow_right₀ (by norm_num) (by omega))
    unfold ulpExp
    omega
  show roundTo 53 (-1074) _ = 0
  unfold roundTo
  rw [hu, ← zpow_sub₀ (by norm_num)]
  have h1 : (0 : ℝ) < 2 ^ (-(k : ℤ) - -1074) := two_zpow_pos _
  have h2 : (2 : ℝ) ^ (-(k : ℤ) - -1074) ≤ 2 ^ (-2 : ℤ) := zpow_le_zpow_right₀ (by norm_num) (by omega)
  rw [show (2 : ℝ) ^ (-2 : ℤ) = 1 / 4 by norm_num] at h2
  generalize (2 : ℝ) ^ (-(k : ℤ) - -1074) = x at h1 h2
  have hf : ⌊x⌋ = 0 := Int.floor_eq_zero_iff.2 ⟨h1.le, by linarith⟩
  have : rne x = 0 := by
    unfold rne
    rw [hf, if_pos (by rw [Int.cast_zero]; linarith)]
  rw [this]; simp

namespace NullExample

/-- The point of the line of coordinate `x`. -/
noncomputable def at' (x : ℝ) : Vec (Ieee float64) 1 := ⟨[Ieee.of float64 (.fin x)], rfl⟩

theorem of_val {x : ℝ} (h : binary64.rnd x = x) (hx : |x| < 2 ^ 1024) : (Ieee.of float64 (.fin x)).1 = .fin x := by
  have h' : float64.r.rnd x = x := h
  rw [Ieee.of_fin (by rw [h']; exact hx), h']

theorem tiny_lt (k : ℕ) : |(2 : ℝ) ^ (-(k : ℤ))| < 2 ^ 1024 := by
  rw [abs_of_pos (two_zpow_pos _)]
  have h1 : (2 : ℝ) ^ (-(k : ℤ)) ≤ 2 ^ (0 : ℤ) := zpow_le_zpow_right₀ (by norm_num) (by omega)
  have h2 : (1 : ℝ) < 2 ^ 1024 := one_lt_pow₀ (by norm_num) (by norm_num)
  rw [zpow_zero] at h1
  exact h1.trans_lt h2

theorem of_tiny {k : ℕ} (hk : k ≤ 1074) : (Ieee.of float64 (.fin ((2 : ℝ) ^ (-(k : ℤ))))).1 = .fin ((2 : ℝ) ^ (-(k : ℤ))) :=
  of_val (roundTo_pow (by norm_num) (by omega)) (tiny_lt k)

theorem of_neg_tiny {k : ℕ} (hk : k ≤ 1074) :
    (Ieee.of float64 (.fin (-(2 : ℝ) ^ (-(k : ℤ))))).1 = .fin (-(2 : ℝ) ^ (-(k : ℤ))) := by
  have h : binary64.rnd ((2 : ℝ) ^ (-(k : ℤ))) = (2 : ℝ) ^ (-(k : ℤ)) := roundTo_pow (by norm_num) (by omega)
  refine of_val ?_ (by rw [abs_neg]; exact tiny_lt k)
  rw [binary64.neg, h]

theorem of_unit : (Ieee.of float64 (.fin 1)).1 = .fin 1 :=
  of_val binary64.one (by rw [abs_one]; exact one_lt_pow₀ (by norm_num) (by norm_num))

theorem of_neg_unit : (Ieee.of float64 (.fin (-1))).1 = .fin (-1) :=
  of_val (by rw [binary64.neg, binary64.one]) (by rw [abs_neg, abs_one]; exact one_lt_pow₀ (by norm_num) (by norm_num))

theorem scalar_line (x y z : ℝ) (hx : (Ieee.of float64 (.fin x)).1 = .fin x) (hy : (Ieee.of float64 (.fin y)).1 = .fin y)
    (hz : (Ieee.of float64 (.fin (x * y))).1 = .fin z) (hz' : (Ieee.of float64 (.fin z)).1 = .fin z) :
    (scalarProduct (at' x).1 (at' y).1).1 = .fin z := by
  show (Ieee.of float64 (XReal.add (0 : Ieee float64).1
    (Ieee.of float64 (XReal.mul (Ieee.of float64 (.fin x)).1 (Ieee.of float64 (.fin y)).1)).1)).1 = _
  rw [hx, hy, Ieee.zero_val, show XReal.mul (.fin x) (.fin y) = .fin (x * y) from rfl, hz,
    show XReal.add (.fin 0) (.fin z) = .fin z by simp [XReal.add], hz']

theorem norm_tiny {k : ℕ} (h1 : 538 ≤ k) (h2 : k ≤ 1074) :
    (GoMath.sqrt (scalarProduct (at' ((2 : ℝ) ^ (-(k : ℤ)))).1 (at' ((2 : ℝ) ^ (-(k : ℤ)))).1)).1 = .fin 0 := by
  refine sqrt_null (scalar_line _ _ _ (of_tiny h2) (of_tiny h2) ?_ Ieee.of_zero)
  have e : (2 : ℝ) ^ (-(k : ℤ)) * 2 ^ (-(k : ℤ)) = 2 ^ (-((2 * k : ℕ) : ℤ)) := by
    rw [← zpow_add₀ (by norm_num)]; congr 1; push_cast; ring
  have h : float64.r.rnd ((2 : ℝ) ^ (-((2 * k : ℕ) : ℤ))) = 0 := binary64_underflow (by omega)
  rw [e, Ieee.of_fin (by rw [h, abs_zero]; exact pow_pos (by norm_num) _), h]

theorem unit_norm {y : ℝ} (hy : y = 1 ∨ y = -1) : (GoMath.sqrt (scalarProduct (at' y).1 (at' y).1)).1 = .fin 1 := by
  have hs : (scalarProduct (at' y).1 (at' y).1).1 = .fin 1 := by
    rcases hy with rfl | rfl
    · exact scalar_line _ _ _ of_unit of_unit (by rw [mul_one]; exact of_unit) of_unit
    · exact scalar_line _ _ _ of_neg_unit of_neg_unit (by norm_num; exact of_unit) of_unit
  show (Ieee.of float64 (GoMath.sqrt (scalarProduct (at' y).1 (at' y).1).1)).1 = _
  rw [hs, show (GoMath.sqrt (XReal.fin 1)) = XReal.fin 1 by simp [GoMath.sqrt, not_lt.2]]
  exact of_unit

theorem dist_tiny {k : ℕ} (h1 : 538 ≤ k) (h2 : k ≤ 1074) :
    ((cosinusSpace (Ieee float64) 1).dist (at' ((2 : ℝ) ^ (-(k : ℤ)))) (at' 1)).1 = .negInf ∧
    ((cosinusSpace (Ieee float64) 1).dist (at' ((2 : ℝ) ^ (-(k : ℤ)))) (at' (-1))).1 = .posInf := by
  have hpos := two_zpow_pos (-(k : ℤ))
  have key : ∀ y z : ℝ, (y = 1 ∨ y = -1) →
      (scalarProduct (at' ((2 : ℝ) ^ (-(k : ℤ)))).1 (at' y).1).1 = .fin z → ∀ w, XReal.infOf z = w →
      (w = .posInf ∨ w = .negInf) →
      ((cosinusSpace (Ieee float64) 1).dist (at' ((2 : ℝ) ^ (-(k : ℤ)))) (at' y)).1 = XReal.neg w := by
    intro y z hy hs w hw hinf
    show (Ieee.of float64 (XReal.add (1 : Ieee float64).1 (XReal.neg (Ieee.of float64 (XReal.div (Ieee.of float64 (XReal.div
      (scalarProduct (at' ((2 : ℝ) ^ (-(k : ℤ)))).1 (at' y).1).1
      (GoMath.sqrt (scalarProduct (at' ((2 : ℝ) ^ (-(k : ℤ)))).1 (at' ((2 : ℝ) ^ (-(k : ℤ)))).1)).1)).1
      (GoMath.sqrt (scalarProduct (at' y).1 (at' y).1)).1)).1))).1 = _
    rw [hs, norm_tiny h1 h2, unit_norm hy, show (1 : Ieee float64).1 = .fin 1 from of_unit,
      show XReal.div (.fin z) (.fin 0) = w by simp [XReal.div, hw]]
    rcases hinf with rfl | rfl
    · rw [show (Ieee.of float64 .posInf).1 = .posInf from rfl,
        show XReal.div .posInf (.fin 1) = .posInf by simp [XReal.div, not_lt.2]]
      rfl
    · rw [show (Ieee.of float64 .negInf).1 = .negInf from rfl,
        show XReal.div .negInf (.fin 1) = .negInf by simp [XReal.div, not_lt.2]]
      rfl
  constructor
  · exact key 1 _ (.inl rfl) (scalar_line _ _ _ (of_tiny h2) of_unit (by rw [mul_one]; exact of_tiny h2) (of_tiny h2))
      .posInf (by simp only [XReal.infOf, if_pos hpos]) (.inl rfl)
  · exact key (-1) _ (.inr rfl) (scalar_line _ _ _ (of_tiny h2) of_neg_unit
      (by rw [mul_neg, mul_one]; exact of_neg_tiny h2) (of_neg_tiny h2))
      .negInf (by
        have hn : -(2 : ℝ) ^ (-(k : ℤ)) < 0 := by linarith
        simp only [XReal.infOf, if_neg (not_lt.2 hn.le), if_pos hn]) (.inr rfl)
end NullExample

open NullExample in
/-- **C144, vectors which are almost null.** In `float64`, a positive number of the line less than 2⁻⁵³⁷ is not null but
its norm underflows to 0: its cosine distance to 1 is `-Inf`, to -1 `+Inf`. With the centroids 1 and -1, it is assigned
to -1, the centroid of the opposite direction, although the other centroid has its direction. -/
theorem C144_tiny (k : ℕ) (h1 : 538 ≤ k) (h2 : k ≤ 1074) :
    (at' ((2 : ℝ) ^ (-(k : ℤ)))).1.map (·.1) = [.fin ((2 : ℝ) ^ (-(k : ℤ)))] ∧
    ((cosinusSpace (Ieee float64) 1).dist (at' ((2 : ℝ) ^ (-(k : ℤ)))) (at' 1)).1 = .negInf ∧
    (nearest (cosinusSpace (Ieee float64) 1) [at' 1, at' (-1)] (at' ((2 : ℝ) ^ (-(k : ℤ))))).1 = 1 ∧
    (nearest (cosinusSpace (Ieee float64) 1) [at' 1, at' (-1)] (at' ((2 : ℝ) ^ (-(k : ℤ))))).2.1 = .posInf := by
  obtain ⟨d1, d2⟩ := dist_tiny h1 h2
  have hneg : (cosinusSpace (Ieee float64) 1).dist (at' ((2 : ℝ) ^ (-(k : ℤ)))) (at' 1) < 0 := by
    rw [Ieee.lt_zero_iff, d1]; trivial
  have hn : nearest (cosinusSpace (Ieee float64) 1) [at' 1, at' (-1)] (at' ((2 : ℝ) ^ (-(k : ℤ)))) =
      (1, (cosinusSpace (Ieee float64) 1).dist (at' ((2 : ℝ) ^ (-(k : ℤ)))) (at' (-1))) := by
    simp only [nearest, nearestLoop, Ieee.neg_one_lt, true_or, if_true, hneg]
    rfl
  refine ⟨?_, d1, by rw [hn], by rw [hn]; exact d2⟩
  show [(Ieee.of float64 (.fin ((2 : ℝ) ^ (-(k : ℤ))))).1] = _
  rw [of_tiny h2]

/-! ### Examples -/

namespace NullExample

theorem null_at : NullVec (at' 0) := by
  intro x hx
  cases List.mem_singleton.1 hx
  exact Ieee.of_zero

/-- 0 is a null vector of the line. -/
example (x : ℝ) : isNaN ((cosinusSpace (Ieee float64) 1).dist (at' 0) (at' x)) := C144_distance (.inl null_at)

/-- k-means++ cannot choose two centroids among 0, 1, 2. -/
example (first : Nat) (u : Ieee float64) : ppInitializer 2 [at' 0, at' 1, at' 2] (cosinusSpace (Ieee float64) 1) first [u] =
    some .panic :=
  (C144_cosine (R := Nat)).1 2 _ le_rfl (by simp) ⟨at' 0, by simp, null_at⟩ first u []

/-- A null first centroid takes all the data. -/
example (c : Vec (Ieee float64) 1) (data : List (Vec (Ieee float64) 1)) (hd : data ≠ []) :
    ∃ m, kmeansStep .seq (cosinusSpace (Ieee float64) 1) data [at' 0, c] = some [m, c] ∧
      running (cosinusSpace (Ieee float64) 1) data = some m := by
  obtain ⟨m, h1, -, h3⟩ := C144_kmeans Ieee.neg_one_lt C144_distance .seq trivial (at' 0) [c] data null_at
  exact ⟨m, h1, h3 rfl hd⟩

/-- Streaming on 1, then 0, then anything has one centre. -/
example (conf : StreamingConf (Ieee float64) Nat) (hb : 2 ≤ conf.bufferSize) (t : Ieee float64)
    (ops : List (StreamOp (Vec (Ieee float64) 1) (Ieee float64))) (hops : ∀ op ∈ ops, op ≠ .init) :
    ∃ impl0, StreamImpl.new conf [at' 1, at' 0] = some impl0 ∧
      ∀ impl rs, impl0.run (cosinusSpace (Ieee float64) 1) (.init :: .iterate t :: ops) = some (impl, rs) →
        impl.clust.length = 1 := by
  refine ⟨_, by rw [StreamImpl.new, if_neg (by simp; omega)], fun impl rs hr => ?_⟩
  exact ((C144_cosine (R := Nat)).2 conf (at' 1) (at' 0) [] _ impl t ops rs (by
    rw [StreamImpl.new, if_neg (by simp; omega)]) (.inr null_at) hops hr).1

/-- `C144_mcmc` applies to the cosine space with the norm 2. -/
example (p : McmcParams Nat (Vec (Ieee float64) 1) (Ieee float64) Nat) (hs : p.space = cosinusSpace (Ieee float64) 1)
    (hn : p.conf.norm.1 = .fin 2) : Blind p.space NullVec ∧ ∀ a, isNaN a → isNaN (GoMath.pow a p.conf.norm) :=
  ⟨by rw [hs]; exact C144_distance, Ieee.pow_nan (by rw [hn]; simp)⟩
end NullExample
end Distclus
