import Verif.Spec.Nan
import Verif.Proof.KMeans
import Verif.Proof.Loss
import Verif.Proof.XReal
import Verif.Props.Nearest
import Verif.Props.KMeans
/-!
# Elements with a NaN: lemmas
-/
set_option linter.unusedSectionVars false

namespace Distclus
open Spec

section
variable {F : Type} [LT F] [FloatOrder F] [BEq F] [Zero F] [One F] [Add F] [Sub F] [Mul F] [Div F]
  [GoMath F]

theorem nan_foldl (h : NanLaws F) {α : Type} (g : α → F) : ∀ (l : List α) (s : F),
    isNaN s ∨ (∃ x ∈ l, isNaN (g x)) → isNaN (l.foldl (fun s x => s + g x) s) := by
  intro l
  induction l with
  | nil => rintro s (hs | ⟨x, hx, _⟩); exacts [hs, absurd hx (by simp)]
  | cons a l ih =>
    rintro s hs
    apply ih
    rcases hs with hs | ⟨x, hx, hn⟩
    · exact Or.inl (h.add_left _ hs)
    · rcases List.mem_cons.1 hx with rfl | hx
      · exact Or.inl (h.add_right _ hn)
      · exact Or.inr ⟨x, hx, hn⟩

/-- A NaN in one of two lists of one length is met when walking both. -/
theorem zip_nan : ∀ (p q : List F), p.length = q.length → (∃ x ∈ p, isNaN x) ∨ (∃ x ∈ q, isNaN x) →
    ∃ ab ∈ List.zip p q, isNaN ab.1 ∨ isNaN ab.2 := by
  intro p
  induction p with
  | nil =>
    intro q hl h
    have : q = [] := List.length_eq_zero_iff.1 hl.symm
    subst this
    rcases h with ⟨x, hx, _⟩ | ⟨x, hx, _⟩ <;> cases hx
  | cons a p ih =>
    intro q hl h
    cases q with
    | nil => cases hl
    | cons b q =>
      have hrest : (∃ x ∈ p, isNaN x) ∨ (∃ x ∈ q, isNaN x) →
          ∃ ab ∈ List.zip (a :: p) (b :: q), isNaN ab.1 ∨ isNaN ab.2 := by
        intro h'
        obtain ⟨ab, h1, h2⟩ := ih q (by simpa using hl) h'
        exact ⟨ab, List.mem_cons_of_mem _ h1, h2⟩
      rcases h with ⟨x, hx, hn⟩ | ⟨x, hx, hn⟩
      · rcases List.mem_cons.1 hx with rfl | hx
        · exact ⟨(x, b), by simp, Or.inl hn⟩
        · exact hrest (Or.inl ⟨x, hx, hn⟩)
      · rcases List.mem_cons.1 hx with rfl | hx
        · exact ⟨(a, x), by simp, Or.inr hn⟩
        · exact hrest (Or.inr ⟨x, hx, hn⟩)

theorem mem_zipWith_of_zip {α β γ : Type} (g : α → β → γ) : ∀ (p : List α) (q : List β) {ab : α × β},
    ab ∈ List.zip p q → g ab.1 ab.2 ∈ List.zipWith g p q := by
  intro p
  induction p with
  | nil => intro q ab h; simp at h
  | cons a p ih =>
    intro q ab h
    cases q with
    | nil => simp at h
    | cons b q =>
      rcases List.mem_cons.1 h with rfl | h
      · exact List.mem_cons_self
      · exact List.mem_cons_of_mem _ (ih q h)

theorem combine_nan (h : NanLaws F) {n : Nat} (a b : Vec F n) (w v : Int)
    (hb : HasNaN a ∨ HasNaN b) : HasNaN ((euclidSpace F n).combine a w b v) := by
  obtain ⟨ab, hab, hn⟩ := zip_nan a.1 b.1 (by rw [a.2, b.2]) hb
  refine ⟨(ab.1 * GoMath.ofInt w + ab.2 * GoMath.ofInt v) / (GoMath.ofInt w + GoMath.ofInt v),
    ?_, ?_⟩
  · show _ ∈ pointCombine a.1 w b.1 v
    unfold pointCombine
    exact mem_zipWith_of_zip _ _ _ hab
  · apply h.div_left
    rcases hn with hn | hn
    · exact h.add_left _ (h.mul_left _ hn)
    · exact h.add_right _ (h.mul_left _ hn)

theorem euclid_taints (h : NanLaws F) (n : Nat) : Taints (euclidSpace F n) HasNaN where
  dist := by
    intro a b hb
    obtain ⟨ab, hab, hn⟩ := zip_nan a.1 b.1 (by rw [a.2, b.2]) hb
    apply h.sqrt
    refine nan_foldl h (fun ab : F × F => (ab.1 - ab.2) * (ab.1 - ab.2)) _ _ (Or.inr ⟨ab, hab, ?_⟩)
    apply h.mul_left
    rcases hn with hn | hn
    · exact h.sub_left _ hn
    · exact h.sub_right _ hn
  combine := fun w v hb => combine_nan h _ _ w v hb
  copy := fun ha => ha

theorem cosinus_taints (h : NanLaws F) (n : Nat) : Taints (cosinusSpace F n) HasNaN where
  dist := by
    intro a b hb
    obtain ⟨ab, hab, hn⟩ := zip_nan a.1 b.1 (by rw [a.2, b.2]) hb
    refine h.sub_right _ (h.div_left _ (h.div_left _ ?_))
    refine nan_foldl h (fun ab : F × F => ab.1 * ab.2) _ _ (Or.inr ⟨ab, hab, ?_⟩)
    rcases hn with hn | hn
    · exact h.mul_left _ hn
    · exact h.mul_right _ hn
  combine := fun w v hb => combine_nan h _ _ w v hb
  copy := fun ha => ha

end

/-- IEEE arithmetic without rounding absorbs NaN. -/
theorem XReal.nanLaws : NanLaws XReal where
  add_left := by rintro a b rfl; cases b <;> rfl
  add_right := by rintro a b rfl; cases a <;> rfl
  sub_left := by rintro a b rfl; cases b <;> rfl
  sub_right := by rintro a b rfl; cases a <;> rfl
  mul_left := by rintro a b rfl; cases b <;> rfl
  mul_right := by rintro a b rfl; cases a <;> rfl
  div_left := by rintro a b rfl; cases b <;> rfl
  sqrt := by rintro a rfl; rfl
  exp := by rintro a rfl; rfl
  beq := by rintro a rfl; rfl

/-! ### Averages -/

section
variable {E F : Type} [Zero F] [One F] [Neg F] [LT F] [DecidableLT F] [FloatOrder F]

theorem nearest_bad (hneg : (-1 : F) < 0) {space : Space E F} {bad : E → Prop}
    (ht : Taints space bad) (c0 : E) (cs : List E) (e : E) (hb : bad c0 ∨ bad e) :
    (nearest space (c0 :: cs) e).1 = 0 ∧ isNaN (nearest space (c0 :: cs) e).2 := by
  have hn : isNaN (space.dist e c0) := ht.dist hb.symm
  rw [C04_nan_first_sticks hneg space c0 cs e hn]
  exact ⟨rfl, hn⟩

/-- The average of a list with a bad element is bad. -/
theorem combineOk_bad {space : Space E F} {bad : E → Prop} (ht : Taints space bad) :
    CombineOk space fun ms m => (∃ e ∈ ms, bad e) → bad m := by
  rintro a b x y - - ha hb ⟨e, he, hbad⟩
  rcases List.mem_append.1 he with h | h
  · exact ht.combine _ _ (Or.inl (ha ⟨e, h, hbad⟩))
  · exact ht.combine _ _ (Or.inr (hb ⟨e, h, hbad⟩))

theorem running_bad {space : Space E F} {bad : E → Prop} (ht : Taints space bad) (ms : List E) (m : E)
    (h : running space ms = some m) : (∃ e ∈ ms, bad e) → bad m := by
  have key : ∀ (l : List E) (mw : E × Int), bad mw.1 ∨ (∃ e ∈ l, bad e) →
      bad (l.foldl (fun mw x => (space.combine mw.1 mw.2 x 1, mw.2 + 1)) mw).1 := by
    intro l
    induction l with
    | nil => rintro mw (h | ⟨e, he, _⟩); exacts [h, absurd he (by simp)]
    | cons a l ih =>
      intro mw h
      apply ih
      rcases h with h | ⟨e, he, hb⟩
      · exact Or.inl (ht.combine _ _ (Or.inl h))
      · rcases List.mem_cons.1 he with rfl | he
        · exact Or.inl (ht.combine _ _ (Or.inr hb))
        · exact Or.inr ⟨e, he, hb⟩
  cases ms with
  | nil => cases h
  | cons a l =>
    cases h
    rintro ⟨e, he, hb⟩
    apply key
    rcases List.mem_cons.1 he with rfl | he
    · exact Or.inl (ht.copy hb)
    · exact Or.inr ⟨e, he, hb⟩

theorem step_bad (hneg : (-1 : F) < 0) {space : Space E F} {bad : E → Prop} (ht : Taints space bad)
    (s : KStrategy) (hs : s.Valid) (c0 : E) (cs data : List E) :
    ∃ m out, kmeansStep s space data (c0 :: cs) = some (m :: out) ∧ out.length = cs.length ∧
      ((∃ e ∈ data, bad e) → bad m) ∧ (bad c0 → out = cs ∧ (data = [] → m = c0)) := by
  obtain ⟨out, h1, h2, h3⟩ := iterate_spec hneg (combineOk_bad ht) (running_bad ht) s hs (c0 :: cs)
    data (by simp)
  cases out with
  | nil => cases h2
  | cons m out =>
    refine ⟨m, out, by rw [kmeansStep, h1]; exact allSome_map_some (m :: out),
      by simpa using h2, ?_, ?_⟩
    · rintro ⟨e, he, hb⟩
      obtain ⟨m', hm', -, hP⟩ := h3 0 c0 rfl
      cases hm'
      have hmem : e ∈ data.filter fun e => (nearest space (c0 :: cs) e).1 == ((0 : Nat) : Int) :=
        List.mem_filter.2 ⟨he, by rw [(nearest_bad hneg ht c0 cs e (Or.inr hb)).1]; rfl⟩
      exact hP (List.ne_nil_of_mem hmem) ⟨e, hmem, hb⟩
    · intro hc
      constructor
      · apply List.ext_getElem?
        intro i
        by_cases hi : i < cs.length
        · obtain ⟨m', hm', he, -⟩ := h3 (i + 1) cs[i] (by simp [hi])
          have : (data.filter fun e => (nearest space (c0 :: cs) e).1 == ((i + 1 : Nat) : Int)) = [] := by
            rw [List.filter_eq_nil_iff]
            intro e _
            rw [(nearest_bad hneg ht c0 cs e (Or.inl hc)).1]
            simp only [beq_iff_eq]
            omega
          have hm'' : out[i]? = some m' := by simpa using hm'
          rw [hm'', he this, List.getElem?_eq_getElem hi]
        · have : out.length = cs.length := by simpa using h2
          rw [List.getElem?_eq_none (by omega), List.getElem?_eq_none (by omega)]
      · rintro rfl
        obtain ⟨m', hm', he, -⟩ := h3 0 c0 rfl
        cases hm'
        exact he rfl
end

/-! ### Losses -/

section
variable {E F : Type} [Zero F] [One F] [Neg F] [LT F] [DecidableLT F] [FloatOrder F] [BEq F] [Add F]
  [Sub F] [Mul F] [Div F] [GoMath F]

theorem sumF_nan (h : NanLaws F) (l : List F) (hl : ∃ x ∈ l, isNaN x) : isNaN (sumF l) :=
  nan_foldl h id l 0 (Or.inr hl)

theorem reduceLoss_nan (h : NanLaws F) (hneg : (-1 : F) < 0) {space : Space E F} {bad : E → Prop}
    (ht : Taints space bad) (norm : F) (hp : ∀ a : F, isNaN a → isNaN (GoMath.pow a norm)) (c0 : E)
    (cs es : List E) :
    ∃ st, reduceLoss space (c0 :: cs) es norm = some st ∧
      ((∃ e ∈ es, bad c0 ∨ bad e) → ∃ x ∈ st.1, isNaN x) := by
  obtain ⟨st, h1, h2⟩ := reduceLoss_state hneg space (c0 :: cs) es (by simp) norm
  refine ⟨st, h1, ?_⟩
  rintro ⟨e, he, hb⟩
  obtain ⟨hl, hn⟩ := nearest_bad hneg ht c0 cs e hb
  refine ⟨_, List.mem_of_getElem? (h2.loss 0 (by simp)), ?_⟩
  refine nan_foldl h id _ _ (Or.inr ⟨GoMath.pow (nearest space (c0 :: cs) e).2 norm, ?_, hp _ hn⟩)
  simp only [members, List.mem_map, List.mem_filter]
  refine ⟨(_, (nearest space (c0 :: cs) e).1), ⟨List.mem_map.2 ⟨e, he, rfl⟩, ?_⟩, rfl⟩
  simp [hl]

theorem reduceLoss_nil (space : Space E F) (es : List E) (hes : es ≠ []) (norm : F) :
    reduceLoss space [] es norm = none := by
  cases es with
  | nil => exact absurd rfl hes
  | cons e es =>
    simp only [reduceLoss, lossLoop, List.length_nil, List.replicate_zero]
    have : ∀ (l : Int) (v : F), lossStep ([], []) l v = none := by
      intro l v
      have h : idx? ([] : List Int) l = none := by unfold idx?; split <;> simp
      simp [lossStep, h]
    rw [this]

theorem parLoss_nil (space : Space E F) (es : List E) (hes : es ≠ []) (norm : F) (degree : Int) :
    parLoss space [] es norm degree = none := by
  unfold parLoss
  cases hch : par es.length degree with
  | none => rfl
  | some chunks =>
    obtain ⟨e, he⟩ := List.exists_mem_of_ne_nil es hes
    rw [← par_slices es hch] at he
    obtain ⟨k, hk, hek⟩ := List.mem_flatMap.1 he
    have := allSome_none (f := fun k => reduceLoss space [] (slice es k.start k.stop) norm) hk
      (reduceLoss_nil space _ (List.ne_nil_of_mem hek) norm)
    simp only [this]

theorem addLoop_nan (h : NanLaws F) : ∀ (ls' : List F) (cs' : List Int) (ls : List F) (cs : List Int)
    (r : List F × List Int), addLoop ls' cs' ls cs = some r →
    (∃ x ∈ ls, isNaN x) ∨ (∃ x ∈ ls', isNaN x) → ∃ x ∈ r.1, isNaN x := by
  intro ls'
  induction ls' with
  | nil =>
    intro cs' ls cs r hr hn
    simp only [addLoop, Option.some.injEq] at hr
    subst hr
    rcases hn with hn | ⟨x, hx, _⟩
    · exact hn
    · cases hx
  | cons l' ls' ih =>
    intro cs' ls cs r hr hn
    cases cs' with
    | nil => simp [addLoop] at hr
    | cons c' cs' =>
      cases ls with
      | nil => simp [addLoop] at hr
      | cons l ls =>
        cases cs with
        | nil => simp [addLoop] at hr
        | cons c cs =>
          simp only [addLoop] at hr
          cases hq : addLoop ls' cs' ls cs with
          | none => simp [hq] at hr
          | some q =>
            rw [hq] at hr
            cases hr
            have hrest := ih cs' ls cs q hq
            rcases hn with ⟨x, hx, hn⟩ | ⟨x, hx, hn⟩
            · rcases List.mem_cons.1 hx with rfl | hx
              · exact ⟨_, List.mem_cons_self, h.add_left _ hn⟩
              · obtain ⟨y, hy, hyn⟩ := hrest (Or.inl ⟨x, hx, hn⟩)
                exact ⟨y, List.mem_cons_of_mem _ hy, hyn⟩
            · rcases List.mem_cons.1 hx with rfl | hx
              · exact ⟨_, List.mem_cons_self, h.add_right _ hn⟩
              · obtain ⟨y, hy, hyn⟩ := hrest (Or.inr ⟨x, hx, hn⟩)
                exact ⟨y, List.mem_cons_of_mem _ hy, hyn⟩

theorem lossAggregateLoop_nan (h : NanLaws F) : ∀ (ps : List (List F × List Int))
    (agg r : List F × List Int), lossAggregateLoop ps agg = some r →
    (∃ p ∈ agg :: ps, ∃ x ∈ p.1, isNaN x) → ∃ x ∈ r.1, isNaN x := by
  intro ps
  induction ps with
  | nil =>
    rintro agg r hr ⟨p, hp, hn⟩
    cases hr
    rcases List.mem_cons.1 hp with rfl | hp
    · exact hn
    · cases hp
  | cons o ps ih =>
    rintro agg r hr ⟨p, hp, hn⟩
    simp only [lossAggregateLoop] at hr
    cases hq : addLists agg o with
    | none => simp [hq] at hr
    | some agg' =>
      rw [hq] at hr
      have hnew : p = agg ∨ p = o → ∃ x ∈ agg'.1, isNaN x := by
        rintro (rfl | rfl)
        · exact addLoop_nan h _ _ _ _ _ hq (Or.inl hn)
        · exact addLoop_nan h _ _ _ _ _ hq (Or.inr hn)
      rcases List.mem_cons.1 hp with rfl | hp
      · exact ih agg' r hr ⟨agg', by simp, hnew (Or.inl rfl)⟩
      · rcases List.mem_cons.1 hp with rfl | hp
        · exact ih agg' r hr ⟨agg', by simp, hnew (Or.inr rfl)⟩
        · exact ih agg' r hr ⟨p, by simp [hp], hn⟩

theorem parLoss_nan (h : NanLaws F) (hneg : (-1 : F) < 0) {space : Space E F} {bad : E → Prop}
    (ht : Taints space bad) (norm : F) (hp : ∀ a : F, isNaN a → isNaN (GoMath.pow a norm)) (c0 : E)
    (cs es : List E) (degree : Int) (st : List F × List Int)
    (hst : parLoss space (c0 :: cs) es norm degree = some st) (hb : ∃ e ∈ es, bad c0 ∨ bad e) :
    ∃ x ∈ st.1, isNaN x := by
  unfold parLoss at hst
  cases hch : par es.length degree with
  | none => simp [hch] at hst
  | some chunks =>
    obtain ⟨parts, hparts, hall⟩ := allSome_forall₂
      (f := fun k : Chunk => reduceLoss space (c0 :: cs) (slice es k.start k.stop) norm)
      (Q := fun k p => (∃ e ∈ slice es k.start k.stop, bad c0 ∨ bad e) → ∃ x ∈ p.1, isNaN x) chunks
      (fun k _ => reduceLoss_nan h hneg ht norm hp c0 cs _)
    rw [hch] at hst
    simp only [hparts] at hst
    obtain ⟨e, he, hbe⟩ := hb
    rw [← par_slices es hch] at he
    obtain ⟨k, hk, hek⟩ := List.mem_flatMap.1 he
    have : ∃ p ∈ parts, ∃ x ∈ p.1, isNaN x := by
      clear hparts hst hch he
      induction hall with
      | nil => cases hk
      | cons hq _ ih =>
        rcases List.mem_cons.1 hk with rfl | hk
        · exact ⟨_, List.mem_cons_self, hq ⟨e, hek, hbe⟩⟩
        · obtain ⟨p, hp, hn⟩ := ih hk
          exact ⟨p, List.mem_cons_of_mem _ hp, hn⟩
    cases parts with
    | nil => obtain ⟨p, hp, _⟩ := this; cases hp
    | cons p ps => exact lossAggregateLoop_nan h ps p st hst this

end
end Distclus
