import Verif.Props.Dtw
/-!
# C47 (`Combine`), C52: the average of two series
-/

set_option linter.unusedSectionVars false

namespace Distclus
open Spec

section
variable {P F : Type}
variable [LinearOrder F] [OrderTop F] [Add F] [Zero F]

omit [LinearOrder F] [OrderTop F] [Add F] [Zero F] in
theorem dbaPoints_spec (d : DTW P F) (w1 w2 : Int) : ∀ es : List (Nat × Nat),
    (∀ x ∈ es, x.1 < d.s1.length ∧ x.2 < d.s2.length) →
    ∃ ps is, dbaPoints d w1 w2 (es.map fun x : Nat × Nat => (⟨x.1, x.2⟩ : Ends)) = some (ps, is) ∧
      ps.length = es.length ∧ is = es.map (fun x : Nat × Nat => (x.1 : Int) * w1 + x.2 * w2) ∧
      ∀ (k : Nat) (x : Nat × Nat), es[k]? = some x → ∃ p q, d.s1[x.1]? = some p ∧ d.s2[x.2]? = some q ∧
        ps[k]? = some (d.space.combine p w1 q w2) := by
  intro es
  induction es with
  | nil => intro _; exact ⟨[], [], rfl, rfl, rfl, by simp⟩
  | cons x es ih =>
    intro h
    obtain ⟨ps, is, e, hl, hi, hp⟩ := ih fun y hy => h y (List.mem_cons_of_mem _ hy)
    obtain ⟨hx1, hx2⟩ := h x (List.mem_cons_self ..)
    refine ⟨d.space.combine d.s1[x.1] w1 d.s2[x.2] w2 :: ps, ((x.1 : Int) * w1 + x.2 * w2) :: is, ?_, by simp [hl],
      by simp [hi], ?_⟩
    · rw [List.map_cons, dbaPoints, idx?_nat, idx?_nat, List.getElem?_eq_getElem hx1,
        List.getElem?_eq_getElem hx2]
      simp only [e]
    · intro k y hy
      cases k with
      | zero =>
        simp only [List.getElem?_cons_zero, Option.some.injEq] at hy
        subst hy
        exact ⟨_, _, List.getElem?_eq_getElem hx1, List.getElem?_eq_getElem hx2, rfl⟩
      | succ k =>
        simp only [List.getElem?_cons_succ] at hy ⊢
        exact hp k y hy

theorem Spec.Warp.head {ok : Nat → Nat → Prop} {i j : Nat} {p : List (Nat × Nat)}
    (h : Warp ok i j p) : ∃ t, p = (i, j) :: t := by
  cases h <;> exact ⟨_, rfl⟩

theorem Spec.Warp.last {ok : Nat → Nat → Prop} {i j : Nat} {p : List (Nat × Nat)}
    (h : Warp ok i j p) : p.getLast? = some (0, 0) := by
  induction h with
  | start _ => rfl
  | right h _ ih => rw [List.getLast?_cons, ih]; rfl
  | down h _ ih => rw [List.getLast?_cons, ih]; rfl
  | diag h _ ih => rw [List.getLast?_cons, ih]; rfl

/-- **C52** (`NewDTWWindow(...).DBA`). The average of two non-empty series with non-negative weights,
not both null, exists; its length is the weighted average of both lengths (rounded down, first
point apart); its first point is the combination of the first points; and a set of points closed
under combination that contains the points of both series contains the points of the average. -/
theorem C52_dba (hadd : ∀ a b x : F, a ≤ b → a + x ≤ b + x) (s1 s2 : List P)
    (space : Space P F) (window : Int) (hw : 0 ≤ window) (h1 : s1 ≠ []) (h2 : s2 ≠ [])
    (hlast : Within (band window s2.length) (s1.length - 1) (s2.length - 1))
    (w1 w2 : Int) (hw1 : 0 ≤ w1) (hw2 : 0 ≤ w2) (hw12 : 0 < w1 + w2) :
    ∃ d r, newDTWWindow s1 s2 space window = some d ∧ d.dba w1 w2 = some r ∧
      (r.length : Int) =
        (((s1.length : Int) - 1) * w1 + ((s2.length : Int) - 1) * w2) / (w1 + w2) + 1 ∧
      (∃ p q, s1[0]? = some p ∧ s2[0]? = some q ∧ r[0]? = some (space.combine p w1 q w2)) ∧
      ∀ C : P → Prop,
        (∀ p q a b, C p → C q → 0 ≤ a → 0 ≤ b → 0 < a + b → C (space.combine p a q b)) →
        (∀ p ∈ s1, C p) → (∀ p ∈ s2, C p) → ∀ p ∈ r, C p := by
  obtain ⟨d, p, e, e1, e2, e3, hpath, hp, _, _⟩ :=
    C44_C45_dtw hadd s1 s2 space window hw h1 h2 hlast
  have l1 := List.length_pos_iff.2 h1
  have l2 := List.length_pos_iff.2 h2
  obtain ⟨ps, is, hd, hlen, his, hpt⟩ := dbaPoints_spec d w1 w2 p.reverse (by
    intro x hx
    have := hp.bounds x (List.mem_reverse.1 hx)
    rw [e1, e2]; omega)
  have hplen : 0 < p.length := List.length_pos_iff.2 hp.ne_nil
  obtain ⟨t, ht⟩ := hp.head
  have hfirst : p.reverse[0]? = some (0, 0) := by
    rw [← List.head?_eq_getElem?, List.head?_reverse]; exact hp.last
  have hlst : p.reverse[p.length - 1]? = some (s1.length - 1, s2.length - 1) := by
    rw [List.getElem?_reverse (by omega), ht]
    simp
  rw [List.length_reverse] at hlen
  have hge : (0 : Int) ≤ ((s1.length : Int) - 1) * w1 + ((s2.length : Int) - 1) * w2 := by
    apply Int.add_nonneg <;> apply Int.mul_nonneg <;> omega
  obtain ⟨r, hr1, hr2, hr3, hr4⟩ := interpolate_spec space ps is (w1 + w2) hw12
    (by rw [his]; simp [hlen])
    (((s1.length : Int) - 1) * w1 + ((s2.length : Int) - 1) * w2) 0
    (by rw [his, List.getElem?_map, hfirst]; simp) hw12
    (by
      rw [his, List.getElem?_map, hlen, hlst]
      simp only [Option.map_some, Option.some.injEq]
      rw [Int.natCast_sub (by omega), Int.natCast_sub (by omega)]; rfl) hge
  obtain ⟨a, b, ha, hb, hab⟩ := hpt 0 _ hfirst
  refine ⟨d, r, e, ?_, hr2, ⟨a, b, ?_, ?_, ?_⟩, ?_⟩
  · unfold DTW.dba
    rw [hpath, ← List.map_reverse, hd]
    simp only [e3]
    exact hr1
  · rw [← e1]; exact ha
  · rw [← e2]; exact hb
  · rw [hr3, hab, e3]
  · intro C hC hs1 hs2
    have hps : ∀ x ∈ ps, C x := by
      intro x hx
      obtain ⟨k, hk, rfl⟩ := List.getElem_of_mem hx
      obtain ⟨a, b, ha, hb, hab⟩ := hpt k (p.reverse[k]'(by rw [List.length_reverse]; omega))
        (List.getElem?_eq_getElem _)
      rw [List.getElem?_eq_getElem hk, e3] at hab
      rw [Option.some.inj hab]
      exact hC _ _ _ _ (hs1 a (List.mem_of_getElem? (e1 ▸ ha)))
        (hs2 b (List.mem_of_getElem? (e2 ▸ hb))) hw1 hw2 hw12
    intro x hx
    obtain ⟨k, hk, rfl⟩ := List.getElem_of_mem hx
    rcases Nat.eq_zero_or_pos k with rfl | hk0
    · rw [List.getElem?_eq_getElem hk] at hr3
      exact hps _ (List.mem_of_getElem? hr3.symm)
    · obtain ⟨j, i1, i2, x, y, _, _, hx, hy, q1, q2, q3⟩ := hr4 k r[k] hk0 (by simp)
      rw [q3]
      split
      · exact hps _ (List.mem_of_getElem? hy)
      · exact hC _ _ _ _ (hps _ (List.mem_of_getElem? hx)) (hps _ (List.mem_of_getElem? hy))
          (by omega) (by omega) (by omega)

/-- **C52.** `Combine` of two non-empty series with non-negative weights, not both null, a window
that is not negative and, without window, a first series at most twice as long as the second one:
it does not panic and returns between `min` and `max` points of the (shrunk) series, the shrunk
series being at most as long as the original ones. -/
theorem C52_combine (hadd : ∀ a b x : F, a ≤ b → a + x ≤ b + x) (sp : DtwSpace P F)
    (a b : List P) (ha : a ≠ []) (hb : b ≠ []) (w1 w2 : Int) (hw1 : 0 ≤ w1) (hw2 : 0 ≤ w2)
    (hw12 : 0 < w1 + w2) (hwin : 0 < sp.window ∨ (sp.window = 0 ∧ a.length ≤ 2 * b.length)) :
    ∃ r s1 s2, sp.combine a w1 b w2 = some r ∧ shrinkLongest a b sp.inner sp.window = some (s1, s2) ∧
      (r.length : Int) =
        (((s1.length : Int) - 1) * w1 + ((s2.length : Int) - 1) * w2) / (w1 + w2) + 1 ∧
      min a.length b.length ≤ r.length ∧ r.length ≤ max a.length b.length ∧
      (∃ p q, a[0]? = some p ∧ b[0]? = some q ∧ r[0]? = some (sp.inner.combine p w1 q w2)) ∧
      ∀ C : P → Prop,
        (∀ p q a b, C p → C q → 0 ≤ a → 0 ≤ b → 0 < a + b → C (sp.inner.combine p a q b)) →
        (∀ p ∈ a, C p) → (∀ p ∈ b, C p) → ∀ p ∈ r, C p := by
  obtain ⟨s1, s2, e, n1, n2, hle, hpos⟩ := shrinkLongest_spec a b sp.inner sp.window ha hb
  have p1 := List.length_pos_iff.2 n1
  have p2 := List.length_pos_iff.2 n2
  have hres : ∀ (s : List P) (n : Int) (r : List P), 2 ≤ s.length → 1 ≤ n →
      resize sp.inner s n = some r → (r.length : Int) = n ∧ r[0]? = s[0]? ∧
      ∀ C : P → Prop,
        (∀ p q a b, C p → C q → 0 ≤ a → 0 ≤ b → 0 < a + b → C (sp.inner.combine p a q b)) →
        (∀ p ∈ s, C p) → ∀ p ∈ r, C p := by
    intro s n r hs hn hr
    obtain ⟨r', e', h1, h2, _, h4⟩ := C50_resize sp.inner s hs n hn
    rw [hr] at e'; cases e'
    refine ⟨h1, h2, fun C hC hC' x hx => ?_⟩
    obtain ⟨k, hk, rfl⟩ := List.getElem_of_mem hx
    rcases Nat.eq_zero_or_pos k with rfl | hk0
    · rw [List.getElem?_eq_getElem hk] at h2
      exact hC' _ (List.mem_of_getElem? h2.symm)
    · obtain ⟨j, x, y, hx, hy, q1, q2, q3⟩ := h4 k r[k] hk0 (by simp)
      rw [q3]
      split
      · exact hC' _ (List.mem_of_getElem? hy)
      · rename_i hne
        exact hC _ _ _ _ (hC' _ (List.mem_of_getElem? hx)) (hC' _ (List.mem_of_getElem? hy))
          (by omega) (by omega) (by omega)
  have pa := List.length_pos_iff.2 ha
  have pb := List.length_pos_iff.2 hb
  have hsh : min a.length b.length ≤ min s1.length s2.length ∧
      max s1.length s2.length ≤ max a.length b.length ∧ s1[0]? = a[0]? ∧ s2[0]? = b[0]? ∧
      ∀ C : P → Prop,
        (∀ p q a b, C p → C q → 0 ≤ a → 0 ≤ b → 0 < a + b → C (sp.inner.combine p a q b)) →
        (∀ p ∈ a, C p) → (∀ p ∈ b, C p) → (∀ p ∈ s1, C p) ∧ ∀ p ∈ s2, C p := by
    have e' := e
    unfold shrinkLongest at e'
    simp only at e'
    split at e'
    · rename_i hc
      rw [Option.map_eq_some_iff] at e'
      obtain ⟨r, hr, hr'⟩ := e'
      cases hr'
      obtain ⟨q1, q2, q3⟩ := hres a _ _ (by omega) (by omega) hr
      exact ⟨by omega, by omega, q2, rfl, fun C hC h1 h2 => ⟨q3 C hC h1, h2⟩⟩
    · split at e'
      · rename_i hc
        rw [Option.map_eq_some_iff] at e'
        obtain ⟨r, hr, hr'⟩ := e'
        cases hr'
        obtain ⟨q1, q2, q3⟩ := hres b _ _ (by omega) (by omega) hr
        exact ⟨by omega, by omega, rfl, q2, fun C hC h1 h2 => ⟨h1, q3 C hC h2⟩⟩
      · cases e'
        exact ⟨le_refl _, le_refl _, rfl, rfl, fun C hC h1 h2 => ⟨h1, h2⟩⟩
  have hl : Within (band sp.window s2.length) (s1.length - 1) (s2.length - 1) := by
    unfold Within band
    rcases hwin with h | ⟨h, h'⟩
    · have := hpos h; rw [if_neg (by omega)]; omega
    · obtain ⟨rfl, rfl⟩ := hle (by omega); rw [if_pos h]; omega
  obtain ⟨d, r, hd, hr, hlen, ⟨p, q, hp, hq, hpq⟩, hC⟩ := C52_dba hadd s1 s2 sp.inner sp.window
    (by omega) n1 n2 hl w1 w2 hw1 hw2 hw12
  obtain ⟨hmin, hmax, f1, f2, hcl⟩ := hsh
  refine ⟨r, s1, s2, by simp [DtwSpace.combine, e, hd, hr], e, hlen, ?_, ?_,
    ⟨p, q, by rw [← f1]; exact hp, by rw [← f2]; exact hq, hpq⟩, fun C h0 h1 h2 => by
      obtain ⟨h3, h4⟩ := hcl C h0 h1 h2
      exact hC C h0 h3 h4⟩
  · have : (min s1.length s2.length : Int) - 1 ≤
        (((s1.length : Int) - 1) * w1 + ((s2.length : Int) - 1) * w2) / (w1 + w2) := by
      apply Int.le_ediv_of_mul_le hw12
      rw [mul_add]
      apply add_le_add
      · exact mul_le_mul_of_nonneg_right (by omega) hw1
      · exact mul_le_mul_of_nonneg_right (by omega) hw2
    omega
  · have : (((s1.length : Int) - 1) * w1 + ((s2.length : Int) - 1) * w2) / (w1 + w2) ≤
        (max s1.length s2.length : Int) - 1 := by
      apply Int.ediv_le_of_le_mul hw12
      rw [mul_add]
      apply add_le_add
      · exact mul_le_mul_of_nonneg_right (by omega) hw1
      · exact mul_le_mul_of_nonneg_right (by omega) hw2
    omega

example : (DtwSpace.mk 1 natSpace).combine [0, 4, 8, 12, 16] 1 [0, 8, 20] 1 =
    some [0, 6, 13] := by decide

/-- **C47** (`Combine`). Under the same weights, `Combine` of non-empty series panics exactly when
`Dist` does. -/
theorem C47_combine_panics_iff (hadd : ∀ a b x : F, a ≤ b → a + x ≤ b + x) (sp : DtwSpace P F)
    (a b : List P) (ha : a ≠ []) (hb : b ≠ []) (w1 w2 : Int) (hw1 : 0 ≤ w1) (hw2 : 0 ≤ w2)
    (hw12 : 0 < w1 + w2) :
    sp.combine a w1 b w2 = none ↔ sp.window < 0 ∨ (sp.window = 0 ∧ 2 * b.length < a.length) := by
  constructor
  · intro hn
    by_contra hc
    obtain ⟨r, _, _, hr, _⟩ := C52_combine hadd sp a b ha hb w1 w2 hw1 hw2 hw12 (by omega)
    rw [hn] at hr; cases hr
  · intro h
    obtain ⟨s1, s2, e, n1, n2, hle, _⟩ := shrinkLongest_spec a b sp.inner sp.window ha hb
    obtain ⟨rfl, rfl⟩ := hle (by omega)
    have := C47_newDTW_panics s1 s2 sp.inner sp.window n1 n2 (by
      rcases h with h | ⟨h, h'⟩
      · exact Or.inl h
      · right; unfold band; rw [if_pos h]; omega)
    simp [DtwSpace.combine, e, this]

end
end Distclus
