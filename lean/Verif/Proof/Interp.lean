import Verif.Proof.Dtw
import Verif.Spec.Interp
import Mathlib.Tactic.Linarith
/-! # Lemmas on interpolation -/

set_option linter.unusedSectionVars false

namespace Distclus
open Spec

section
variable {P F : Type}

theorem advance_spec (x : Int) (idx : List Int) : ∀ (n j : Nat), j + n = idx.length →
    (∃ m v, j ≤ m ∧ idx[m]? = some v ∧ x ≤ v) →
    ∃ j' v, advance x (idx.drop j) j = some j' ∧ j ≤ j' ∧ idx[j']? = some v ∧ x ≤ v ∧
      ∀ k w, j ≤ k → k < j' → idx[k]? = some w → w < x := by
  intro n
  induction n with
  | zero =>
    intro j hn hex
    obtain ⟨m, v, hm, hv, _⟩ := hex
    have := (List.getElem?_eq_some_iff.1 hv).1
    omega
  | succ n ih =>
    intro j hn hex
    have hj : j < idx.length := by omega
    rw [List.drop_eq_getElem_cons hj, advance]
    by_cases hx : x > idx[j]
    · rw [if_pos hx]
      obtain ⟨j', v, h1, h2, h3, h4, h5⟩ := ih (j + 1) (by omega) (by
        obtain ⟨m, v, hm, hv, hxv⟩ := hex
        refine ⟨m, v, ?_, hv, hxv⟩
        rcases Nat.eq_or_lt_of_le hm with rfl | h
        · rw [List.getElem?_eq_getElem hj] at hv
          cases hv; omega
        · exact h)
      refine ⟨j', v, h1, by omega, h3, h4, ?_⟩
      intro k w hk hk' hkw
      rcases Nat.eq_or_lt_of_le hk with rfl | h
      · rw [List.getElem?_eq_getElem hj] at hkw; cases hkw; exact hx
      · exact h5 k w h hk' hkw
    · rw [if_neg hx]
      refine ⟨j, idx[j], rfl, le_refl _, by simp, by omega, ?_⟩
      intro k w hk hk'; omega

theorem interpLoop_spec (space : Space P F) (s : List P) (idx : List Int) (shrink : Int)
    (hs : 0 < shrink) (hlen : idx.length = s.length) (lastIdx : Int)
    (hlast : idx[s.length - 1]? = some lastIdx) :
    ∀ (n i j : Nat), 1 ≤ j → j < s.length ∨ n = 0 →
      (∀ a, idx[j - 1]? = some a → a < i * shrink) →
      ((i + n : Nat) : Int) * shrink ≤ lastIdx + shrink →
      ∃ r, interpLoop space s idx shrink n i j = some r ∧ r.length = n ∧
        ∀ (m : Nat) (p : P), r[m]? = some p → PointAt space s idx (((i + m : Nat) : Int) * shrink) p := by
  intro n
  induction n with
  | zero => intro i j _ _ _ _; exact ⟨[], rfl, rfl, by simp⟩
  | succ n ih =>
    intro i j hj hjl hprev hbound
    have hjs : j < s.length := by omega
    have hx : (i : Int) * shrink ≤ lastIdx := by
      push_cast at hbound
      nlinarith
    obtain ⟨j', b, h1, h2, h3, h4, h5⟩ := advance_spec ((i : Int) * shrink) idx (idx.length - j) j
      (by omega) ⟨s.length - 1, lastIdx, by omega, hlast, hx⟩
    have hj'l : j' < idx.length := (List.getElem?_eq_some_iff.1 h3).1
    obtain ⟨a, ha⟩ : ∃ a, idx[j' - 1]? = some a := ⟨_, List.getElem?_eq_getElem (by omega)⟩
    obtain ⟨p, hp⟩ : ∃ p, s[j' - 1]? = some p := ⟨_, List.getElem?_eq_getElem (by omega)⟩
    obtain ⟨q, hq⟩ : ∃ q, s[j']? = some q := ⟨_, List.getElem?_eq_getElem (by omega)⟩
    have hax : a < i * shrink := by
      by_cases he : j' = j
      · subst he; exact hprev a ha
      · exact h5 (j' - 1) a (by omega) (by omega) ha
    have hpt : interpPoint space s idx ((i : Int) * shrink) j' =
        some (if b = i * shrink then q else space.combine p (b - i * shrink) q (i * shrink - a)) := by
      unfold interpPoint
      have e : (j' : Int) - 1 = ((j' - 1 : Nat) : Int) := by omega
      rw [h3, hq, e, idx?_nat, idx?_nat, ha, hp]
      simp only
      split <;> rfl
    obtain ⟨r, g1, g2, g3⟩ := ih (i + 1) j' (by omega) (Or.inl (by omega)) (by
      intro a' ha'
      rw [ha] at ha'; cases ha'
      push_cast; nlinarith) (by rw [show i + 1 + n = i + (n + 1) by omega]; exact hbound)
    refine ⟨(if b = i * shrink then q else space.combine p (b - i * shrink) q (i * shrink - a)) :: r,
      ?_, by simp [g2], ?_⟩
    · rw [interpLoop, h1]
      simp only
      rw [hpt]
      simp only
      rw [show ((i : Int) + 1) = ((i + 1 : Nat) : Int) by omega, g1]
    · intro m pt hm
      cases m with
      | zero =>
        simp only [List.getElem?_cons_zero, Option.some.injEq] at hm
        refine ⟨j' - 1, a, b, p, q, ha, ?_, hp, ?_, by simpa using hax, by simpa using h4, ?_⟩
        · rw [show j' - 1 + 1 = j' by omega]; exact h3
        · rw [show j' - 1 + 1 = j' by omega]; exact hq
        · rw [← hm]; simp
      | succ m =>
        have := g3 m pt (by simpa using hm)
        rwa [show i + 1 + m = i + (m + 1) by omega] at this

theorem interpolate_spec (space : Space P F) (s : List P) (idx : List Int) (shrink : Int)
    (hs : 0 < shrink) (hlen : idx.length = s.length) (lastIdx : Int) (a0 : Int)
    (hfirst : idx[0]? = some a0) (ha0 : a0 < shrink)
    (hlast : idx[s.length - 1]? = some lastIdx) (hnn : 0 ≤ lastIdx) :
    ∃ r, interpolate space s idx shrink = some r ∧ (r.length : Int) = lastIdx / shrink + 1 ∧
      r[0]? = s[0]? ∧
      ∀ (i : Nat) (p : P), 1 ≤ i → r[i]? = some p → PointAt space s idx (i * shrink) p := by
  have h0 : 0 < idx.length := (List.getElem?_eq_some_iff.1 hfirst).1
  have hq : 0 ≤ lastIdx / shrink := Int.ediv_nonneg hnn hs.le
  have hqle : lastIdx / shrink * shrink ≤ lastIdx := Int.ediv_mul_le lastIdx (by omega)
  have htd : lastIdx.tdiv shrink = lastIdx / shrink := Int.tdiv_eq_ediv_of_nonneg hnn
  have hjl : 1 < s.length ∨ (lastIdx / shrink + 1 - 1).toNat = 0 := by
    by_cases h : 1 < s.length
    · exact Or.inl h
    · right
      have : s.length - 1 = 0 := by omega
      rw [this, hfirst] at hlast
      cases hlast
      have : lastIdx / shrink = 0 := Int.ediv_eq_zero_of_lt hnn ha0
      omega
  obtain ⟨r, h1, h2, h3⟩ := interpLoop_spec space s idx shrink hs hlen lastIdx hlast
    (lastIdx / shrink + 1 - 1).toNat 1 1 (le_refl 1) hjl
    (by intro a ha; simp only [Nat.sub_self] at ha; rw [hfirst] at ha; cases ha; push_cast; linarith)
    (by
      have e : ((1 + (lastIdx / shrink + 1 - 1).toNat : Nat) : Int) = lastIdx / shrink + 1 := by omega
      rw [e]; linarith)
  have hsl : s.length ≠ 0 := by omega
  refine ⟨s[0] :: r, ?_, by simp [h2]; omega, by simp, ?_⟩
  · unfold interpolate
    have e : (s.length : Int) - 1 = ((s.length - 1 : Nat) : Int) := by omega
    rw [e, idx?_nat, hlast]
    simp only
    rw [if_neg (by omega), htd, if_neg (by omega), List.getElem?_eq_getElem (by omega)]
    simp only
    rw [show (1 : Int) = ((1 : Nat) : Int) by rfl] at *
    rw [h1]
  · intro i p hi hp
    obtain ⟨i, rfl⟩ : ∃ k, i = k + 1 := ⟨i - 1, by omega⟩
    have := h3 i p (by simpa using hp)
    rwa [show 1 + i = i + 1 by omega] at this

end
end Distclus
