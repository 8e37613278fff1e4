import Verif.Model.XReal
import Verif.Spec.Float
/-!
# The extended reals with NaN satisfy the order laws of floats
-/
namespace Distclus
namespace XReal

instance : FloatOrder XReal where
  isNaN x := x = nan
  nan_not_lt := by
    rintro a b rfl h
    cases b <;> exact h
  not_lt_nan := by
    rintro a b rfl h
    cases a <;> exact h
  irrefl a := by
    intro h
    cases a with
    | fin r => exact lt_irrefl r h
    | nan => exact h
    | negInf => exact h
    | posInf => exact h
  trans := by
    intro a b c h1 h2
    cases a <;> cases b <;> cases c <;>
      first
      | exact lt_trans (show (_ : ℝ) < _ from h1) (show (_ : ℝ) < _ from h2)
      | trivial
  cotrans := by
    intro a b c hc h
    cases a <;> cases b <;> cases c <;>
      first
      | exact absurd rfl hc
      | exact Or.inl trivial
      | exact Or.inr trivial
      | exact h.elim
      | (rename_i x y z
         rcases lt_or_ge x z with h1 | h1
         · exact Or.inl h1
         · exact Or.inr (lt_of_le_of_lt h1 (show x < y from h)))

theorem neg_one_lt : (-1 : XReal) < 0 := by
  show XReal.lt (XReal.neg (fin 1)) (fin 0)
  simp [XReal.neg, XReal.lt]

end XReal
end Distclus
