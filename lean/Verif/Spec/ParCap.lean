/-!
# Labels within range
-/
namespace Distclus
namespace Spec

/-- Each of the first `n` labels exists and is one of `0, …, k - 1`. -/
def LabelsOk (k n : Nat) (labels : List Int) : Prop :=
  ∀ i < n, ∃ l, labels[i]? = some l ∧ 0 ≤ l ∧ l < k

end Spec
end Distclus
