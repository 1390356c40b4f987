import Verif.Spec.Discretized

/-!
# The algorithm found by the first program of the documentation (`README.md` 132-139)
-/

namespace Verif

variable {E : Type} [NormedAddCommGroup E] [InnerProductSpace ℝ E]

/-- a run of the algorithm of `README.md` 132-139 with the numbers `a` (there `0.33`) and `b` (there `0.16`) and the resistance `R` (there 1):
`x^k = prox_{(R/2) f}(z^k)`, `R y^k = 2 (z^k - x^k)`, `w^{k+1} = w^k - a (R y^k + 3 w^k)`, `z^{k+1} = z^k - b (5 R y^k + 3 w^k)` -/
structure HelloRun (f : CFun E) (R a b : ℝ) (x y w z : ℕ → E) : Prop where
  prox : ∀ k, f.IsProx (R / 2) (z k) (x k)
  grad : ∀ k, y k = (2 / R) • (z k - x k)
  volt : ∀ k, w (k + 1) = w k - a • (R • y k + (3 : ℝ) • w k)
  step : ∀ k, z (k + 1) = z k - b • ((5 * R) • y k + (3 : ℝ) • w k)

/-- `x` minimises `f` -/
def CFun.IsMin (f : CFun E) (x : E) : Prop := x ∈ f.dom ∧ ∀ u ∈ f.dom, f.f x ≤ f.f u

end Verif
