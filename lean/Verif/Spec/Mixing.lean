import Verif.Spec.Discretized

/-!
# Mixing matrices and smooth convex functions
-/

namespace Verif
open scoped InnerProductSpace

/-- nonnegative weights whose rows and columns sum to one -/
structure DoublyStochastic (n : ℕ) (W : ℕ → ℕ → ℝ) : Prop where
  nonneg : ∀ j < n, ∀ l < n, 0 ≤ W j l
  rows : ∀ j < n, ∑ l ∈ Finset.range n, W j l = 1
  cols : ∀ l < n, ∑ j ∈ Finset.range n, W j l = 1

/-- any two of the nodes `0, …, n-1` are joined by a chain of nonzero weights -/
def WeightConnected (n : ℕ) (W : ℕ → ℕ → ℝ) : Prop :=
  ∀ j < n, ∀ l < n, Relation.ReflTransGen (fun a b => b < n ∧ W a b ≠ 0) j l

variable {E : Type} [NormedAddCommGroup E] [InnerProductSpace ℝ E]

/-- `g` is the gradient of `h`, and `h` is convex -/
def ConvexGradient (h : E → ℝ) (g : E → E) : Prop :=
  ConvexOn ℝ Set.univ h ∧ ∀ x, HasFDerivAt h (innerSL ℝ (g x)) x

/-- the sum of an extended-valued function and an everywhere finite one -/
def CFun.plus (F : CFun E) (h : E → ℝ) : CFun E := ⟨F.dom, fun x => F.f x + h x⟩

end Verif
