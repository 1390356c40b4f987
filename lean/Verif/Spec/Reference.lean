import Verif.Model.Reference
import Verif.Spec.Discretized

/-!
# What is expected of CVXPY and of the reference functions
-/

namespace Verif

/-- `x` satisfies the constraints -/
def CvxProblem.Feasible {E : Type} (p : CvxProblem E) (x : E) : Prop := ∀ c ∈ p.constraints, c x

/-- `x` is a solution of the problem -/
def CvxProblem.Minimizes {E : Type} (p : CvxProblem E) (x : E) : Prop := p.Feasible x ∧ ∀ y, p.Feasible y → p.objective x ≤ p.objective y

/-- a point with status "optimal" is a solution -/
def CvxSound {E : Type} (solver : CvxSolver E) : Prop := ∀ p x, solver p = .ok ("optimal", x) → p.Minimizes x

/-- a problem that has a solution is solved -/
def CvxComplete {E : Type} (solver : CvxSolver E) : Prop := ∀ p, (∃ x, p.Minimizes x) → ∃ x, solver p = .ok ("optimal", x)

/-- what a reference function must return for the functions `F` of `n` nodes: the minimal value and, in every row, one and the same minimiser of the sum -/
def IsReference {m : ℕ} (n : ℕ) (F : ℕ → CFun (Vec m)) (r : ℝ × (ℕ → Vec m)) : Prop :=
  SumMin n F (r.2 0) ∧ (∀ j < n, r.2 j = r.2 0) ∧ r.1 = ∑ j ∈ Finset.range n, (F j).f (r.2 j)

end Verif
