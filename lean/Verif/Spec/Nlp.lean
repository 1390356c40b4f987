import Verif.Spec.Qcqp

/-!
# The scalar variables of the direct nonlinear program
-/

namespace Verif

/-- the scalar variables `solve_ipopt` always makes (`circuit_opt.py` 174-180) -/
def baseNames : List Name := ["eta", "rho", "h", "gamma", "delta", "alpha", "beta"]

/-- names of the scalar variables of the direct nonlinear program -/
def scalarNames (params : List Name) : List Name := baseNames ++ params ++ invParams params

/-- parameter names that cannot be confused with other variables, and without reciprocals of reciprocals -/
structure SimpleParams (params : List Name) : Prop where
  nodup : params.Nodup
  names : ∀ n ∈ params ++ invParams params, Plain n ∧ ¬ IsDual n ∧ n ≠ "P"
  inv : ∀ n ∈ params, ['i', 'n', 'v'] <:+: n.toList → ∃ v : Name, n = "inv" ++ v ∧ ¬ ['i', 'n', 'v'] <:+: v.toList

/-- The dual system has a solution at the parameter values `env`: nonnegative multipliers and a triangular matrix `P` with nonnegative
diagonal, such that the weighted sum of the constraints minus the metric is `⟨P Pᵀ, ·⟩`. -/
def Certified (sm : SymMats) (dimG dimF : ℕ) (env : Name → ℝ) : Prop :=
  ∃ (mult : SpKey → ℝ) (P : ℕ → ℕ → ℝ), (∀ i k, i < k → P i k = 0) ∧ (∀ i < dimG, 0 ≤ P i i) ∧
    DualFeasible sm dimG dimF env mult fun i j => ∑ k ∈ Finset.range dimG, P i k * P j k

end Verif
