import Verif.Spec.Utils

/-!
# Specification: what `np.linalg.cholesky` promises
-/

namespace Verif
variable {n : ℕ}

/-- the quadratic form of a matrix -/
def quadForm (A : Matrix (Fin n) (Fin n) ℝ) (x : Fin n → ℝ) : ℝ := ∑ i, ∑ j, x i * A i j * x j

/-- zero above the diagonal, positive on it -/
def LowerPos (P : Matrix (Fin n) (Fin n) ℝ) : Prop := (∀ i j, i < j → P i j = 0) ∧ ∀ i, 0 < P i i

/-- `np.linalg.cholesky` factors every symmetric matrix with positive quadratic form -/
def IsCholesky (cholesky : Matrix (Fin n) (Fin n) ℝ → Except Err (Matrix (Fin n) (Fin n) ℝ)) : Prop :=
  ∀ A : Matrix (Fin n) (Fin n) ℝ, A.transpose = A → (∀ x, x ≠ 0 → 0 < quadForm A x) →
    ∃ P, cholesky A = .ok P ∧ LowerPos P ∧ P * P.transpose = A

end Verif
