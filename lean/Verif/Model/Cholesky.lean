import Verif.Model.Utils

/-!
# `cholseky_matrix` (`utils.py` 100-106)
-/

namespace Verif
variable {n : ℕ}

/-- `V @ np.diag(d) @ V.T` (`utils.py` 103, 104) -/
noncomputable def conjDiag (V : Matrix (Fin n) (Fin n) ℝ) (d : Fin n → ℝ) : Matrix (Fin n) (Fin n) ℝ := fun i j => ∑ k, V i k * d k * V j k

open Classical in
/-- `cholseky_matrix` (`utils.py` 100-106).  `np.linalg.eigh` and `np.linalg.cholesky` (which raises LinAlgError, a ValueError, for a matrix that is not
positive definite) are parameters.  Simplification: exact arithmetic. -/
noncomputable def cholsekyMatrix (eigh : Matrix (Fin n) (Fin n) ℝ → (Fin n → ℝ) × Matrix (Fin n) (Fin n) ℝ)
    (cholesky : Matrix (Fin n) (Fin n) ℝ → Except Err (Matrix (Fin n) (Fin n) ℝ)) (Z : Matrix (Fin n) (Fin n) ℝ) (eps : ℝ := 1 / 10 ^ 9) :
    Except Err (Matrix (Fin n) (Fin n) ℝ) :=
  if AllClose (conjDiag (eigh Z).2 (eigh Z).1) Z then cholesky (conjDiag (eigh Z).2 fun k => max ((eigh Z).1 k) eps) else .error .assertion

end Verif
