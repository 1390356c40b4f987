import Verif.Model.DataGen
import Verif.Spec.Prox

/-!
# What the generated data is meant to be
-/

namespace Verif
open scoped InnerProductSpace

/-- `x` satisfies `a_jᵀ x ≤ b_j` for all `n` nodes -/
def QpData.Feasible {m : ℕ} (D : QpData m) (n : ℕ) (x : Vec m) : Prop := ∀ j < n, ∑ i, D.a j i * x i ≤ D.b j

/-- `Σ_j xᵀ Q_j x / 2 + p_jᵀ x` -/
noncomputable def QpData.total {m : ℕ} (D : QpData m) (n : ℕ) (x : Vec m) : ℝ :=
  ∑ j ∈ Finset.range n, (1 / 2 * ∑ k, ∑ i, x k * D.Q j k i * x i + ∑ i, D.p j i * x i)

/-- `x` solves the quadratic program of all nodes -/
def QpData.Solves {m : ℕ} (D : QpData m) (n : ℕ) (x : Vec m) : Prop := D.Feasible n x ∧ ∀ y, D.Feasible n y → D.total n x ≤ D.total n y

/-- the squares of all entries -/
def sumSq {q m : ℕ} (M : Matrix (Fin q) (Fin m) ℝ) : ℝ := ∑ r, ∑ i, M r i ^ 2

/-- `Q` has orthonormal columns and rows, as `np.linalg.qr` promises for a square matrix -/
def IsOrtho {m : ℕ} (Q : Matrix (Fin m) (Fin m) ℝ) : Prop := Q.transpose * Q = 1 ∧ Q * Q.transpose = 1

end Verif
