import Verif.Spec.Mixing
import Mathlib.Analysis.InnerProductSpace.PiL2

/-!
# The functions of the example problems, and what their proximal operators are
-/

namespace Verif
open scoped InnerProductSpace

variable {E : Type} [NormedAddCommGroup E] [InnerProductSpace ℝ E]

/-- `p` is the only minimiser of `f(y) + |y - z|² / (2 rho)` -/
def CFun.IsUniqueProx (F : CFun E) (rho : ℝ) (z p : E) : Prop := F.IsProx rho z p ∧ ∀ q, F.IsProx rho z q → q = p

/-- the indicator function of `{x | aᵀx ≤ b}` -/
def halfspaceFun (a : E) (b : ℝ) : CFun E := ⟨{x | ⟪a, x⟫_ℝ ≤ b}, fun _ => 0⟩

/-- `|x - b|` -/
noncomputable def normFun (b : E) : CFun E := ⟨Set.univ, fun x => ‖x - b‖⟩

/-- `|x - b| + theta |x - c|²` -/
noncomputable def normScFun (b c : E) (theta : ℝ) : CFun E := ⟨Set.univ, fun x => ‖x - b‖ + theta * ‖x - c‖ ^ 2⟩

/-- `(x - b)ᵀ P (x - b) / 2` -/
noncomputable def quadNormFun (b : E) (P : E →ₗ[ℝ] E) : CFun E := ⟨Set.univ, fun x => 1 / 2 * ⟪x - b, P (x - b)⟫_ℝ⟩

/-- `xᵀ Q x / 2 + pᵀ x` -/
noncomputable def quadFun (Q : E →ₗ[ℝ] E) (p : E) (x : E) : ℝ := 1 / 2 * ⟪x, Q x⟫_ℝ + ⟪p, x⟫_ℝ

/-- `rho |x|₁` -/
noncomputable def l1Fun (m : ℕ) (rho : ℝ) : CFun (EuclideanSpace ℝ (Fin m)) := ⟨Set.univ, fun x => rho * ∑ i, |x i|⟩

/-- a symmetric positive semidefinite linear map -/
def SymPSD (P : E →ₗ[ℝ] E) : Prop := P.IsSymmetric ∧ ∀ x, 0 ≤ ⟪x, P x⟫_ℝ

/-- the functions of the nodes in the geometric median problem: `|x - b_j|`, at the nodes 4 and 5 (positions 3, 4) `|x - b_j| + theta |x - c_j|²` -/
noncomputable def medianFun (b c : ℕ → E) (theta : ℝ) (j : ℕ) : CFun E :=
  if j = 3 ∨ j = 4 then normScFun (b j) (c j) theta else normFun (b j)

/-- the functions of the nodes in the problem of `decentr_ell2_Anorm.py`: `|x - b_j|`, at the positions 3 and 4 `(x - b_j)ᵀ P_j (x - b_j) / 2` -/
noncomputable def anormFun (b : ℕ → E) (P : ℕ → E →ₗ[ℝ] E) (j : ℕ) : CFun E :=
  if j = 3 ∨ j = 4 then quadNormFun (b j) (P j) else normFun (b j)

/-- the functions of the nodes in the compressed sensing problem: `|A_j x - b_j|² / 2 + rho |x|₁` -/
noncomputable def sensingFun {m : ℕ} {S : Type} [NormedAddCommGroup S] (A : ℕ → EuclideanSpace ℝ (Fin m) → S) (b : ℕ → S) (rho : ℝ) (j : ℕ) :
    CFun (EuclideanSpace ℝ (Fin m)) := ⟨Set.univ, fun x => 1 / 2 * ‖A j x - b j‖ ^ 2 + rho * ∑ i, |x i|⟩

/-- what `np.linalg.svd` promises for an `n × n` matrix: `A = U diag(S) V` with orthogonal `U`, `V` and nonnegative, decreasing `S` -/
structure IsSvd (n : ℕ) (A U V : ℕ → ℕ → ℝ) (S : ℕ → ℝ) : Prop where
  eq : ∀ j < n, ∀ l < n, A j l = ∑ i ∈ Finset.range n, U j i * S i * V i l
  uCols : ∀ i < n, ∀ k < n, ∑ j ∈ Finset.range n, U j i * U j k = if i = k then 1 else 0
  vRows : ∀ i < n, ∀ k < n, ∑ l ∈ Finset.range n, V i l * V k l = if i = k then 1 else 0
  vCols : ∀ j < n, ∀ l < n, ∑ i ∈ Finset.range n, V i j * V i l = if j = l then 1 else 0
  nonneg : ∀ i < n, 0 ≤ S i
  sorted : ∀ i < n, ∀ k < n, i ≤ k → S k ≤ S i

/-- `(I - W) / 2` (`decentr_compressed_sensing.py` 139): the matrix that is decomposed -/
noncomputable def halfLaplace (W : ℕ → ℕ → ℝ) (j l : ℕ) : ℝ := 1 / 2 * ((if j = l then 1 else 0) - W j l)

end Verif
