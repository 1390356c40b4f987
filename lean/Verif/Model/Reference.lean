import Verif.Model.DataGen

/-!
# The reference solutions of the example problems (`cvx_*` and `min_cvx_quad_constraint` in `opt_problems/*.py`)

CVXPY is external: a solver takes the objective and the constraints and either raises an exception or reports a status and values of the variables.
Arithmetic is exact.  Simplifications: for zero nodes `f` is the integer 0 and `f.value` raises an AttributeError, which is not modelled; that a convexity check
of CVXPY rejects a problem is one of the exceptions of the solver.
-/

namespace Verif
open scoped InnerProductSpace

/-- `cp.Problem(cp.Minimize(objective), constraints)` with a variable in `E` -/
structure CvxProblem (E : Type) where
  objective : E → ℝ
  constraints : List (E → Prop)

/-- `prob.solve()`: an exception, or `prob.status` and `x.value` -/
abbrev CvxSolver (E : Type) := CvxProblem E → Except Err (String × E)

/-- `prob.solve(); assert prob.status=="optimal"; return x.value` (`decentr_geom_median.py` 39-42, and the same in all reference functions) -/
def cvxSolve {E : Type} (solver : CvxSolver E) (p : CvxProblem E) : Except Err E :=
  match solver p with
  | .error e => .error e
  | .ok (status, x) => if status = "optimal" then .ok x else .error .assertion

section prox
variable {E : Type} [NormedAddCommGroup E] [InnerProductSpace ℝ E]

/-- `cvx_prox_fj_geom_mean` (`decentr_geom_median.py` 32-42, `decentr_ell2_Anorm.py` 21-31) -/
noncomputable def cvxProxNorm (solver : CvxSolver E) (z : E) (rho : ℝ) (b : E) : Except Err E :=
  cvxSolve solver ⟨fun x => ‖x - b‖ + 1 / (2 * rho) * ‖x - z‖ ^ 2, []⟩

/-- `cvx_prox_fj_geom_mean_sc` (`decentr_geom_median.py` 45-55) -/
noncomputable def cvxProxNormSc (solver : CvxSolver E) (z : E) (rho : ℝ) (b c : E) (theta : ℝ) : Except Err E :=
  cvxSolve solver ⟨fun x => ‖x - b‖ + theta * ‖x - c‖ ^ 2 + 1 / (2 * rho) * ‖x - z‖ ^ 2, []⟩

/-- `cvx_prox_fj_geom_mean_sc` (`decentr_ell2_Anorm.py` 42-52).  Simplification: `cp.quad_form` raises for a matrix that is not symmetric; the
theorems assume a symmetric positive semidefinite one. -/
noncomputable def cvxProxQuadNorm (solver : CvxSolver E) (z : E) (rho : ℝ) (b : E) (P : E →ₗ[ℝ] E) : Except Err E :=
  cvxSolve solver ⟨fun x => 0.5 * ⟪x - b, P (x - b)⟫_ℝ + 1 / (2 * rho) * ‖x - z‖ ^ 2, []⟩

end prox

/-! ### The sums over the nodes -/

/-- `np.repeat(v, n)` of a vector: entry `k` -/
def npRepeat (n : ℕ) (v : ℕ → ℝ) (k : ℕ) : ℝ := v (k / n)

/-- `v.reshape(_, cols)`: entry in row `r` and column `c` -/
def npReshape (cols : ℕ) (v : ℕ → ℝ) (r c : ℕ) : ℝ := v (r * cols + c)

/-- `M.T` -/
def npT (M : ℕ → ℕ → ℝ) (r c : ℕ) : ℝ := M c r

/-- `np.repeat(x.value, n_nodes).reshape(vector_size, n_nodes).T` (`decentr_geom_median.py` 78, `decentr_ell2_Anorm.py` 75,
`decentr_compressed_sensing.py` 47): the rows -/
def stackRows {m : ℕ} (n : ℕ) (x : Vec m) (j : ℕ) : Vec m :=
  WithLp.toLp 2 fun i : Fin m => npT (npReshape n (npRepeat n fun k => if h : k < m then x ⟨k, h⟩ else 0)) j i

/-- `cvx_geom_median` (`decentr_geom_median.py` 58-79); `b`, `c` are the rows `b_temp`, `c_temp` -/
noncomputable def cvxMedian {m : ℕ} (solver : CvxSolver (Vec m)) (n : ℕ) (b c : ℕ → Vec m) (theta : ℝ) : Except Err (ℝ × (ℕ → Vec m)) :=
  let f := (List.range n).foldl (fun f jj =>
    let f := fun x => f x + ‖x - b jj‖
    if jj = 3 ∨ jj = 4 then fun x => f x + theta * ‖x - c jj‖ ^ 2 else f) fun _ => (0 : ℝ)
  match cvxSolve solver ⟨f, []⟩ with
  | .error e => .error e
  | .ok x => .ok (f x, stackRows n x)

/-- `cvx_geom_median` (`decentr_ell2_Anorm.py` 55-76); `b`, `P` are the rows `bj` and matrices `Pj` -/
noncomputable def cvxAnorm {m : ℕ} (solver : CvxSolver (Vec m)) (n : ℕ) (b : ℕ → Vec m) (P : ℕ → Vec m →ₗ[ℝ] Vec m) : Except Err (ℝ × (ℕ → Vec m)) :=
  let f := (List.range n).foldl (fun f jj =>
    if jj = 3 ∨ jj = 4 then fun x => f x + 0.5 * ⟪x - b jj, P jj (x - b jj)⟫_ℝ else fun x => f x + ‖x - b jj‖) fun _ => (0 : ℝ)
  match cvxSolve solver ⟨f, []⟩ with
  | .error e => .error e
  | .ok x => .ok (f x, stackRows n x)

section sensing
variable {m : ℕ} {S : Type} [NormedAddCommGroup S] [InnerProductSpace ℝ S]

/-- `cvx_prox_fj_hj` (`decentr_compressed_sensing.py` 13-24) -/
noncomputable def cvxProxSensing (solver : CvxSolver (Vec m)) (z : Vec m) (alpha rho : ℝ) (A : Vec m →ₗ[ℝ] S) (b : S) : Except Err (Vec m) :=
  cvxSolve solver ⟨fun x => 1 / 2 * ‖A x - b‖ ^ 2 + rho * ∑ i, |x i| + 1 / (2 * alpha) * ‖x - z‖ ^ 2, []⟩

/-- `cvx_compressed_sensing` (`decentr_compressed_sensing.py` 27-48); `A`, `b` are the blocks `A_temp`, `b_temp` -/
noncomputable def cvxSensing (solver : CvxSolver (Vec m)) (n : ℕ) (A : ℕ → Vec m →ₗ[ℝ] S) (b : ℕ → S) (rho : ℝ) : Except Err (ℝ × (ℕ → Vec m)) :=
  let f := (List.range n).foldl (fun f jj x => f x + 1 / 2 * ‖A jj x - b jj‖ ^ 2) fun x => n * rho * ∑ i, |x i|
  match cvxSolve solver ⟨f, []⟩ with
  | .error e => .error e
  | .ok x => .ok (f x, stackRows n x)

end sensing

/-- `min_cvx_quad_constraint` (`decentr_qp.py` 28-54); the point is returned unstacked -/
noncomputable def minCvxQuad {m : ℕ} (solver : CvxSolver (Vec m)) (n : ℕ) (D : QpData m) (constrained : Bool) : Except Err (ℝ × Vec m) :=
  let f := (List.range n).foldl (fun f j x => f x + (1 / 2 * ⟪x, matMap (D.Q j) x⟫_ℝ + ∑ i, D.p j i * x i)) fun _ => (0 : ℝ)
  let constraints := if constrained then (List.range n).map fun j x => ∑ i, D.a j i * x i ≤ D.b j else []
  match cvxSolve solver ⟨f, constraints⟩ with
  | .error e => .error e
  | .ok x => .ok (f x, x)

end Verif
