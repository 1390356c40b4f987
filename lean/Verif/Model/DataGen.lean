import Verif.Model.OptProblems
import Mathlib.Analysis.SpecialFunctions.Pow.Real
import Mathlib.LinearAlgebra.Matrix.Notation

/-!
# The random data of the example problems (`data_generation` in `opt_problems/*.py`)

What `np.random` draws is a parameter of the model, so a statement for all values of these parameters is a statement for every seed.  Arithmetic is
exact.  Matrices are indexed by rows and columns; `matMap M` is the map `x ↦ M @ x`.
-/

namespace Verif

/-- vectors of length `m` with the Euclidean norm -/
abbrev Vec (m : ℕ) : Type := EuclideanSpace ℝ (Fin m)

/-- `x ↦ M @ x` -/
noncomputable def matMap {q m : ℕ} (M : Matrix (Fin q) (Fin m) ℝ) : Vec m →ₗ[ℝ] Vec q where
  toFun x := WithLp.toLp 2 fun r => ∑ i, M r i * x i
  map_add' x y := by ext r; simp [mul_add, Finset.sum_add_distrib]
  map_smul' c x := by ext r; simp [Finset.mul_sum, mul_left_comm]

/-! ### `decentr_qp.py` -/

/-- `problem_data` of `decentr_qp.py` -/
structure QpData (m : ℕ) where
  Q : ℕ → Matrix (Fin m) (Fin m) ℝ
  p : ℕ → Vec m
  a : ℕ → Vec m
  b : ℕ → ℝ

/-- `data_generation` (`decentr_qp.py` 57-75): `pNormal`, `sqQ`, `aNormal`, `bNormal` are the draws for the nodes -/
noncomputable def qpData {m : ℕ} (n : ℕ) (pNormal : ℕ → Vec m) (sqQ : ℕ → Matrix (Fin m) (Fin m) ℝ) (aNormal : ℕ → Vec m) (bNormal : ℕ → ℝ) : QpData m where
  Q j := (1 / (n : ℝ)) • ((sqQ j).transpose * sqQ j)
  p j := (1 / (n : ℝ)) • pNormal j
  a := aNormal
  b := bNormal

/-- `prox_operators` (`decentr_qp_experiment.ipynb`), made from `prox_fj_quad_constraint`.  A result with NaN entries is replaced by zero; it does not
occur for `a ≠ 0`. -/
noncomputable def qpProx {m : ℕ} (D : QpData m) (j : ℕ) (z : Vec m) (rho : ℝ) : Vec m := (proxHalfspace z rho (D.a j) (D.b j)).getD 0

/-- `grad_h` (`decentr_qp_experiment.ipynb`), made from `grad_hj_quad_constraint` -/
noncomputable def qpGrad {m : ℕ} (D : QpData m) (j : ℕ) (z : Vec m) : Vec m := gradQuad z (matMap (D.Q j)) (D.p j)

/-- `f_plus_h` (`decentr_qp_experiment.ipynb`): `1/2 * x @ Qj @ x.T + np.dot(pj, x)` -/
noncomputable def qpValue {m : ℕ} (D : QpData m) (j : ℕ) (x : Vec m) : ℝ :=
  1 / 2 * ∑ i, (∑ k, x k * D.Q j k i) * x i + ∑ i, D.p j i * x i

/-! ### `decentr_compressed_sensing.py` -/

/-- `x_true` (`decentr_compressed_sensing.py` 100-102): `k` draws, then zeros, then a permutation; for `n_nonzero_entry = k ≤ vector_size` (otherwise
numpy raises a ValueError) -/
def sparseSignal {m k : ℕ} (draw : Fin k → ℝ) (shuffle : Equiv.Perm (Fin m)) : Vec m :=
  WithLp.toLp 2 fun i => if h : (shuffle i : ℕ) < k then draw ⟨shuffle i, h⟩ else 0

/-- `np.linalg.norm(A[q*ii:q*(ii+1)])` of an array with `ns` rows; slices are cut off at the end -/
noncomputable def blockNorm {m : ℕ} (ns q : ℕ) (A : ℕ → Fin m → ℝ) (ii : ℕ) : ℝ :=
  Real.sqrt (∑ r ∈ (Finset.range ns).filter (fun r => q * ii ≤ r ∧ r < q * (ii + 1)), ∑ i, A r i ^ 2)

/-- `A[q*ii:q*(ii+1)] = A[q*ii:q*(ii+1)] / np.linalg.norm(A[q*ii:q*(ii+1)])` (`decentr_compressed_sensing.py` 112).  Simplification: a block of zeros
becomes NaN in numpy and stays zero here; the theorems exclude it. -/
noncomputable def normalizeBlock {m : ℕ} (ns q : ℕ) (A : ℕ → Fin m → ℝ) (ii : ℕ) : ℕ → Fin m → ℝ :=
  fun r i => if r < ns ∧ q * ii ≤ r ∧ r < q * (ii + 1) then A r i / blockNorm ns q A ii else A r i

/-- the loop over the nodes (`decentr_compressed_sensing.py` 111-112) -/
noncomputable def normalizeBlocks {m : ℕ} (ns q n : ℕ) (A : ℕ → Fin m → ℝ) : ℕ → Fin m → ℝ := (List.range n).foldl (normalizeBlock ns q) A

/-- `problem_data` of `decentr_compressed_sensing.py`; `xStar` and `x0` are rows of two-dimensional arrays -/
structure SensingData (m : ℕ) where
  xTrue : Vec m
  xStar : ℕ → Vec m
  x0 : ℕ → Vec m
  A : ℕ → Fin m → ℝ
  b : ℕ → ℝ

/-- `data_generation` (`decentr_compressed_sensing.py` 92-117): `draw`, `shuffle`, `ADraw`, `noise` are what `np.random` yields -/
noncomputable def sensingData {m k : ℕ} (ns q n : ℕ) (draw : Fin k → ℝ) (shuffle : Equiv.Perm (Fin m)) (ADraw : ℕ → Fin m → ℝ) (noise : ℕ → ℝ) :
    SensingData m :=
  let x := sparseSignal draw shuffle
  let A := normalizeBlocks ns q n ADraw
  { xTrue := x, xStar := fun _ => x, x0 := fun _ => 0, A := A, b := fun r => ∑ i, A r i * x i + 0.01 * noise r }

/-- `A_temp` (`decentr_compressed_sensing.py` 170, 215) -/
def SensingData.block {m : ℕ} (D : SensingData m) (q jj : ℕ) : Matrix (Fin q) (Fin m) ℝ := fun r i => D.A (jj * q + r) i

/-- `b_temp` (`decentr_compressed_sensing.py` 171, 216) -/
def SensingData.blockB {m : ℕ} (D : SensingData m) (q jj : ℕ) : Vec q := WithLp.toLp 2 fun r => D.b (jj * q + r)

/-! ### `decentr_ell2_Anorm.py` and `decentr_geom_median.py` -/

/-- `np.random.rand(...) * 200 - 100` (`decentr_ell2_Anorm.py` 85, `decentr_geom_median.py` 89) -/
def boxPoint {m : ℕ} (u : Fin m → ℝ) : Vec m := WithLp.toLp 2 fun i => u i * 200 - 100

/-- `eigs = 1 + 10**(np.random.rand(vector_size) * 3)` (`decentr_ell2_Anorm.py` 90) -/
noncomputable def eigDraw {m : ℕ} (u : Fin m → ℝ) (i : Fin m) : ℝ := 1 + (10 : ℝ) ^ (u i * 3)

/-- `P = (Q * eigs) @ Q.T` (`decentr_ell2_Anorm.py` 91): `*` multiplies the columns -/
def pMatrix {m : ℕ} (Q : Matrix (Fin m) (Fin m) ℝ) (eigs : Fin m → ℝ) : Matrix (Fin m) (Fin m) ℝ :=
  (Matrix.of fun r i => Q r i * eigs i) * Q.transpose

/-- `c` (`decentr_geom_median.py` 91-96): `b`, fresh draws or zeros -/
def centerData {m : ℕ} (translation : String) (b : ℕ → Vec m) (u : ℕ → Fin m → ℝ) : ℕ → Vec m :=
  if translation = "b" then b else if translation = "rand" then fun j => boxPoint (u j) else fun _ => 0

end Verif
