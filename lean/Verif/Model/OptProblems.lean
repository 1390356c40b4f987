import Verif.Model.Discretized
import Mathlib.Analysis.InnerProductSpace.PiL2
import Mathlib.Data.Real.Sign

/-!
# The example problems (`opt_problems/*.py`)

Vectors are elements of a real inner product space `E`; `a.T @ b` is the inner product, `np.linalg.norm` the norm; a matrix acting on vectors
is a linear map.  Arithmetic is exact.  `none` stands for a result with NaN entries (`0 / 0` in numpy is NaN with a warning, not an
exception).  The random data (`data_generation`) is in `DataGen.lean`, the reference solutions by CVXPY are in `Reference.lean`.  Not modelled: printing.
-/

namespace Verif
open scoped InnerProductSpace

section closed
variable {E : Type} [NormedAddCommGroup E] [InnerProductSpace ℝ E]

/-- `prox_fj_quad_constraint` (`decentr_qp.py` 11-19); `rho` is not used -/
noncomputable def proxHalfspace (z : E) (_rho : ℝ) (a : E) (b : ℝ) : Option E :=
  if ⟪a, z⟫_ℝ - b ≤ 0 then some z
  else if ‖a‖ ^ 2 = 0 then none
  else some (z + ((b - ⟪a, z⟫_ℝ) / ‖a‖ ^ 2) • a)

/-- `grad_hj_quad_constraint` (`decentr_qp.py` 21-25) -/
def gradQuad (z : E) (Q : E →ₗ[ℝ] E) (p : E) : E := Q z + p

/-- `prox_fj_geom_mean` (`decentr_geom_median.py` 13-19, `decentr_ell2_Anorm.py` 13-19) -/
noncomputable def proxNorm (z : E) (rho : ℝ) (b : E) : Option E :=
  if ‖b - z‖ = 0 then none
  else some (b - max (‖b - z‖ - rho) 0 • ((1 / ‖b - z‖) • (b - z)))

/-- `prox_fj_geom_mean_sc` (`decentr_geom_median.py` 21-30) -/
noncomputable def proxNormSc (z : E) (rho : ℝ) (b c : E) (theta : ℝ) : Option E :=
  proxNorm ((1 / (1 + 2 * rho * theta)) • (z + (2 * rho * theta) • c)) (rho / (1 + 2 * rho * theta)) b

/-- `prox_fj_geom_mean_sc` (`decentr_ell2_Anorm.py` 34-40).  `solve` is `np.linalg.solve` (external); it raises LinAlgError for a singular
matrix. -/
noncomputable def proxQuadNorm (solve : (E →ₗ[ℝ] E) → E → Except Err E) (z : E) (rho : ℝ) (b : E) (P : E →ₗ[ℝ] E) : Except Err E :=
  match solve (P + (1 / rho) • LinearMap.id) ((1 / rho) • (z - b)) with
  | .ok v => .ok (b + v)
  | .error e => .error e

end closed

/-- `np.sign(x) * np.maximum(np.abs(x) - t, 0.)` (`decentr_compressed_sensing.py` 173, 218), `t = alpha * rho` -/
noncomputable def softThreshold {m : ℕ} (x : EuclideanSpace ℝ (Fin m)) (t : ℝ) : EuclideanSpace ℝ (Fin m) :=
  WithLp.toLp 2 fun i => Real.sign (x i) * max (|x i| - t) 0

/-! ### The loops of the example problems: P-EXTRA and PG-EXTRA from a given start -/

section loops
variable {E : Type} [NormedAddCommGroup E] [InnerProductSpace ℝ E]

/-- `x_k`, `w_k` -/
structure ExtraState (E : Type) where
  x : ℕ → E
  w : ℕ → E

/-- all values present -/
def allSome (n : ℕ) (f : ℕ → Option E) : Option (ℕ → E) :=
  if (List.range n).all fun j => (f j).isSome then some fun j => (f j).getD 0 else none

/-- one iteration of the main loops (`decentr_geom_median.py` 150-166, `decentr_ell2_Anorm.py` 147-163, `decentr_compressed_sensing.py` 166-174
and 209-220): `x_k[jj] = prox_jj(W[jj] @ x_k_prev - g_jj(x_k_prev[jj]) - w_k_prev[jj])`, `w_k += 1/2 (I - W) @ x_k_prev`.  `none` once an entry
is NaN. -/
noncomputable def extraStep' (n : ℕ) (W : ℕ → ℕ → ℝ) (prox : ℕ → E → Option E) (g : ℕ → E → E) (s : ExtraState E) : Option (ExtraState E) :=
  (allSome n fun j => prox j (PgExtra.mix n W s.x j - g j (s.x j) - s.w j)).map fun x =>
    ⟨x, fun j => s.w j + (1 / 2 : ℝ) • PgExtra.laplace n W s.x j⟩

/-- the state after `k` iterations from the points `x0` -/
noncomputable def extraStates (n : ℕ) (W : ℕ → ℕ → ℝ) (prox : ℕ → E → Option E) (g : ℕ → E → E) (x0 : ℕ → E) : ℕ → Option (ExtraState E)
  | 0 => some ⟨x0, fun _ => 0⟩
  | k + 1 => (extraStates n W prox g x0 k).bind (extraStep' n W prox g)

end loops

section results
variable {E : Type} [NormedAddCommGroup E] [InnerProductSpace ℝ E]

/-- what `p_extra_dgeom_median` returns; `const_vio` stays empty.  An entry is `none` if it is NaN. -/
structure ExtraResult where
  errOptStar : List (Option ℝ)
  errOptReldiff : List (Option ℝ)
  constVio : List (Option ℝ)
  fReldiff : List (Option ℝ)

/-- the lists made from the states (`decentr_geom_median.py` 168-170, `decentr_ell2_Anorm.py` 165-167) -/
noncomputable def extraResult (n itr : ℕ) (st : ℕ → Option (ExtraState E)) (x0 xstar : ℕ → E) (fstar : ℝ) (f : ℕ → E → ℝ) : ExtraResult where
  errOptStar := (List.range itr).map fun k => (st (k + 1)).map fun s => frobDist n s.x xstar
  errOptReldiff := (List.range itr).map fun k => (st (k + 1)).map fun s => frobDist n s.x xstar / frobDist n x0 xstar
  constVio := []
  fReldiff := (List.range itr).map fun k => (st (k + 1)).map fun s => |fstar - ∑ j ∈ Finset.range n, f j (s.x j)| / fstar

/-- the proximal operators in `p_extra_dgeom_median` (`decentr_geom_median.py` 156-164) -/
noncomputable def medianProx (b c : ℕ → E) (theta rho : ℝ) (j : ℕ) (z : E) : Option E :=
  if j = 3 ∨ j = 4 then proxNormSc z rho (b j) (c j) theta else proxNorm z rho (b j)

/-- the values in `p_extra_dgeom_median` (`decentr_geom_median.py` 160, 164) -/
noncomputable def medianValue (b c : ℕ → E) (theta : ℝ) (j : ℕ) (x : E) : ℝ :=
  if j = 3 ∨ j = 4 then ‖x - b j‖ + theta * ‖x - c j‖ ^ 2 else ‖x - b j‖

/-- `p_extra_dgeom_median` (`decentr_geom_median.py` 130-175); `b`, `c` are the rows `b_temp`, `c_temp`; `x_0` is `b` -/
noncomputable def pExtraMedian (n itr : ℕ) (W : ℕ → ℕ → ℝ) (b c : ℕ → E) (theta rho : ℝ) (xstar : ℕ → E) (fstar : ℝ) : ExtraResult :=
  extraResult n itr (extraStates n W (medianProx b c theta rho) (fun _ _ => 0) b) b xstar fstar (medianValue b c theta)

/-- the proximal operators in `p_extra_dgeom_median` (`decentr_ell2_Anorm.py` 152-161); a NaN point is `none` -/
noncomputable def anormProx (solve : (E →ₗ[ℝ] E) → E → Except Err E) (b : ℕ → E) (P : ℕ → E →ₗ[ℝ] E) (rho : ℝ) (j : ℕ) (z : E) : Except Err (Option E) :=
  if j = 3 ∨ j = 4 then (proxQuadNorm solve z rho (b j) (P j)).map some else .ok (proxNorm z rho (b j))

/-- the values in `p_extra_dgeom_median` (`decentr_ell2_Anorm.py` 157, 161) -/
noncomputable def anormValue (b : ℕ → E) (P : ℕ → E →ₗ[ℝ] E) (j : ℕ) (x : E) : ℝ :=
  if j = 3 ∨ j = 4 then 1 / 2 * ⟪x - b j, P j (x - b j)⟫_ℝ else ‖x - b j‖

/-- the loop over the nodes: the first exception is raised -/
def firstError (n : ℕ) (f : ℕ → Except Err (Option E)) : Except Err (ℕ → Option E) :=
  match (List.range n).findSome? fun j => match f j with | .error e => some e | .ok _ => none with
  | some e => .error e
  | none => .ok fun j => match f j with | .ok o => o | .error _ => none

/-- one iteration (`decentr_ell2_Anorm.py` 147-163).  Simplification: once an entry is NaN all later states are `none`; `np.linalg.solve` on NaN data
is not called in the model. -/
noncomputable def anormStep (n : ℕ) (W : ℕ → ℕ → ℝ) (prox : ℕ → E → Except Err (Option E)) (s : ExtraState E) : Except Err (Option (ExtraState E)) :=
  match firstError n fun j => prox j (PgExtra.mix n W s.x j - s.w j) with
  | .error e => .error e
  | .ok f => .ok ((allSome n f).map fun x => ⟨x, fun j => s.w j + (1 / 2 : ℝ) • PgExtra.laplace n W s.x j⟩)

/-- the state after `k` iterations from the points `x0` -/
noncomputable def anormStates (n : ℕ) (W : ℕ → ℕ → ℝ) (prox : ℕ → E → Except Err (Option E)) (x0 : ℕ → E) : ℕ → Except Err (Option (ExtraState E))
  | 0 => .ok (some ⟨x0, fun _ => 0⟩)
  | k + 1 => match anormStates n W prox x0 k with
    | .error e => .error e
    | .ok none => .ok none
    | .ok (some s) => anormStep n W prox s

/-- `p_extra_dgeom_median` (`decentr_ell2_Anorm.py` 128-171); `b`, `P` are the rows `bj` and matrices `Pj`; `x_0` is `b`; without printing.  An
exception in any of the `itr` iterations is raised. -/
noncomputable def pExtraAnorm (solve : (E →ₗ[ℝ] E) → E → Except Err E) (n itr : ℕ) (W : ℕ → ℕ → ℝ) (b : ℕ → E) (P : ℕ → E →ₗ[ℝ] E) (rho : ℝ)
    (xstar : ℕ → E) (fstar : ℝ) : Except Err ExtraResult :=
  match anormStates n W (anormProx solve b P rho) b itr with
  | .error e => .error e
  | .ok _ => .ok (extraResult n itr (fun k => match anormStates n W (anormProx solve b P rho) b k with | .ok o => o | .error _ => none)
      b xstar fstar (anormValue b P))

end results

/-! ### Compressed sensing -/

section metric
variable {E : Type} [NormedAddCommGroup E] [InnerProductSpace ℝ E]

/-- `u1`, `u2` in `Minner` (`decentr_compressed_sensing.py` 64-65): `V`, `S` are the singular vectors (rows) and values, of which the first `n - 1`
are used -/
noncomputable def metricDual (n : ℕ) (V : ℕ → ℕ → ℝ) (S : ℕ → ℝ) (alpha : ℝ) (w : ℕ → E) (j : ℕ) : E :=
  (1 / alpha) • ∑ i ∈ Finset.range (n - 1), V i j • ((1 / Real.sqrt (S i)) • ∑ l ∈ Finset.range n, V i l • w l)

/-- `Minner` (`decentr_compressed_sensing.py` 59-68) -/
noncomputable def mInner (n : ℕ) (V : ℕ → ℕ → ℝ) (S : ℕ → ℝ) (x1 w1 x2 w2 : ℕ → E) (alpha : ℝ) : ℝ :=
  1 / alpha * ∑ j ∈ Finset.range n, ⟪x1 j, x2 j⟫_ℝ + 1 / alpha * ∑ j ∈ Finset.range n, ⟪x1 j, w2 j⟫_ℝ +
    1 / alpha * ∑ j ∈ Finset.range n, ⟪w1 j, x2 j⟫_ℝ +
    alpha * ∑ j ∈ Finset.range n, ⟪metricDual n V S alpha w1 j, metricDual n V S alpha w2 j⟫_ℝ

/-- `Mnormsq` (`decentr_compressed_sensing.py` 70-71) -/
noncomputable def mNormSq (n : ℕ) (V : ℕ → ℕ → ℝ) (S : ℕ → ℝ) (x w : ℕ → E) (alpha : ℝ) : ℝ := 1 / 4 * mInner n V S x w x w alpha

/-- `Mnorm` (`decentr_compressed_sensing.py` 73-74) -/
noncomputable def mNorm (n : ℕ) (V : ℕ → ℕ → ℝ) (S : ℕ → ℝ) (x w : ℕ → E) (alpha : ℝ) : ℝ := 1 / 2 * Real.sqrt (mInner n V S x w x w alpha)

end metric

section sensing
variable {m : ℕ} {S : Type} [NormedAddCommGroup S] [InnerProductSpace ℝ S]

/-- `A_temp.T @ (A_temp @ x - b_temp)` (`decentr_compressed_sensing.py` 172, 217); `AT` is the transpose of `A` -/
def sensingGrad (A : ℕ → EuclideanSpace ℝ (Fin m) →ₗ[ℝ] S) (AT : ℕ → S →ₗ[ℝ] EuclideanSpace ℝ (Fin m)) (b : ℕ → S) (j : ℕ)
    (x : EuclideanSpace ℝ (Fin m)) : EuclideanSpace ℝ (Fin m) := AT j (A j x - b j)

/-- `1/2*np.sum((A_temp @ x - b_temp)**2) + rho * np.sum(np.abs(x))` (`decentr_compressed_sensing.py` 180, 219) -/
noncomputable def sensingValue (A : ℕ → EuclideanSpace ℝ (Fin m) →ₗ[ℝ] S) (b : ℕ → S) (rho : ℝ) (j : ℕ) (x : EuclideanSpace ℝ (Fin m)) : ℝ :=
  1 / 2 * ‖A j x - b j‖ ^ 2 + rho * ∑ i, |x i|

/-- the states of `pg_extra_compressed_sensing` and `obtain_opt_prob_solution` (`decentr_compressed_sensing.py` 166-174, 209-220) -/
noncomputable def sensingStates (n : ℕ) (W : ℕ → ℕ → ℝ) (A : ℕ → EuclideanSpace ℝ (Fin m) →ₗ[ℝ] S) (AT : ℕ → S →ₗ[ℝ] EuclideanSpace ℝ (Fin m))
    (b : ℕ → S) (alpha rho : ℝ) (x0 : ℕ → EuclideanSpace ℝ (Fin m)) : ℕ → Option (ExtraState (EuclideanSpace ℝ (Fin m))) :=
  extraStates n W (fun _ z => some (softThreshold z (alpha * rho))) (fun j x => alpha • sensingGrad A AT b j x) x0

/-- `obtain_opt_prob_solution` (`decentr_compressed_sensing.py` 148-182): points and value after `2 * itr_num` iterations -/
noncomputable def sensingSolution (n itr : ℕ) (W : ℕ → ℕ → ℝ) (A : ℕ → EuclideanSpace ℝ (Fin m) →ₗ[ℝ] S)
    (AT : ℕ → S →ₗ[ℝ] EuclideanSpace ℝ (Fin m)) (b : ℕ → S) (alpha rho : ℝ) (x0 : ℕ → EuclideanSpace ℝ (Fin m)) :
    Option ((ℕ → EuclideanSpace ℝ (Fin m)) × ℝ) :=
  (sensingStates n W A AT b alpha rho x0 (2 * itr)).map fun s => (s.x, ∑ j ∈ Finset.range n, sensingValue A b rho j (s.x j))

/-- what `pg_extra_compressed_sensing` returns -/
structure SensingResult where
  opNorm : List ℝ
  errOptStar : List ℝ
  errOptReldiff : List ℝ
  constVio : List ℝ
  fReldiff : List ℝ

/-- the state after `k` iterations; the loop never produces a NaN -/
noncomputable def sensingState (n : ℕ) (W : ℕ → ℕ → ℝ) (A : ℕ → EuclideanSpace ℝ (Fin m) →ₗ[ℝ] S) (AT : ℕ → S →ₗ[ℝ] EuclideanSpace ℝ (Fin m))
    (b : ℕ → S) (alpha rho : ℝ) (x0 : ℕ → EuclideanSpace ℝ (Fin m)) (k : ℕ) : ExtraState (EuclideanSpace ℝ (Fin m)) :=
  (sensingStates n W A AT b alpha rho x0 k).getD ⟨x0, fun _ => 0⟩

/-- `pg_extra_compressed_sensing` (`decentr_compressed_sensing.py` 185-229).  `V`, `sv` are `Vred`, `Sred` with the entries that were cut off;
`const_vio` is computed block by block, for `n_sensor = n_node * n_sensor_per_node`; `method_ver`, `params`, `x_star` are not read by the code.
Divisions by zero (numpy: NaN or inf) give zero. -/
noncomputable def pgExtraSensing (n itr : ℕ) (W V : ℕ → ℕ → ℝ) (sv : ℕ → ℝ) (A : ℕ → EuclideanSpace ℝ (Fin m) →ₗ[ℝ] S)
    (AT : ℕ → S →ₗ[ℝ] EuclideanSpace ℝ (Fin m)) (b : ℕ → S) (alpha rho : ℝ) (x0 xstar : ℕ → EuclideanSpace ℝ (Fin m)) (fstar : ℝ) : SensingResult :=
  let st := sensingState n W A AT b alpha rho x0
  { opNorm := (List.range itr).map fun k => mNormSq n V sv (fun j => (st (k + 1)).x j - (st k).x j) (fun j => (st (k + 1)).w j - (st k).w j) alpha
    errOptStar := (List.range itr).map fun k => frobDist n (st (k + 1)).x xstar
    errOptReldiff := (List.range itr).map fun k => frobDist n (st (k + 1)).x xstar / frobDist n x0 xstar
    constVio := (List.range itr).map fun k => ∑ j ∈ Finset.range n, ∑ i ∈ Finset.range n, ‖A i ((st (k + 1)).x j) - b i‖ ^ 2
    fReldiff := (List.range itr).map fun k => |fstar - ∑ j ∈ Finset.range n, sensingValue A b rho j ((st (k + 1)).x j)| / fstar }

end sensing

end Verif
