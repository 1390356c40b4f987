import Verif.Proofs.DataGen
import Verif.Props.Sensing

/-!
# C61: the generated data has the properties the solvers rely on

For every draw of the random generator.  Axioms of every theorem: propext, Classical.choice, Quot.sound.
-/

namespace Verif
open scoped InnerProductSpace
open Filter (Tendsto atTop)

/-! ### `decentr_qp.py` -/

/-- **C61** (`decentr_qp.py`): the quadratic part of every node is symmetric and positive semidefinite, `xᵀ Q_j x = |S_j x|² / n` for the drawn matrix `S_j`,
and its norm is at most the sum of the squares of the entries of `S_j`, divided by `n`. -/
theorem C61_qp {m : ℕ} (n : ℕ) (pNormal : ℕ → Vec m) (sqQ : ℕ → Matrix (Fin m) (Fin m) ℝ) (aNormal : ℕ → Vec m) (bNormal : ℕ → ℝ) (j : ℕ) :
    SymPSD (matMap ((qpData n pNormal sqQ aNormal bNormal).Q j)) ∧
      (∀ x, ⟪x, matMap ((qpData n pNormal sqQ aNormal bNormal).Q j) x⟫_ℝ = 1 / n * ‖matMap (sqQ j) x‖ ^ 2) ∧
      ∀ x, ‖matMap ((qpData n pNormal sqQ aNormal bNormal).Q j) x‖ ≤ 1 / n * sumSq (sqQ j) * ‖x‖ := by
  have hn : (0 : ℝ) ≤ 1 / n := by positivity
  have hq : ∀ x, ⟪x, matMap ((qpData n pNormal sqQ aNormal bNormal).Q j) x⟫_ℝ = 1 / n * ‖matMap (sqQ j) x‖ ^ 2 := by
    intro x
    simp only [qpData]
    rw [matMap_smul, real_inner_smul_right, real_inner_comm, gram_inner, real_inner_self_eq_norm_sq]
  refine ⟨⟨fun x y => ?_, fun x => ?_⟩, hq, fun x => ?_⟩
  · simp only [qpData]
    rw [matMap_smul, matMap_smul, real_inner_smul_left, real_inner_smul_right, gram_inner, ← real_inner_comm x, gram_inner, real_inner_comm]
  · rw [hq]
    positivity
  · simp only [qpData]
    rw [matMap_smul, norm_smul, Real.norm_eq_abs, abs_of_nonneg hn, mul_assoc]
    exact mul_le_mul_of_nonneg_left (gram_norm _ _) hn

/-! ### `decentr_compressed_sensing.py` -/

section sensing
variable {m k : ℕ} (ns q n : ℕ) (draw : Fin k → ℝ) (shuffle : Equiv.Perm (Fin m)) (ADraw : ℕ → Fin m → ℝ) (noise : ℕ → ℝ)

/-- **C61** (`decentr_compressed_sensing.py`): if the block of a node was not drawn as zeros, its entries are those that were drawn divided by one positive
number, their squares sum to one, and the block does not lengthen a vector. -/
theorem C61_sensing_blocks (hrows : n * q ≤ ns) (j : ℕ) (hj : j < n) (hne : ∃ (r : Fin q) (i : Fin m), ADraw (j * q + r) i ≠ 0) :
    (∃ c : ℝ, 0 < c ∧ ∀ r i, (sensingData ns q n draw shuffle ADraw noise).block q j r i = ADraw (j * q + r) i / c) ∧
      sumSq ((sensingData ns q n draw shuffle ADraw noise).block q j) = 1 ∧
      ∀ x, ‖matMap ((sensingData ns q n draw shuffle ADraw noise).block q j) x‖ ≤ ‖x‖ := by
  have hlt : q * (j + 1) ≤ ns := by
    have := Nat.mul_le_mul_left q (show j + 1 ≤ n from hj)
    rw [Nat.mul_comm q n] at this
    omega
  have hrow : ∀ (r : Fin q) i, (sensingData ns q n draw shuffle ADraw noise).block q j r i = ADraw (j * q + r) i / blockNorm ns q ADraw j := by
    intro r i
    have hr := r.2
    refine (normalizeBlocks_eq n ADraw (j * q + r) i).1 j hj ?_ ?_ ?_ <;> rw [Nat.mul_comm q] at * <;>
      (rw [Nat.add_mul] at *; omega)
  have hsq : blockNorm ns q ADraw j ^ 2 = ∑ r : Fin q, ∑ i, ADraw (j * q + r) i ^ 2 := by
    unfold blockNorm
    rw [Real.sq_sqrt (Finset.sum_nonneg fun _ _ => Finset.sum_nonneg fun _ _ => by positivity)]
    exact block_sum (fun r => ∑ i, ADraw r i ^ 2) hlt
  have hpos : 0 < blockNorm ns q ADraw j := by
    refine lt_of_le_of_ne (Real.sqrt_nonneg _) fun h => ?_
    obtain ⟨r, i, hri⟩ := hne
    rw [← h] at hsq
    have h1 : ADraw (j * q + r) i ^ 2 ≤ ∑ r : Fin q, ∑ i, ADraw (j * q + r) i ^ 2 :=
      (Finset.single_le_sum (f := fun i => ADraw (j * q + r) i ^ 2) (fun _ _ => by positivity) (Finset.mem_univ i)).trans
        (Finset.single_le_sum (f := fun r : Fin q => ∑ i, ADraw (j * q + r) i ^ 2) (fun _ _ => Finset.sum_nonneg fun _ _ => by positivity) (Finset.mem_univ r))
    rw [← hsq] at h1
    exact hri (by nlinarith [sq_nonneg (ADraw (j * q + r) i)])
  have hone : sumSq ((sensingData ns q n draw shuffle ADraw noise).block q j) = 1 := by
    unfold sumSq
    simp only [hrow, div_pow]
    simp only [← Finset.sum_div]
    rw [← hsq, div_self (by positivity)]
  refine ⟨⟨_, hpos, hrow⟩, hone, fun x => ?_⟩
  have := matMap_norm ((sensingData ns q n draw shuffle ADraw noise).block q j) x
  rwa [hone, Real.sqrt_one, one_mul] at this

/-- **C61** (`decentr_compressed_sensing.py`): the measurements of a node are those of the true signal up to a hundredth of the drawn noise; the
reference points are the true signal and the start is zero. -/
theorem C61_sensing_measurements (j : ℕ) (r : Fin q) :
    (sensingData ns q n draw shuffle ADraw noise).blockB q j r -
        matMap ((sensingData ns q n draw shuffle ADraw noise).block q j) (sensingData ns q n draw shuffle ADraw noise).xTrue r = noise (j * q + r) / 100 ∧
      (sensingData ns q n draw shuffle ADraw noise).xStar j = (sensingData ns q n draw shuffle ADraw noise).xTrue ∧
      (sensingData ns q n draw shuffle ADraw noise).x0 j = 0 := by
  refine ⟨?_, rfl, rfl⟩
  simp only [SensingData.blockB, SensingData.block, sensingData, matMap_apply]
  ring

/-- **C61** (`decentr_compressed_sensing.py`): the true signal contains the drawn numbers, each at one place, and zeros everywhere else. -/
theorem C61_sensing_signal (hk : k ≤ m) : ∃ pos : Fin k → Fin m, Function.Injective pos ∧
    (∀ t, (sensingData ns q n draw shuffle ADraw noise).xTrue (pos t) = draw t) ∧
    ∀ i, (∀ t, i ≠ pos t) → (sensingData ns q n draw shuffle ADraw noise).xTrue i = 0 := by
  refine ⟨fun t => shuffle.symm ⟨t, by omega⟩, fun s t h => ?_, fun t => ?_, fun i hi => ?_⟩
  · have := shuffle.symm.injective h
    exact Fin.ext (by simpa using this)
  · simp [sensingData, sparseSignal]
  · simp only [sensingData, sparseSignal]
    rw [dif_neg]
    intro h
    exact hi ⟨_, h⟩ (by simp)

/-- **C61** (`decentr_compressed_sensing.py`), end to end: on the 6-node network, with the weights of `graph_generation_nodes6` and the generated data, the
points of `pg_extra_compressed_sensing` converge to one and the same solution of the problem, for every draw without a zero block, every `rho > 0` and
every step `0 < alpha < 2/5`. -/
theorem C61_sensing_converges (hrows : 6 * q ≤ ns) (hne : ∀ j < 6, ∃ (r : Fin q) (i : Fin m), ADraw (j * q + r) i ≠ 0) (W : ℕ → ℕ → ℝ)
    (hW : mhWeights 6 graph6 = .ok W) (alpha rho : ℝ) (ha : 0 < alpha) (ha' : alpha < 2 / 5) (hr : 0 < rho) :
    ∃ xl, SumMin 6 (sensingFun (fun j => matMap ((sensingData ns q 6 draw shuffle ADraw noise).block q j))
        ((sensingData ns q 6 draw shuffle ADraw noise).blockB q) rho) xl ∧
      ∀ j < 6, Tendsto (fun t => (sensingState 6 W (fun j => matMap ((sensingData ns q 6 draw shuffle ADraw noise).block q j))
        (fun j => matMap ((sensingData ns q 6 draw shuffle ADraw noise).block q j).transpose)
        ((sensingData ns q 6 draw shuffle ADraw noise).blockB q) alpha rho (sensingData ns q 6 draw shuffle ADraw noise).x0 t).x j) atTop (nhds xl) := by
  obtain ⟨xh, hx⟩ := C55_sensing_exists 6 (by norm_num) (fun j => matMap ((sensingData ns q 6 draw shuffle ADraw noise).block q j))
    ((sensingData ns q 6 draw shuffle ADraw noise).blockB q) rho hr
  refine C55_sensing_iterates 6 (by norm_num) graph6 NxGraph.simple_graph6 NxGraph.connected_graph6 W hW 4 (by decide) _ _ _
    (fun j _ x s => matMap_adjoint _ _ _) alpha rho 1 ha hr.le zero_le_one (fun j hj x => ?_) (by norm_num; linarith) _ xh hx
  rw [one_mul]
  exact pow_le_pow_left₀ (norm_nonneg _) ((C61_sensing_blocks ns q 6 draw shuffle ADraw noise hrows j hj (hne j hj)).2.2 x) 2

end sensing

/-! ### `decentr_ell2_Anorm.py` and `decentr_geom_median.py` -/

theorem eigDraw_bounds {m : ℕ} {u : Fin m → ℝ} (hu : ∀ i, 0 ≤ u i ∧ u i < 1) (i : Fin m) : 2 ≤ eigDraw u i ∧ eigDraw u i < 1001 := by
  unfold eigDraw
  obtain ⟨h0, h1⟩ := hu i
  have h2 : (10 : ℝ) ^ (0 : ℝ) ≤ 10 ^ (u i * 3) := Real.rpow_le_rpow_of_exponent_le (by norm_num) (by linarith)
  have h3 : (10 : ℝ) ^ (u i * 3) < 10 ^ (3 : ℝ) := Real.rpow_lt_rpow_of_exponent_lt (by norm_num) (by linarith)
  rw [Real.rpow_zero] at h2
  have h4 : (10 : ℝ) ^ (3 : ℝ) = 1000 := by norm_num
  constructor <;> linarith

theorem pMatrix_inner {m : ℕ} (Q : Matrix (Fin m) (Fin m) ℝ) (eigs : Fin m → ℝ) (x y : Vec m) :
    ⟪x, matMap (pMatrix Q eigs) y⟫_ℝ = ∑ i, eigs i * (matMap Q.transpose x i * matMap Q.transpose y i) := by
  have e : (Matrix.of fun r i => Q r i * eigs i : Matrix (Fin m) (Fin m) ℝ) = (Matrix.of fun r i => Q r i * eigs i) := rfl
  unfold pMatrix
  rw [matMap_mul, ← matMap_adjoint, vec_inner]
  refine Finset.sum_congr rfl fun i _ => ?_
  rw [← mul_assoc]
  congr 1
  simp only [matMap_apply, Matrix.transpose_apply, Matrix.of_apply, Finset.mul_sum]
  exact Finset.sum_congr rfl fun _ _ => by ring

theorem ortho_norm {m : ℕ} {Q : Matrix (Fin m) (Fin m) ℝ} (hQ : IsOrtho Q) (x : Vec m) : ‖matMap Q.transpose x‖ ^ 2 = ‖x‖ ^ 2 := by
  rw [← real_inner_self_eq_norm_sq, matMap_adjoint, ← matMap_mul, hQ.2, matMap_one, real_inner_self_eq_norm_sq]

/-- **C61** (`decentr_ell2_Anorm.py`): for every orthogonal matrix from `np.linalg.qr` and every draw of `np.random.rand`, the matrix `P` is symmetric and
`2 |x|² ≤ xᵀ P x ≤ 1001 |x|²`; in particular it is what C55 asks for. -/
theorem C61_anorm {m : ℕ} (Q : Matrix (Fin m) (Fin m) ℝ) (hQ : IsOrtho Q) (u : Fin m → ℝ) (hu : ∀ i, 0 ≤ u i ∧ u i < 1) :
    SymPSD (matMap (pMatrix Q (eigDraw u))) ∧ ∀ x, 2 * ‖x‖ ^ 2 ≤ ⟪x, matMap (pMatrix Q (eigDraw u)) x⟫_ℝ ∧
      ⟪x, matMap (pMatrix Q (eigDraw u)) x⟫_ℝ ≤ 1001 * ‖x‖ ^ 2 := by
  have hb : ∀ x : Vec m, 2 * ‖x‖ ^ 2 ≤ ⟪x, matMap (pMatrix Q (eigDraw u)) x⟫_ℝ ∧ ⟪x, matMap (pMatrix Q (eigDraw u)) x⟫_ℝ ≤ 1001 * ‖x‖ ^ 2 := by
    intro x
    rw [pMatrix_inner, ← ortho_norm hQ x, vec_norm_sq, Finset.mul_sum, Finset.mul_sum]
    constructor <;> refine Finset.sum_le_sum fun i _ => ?_ <;> rw [← sq] <;>
      exact mul_le_mul_of_nonneg_right (by linarith [(eigDraw_bounds hu i).1, (eigDraw_bounds hu i).2]) (by positivity)
  refine ⟨⟨fun x y => ?_, fun x => ?_⟩, hb⟩
  · rw [real_inner_comm, pMatrix_inner, pMatrix_inner]
    exact Finset.sum_congr rfl fun i _ => by ring
  · exact le_trans (by positivity) (hb x).1

/-- **C61** (`decentr_geom_median.py`, `decentr_ell2_Anorm.py`): the data points lie in the box from -100 to 100, and so do the centres, which are the
data points themselves, other points of the box or zero. -/
theorem C61_median {m : ℕ} (translation : String) (ub uc : ℕ → Fin m → ℝ) (hb : ∀ j i, 0 ≤ ub j i ∧ ub j i < 1) (hc : ∀ j i, 0 ≤ uc j i ∧ uc j i < 1)
    (j : ℕ) (i : Fin m) :
    (-100 ≤ boxPoint (ub j) i ∧ boxPoint (ub j) i < 100) ∧
      (-100 ≤ centerData translation (fun j => boxPoint (ub j)) uc j i ∧ centerData translation (fun j => boxPoint (ub j)) uc j i < 100) ∧
      (translation = "b" → centerData translation (fun j => boxPoint (ub j)) uc j = boxPoint (ub j)) ∧
      (translation ≠ "b" → translation ≠ "rand" → centerData translation (fun j => boxPoint (ub j)) uc j = 0) := by
  have h : ∀ u : Fin m → ℝ, 0 ≤ u i ∧ u i < 1 → -100 ≤ boxPoint u i ∧ boxPoint u i < 100 := by
    intro u hu
    unfold boxPoint
    constructor <;> simp only <;> linarith [hu.1, hu.2]
  refine ⟨h _ (hb j i), ?_, fun ht => by simp [centerData, ht], fun h1 h2 => by simp [centerData, h1, h2]⟩
  unfold centerData
  split
  · exact h _ (hb j i)
  · split
    · exact h _ (hc j i)
    · simp

/-- **C61** (`decentr_ell2_Anorm.py`), end to end: on the 6-node network with the generated data `p_extra_dgeom_median` raises no exception, and the
reported relative differences of values tend to zero as far as they are no NaN. -/
theorem C61_anorm_converges {m : ℕ} (solve : (Vec m →ₗ[ℝ] Vec m) → Vec m → Except Err (Vec m)) (hs : SolveSpec solve) (W : ℕ → ℕ → ℝ)
    (hW : mhWeights 6 graph6 = .ok W) (ub : ℕ → Fin m → ℝ) (Q : ℕ → Matrix (Fin m) (Fin m) ℝ) (hQ : ∀ j, IsOrtho (Q j)) (u : ℕ → Fin m → ℝ)
    (hu : ∀ j i, 0 ≤ u j i ∧ u j i < 1) (rho : ℝ) (hr : 0 < rho) (xh : Vec m)
    (hx : SumMin 6 (anormFun (fun j => boxPoint (ub j)) (fun j => matMap (pMatrix (Q j) (eigDraw (u j))))) xh)
    (hne : ∑ j ∈ Finset.range 6, (anormFun (fun j => boxPoint (ub j)) (fun j => matMap (pMatrix (Q j) (eigDraw (u j)))) j).f xh ≠ 0)
    (xstar : ℕ → Vec m) :
    (∀ itr fstar, ∃ res, pExtraAnorm solve 6 itr W (fun j => boxPoint (ub j)) (fun j => matMap (pMatrix (Q j) (eigDraw (u j)))) rho xstar fstar = .ok res) ∧
      ∀ eps > 0, ∃ N : ℕ, ∀ (itr : ℕ) (res : ExtraResult),
        pExtraAnorm solve 6 itr W (fun j => boxPoint (ub j)) (fun j => matMap (pMatrix (Q j) (eigDraw (u j)))) rho xstar
          (∑ j ∈ Finset.range 6, (anormFun (fun j => boxPoint (ub j)) (fun j => matMap (pMatrix (Q j) (eigDraw (u j)))) j).f xh) = .ok res →
        ∀ (k : ℕ) (v : ℝ), N ≤ k → res.fReldiff[k]? = some (some v) → |v| < eps := by
  have hP : ∀ j, j = 3 ∨ j = 4 → SymPSD (matMap (pMatrix (Q j) (eigDraw (u j)))) := fun j _ => (C61_anorm (Q j) (hQ j) (u j) (hu j)).1
  exact ⟨fun itr fstar => C55_anorm_ok solve hs 6 W _ _ hP rho hr itr xstar fstar,
    fun eps he => C55_anorm_values solve hs 6 (by norm_num) graph6 NxGraph.simple_graph6 NxGraph.connected_graph6 W hW _ _ hP rho hr xh hx xstar hne eps he⟩

/-- the hypotheses can be met: two sensors per node, draws that are not zero; the identity is orthogonal -/
example : 6 * 2 ≤ 12 ∧ (∀ j < 6, ∃ (r : Fin 2) (i : Fin 3), (fun (r : ℕ) (i : Fin 3) => (r : ℝ) + i + 1) (j * 2 + r) i ≠ 0) ∧
    IsOrtho (1 : Matrix (Fin 3) (Fin 3) ℝ) ∧ (∀ i : Fin 3, 0 ≤ (fun _ => (1 / 2 : ℝ)) i ∧ (fun _ => (1 / 2 : ℝ)) i < 1) :=
  ⟨by norm_num, fun j _ => ⟨0, 0, by positivity⟩, by simp [IsOrtho], fun _ => by norm_num⟩

end Verif
