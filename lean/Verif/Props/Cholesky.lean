import Verif.Model.Cholesky
import Verif.Spec.Cholesky
import Verif.Proofs.Cholesky
import Verif.Props.Utils
import Mathlib.LinearAlgebra.Matrix.NonsingularInverse
import Mathlib.LinearAlgebra.Matrix.ToLinearEquiv
import Mathlib.LinearAlgebra.Matrix.Block

/-!
# C59: `cholseky_matrix`
-/

namespace Verif
variable {n : ℕ}

theorem quad_conjDiag (V : Matrix (Fin n) (Fin n) ℝ) (d : Fin n → ℝ) (x : Fin n → ℝ) :
    quadForm (conjDiag V d) x = ∑ k, d k * (∑ i, x i * V i k) ^ 2 := by
  simp only [quadForm, conjDiag, Finset.mul_sum, Finset.sum_mul]
  rw [Finset.sum_congr rfl fun i _ => Finset.sum_comm, Finset.sum_comm]
  refine Finset.sum_congr rfl fun k _ => ?_
  rw [sq, Finset.sum_mul_sum, Finset.mul_sum]
  refine Finset.sum_congr rfl fun i _ => ?_
  rw [Finset.mul_sum]
  exact Finset.sum_congr rfl fun j _ => by ring

theorem norm_orthogonal {V : Matrix (Fin n) (Fin n) ℝ} (h : V * V.transpose = 1) (x : Fin n → ℝ) : ∑ k, (∑ i, x i * V i k) ^ 2 = ∑ i, x i ^ 2 := by
  have h1 := quad_conjDiag V (fun _ => 1) x
  simp only [one_mul] at h1
  rw [← h1, quadForm]
  refine Finset.sum_congr rfl fun i _ => ?_
  have h2 : ∀ j, conjDiag V (fun _ => 1) i j = (1 : Matrix (Fin n) (Fin n) ℝ) i j := by
    intro j
    rw [← h, Matrix.mul_apply, conjDiag]
    exact Finset.sum_congr rfl fun k _ => by rw [Matrix.transpose_apply]; ring
  simp only [h2, Matrix.one_apply]
  rw [Finset.sum_eq_single i]
  · simp; ring
  · intro j _ hj; rw [if_neg (Ne.symm hj)]; simp
  · simp

theorem quad_sub (A B : Matrix (Fin n) (Fin n) ℝ) (x : Fin n → ℝ) : quadForm (A - B) x = quadForm A x - quadForm B x := by
  simp only [quadForm, Matrix.sub_apply, ← Finset.sum_sub_distrib]
  exact Finset.sum_congr rfl fun i _ => Finset.sum_congr rfl fun j _ => by ring

/-- **C59**: for every symmetric matrix `Z` and every `eps > 0`, whatever orthonormal eigendecomposition `eigh` returns, `cholseky_matrix` succeeds with a
lower triangular `P` with positive diagonal, and `P Pᵀ` is `Z` with its eigenvalues raised to at least `eps`: `P Pᵀ ⪰ eps I`, `P Pᵀ ⪰ Z`, the two differ by at
most `eps - λ_min`, and they are equal if no eigenvalue is below `eps`. -/
theorem C59_factor (eigh : Matrix (Fin n) (Fin n) ℝ → (Fin n → ℝ) × Matrix (Fin n) (Fin n) ℝ)
    (cholesky : Matrix (Fin n) (Fin n) ℝ → Except Err (Matrix (Fin n) (Fin n) ℝ)) (hch : IsCholesky cholesky) (Z : Matrix (Fin n) (Fin n) ℝ)
    (heig : Diagonalises (eigh Z).1 (eigh Z).2 (eigh Z).2.transpose Z) {eps : ℝ} (heps : 0 < eps) :
    ∃ P, cholsekyMatrix eigh cholesky Z eps = .ok P ∧ LowerPos P ∧
      (∀ x, eps * ∑ i, x i ^ 2 ≤ quadForm (P * P.transpose) x) ∧ PSDMat (P * P.transpose - Z) ∧
      (∀ d, 0 ≤ d → (∀ k, eps - (eigh Z).1 k ≤ d) → ∀ x, quadForm (P * P.transpose) x ≤ quadForm Z x + d * ∑ i, x i ^ 2) ∧
      ((∀ k, eps ≤ (eigh Z).1 k) → P * P.transpose = Z) := by
  set ev := (eigh Z).1 with hev
  set V := (eigh Z).2 with hV
  have hZ : Z = conjDiag V ev := by
    ext i j
    rw [heig.eq, conjDiag]
    exact Finset.sum_congr rfl fun k _ => by rw [Matrix.transpose_apply]; ring
  have hsym : ∀ d : Fin n → ℝ, (conjDiag V d).transpose = conjDiag V d := by
    intro d
    ext i j
    rw [Matrix.transpose_apply, conjDiag, conjDiag]
    exact Finset.sum_congr rfl fun k _ => by ring
  have hlow : ∀ x, eps * ∑ i, x i ^ 2 ≤ quadForm (conjDiag V fun k => max (ev k) eps) x := by
    intro x
    rw [quad_conjDiag, ← norm_orthogonal heig.inv x, Finset.mul_sum]
    exact Finset.sum_le_sum fun k _ => mul_le_mul_of_nonneg_right (le_max_right _ _) (sq_nonneg _)
  obtain ⟨P, hP, hPl, hPP⟩ := hch (conjDiag V fun k => max (ev k) eps) (hsym _) (by
    intro x hx
    have hpos : 0 < ∑ i, x i ^ 2 := by
      obtain ⟨i, hi⟩ := Function.ne_iff.1 hx
      exact Finset.sum_pos' (fun i _ => sq_nonneg _) ⟨i, Finset.mem_univ _, sq_pos_iff.2 (by simpa using hi)⟩
    exact lt_of_lt_of_le (by positivity) (hlow x))
  refine ⟨P, ?_, hPl, ?_, ?_, ?_, ?_⟩
  · rw [cholsekyMatrix, if_pos, ← hP]
    rw [← hev, ← hV, ← hZ]
    exact allClose_refl Z
  · intro x; rw [hPP]; exact hlow x
  · rw [hPP]
    refine ⟨by rw [Matrix.transpose_sub, hsym, hZ, hsym], fun x => ?_⟩
    have h1 : quadForm ((conjDiag V fun k => max (ev k) eps) - Z) x = ∑ k, (max (ev k) eps - ev k) * (∑ i, x i * V i k) ^ 2 := by
      rw [quad_sub, hZ, quad_conjDiag, quad_conjDiag, ← Finset.sum_sub_distrib]
      exact Finset.sum_congr rfl fun k _ => by ring
    show 0 ≤ quadForm ((conjDiag V fun k => max (ev k) eps) - Z) x
    rw [h1]
    exact Finset.sum_nonneg fun k _ => mul_nonneg (sub_nonneg.2 (le_max_left _ _)) (sq_nonneg _)
  · intro d hd0 hd x
    rw [hPP, ← norm_orthogonal heig.inv x, hZ, quad_conjDiag, quad_conjDiag, Finset.mul_sum, ← Finset.sum_add_distrib]
    refine Finset.sum_le_sum fun k _ => ?_
    rw [← add_mul]
    refine mul_le_mul_of_nonneg_right (max_le (by linarith) (by linarith [hd k])) (sq_nonneg _)
  · intro hall
    rw [hPP]
    conv_rhs => rw [hZ]
    congr 1
    funext k
    exact max_eq_left (hall k)

/-- **C59**, positive semidefinite matrices: then the factor is `eps`-close. -/
theorem C59_psd (eigh : Matrix (Fin n) (Fin n) ℝ → (Fin n → ℝ) × Matrix (Fin n) (Fin n) ℝ)
    (cholesky : Matrix (Fin n) (Fin n) ℝ → Except Err (Matrix (Fin n) (Fin n) ℝ)) (hch : IsCholesky cholesky) (Z : Matrix (Fin n) (Fin n) ℝ)
    (heig : Diagonalises (eigh Z).1 (eigh Z).2 (eigh Z).2.transpose Z) (hZ : ∀ x, 0 ≤ quadForm Z x) {eps : ℝ} (heps : 0 < eps) :
    ∃ P, cholsekyMatrix eigh cholesky Z eps = .ok P ∧ ∀ x, quadForm Z x ≤ quadForm (P * P.transpose) x ∧
      quadForm (P * P.transpose) x ≤ quadForm Z x + eps * ∑ i, x i ^ 2 := by
  obtain ⟨P, hP, -, -, h2, h3, -⟩ := C59_factor eigh cholesky hch Z heig heps
  refine ⟨P, hP, fun x => ⟨?_, h3 eps heps.le (fun k => ?_) x⟩⟩
  · have := h2.2 x
    change 0 ≤ quadForm (P * P.transpose - Z) x at this
    rw [quad_sub] at this
    linarith
  · -- every eigenvalue is the quadratic form at its eigenvector
    have hinv : (eigh Z).2.transpose * (eigh Z).2 = 1 := mul_eq_one_comm.1 heig.inv
    have hq := hZ fun i => (eigh Z).2 i k
    have hZ' : Z = conjDiag (eigh Z).2 (eigh Z).1 := by
      ext i j
      rw [heig.eq, conjDiag]
      exact Finset.sum_congr rfl fun k _ => by rw [Matrix.transpose_apply]; ring
    rw [hZ', quad_conjDiag, ← hZ'] at hq
    have h1 : ∀ l, ∑ i, (eigh Z).2 i k * (eigh Z).2 i l = (1 : Matrix (Fin n) (Fin n) ℝ) k l := by
      intro l
      rw [← hinv, Matrix.mul_apply]
      rfl
    simp only [h1, Matrix.one_apply] at hq
    rw [Finset.sum_eq_single k] at hq
    · simp at hq; linarith
    · intro l _ hl; rw [if_neg (Ne.symm hl)]; simp
    · simp

/-! ### Non-vacuity -/

/-- the contract of `np.linalg.cholesky` can be met, for every size -/
theorem cholesky_exists (n : ℕ) : ∃ cholesky : Matrix (Fin n) (Fin n) ℝ → Except Err (Matrix (Fin n) (Fin n) ℝ), IsCholesky cholesky := by
  classical
  have key : ∀ A : Matrix (Fin n) (Fin n) ℝ, A.transpose = A → (∀ x, x ≠ 0 → 0 < quadForm A x) → ∃ P, LowerPos P ∧ P * P.transpose = A := by
    intro A hA hpos
    set Z : ℕ → ℕ → ℝ := fun i j => if h : i < n ∧ j < n then A ⟨i, h.1⟩ ⟨j, h.2⟩ else 0 with hZ
    have hpsd : IsPSD n Z := by
      constructor
      · intro i hi j hj
        simp only [hZ, dif_pos (And.intro hi hj), dif_pos (And.intro hj hi)]
        conv_lhs => rw [← hA, Matrix.transpose_apply]
      · intro v
        have h1 : ∑ i ∈ Finset.range n, ∑ j ∈ Finset.range n, Z i j * v i * v j = quadForm A fun i => v i := by
          rw [quadForm, Finset.sum_range]
          refine Finset.sum_congr rfl fun i _ => ?_
          rw [Finset.sum_range]
          refine Finset.sum_congr rfl fun j _ => ?_
          simp only [hZ, dif_pos (And.intro i.2 j.2)]
          ring
        rw [h1]
        by_cases hv : (fun i : Fin n => v i) = 0
        · rw [hv]; simp [quadForm]
        · exact (hpos _ hv).le
    obtain ⟨L, hl, hd, hL⟩ := hpsd.cholesky
    have hPP : (Matrix.of fun i j : Fin n => L i j) * (Matrix.of fun i j : Fin n => L i j).transpose = A := by
      ext i j
      have := hL i i.2 j j.2
      simp only [hZ, dif_pos (And.intro i.2 j.2)] at this
      rw [Matrix.mul_apply, this, Finset.sum_range]
      rfl
    refine ⟨Matrix.of fun i j => L i j, ⟨fun i j hij => hl i j hij, fun i => lt_of_le_of_ne (hd i) ?_⟩, hPP⟩
    intro h0
    have hdet : A.det = 0 := by
      have ht : (Matrix.of fun i j : Fin n => L i j).IsLowerTriangular := fun i j hij => hl i j hij
      have h1 : ∏ k, (Matrix.of fun i j : Fin n => L i j) k k = 0 := Finset.prod_eq_zero (Finset.mem_univ i) h0.symm
      rw [← hPP, Matrix.det_mul, Matrix.det_of_isLowerTriangular _ ht, h1, zero_mul]
    obtain ⟨v, hv, hv0⟩ := Matrix.exists_mulVec_eq_zero_iff.2 hdet
    have := hpos v hv
    have hz : quadForm A v = 0 := by
      rw [quadForm]
      refine Finset.sum_eq_zero fun i _ => ?_
      have := congrFun hv0 i
      simp only [Matrix.mulVec, dotProduct, Pi.zero_apply] at this
      simp only [mul_assoc]
      rw [← Finset.mul_sum, this, mul_zero]
    linarith
  refine ⟨fun A => if h : A.transpose = A ∧ ∀ x, x ≠ 0 → 0 < quadForm A x then .ok (key A h.1 h.2).choose else .error .value, fun A h1 h2 => ?_⟩
  exact ⟨(key A h1 h2).choose, dif_pos ⟨h1, h2⟩, (key A h1 h2).choose_spec.1, (key A h1 h2).choose_spec.2⟩

/-- an indefinite matrix with its eigendecomposition meets the hypotheses of `C59_factor` -/
example : ∃ (Z V : Matrix (Fin 2) (Fin 2) ℝ) (ev : Fin 2 → ℝ), Diagonalises ev V V.transpose Z ∧ ∃ x, quadForm Z x < 0 := by
  refine ⟨!![-7, 24; 24, 7], !![3 / 5, 4 / 5; 4 / 5, -3 / 5], ![25, -25], ⟨?_, fun i j => ?_⟩, ![1, 0], ?_⟩
  · ext i j
    fin_cases i <;> fin_cases j <;> simp [Matrix.mul_apply, Fin.sum_univ_two] <;> norm_num
  · fin_cases i <;> fin_cases j <;> simp [Fin.sum_univ_two] <;> norm_num
  · simp [quadForm, Fin.sum_univ_two]

end Verif
