import Verif.Proofs.Prox

/-!
# C47: the closed-form proximal operators of the example problems

For every input, the value returned is the unique minimiser of `f(x) + |x - z|² / (2 rho)`; the inputs without a value (NaN) are exactly the
ones given below.
-/

namespace Verif
open scoped InnerProductSpace

variable {E : Type} [NormedAddCommGroup E] [InnerProductSpace ℝ E]

/-- **C47** (`prox_fj_quad_constraint`) the point returned is the unique minimiser -/
theorem C47_halfspace {z : E} {rho : ℝ} {a : E} {b : ℝ} {p : E} (hrho : 0 < rho) (h : proxHalfspace z rho a b = some p) :
    (halfspaceFun a b).IsUniqueProx rho z p := uniqueProx_of_sample hrho (halfspace_sample hrho h)

/-- **C47** (`prox_fj_quad_constraint`) there is a result unless the half-space is empty, and then no minimiser exists either -/
theorem C47_halfspace_none (z : E) (rho : ℝ) (a : E) (b : ℝ) :
    (proxHalfspace z rho a b = none ↔ ∀ x : E, ¬⟪a, x⟫_ℝ ≤ b) ∧ (proxHalfspace z rho a b = none → ∀ p, ¬(halfspaceFun a b).IsProx rho z p) := by
  have key : proxHalfspace z rho a b = none ↔ ∀ x : E, ¬⟪a, x⟫_ℝ ≤ b := by
    unfold proxHalfspace
    split
    · rename_i h
      simp only [reduceCtorEq, false_iff, not_forall, not_not]
      exact ⟨z, by linarith⟩
    · rename_i h
      split
      · rename_i h2
        have ha : a = 0 := by simpa using h2
        subst ha
        simpa using h
      · rename_i h2
        simp only [reduceCtorEq, false_iff, not_forall, not_not]
        refine ⟨z + ((b - ⟪a, z⟫_ℝ) / ‖a‖ ^ 2) • a, ?_⟩
        rw [inner_add_right, real_inner_smul_right, real_inner_self_eq_norm_sq, div_mul_cancel₀ _ h2]
        linarith
  exact ⟨key, fun h p hp => key.1 h p hp.1⟩

/-- both branches are taken -/
example : proxHalfspace (3 : ℝ) 1 1 1 = some 1 ∧ proxHalfspace (0 : ℝ) 1 1 1 = some 0 ∧ proxHalfspace (0 : ℝ) 1 0 (-1) = none := by
  refine ⟨?_, ?_, ?_⟩ <;> unfold proxHalfspace <;> norm_num

/-- **C47** (`prox_fj_geom_mean`) the point returned is the unique minimiser -/
theorem C47_norm {z : E} {rho : ℝ} {b p : E} (hrho : 0 < rho) (h : proxNorm z rho b = some p) : (normFun b).IsUniqueProx rho z p :=
  uniqueProx_of_sample hrho (norm_prox_sample hrho h)

/-- **C47** (`prox_fj_geom_mean`) the result is NaN exactly at `z = b`, although `b` is the unique minimiser there -/
theorem C47_norm_none (z : E) {rho : ℝ} (hrho : 0 < rho) (b : E) :
    (proxNorm z rho b = none ↔ z = b) ∧ (proxNorm z rho b = none → (normFun b).IsUniqueProx rho z b) := by
  have key : proxNorm z rho b = none ↔ z = b := by
    unfold proxNorm
    split
    · rename_i h
      simpa [eq_comm, sub_eq_zero] using h
    · rename_i h
      simp only [reduceCtorEq, false_iff]
      rintro rfl
      simp at h
  refine ⟨key, fun h => ?_⟩
  rw [key.1 h]
  exact uniqueProx_of_sample hrho (norm_sample (by simp) (by simp))

/-- far from `b` the point moves by `rho` towards `b`, near `b` it is `b` -/
example : proxNorm (5 : ℝ) 1 2 = some 4 ∧ proxNorm (2.5 : ℝ) 1 2 = some 2 ∧ proxNorm (2 : ℝ) 1 2 = none := by
  refine ⟨?_, ?_, ?_⟩ <;> unfold proxNorm <;> norm_num [Real.norm_eq_abs]

/-- **C47** (`prox_fj_geom_mean_sc` of the geometric median) the point returned is the unique minimiser -/
theorem C47_normSc {z : E} {rho theta : ℝ} {b c p : E} (hrho : 0 < rho) (ht : 0 ≤ theta) (h : proxNormSc z rho b c theta = some p) :
    (normScFun b c theta).IsUniqueProx rho z p := uniqueProx_of_sample hrho (normSc_prox_sample hrho ht h)

/-- **C47** (`prox_fj_geom_mean_sc` of the geometric median) the result is NaN exactly at `z = b + 2 rho theta (b - c)`, although `b` is the
unique minimiser there -/
theorem C47_normSc_none (z : E) {rho theta : ℝ} (hrho : 0 < rho) (ht : 0 ≤ theta) (b c : E) :
    (proxNormSc z rho b c theta = none ↔ z = b + (2 * rho * theta) • (b - c)) ∧
      (proxNormSc z rho b c theta = none → (normScFun b c theta).IsUniqueProx rho z b) := by
  have hd : 0 < 1 + 2 * rho * theta := by positivity
  have key : proxNormSc z rho b c theta = none ↔ z = b + (2 * rho * theta) • (b - c) := by
    unfold proxNormSc
    rw [(C47_norm_none _ (by positivity) b).1, one_div, inv_smul_eq_iff₀ hd.ne', add_smul, one_smul, ← eq_sub_iff_add_eq, smul_sub, add_sub_assoc]
  refine ⟨key, fun h => uniqueProx_of_sample hrho ?_⟩
  have h1 := normSc_sample (b := b) (c := c) (p := b) (g := 0) ht (norm_sample (by simp) (by simp))
  convert h1 using 1
  rw [key.1 h]
  match_scalars <;> field_simp <;> ring

example : proxNormSc (5 : ℝ) 1 2 0 (1 / 2) = some 2 ∧ proxNormSc (9 : ℝ) 1 2 0 (1 / 2) = some 4 ∧ proxNormSc (4 : ℝ) 1 2 0 (1 / 2) = none := by
  refine ⟨?_, ?_, ?_⟩ <;> unfold proxNormSc proxNorm <;> norm_num [Real.norm_eq_abs]

/-- **C47** (`prox_fj_geom_mean_sc` of the quadratic problem) whatever solution the linear solver returns, the point returned is the unique
minimiser -/
theorem C47_quadNorm {solve : (E →ₗ[ℝ] E) → E → Except Err E} (hsolve : ∀ A r v, solve A r = .ok v → A v = r) {z : E} {rho : ℝ}
    {b p : E} {P : E →ₗ[ℝ] E} (hrho : 0 < rho) (hP : SymPSD P) (h : proxQuadNorm solve z rho b P = .ok p) :
    (quadNormFun b P).IsUniqueProx rho z p := by
  unfold proxQuadNorm at h
  cases hv : solve (P + (1 / rho) • LinearMap.id) ((1 / rho) • (z - b)) with
  | error e => rw [hv] at h; cases h
  | ok v =>
    rw [hv] at h
    cases h
    have h1 := hsolve _ _ _ hv
    refine uniqueProx_of_sample hrho ?_
    have h2 := quadNorm_sample (b := b) hP (b + v)
    convert h2 using 1
    rw [LinearMap.add_apply, LinearMap.smul_apply, LinearMap.id_apply, ← eq_sub_iff_add_eq] at h1
    rw [add_sub_cancel_left, h1]
    match_scalars <;> field_simp

/-- **C47** (`prox_fj_geom_mean_sc` of the quadratic problem) the matrix handed to the linear solver is never singular, so a solver that
raises only for singular matrices does not raise -/
theorem C47_quadNorm_ok {solve : (E →ₗ[ℝ] E) → E → Except Err E} (hsolve : ∀ (A : E →ₗ[ℝ] E) r, Function.Injective A → ∃ v, solve A r = .ok v) (z : E)
    {rho : ℝ} (b : E) {P : E →ₗ[ℝ] E} (hrho : 0 < rho) (hP : SymPSD P) : ∃ p, proxQuadNorm solve z rho b P = .ok p := by
  obtain ⟨v, hv⟩ := hsolve (P + (1 / rho) • LinearMap.id) ((1 / rho) • (z - b)) (by
    rw [injective_iff_map_eq_zero]
    intro x hx
    have h1 : ⟪x, (P + (1 / rho) • LinearMap.id : E →ₗ[ℝ] E) x⟫_ℝ = 0 := by rw [hx, inner_zero_right]
    rw [LinearMap.add_apply, LinearMap.smul_apply, LinearMap.id_apply, inner_add_right, real_inner_smul_right, real_inner_self_eq_norm_sq] at h1
    have h2 := hP.2 x
    have h3 : 0 ≤ 1 / rho * ‖x‖ ^ 2 := by positivity
    have h4 : 1 / rho * ‖x‖ ^ 2 = 0 := by linarith
    simpa [hrho.ne'] using h4)
  exact ⟨b + v, by unfold proxQuadNorm; rw [hv]⟩

/-- on the real line, division solves linear equations; the weighted square has a proximal operator -/
example : ∃ (solve : (ℝ →ₗ[ℝ] ℝ) → ℝ → Except Err ℝ) (P : ℝ →ₗ[ℝ] ℝ), (∀ A r v, solve A r = .ok v → A v = r) ∧
    (∀ (A : ℝ →ₗ[ℝ] ℝ) r, Function.Injective A → ∃ v, solve A r = .ok v) ∧ SymPSD P ∧ proxQuadNorm solve 7 1 1 P = .ok 3 := by
  classical
  have hA : ∀ (A : ℝ →ₗ[ℝ] ℝ) (x : ℝ), A x = x * A 1 := fun A x => by rw [← smul_eq_mul, ← map_smul, smul_eq_mul, mul_one]
  refine ⟨fun A r => if A 1 = 0 then .error .value else .ok (r / A 1), (2 : ℝ) • LinearMap.id, ?_, ?_, ⟨?_, ?_⟩, ?_⟩
  · intro A r v h
    dsimp only at h
    split at h
    · cases h
    · rename_i h0
      cases h
      rw [hA, div_mul_cancel₀ _ h0]
  · intro A r hi
    have : A 1 ≠ 0 := fun h => one_ne_zero (hi (h.trans (map_zero A).symm))
    exact ⟨r / A 1, by simp [this]⟩
  · intro x y
    simp [mul_comm, mul_left_comm]
  · intro x
    simp only [LinearMap.smul_apply, LinearMap.id_apply, smul_eq_mul, RCLike.inner_apply, conj_trivial]
    nlinarith [sq_nonneg x]
  · unfold proxQuadNorm
    norm_num [LinearMap.add_apply, LinearMap.smul_apply]

/-- **C47** (soft thresholding in the compressed sensing example) the point is the unique minimiser for the `rho`-fold 1-norm and step `alpha` -/
theorem C47_soft {m : ℕ} {alpha rho : ℝ} (ha : 0 < alpha) (hr : 0 ≤ rho) (z : EuclideanSpace ℝ (Fin m)) :
    (l1Fun m rho).IsUniqueProx alpha z (softThreshold z (alpha * rho)) := uniqueProx_of_sample ha (soft_sample ha hr z)

example : softThreshold (m := 3) (WithLp.toLp 2 ![3, -3, 1 / 2]) (2 * (1 / 2)) = WithLp.toLp 2 ![2, -2, 0] := by
  unfold softThreshold
  congr 1
  funext i
  fin_cases i
  · norm_num [Real.sign_of_pos]
  · norm_num [Real.sign_of_neg]
  · norm_num

/-- **C47** (`grad_hj_quad_constraint`) for a symmetric matrix, the gradient of `xᵀQx/2 + pᵀx` -/
theorem C47_gradQuad {Q : E →ₗ[ℝ] E} (hQ : Q.IsSymmetric) (p z y : E) :
    quadFun Q p y = quadFun Q p z + ⟪gradQuad z Q p, y - z⟫_ℝ + 1 / 2 * ⟪y - z, Q (y - z)⟫_ℝ := by
  unfold quadFun gradQuad
  have h1 : ⟪y - z, Q (y - z)⟫_ℝ = ⟪y, Q y⟫_ℝ - 2 * ⟪Q z, y⟫_ℝ + ⟪z, Q z⟫_ℝ := by
    rw [map_sub, inner_sub_left, inner_sub_right, inner_sub_right, ← hQ z y, real_inner_comm y (Q z)]
    ring
  rw [h1, inner_add_left, inner_sub_right, inner_sub_right, real_inner_comm z (Q z)]
  ring

end Verif
