import Verif.Spec.Prox
import Verif.Model.OptProblems

/-!
# Proximal operators from subgradients
-/

namespace Verif
open scoped InnerProductSpace

variable {E : Type} [NormedAddCommGroup E] [InnerProductSpace ℝ E]

theorem prox_gap {F : CFun E} {rho : ℝ} (hrho : 0 < rho) {z p : E} (h : F.Sample p (rho⁻¹ • (z - p)) (F.f p)) (y : E) (hy : y ∈ F.dom) :
    F.f p + ‖p - z‖ ^ 2 / (2 * rho) + ‖y - p‖ ^ 2 / (2 * rho) ≤ F.f y + ‖y - z‖ ^ 2 / (2 * rho) := by
  have h1 := h.2.2 y hy
  have h2 : ‖y - z‖ ^ 2 = ‖y - p‖ ^ 2 - 2 * ⟪z - p, y - p⟫_ℝ + ‖p - z‖ ^ 2 := by
    rw [show y - z = (y - p) - (z - p) by abel, norm_sub_sq_real, real_inner_comm, norm_sub_rev z p]
  rw [real_inner_smul_left] at h1
  rw [h2]
  have h3 : (‖y - p‖ ^ 2 - 2 * ⟪z - p, y - p⟫_ℝ + ‖p - z‖ ^ 2) / (2 * rho) =
      ‖y - p‖ ^ 2 / (2 * rho) - rho⁻¹ * ⟪z - p, y - p⟫_ℝ + ‖p - z‖ ^ 2 / (2 * rho) := by
    field_simp
  rw [h3]
  linarith

theorem uniqueProx_of_sample {F : CFun E} {rho : ℝ} (hrho : 0 < rho) {z p : E} (h : F.Sample p (rho⁻¹ • (z - p)) (F.f p)) :
    F.IsUniqueProx rho z p := by
  refine ⟨⟨h.1, fun y hy => ?_⟩, fun q hq => ?_⟩
  · have h1 := prox_gap hrho h y hy
    have h2 : 0 ≤ ‖y - p‖ ^ 2 / (2 * rho) := by positivity
    linarith
  · have h1 := prox_gap hrho h q hq.1
    have h2 := hq.2 p h.1
    have h3 : ‖q - p‖ ^ 2 / (2 * rho) ≤ 0 := by linarith
    have h4 : ‖q - p‖ ^ 2 ≤ 0 := by
      rw [div_le_iff₀ (by positivity)] at h3
      linarith
    have h5 : ‖q - p‖ = 0 := by nlinarith [norm_nonneg (q - p), sq_nonneg ‖q - p‖]
    exact sub_eq_zero.1 (norm_eq_zero.1 h5)

/-- a vector of norm at most one is a subgradient of the norm wherever it attains the norm -/
theorem norm_sample {b p g : E} (hg : ‖g‖ ≤ 1) (hp : ⟪g, p - b⟫_ℝ = ‖p - b‖) : (normFun b).Sample p g ((normFun b).f p) := by
  refine ⟨trivial, rfl, fun y _ => ?_⟩
  change ‖p - b‖ + ⟪g, y - p⟫_ℝ ≤ ‖y - b‖
  rw [← hp, ← inner_add_right, show p - b + (y - p) = y - b by abel]
  calc ⟪g, y - b⟫_ℝ ≤ ‖g‖ * ‖y - b‖ := real_inner_le_norm _ _
    _ ≤ 1 * ‖y - b‖ := mul_le_mul_of_nonneg_right hg (norm_nonneg _)
    _ = _ := one_mul _

theorem halfspace_sample {z : E} {rho : ℝ} {a : E} {b : ℝ} {p : E} (hrho : 0 < rho) (h : proxHalfspace z rho a b = some p) :
    (halfspaceFun a b).Sample p (rho⁻¹ • (z - p)) ((halfspaceFun a b).f p) := by
  unfold proxHalfspace at h
  split at h
  · cases h
    rename_i h1
    refine ⟨by simpa [halfspaceFun] using h1, rfl, fun y _ => ?_⟩
    simp [halfspaceFun]
  · rename_i h1
    split at h
    · cases h
    · rename_i h2
      cases h
      have h3 : ⟪a, z + ((b - ⟪a, z⟫_ℝ) / ‖a‖ ^ 2) • a⟫_ℝ = b := by
        rw [inner_add_right, real_inner_smul_right, real_inner_self_eq_norm_sq, div_mul_cancel₀ _ h2]
        ring
      refine ⟨h3.le, rfl, fun y hy => ?_⟩
      change (0 : ℝ) + _ ≤ 0
      have h4 : z - (z + ((b - ⟪a, z⟫_ℝ) / ‖a‖ ^ 2) • a) = ((⟪a, z⟫_ℝ - b) / ‖a‖ ^ 2) • a := by
        rw [sub_add_cancel_left, ← neg_smul, ← neg_div, neg_sub]
      rw [h4, real_inner_smul_left, real_inner_smul_left, inner_sub_right, h3, zero_add]
      have h5 : ⟪a, y⟫_ℝ ≤ b := hy
      have h6 : 0 ≤ rho⁻¹ * ((⟪a, z⟫_ℝ - b) / ‖a‖ ^ 2) := by
        push Not at h1
        positivity
      nlinarith

theorem norm_prox_sample {z : E} {rho : ℝ} {b p : E} (hrho : 0 < rho) (h : proxNorm z rho b = some p) :
    (normFun b).Sample p (rho⁻¹ • (z - p)) ((normFun b).f p) := by
  unfold proxNorm at h
  split at h
  · cases h
  · rename_i h0
    cases h
    have hN : 0 < ‖b - z‖ := lt_of_le_of_ne (norm_nonneg _) (Ne.symm h0)
    rcases le_or_gt ‖b - z‖ rho with h1 | h1
    · rw [max_eq_right (by linarith), zero_smul, sub_zero]
      refine norm_sample ?_ (by simp)
      rw [norm_smul, norm_sub_rev, Real.norm_of_nonneg (by positivity), inv_mul_le_iff₀ hrho, mul_one]
      exact h1
    · rw [max_eq_left (by linarith)]
      have e1 : z - (b - (‖b - z‖ - rho) • (1 / ‖b - z‖) • (b - z)) = -((rho / ‖b - z‖) • (b - z)) := by
        rw [smul_smul, show (‖b - z‖ - rho) * (1 / ‖b - z‖) = 1 - rho / ‖b - z‖ by field_simp, sub_smul, one_smul]
        abel
      have e2 : rho⁻¹ • (z - (b - (‖b - z‖ - rho) • (1 / ‖b - z‖) • (b - z))) = -((1 / ‖b - z‖) • (b - z)) := by
        rw [e1, smul_neg, smul_smul]
        congr 2
        field_simp
      have e3 : (b - (‖b - z‖ - rho) • (1 / ‖b - z‖) • (b - z)) - b = -(((‖b - z‖ - rho) / ‖b - z‖) • (b - z)) := by
        rw [sub_sub_cancel_left, smul_smul, mul_one_div]
      rw [e2]
      refine norm_sample ?_ ?_
      · rw [norm_neg, norm_smul, Real.norm_of_nonneg (by positivity), one_div, inv_mul_cancel₀ hN.ne']
      · rw [e3, inner_neg_neg, real_inner_smul_left, real_inner_smul_right, real_inner_self_eq_norm_sq, norm_neg, norm_smul,
          Real.norm_of_nonneg (div_nonneg (by linarith) hN.le)]
        field_simp

theorem normSc_sample {b c p g : E} {theta : ℝ} (ht : 0 ≤ theta) (h : (normFun b).Sample p g ((normFun b).f p)) :
    (normScFun b c theta).Sample p (g + (2 * theta) • (p - c)) ((normScFun b c theta).f p) := by
  refine ⟨trivial, rfl, fun y _ => ?_⟩
  have h1 := h.2.2 y trivial
  change ‖p - b‖ + ⟪g, y - p⟫_ℝ ≤ ‖y - b‖ at h1
  change ‖p - b‖ + theta * ‖p - c‖ ^ 2 + _ ≤ ‖y - b‖ + theta * ‖y - c‖ ^ 2
  rw [inner_add_left, real_inner_smul_left]
  have h2 : ‖y - c‖ ^ 2 = ‖p - c‖ ^ 2 + 2 * ⟪p - c, y - p⟫_ℝ + ‖y - p‖ ^ 2 := by
    rw [show y - c = (p - c) + (y - p) by abel, norm_add_sq_real]
  rw [h2]
  nlinarith [mul_nonneg ht (sq_nonneg ‖y - p‖)]

theorem normSc_prox_sample {z : E} {rho theta : ℝ} {b c p : E} (hrho : 0 < rho) (ht : 0 ≤ theta) (h : proxNormSc z rho b c theta = some p) :
    (normScFun b c theta).Sample p (rho⁻¹ • (z - p)) ((normScFun b c theta).f p) := by
  have hd : 0 < 1 + 2 * rho * theta := by positivity
  have h1 := normSc_sample (c := c) ht (norm_prox_sample (by positivity) h)
  convert h1 using 1
  match_scalars <;> field_simp <;> ring

theorem quadNorm_sample {b : E} {P : E →ₗ[ℝ] E} (hP : SymPSD P) (p : E) :
    (quadNormFun b P).Sample p (P (p - b)) ((quadNormFun b P).f p) := by
  refine ⟨trivial, rfl, fun y _ => ?_⟩
  change 1 / 2 * ⟪p - b, P (p - b)⟫_ℝ + ⟪P (p - b), y - p⟫_ℝ ≤ 1 / 2 * ⟪y - b, P (y - b)⟫_ℝ
  have h1 := hP.2 (y - p)
  have h2 : ⟪y - b, P (y - b)⟫_ℝ = ⟪p - b, P (p - b)⟫_ℝ + 2 * ⟪P (p - b), y - p⟫_ℝ + ⟪y - p, P (y - p)⟫_ℝ := by
    rw [show y - b = (p - b) + (y - p) by abel, map_add, inner_add_left, inner_add_right, inner_add_right, ← hP.1 (p - b) (y - p),
      real_inner_comm (P (p - b)) (y - p)]
    ring
  linarith

/-- one coordinate of soft thresholding -/
theorem soft_coord {t : ℝ} (ht : 0 ≤ t) (z y : ℝ) :
    t * |Real.sign z * max (|z| - t) 0| + (z - Real.sign z * max (|z| - t) 0) * (y - Real.sign z * max (|z| - t) 0) ≤ t * |y| := by
  have hy := mul_le_mul_of_nonneg_left (le_abs_self y) ht
  have hy' := mul_le_mul_of_nonneg_left (neg_abs_le y) ht
  rcases le_or_gt |z| t with h | h
  · rw [max_eq_right (by linarith)]
    simp only [mul_zero, abs_zero, sub_zero, zero_add]
    calc z * y ≤ |z * y| := le_abs_self _
      _ = |z| * |y| := abs_mul _ _
      _ ≤ t * |y| := mul_le_mul_of_nonneg_right h (abs_nonneg _)
  · rw [max_eq_left (by linarith)]
    rcases lt_trichotomy z 0 with h0 | h0 | h0
    · rw [Real.sign_of_neg h0, abs_of_neg h0] at *
      rw [abs_of_nonpos (by linarith)]
      nlinarith
    · subst h0
      simp at h
      linarith
    · rw [Real.sign_of_pos h0, abs_of_pos h0] at *
      rw [abs_of_nonneg (by linarith)]
      nlinarith

theorem soft_sample {m : ℕ} {alpha rho : ℝ} (ha : 0 < alpha) (hr : 0 ≤ rho) (z : EuclideanSpace ℝ (Fin m)) :
    (l1Fun m rho).Sample (softThreshold z (alpha * rho)) (alpha⁻¹ • (z - softThreshold z (alpha * rho))) ((l1Fun m rho).f (softThreshold z (alpha * rho))) := by
  refine ⟨trivial, rfl, fun y _ => ?_⟩
  change rho * ∑ i, |softThreshold z (alpha * rho) i| + _ ≤ rho * ∑ i, |y i|
  have h1 : ⟪z - softThreshold z (alpha * rho), y - softThreshold z (alpha * rho)⟫_ℝ =
      ∑ i, (z i - softThreshold z (alpha * rho) i) * (y i - softThreshold z (alpha * rho) i) := by
    rw [PiLp.inner_apply]
    refine Finset.sum_congr rfl fun i _ => ?_
    simp [mul_comm]
  rw [real_inner_smul_left, h1, ← mul_le_mul_iff_right₀ ha, mul_add, ← mul_assoc alpha alpha⁻¹, mul_inv_cancel₀ ha.ne', one_mul, ← mul_assoc, ← mul_assoc,
    Finset.mul_sum, Finset.mul_sum, ← Finset.sum_add_distrib]
  exact Finset.sum_le_sum fun i _ => soft_coord (by positivity) (z i) (y i)

end Verif
