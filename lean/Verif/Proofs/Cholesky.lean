import Verif.Spec.Dual
import Mathlib.Analysis.InnerProductSpace.Basic
import Mathlib.Analysis.Real.Sqrt

/-!
# Positive semidefinite matrices are `L Lᵀ` with `L` lower triangular
-/

namespace Verif
open scoped InnerProductSpace

theorem quad_succ (n : ℕ) (Z : ℕ → ℕ → ℝ) (hs : ∀ i < n + 1, ∀ j < n + 1, Z i j = Z j i) (v : ℕ → ℝ) :
    ∑ i ∈ Finset.range (n + 1), ∑ j ∈ Finset.range (n + 1), Z i j * v i * v j =
      (∑ i ∈ Finset.range n, ∑ j ∈ Finset.range n, Z (i + 1) (j + 1) * v (i + 1) * v (j + 1)) +
        2 * v 0 * (∑ i ∈ Finset.range n, Z (i + 1) 0 * v (i + 1)) + Z 0 0 * v 0 ^ 2 := by
  rw [Finset.sum_range_succ']
  simp only [Finset.sum_range_succ' _ n, Finset.sum_add_distrib]
  have e1 : ∑ i ∈ Finset.range n, Z (i + 1) 0 * v (i + 1) * v 0 = v 0 * ∑ i ∈ Finset.range n, Z (i + 1) 0 * v (i + 1) := by
    rw [Finset.mul_sum]; exact Finset.sum_congr rfl fun i _ => by ring
  have e2 : ∑ i ∈ Finset.range n, Z 0 (i + 1) * v 0 * v (i + 1) = v 0 * ∑ i ∈ Finset.range n, Z (i + 1) 0 * v (i + 1) := by
    rw [Finset.mul_sum]
    exact Finset.sum_congr rfl fun i hi => by rw [hs 0 (by omega) (i + 1) (by have := Finset.mem_range.1 hi; omega)]; ring
  rw [e1, e2]; ring

theorem IsPSD.first_nonneg {n : ℕ} {Z : ℕ → ℕ → ℝ} (h : IsPSD (n + 1) Z) : 0 ≤ Z 0 0 := by
  have := h.2 fun i => if i = 0 then 1 else 0
  rw [quad_succ n Z h.1] at this
  simpa using this

theorem IsPSD.first_zero {n : ℕ} {Z : ℕ → ℕ → ℝ} (h : IsPSD (n + 1) Z) (h0 : Z 0 0 = 0) {i : ℕ} (hi : i < n) : Z (i + 1) 0 = 0 := by
  have key : ∀ t : ℝ, 0 ≤ Z (i + 1) (i + 1) + 2 * t * Z (i + 1) 0 := by
    intro t
    have := h.2 fun k => if k = 0 then t else if k = i + 1 then 1 else 0
    rw [quad_succ n Z h.1, h0] at this
    have e : ∑ k ∈ Finset.range n, Z (k + 1) 0 * (if k = i then (1 : ℝ) else 0) = Z (i + 1) 0 := by
      rw [Finset.sum_eq_single i] <;> simp +contextual [hi]
    have e2 : ∑ k ∈ Finset.range n, ∑ j ∈ Finset.range n, Z (k + 1) (j + 1) * (if k = i then (1 : ℝ) else 0) * (if j = i then (1 : ℝ) else 0) =
        Z (i + 1) (i + 1) := by
      rw [Finset.sum_eq_single i]
      · rw [Finset.sum_eq_single i] <;> simp +contextual [hi]
      · intro b _ hb; simp [hb]
      · simp [hi]
    simp only [Nat.add_eq_zero_iff, one_ne_zero, and_false, if_false, if_true, Nat.add_right_cancel_iff, e, e2] at this
    linarith
  by_contra hne
  have := key (-(Z (i + 1) (i + 1) + 1) / (2 * Z (i + 1) 0))
  have e : 2 * (-(Z (i + 1) (i + 1) + 1) / (2 * Z (i + 1) 0)) * Z (i + 1) 0 = -(Z (i + 1) (i + 1) + 1) := by field_simp
  rw [e] at this
  linarith

/-- the Schur complement -/
theorem IsPSD.schur {n : ℕ} {Z : ℕ → ℕ → ℝ} (h : IsPSD (n + 1) Z) :
    IsPSD n fun i j => Z (i + 1) (j + 1) - Z (i + 1) 0 * Z (j + 1) 0 / Z 0 0 := by
  refine ⟨fun i hi j hj => by beta_reduce; rw [h.1 (i + 1) (by omega) (j + 1) (by omega), mul_comm (Z (i + 1) 0)], fun v => ?_⟩
  set b := ∑ i ∈ Finset.range n, Z (i + 1) 0 * v i with hb
  have e : ∑ i ∈ Finset.range n, ∑ j ∈ Finset.range n, (Z (i + 1) (j + 1) - Z (i + 1) 0 * Z (j + 1) 0 / Z 0 0) * v i * v j =
      (∑ i ∈ Finset.range n, ∑ j ∈ Finset.range n, Z (i + 1) (j + 1) * v i * v j) - b * b / Z 0 0 := by
    have : b * b / Z 0 0 = ∑ i ∈ Finset.range n, ∑ j ∈ Finset.range n, Z (i + 1) 0 * Z (j + 1) 0 / Z 0 0 * v i * v j := by
      rw [hb, Finset.sum_mul_sum, Finset.sum_div]
      refine Finset.sum_congr rfl fun i _ => ?_
      rw [Finset.sum_div]
      exact Finset.sum_congr rfl fun j _ => by ring
    rw [this, ← Finset.sum_sub_distrib]
    refine Finset.sum_congr rfl fun i _ => ?_
    rw [← Finset.sum_sub_distrib]
    exact Finset.sum_congr rfl fun j _ => by ring
  rw [e]
  have := h.2 fun k => match k with
    | 0 => -b / Z 0 0
    | k + 1 => v k
  rw [quad_succ n Z h.1] at this
  simp only [← hb] at this
  by_cases h0 : Z 0 0 = 0
  · rw [h0] at this ⊢; simpa using this
  · have e2 : 2 * (-b / Z 0 0) * b + Z 0 0 * (-b / Z 0 0) ^ 2 = -(b * b / Z 0 0) := by field_simp; ring
    linarith

/-- every positive semidefinite matrix is `L Lᵀ` with `L` lower triangular with non-negative diagonal -/
theorem IsPSD.cholesky : ∀ {n : ℕ} {Z : ℕ → ℕ → ℝ}, IsPSD n Z → ∃ L : ℕ → ℕ → ℝ, (∀ i k, i < k → L i k = 0) ∧ (∀ i, 0 ≤ L i i) ∧
    ∀ i < n, ∀ j < n, Z i j = ∑ k ∈ Finset.range n, L i k * L j k := by
  intro n
  induction n with
  | zero => intro Z _; exact ⟨fun _ _ => 0, fun _ _ _ => rfl, fun _ => le_rfl, fun i hi => by omega⟩
  | succ n ih =>
    intro Z h
    obtain ⟨L, h1, h2, h3⟩ := ih h.schur
    have hz := h.first_nonneg
    have hsq : Real.sqrt (Z 0 0) * Real.sqrt (Z 0 0) = Z 0 0 := Real.mul_self_sqrt hz
    refine ⟨fun i k => match i, k with
      | 0, 0 => Real.sqrt (Z 0 0)
      | 0, _ + 1 => 0
      | i + 1, 0 => Z (i + 1) 0 / Real.sqrt (Z 0 0)
      | i + 1, k + 1 => L i k, ?_, ?_, ?_⟩
    · intro i k hik
      cases k with
      | zero => omega
      | succ k =>
        cases i with
        | zero => rfl
        | succ i => exact h1 i k (by omega)
    · intro i
      cases i with
      | zero => exact Real.sqrt_nonneg _
      | succ i => exact h2 i
    · have hcol : ∀ i < n, Z (i + 1) 0 / Real.sqrt (Z 0 0) * Real.sqrt (Z 0 0) = Z (i + 1) 0 := by
        intro i hi
        by_cases h0 : Z 0 0 = 0
        · rw [h.first_zero h0 hi]; simp
        · have : Real.sqrt (Z 0 0) ≠ 0 := fun hh => h0 (by rw [← hsq, hh]; simp)
          field_simp
      intro i hi j hj
      rw [Finset.sum_range_succ']
      cases i with
      | zero =>
        cases j with
        | zero => simp [hsq]
        | succ j =>
          simp only [zero_mul, Finset.sum_const_zero, zero_add]
          rw [mul_comm, hcol j (by omega), h.1 0 (by omega) (j + 1) hj]
      | succ i =>
        cases j with
        | zero =>
          simp only [mul_zero, Finset.sum_const_zero, zero_add]
          rw [hcol i (by omega)]
        | succ j =>
          simp only
          rw [← h3 i (by omega) j (by omega)]
          have : Z (i + 1) 0 / Real.sqrt (Z 0 0) * (Z (j + 1) 0 / Real.sqrt (Z 0 0)) = Z (i + 1) 0 * Z (j + 1) 0 / Z 0 0 := by
            rw [div_mul_div_comm, hsq]
          rw [this]; ring

theorem IsPSD.ppt (n : ℕ) (P : ℕ → ℕ → ℝ) : IsPSD n fun i j => ∑ k ∈ Finset.range n, P i k * P j k := by
  refine ⟨fun i _ j _ => Finset.sum_congr rfl fun k _ => mul_comm _ _, fun v => ?_⟩
  have : ∑ i ∈ Finset.range n, ∑ j ∈ Finset.range n, (∑ k ∈ Finset.range n, P i k * P j k) * v i * v j =
      ∑ k ∈ Finset.range n, (∑ i ∈ Finset.range n, P i k * v i) ^ 2 := by
    have : ∀ k, (∑ i ∈ Finset.range n, P i k * v i) ^ 2 = ∑ i ∈ Finset.range n, ∑ j ∈ Finset.range n, P i k * P j k * v i * v j := by
      intro k
      rw [sq, Finset.sum_mul_sum]
      exact Finset.sum_congr rfl fun i _ => Finset.sum_congr rfl fun j _ => by ring
    simp only [this]
    symm
    rw [Finset.sum_comm]
    refine Finset.sum_congr rfl fun i _ => ?_
    rw [Finset.sum_comm]
    refine Finset.sum_congr rfl fun j _ => ?_
    rw [Finset.sum_mul, Finset.sum_mul]
  rw [this]
  exact Finset.sum_nonneg fun k _ => sq_nonneg _

theorem IsPSD.gram_nonneg {E : Type} [NormedAddCommGroup E] [InnerProductSpace ℝ E] {n : ℕ} {Z : ℕ → ℕ → ℝ} (h : IsPSD n Z) (v : ℕ → E) :
    0 ≤ ∑ i ∈ Finset.range n, ∑ j ∈ Finset.range n, Z i j * ⟪v i, v j⟫_ℝ := by
  obtain ⟨B, -, -, hB⟩ := h.cholesky
  have e : ∑ i ∈ Finset.range n, ∑ j ∈ Finset.range n, Z i j * ⟪v i, v j⟫_ℝ =
      ∑ k ∈ Finset.range n, ⟪∑ i ∈ Finset.range n, B i k • v i, ∑ j ∈ Finset.range n, B j k • v j⟫_ℝ := by
    have : ∀ k, ⟪∑ i ∈ Finset.range n, B i k • v i, ∑ j ∈ Finset.range n, B j k • v j⟫_ℝ =
        ∑ i ∈ Finset.range n, ∑ j ∈ Finset.range n, B i k * B j k * ⟪v i, v j⟫_ℝ := by
      intro k
      rw [sum_inner]
      refine Finset.sum_congr rfl fun i _ => ?_
      rw [inner_sum]
      refine Finset.sum_congr rfl fun j _ => ?_
      rw [real_inner_smul_left, real_inner_smul_right]; ring
    simp only [this]
    symm
    rw [Finset.sum_comm]
    refine Finset.sum_congr rfl fun i hi => ?_
    rw [Finset.sum_comm]
    refine Finset.sum_congr rfl fun j hj => ?_
    rw [hB i (Finset.mem_range.1 hi) j (Finset.mem_range.1 hj), Finset.sum_mul]
  rw [e]
  exact Finset.sum_nonneg fun k _ => real_inner_self_nonneg

end Verif
