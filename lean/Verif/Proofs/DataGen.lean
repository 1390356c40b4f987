import Verif.Spec.DataGen
import Mathlib.Algebra.Order.BigOperators.Ring.Finset

/-!
# Matrices as maps, and the generated data
-/

namespace Verif
open scoped InnerProductSpace

theorem vec_inner {m : ℕ} (x y : Vec m) : ⟪x, y⟫_ℝ = ∑ i, x i * y i := by
  rw [PiLp.inner_apply]
  exact Finset.sum_congr rfl fun i _ => by simp [mul_comm]

theorem vec_norm_sq {m : ℕ} (x : Vec m) : ‖x‖ ^ 2 = ∑ i, x i ^ 2 := by
  rw [EuclideanSpace.norm_sq_eq]
  simp

@[simp] theorem matMap_apply {q m : ℕ} (M : Matrix (Fin q) (Fin m) ℝ) (x : Vec m) (r : Fin q) : matMap M x r = ∑ i, M r i * x i := rfl

theorem matMap_adjoint {q m : ℕ} (M : Matrix (Fin q) (Fin m) ℝ) (x : Vec m) (s : Vec q) : ⟪matMap M.transpose s, x⟫_ℝ = ⟪s, matMap M x⟫_ℝ := by
  simp only [vec_inner, matMap_apply, Matrix.transpose_apply, Finset.sum_mul, Finset.mul_sum]
  rw [Finset.sum_comm]
  exact Finset.sum_congr rfl fun _ _ => Finset.sum_congr rfl fun _ _ => by ring

theorem matMap_mul {p q m : ℕ} (M : Matrix (Fin p) (Fin q) ℝ) (N : Matrix (Fin q) (Fin m) ℝ) (x : Vec m) : matMap (M * N) x = matMap M (matMap N x) := by
  ext r
  simp only [matMap_apply, Matrix.mul_apply, Finset.sum_mul, Finset.mul_sum]
  rw [Finset.sum_comm]
  exact Finset.sum_congr rfl fun _ _ => Finset.sum_congr rfl fun _ _ => by ring

theorem matMap_smul {q m : ℕ} (c : ℝ) (M : Matrix (Fin q) (Fin m) ℝ) (x : Vec m) : matMap (c • M) x = c • matMap M x := by
  ext r
  simp [Finset.mul_sum, mul_assoc]

theorem matMap_one {m : ℕ} (x : Vec m) : matMap (1 : Matrix (Fin m) (Fin m) ℝ) x = x := by
  ext r
  simp [Matrix.one_apply]

theorem matMap_norm_sq {q m : ℕ} (M : Matrix (Fin q) (Fin m) ℝ) (x : Vec m) : ‖matMap M x‖ ^ 2 ≤ sumSq M * ‖x‖ ^ 2 := by
  rw [vec_norm_sq, vec_norm_sq, sumSq, Finset.sum_mul]
  exact Finset.sum_le_sum fun r _ => by
    rw [matMap_apply]
    exact Finset.sum_mul_sq_le_sq_mul_sq Finset.univ (fun i => M r i) (fun i => x i)

theorem sumSq_nonneg {q m : ℕ} (M : Matrix (Fin q) (Fin m) ℝ) : 0 ≤ sumSq M := Finset.sum_nonneg fun _ _ => Finset.sum_nonneg fun _ _ => by positivity

theorem sumSq_transpose {q m : ℕ} (M : Matrix (Fin q) (Fin m) ℝ) : sumSq M.transpose = sumSq M := Finset.sum_comm

theorem matMap_norm {q m : ℕ} (M : Matrix (Fin q) (Fin m) ℝ) (x : Vec m) : ‖matMap M x‖ ≤ Real.sqrt (sumSq M) * ‖x‖ := by
  rw [← Real.sqrt_sq (norm_nonneg x), ← Real.sqrt_mul (sumSq_nonneg M)]
  exact Real.le_sqrt_of_sq_le (matMap_norm_sq M x)

/-- `Sᵀ S` -/
theorem gram_inner {q m : ℕ} (S : Matrix (Fin q) (Fin m) ℝ) (x y : Vec m) : ⟪matMap (S.transpose * S) x, y⟫_ℝ = ⟪matMap S x, matMap S y⟫_ℝ := by
  rw [matMap_mul, matMap_adjoint]

theorem gram_norm {q m : ℕ} (S : Matrix (Fin q) (Fin m) ℝ) (x : Vec m) : ‖matMap (S.transpose * S) x‖ ≤ sumSq S * ‖x‖ := by
  rw [matMap_mul]
  refine (matMap_norm _ _).trans ?_
  rw [sumSq_transpose]
  have h := mul_le_mul_of_nonneg_left (matMap_norm S x) (Real.sqrt_nonneg (sumSq S))
  rwa [← mul_assoc, Real.mul_self_sqrt (sumSq_nonneg S)] at h

/-! ### The blocks -/

section blocks
variable {m : ℕ} {ns q : ℕ}

theorem blockNorm_congr {A B : ℕ → Fin m → ℝ} {ii : ℕ} (h : ∀ r, q * ii ≤ r → r < q * (ii + 1) → A r = B r) : blockNorm ns q A ii = blockNorm ns q B ii := by
  unfold blockNorm
  congr 1
  refine Finset.sum_congr rfl fun r hr => ?_
  rw [Finset.mem_filter] at hr
  rw [h r hr.2.1 hr.2.2]

/-- two blocks that share a row are the same -/
theorem block_unique {i j r : ℕ} (h1 : q * i ≤ r) (h2 : r < q * (i + 1)) (h3 : q * j ≤ r) (h4 : r < q * (j + 1)) : i = j := by
  by_contra h
  rcases Nat.lt_or_gt_of_ne h with h | h
  · have := Nat.mul_le_mul_left q (show i + 1 ≤ j from h)
    omega
  · have := Nat.mul_le_mul_left q (show j + 1 ≤ i from h)
    omega

/-- each block is divided by its own norm, whatever the number of nodes -/
theorem normalizeBlocks_eq (n : ℕ) (A : ℕ → Fin m → ℝ) (r : ℕ) (i : Fin m) :
    (∀ j < n, r < ns → q * j ≤ r → r < q * (j + 1) → normalizeBlocks ns q n A r i = A r i / blockNorm ns q A j) ∧
      ((∀ j < n, r < ns → ¬(q * j ≤ r ∧ r < q * (j + 1))) → normalizeBlocks ns q n A r i = A r i) := by
  induction n generalizing r i with
  | zero => exact ⟨fun j hj => absurd hj (Nat.not_lt_zero _), fun _ => rfl⟩
  | succ n ih =>
    have hs : normalizeBlocks ns q (n + 1) A = normalizeBlock ns q (normalizeBlocks ns q n A) n := by
      unfold normalizeBlocks
      rw [List.range_succ, List.foldl_append]
      rfl
    have hold : ∀ r, q * n ≤ r → r < q * (n + 1) → normalizeBlocks ns q n A r = A r := by
      intro r h1 h2
      funext i
      exact (ih r i).2 fun j hj _ h => absurd (block_unique h1 h2 h.1 h.2) (by omega)
    refine ⟨fun j hj hr h1 h2 => ?_, fun h => ?_⟩
    · rw [hs]
      unfold normalizeBlock
      by_cases hjn : j = n
      · subst hjn
        rw [if_pos ⟨hr, h1, h2⟩, hold r h1 h2, blockNorm_congr hold]
      · rw [if_neg fun ⟨_, h3, h4⟩ => hjn (block_unique h1 h2 h3 h4)]
        exact (ih r i).1 j (by omega) hr h1 h2
    · rw [hs]
      unfold normalizeBlock
      rw [if_neg fun ⟨h1, h2⟩ => h n (by omega) h1 h2]
      exact (ih r i).2 fun j hj => h j (by omega)

/-- the rows of a block, counted from zero -/
theorem block_sum (f : ℕ → ℝ) {j : ℕ} (h : q * (j + 1) ≤ ns) :
    ∑ r ∈ (Finset.range ns).filter (fun r => q * j ≤ r ∧ r < q * (j + 1)), f r = ∑ r : Fin q, f (j * q + r) := by
  rw [Fin.sum_univ_eq_sum_range (fun r => f (j * q + r)) q]
  refine (Finset.sum_bij (fun r _ => j * q + r) ?_ ?_ ?_ fun _ _ => rfl).symm
  · intro r hr
    rw [Finset.mem_range] at hr
    rw [Finset.mem_filter, Finset.mem_range, Nat.mul_add, Nat.mul_comm q j]
    rw [Nat.mul_add, Nat.mul_comm q j] at h
    omega
  · intro a _ b _ hab
    omega
  · intro r hr
    rw [Finset.mem_filter, Finset.mem_range, Nat.mul_add, Nat.mul_comm q j] at hr
    exact ⟨r - j * q, by rw [Finset.mem_range]; omega, by omega⟩

end blocks
end Verif
