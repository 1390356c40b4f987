import Verif.Proofs.ExtraConv
import Verif.Spec.Prox

/-!
# The metric of `decentr_compressed_sensing.py`
-/

namespace Verif
open scoped InnerProductSpace
open Filter (Tendsto atTop)

variable {E : Type} [NormedAddCommGroup E] [InnerProductSpace ℝ E]

theorem halfLaplace_apply (n : ℕ) (W : ℕ → ℕ → ℝ) (y : ℕ → E) (j : ℕ) :
    ∑ l ∈ Finset.range n, halfLaplace W j l • y l = (1 / 2 : ℝ) • PgExtra.laplace n W y j := by
  unfold PgExtra.laplace halfLaplace
  rw [Finset.smul_sum]
  exact Finset.sum_congr rfl fun l _ => by rw [mul_smul]

theorem halfLaplace_symm {n : ℕ} {W : ℕ → ℕ → ℝ} (hs : ∀ j < n, ∀ l < n, W j l = W l j) {j l : ℕ} (hj : j < n) (hl : l < n) :
    halfLaplace W j l = halfLaplace W l j := by
  unfold halfLaplace
  rw [hs j hj l hl]
  simp only [eq_comm]

section svd
variable {n : ℕ} {W U V : ℕ → ℕ → ℝ} {S : ℕ → ℝ} (hW : DoublyStochastic n W) (hs : ∀ j < n, ∀ l < n, W j l = W l j)
  (hsvd : IsSvd n (halfLaplace W) U V S)
include hW hs hsvd

omit hW hs in
theorem svd_right {i : ℕ} (hi : i < n) {j : ℕ} (hj : j < n) : ∑ l ∈ Finset.range n, halfLaplace W j l * V i l = S i * U j i := by
  have h1 : ∀ l ∈ Finset.range n, halfLaplace W j l * V i l = ∑ k ∈ Finset.range n, U j k * S k * (V k l * V i l) := by
    intro l hl
    rw [hsvd.eq j hj l (Finset.mem_range.1 hl), Finset.sum_mul]
    exact Finset.sum_congr rfl fun k _ => by ring
  rw [Finset.sum_congr rfl h1, Finset.sum_comm]
  have h2 : ∀ k ∈ Finset.range n, ∑ l ∈ Finset.range n, U j k * S k * (V k l * V i l) = if k = i then U j i * S i else 0 := by
    intro k hk
    rw [← Finset.mul_sum, hsvd.vRows k (Finset.mem_range.1 hk) i hi]
    split
    · rename_i h; subst h; ring
    · ring
  rw [Finset.sum_congr rfl h2, Finset.sum_ite_eq' (Finset.range n) i, if_pos (Finset.mem_range.2 hi)]
  ring

omit hW in
theorem svd_left {i : ℕ} (hi : i < n) {l : ℕ} (hl : l < n) : ∑ j ∈ Finset.range n, halfLaplace W l j * U j i = S i * V i l := by
  have h1 : ∀ j ∈ Finset.range n, halfLaplace W l j * U j i = ∑ k ∈ Finset.range n, S k * V k l * (U j k * U j i) := by
    intro j hj
    rw [halfLaplace_symm hs hl (Finset.mem_range.1 hj), hsvd.eq j (Finset.mem_range.1 hj) l hl, Finset.sum_mul]
    exact Finset.sum_congr rfl fun k _ => by ring
  rw [Finset.sum_congr rfl h1, Finset.sum_comm]
  have h2 : ∀ k ∈ Finset.range n, ∑ j ∈ Finset.range n, S k * V k l * (U j k * U j i) = if k = i then S i * V i l else 0 := by
    intro k hk
    rw [← Finset.mul_sum, hsvd.uCols k (Finset.mem_range.1 hk) i hi]
    split
    · rename_i h; subst h; ring
    · ring
  rw [Finset.sum_congr rfl h2, Finset.sum_ite_eq' (Finset.range n) i, if_pos (Finset.mem_range.2 hi)]

omit hsvd hs in
theorem halfLaplace_psd (y : ℕ → ℝ) : 0 ≤ ∑ j ∈ Finset.range n, y j * ∑ l ∈ Finset.range n, halfLaplace W j l * y l := by
  have h1 := PgExtra.inner_laplace hW y
  have h2 : ∑ j ∈ Finset.range n, y j * ∑ l ∈ Finset.range n, halfLaplace W j l * y l = 1 / 2 * ∑ j ∈ Finset.range n, ⟪y j, PgExtra.laplace n W y j⟫_ℝ := by
    rw [Finset.mul_sum]
    refine Finset.sum_congr rfl fun j _ => ?_
    have := halfLaplace_apply n W y j
    simp only [smul_eq_mul] at this
    rw [this]
    change _ = 1 / 2 * (PgExtra.laplace n W y j * y j)
    ring
  have h3 : 0 ≤ ∑ j ∈ Finset.range n, ∑ l ∈ Finset.range n, W j l * ‖y j - y l‖ ^ 2 := Finset.sum_nonneg fun j hj => Finset.sum_nonneg fun l hl =>
    mul_nonneg (hW.nonneg j (Finset.mem_range.1 hj) l (Finset.mem_range.1 hl)) (by positivity)
  rw [h2]
  linarith

/-- the rows of `V` are eigenvectors -/
theorem svd_eigen {i : ℕ} (hi : i < n) {j : ℕ} (hj : j < n) : ∑ l ∈ Finset.range n, halfLaplace W j l * V i l = S i * V i j := by
  rcases (hsvd.nonneg i hi).eq_or_lt with h0 | h0
  · rw [svd_right hsvd hi hj, ← h0, zero_mul, zero_mul]
  · -- `y = u_i - v_i` satisfies `A y = -S y`
    have h1 : ∀ j < n, ∑ l ∈ Finset.range n, halfLaplace W j l * (U l i - V i l) = -S i * (U j i - V i j) := by
      intro j hj
      simp only [mul_sub, Finset.sum_sub_distrib]
      rw [svd_left hs hsvd hi hj, svd_right hsvd hi hj]
      ring
    have h2 := halfLaplace_psd hW (fun l => U l i - V i l)
    have h3 : ∑ j ∈ Finset.range n, (U j i - V i j) * ∑ l ∈ Finset.range n, halfLaplace W j l * (U l i - V i l) =
        -S i * ∑ j ∈ Finset.range n, (U j i - V i j) ^ 2 := by
      rw [Finset.mul_sum]
      refine Finset.sum_congr rfl fun j hj => ?_
      rw [h1 j (Finset.mem_range.1 hj)]
      ring
    rw [h3] at h2
    have h4 : 0 ≤ ∑ j ∈ Finset.range n, (U j i - V i j) ^ 2 := Finset.sum_nonneg fun _ _ => by positivity
    have h5 : ∑ j ∈ Finset.range n, (U j i - V i j) ^ 2 = 0 := by nlinarith
    have h6 := (Finset.sum_eq_zero_iff_of_nonneg fun _ _ => by positivity).1 h5 j (Finset.mem_range.2 hj)
    have h7 : U j i = V i j := by
      have : U j i - V i j = 0 := by simpa using h6
      linarith
    rw [svd_right hsvd hi hj, h7]

/-- on a connected network only the last singular value is zero -/
theorem svd_pos (hcon : WeightConnected n W) {i : ℕ} (hi : i + 1 < n) : 0 < S i := by
  refine lt_of_le_of_ne (hsvd.nonneg i (by omega)) fun h0 => ?_
  have const : ∀ k < n, S k = 0 → ∀ j < n, V k j = V k 0 := by
    intro k hk hS j hj
    refine PgExtra.consensus_of_laplace hW hcon (x := fun l => V k l) (fun j hj => ?_) hj (by omega)
    have h1 := halfLaplace_apply n W (fun l => V k l) j
    have h2 := svd_eigen hW hs hsvd hk hj
    simp only [smul_eq_mul] at h1
    rw [h2, hS, zero_mul] at h1
    linarith
  have hl : S (n - 1) = 0 := le_antisymm ((hsvd.sorted i (by omega) (n - 1) (by omega) (by omega)).trans h0.symm.le) (hsvd.nonneg _ (by omega))
  have h1 := const i (by omega) h0.symm
  have h2 := const (n - 1) (by omega) hl
  have e : ∀ a b, a < n → b < n → (∀ j < n, V a j = V a 0) → (∀ j < n, V b j = V b 0) → ∑ l ∈ Finset.range n, V a l * V b l = n * (V a 0 * V b 0) := by
    intro a b _ _ ha hb
    rw [Finset.sum_congr rfl fun l hl => by rw [ha l (Finset.mem_range.1 hl), hb l (Finset.mem_range.1 hl)], Finset.sum_const, Finset.card_range, nsmul_eq_mul]
  have h3 := hsvd.vRows i (by omega) (n - 1) (by omega)
  rw [if_neg (by omega), e i (n - 1) (by omega) (by omega) h1 h2] at h3
  have h4 := hsvd.vRows i (by omega) i (by omega)
  rw [if_pos rfl, e i i (by omega) (by omega) h1 h1] at h4
  have h5 := hsvd.vRows (n - 1) (by omega) (n - 1) (by omega)
  rw [if_pos rfl, e (n - 1) (n - 1) (by omega) (by omega) h2 h2] at h5
  have h6 : (n * (V i 0 * V (n - 1) 0)) ^ 2 = (n * (V i 0 * V i 0)) * (n * (V (n - 1) 0 * V (n - 1) 0)) := by ring
  rw [h3, h4, h5] at h6
  norm_num at h6

theorem svd_zero (hn : 0 < n) : S (n - 1) = 0 := by
  by_contra h0
  have hpos : ∀ i < n, S i ≠ 0 := fun i hi h => h0 (le_antisymm ((hsvd.sorted i hi (n - 1) (by omega) (by omega)).trans h.le) (hsvd.nonneg _ (by omega)))
  have h1 : ∀ i < n, ∑ l ∈ Finset.range n, V i l = 0 := by
    intro i hi
    have h2 : ∑ j ∈ Finset.range n, ∑ l ∈ Finset.range n, halfLaplace W j l * V i l = 0 := by
      rw [Finset.sum_comm]
      refine Finset.sum_eq_zero fun l hl => ?_
      have hl := Finset.mem_range.1 hl
      rw [← Finset.sum_mul]
      have : ∑ j ∈ Finset.range n, halfLaplace W j l = 0 := by
        unfold halfLaplace
        rw [← Finset.mul_sum, Finset.sum_sub_distrib, hW.cols l hl, Finset.sum_ite_eq' (Finset.range n) l, if_pos (Finset.mem_range.2 hl)]
        ring
      rw [this, zero_mul]
    rw [Finset.sum_congr rfl fun j hj => svd_eigen hW hs hsvd hi (Finset.mem_range.1 hj), ← Finset.mul_sum] at h2
    exact (mul_eq_zero.1 h2).resolve_left (hpos i hi)
  have h3 : ∑ l ∈ Finset.range n, ∑ i ∈ Finset.range n, V i 0 * V i l = 1 := by
    rw [Finset.sum_congr rfl fun l hl => hsvd.vCols 0 hn l (Finset.mem_range.1 hl), Finset.sum_ite_eq (Finset.range n) 0, if_pos (Finset.mem_range.2 hn)]
  rw [Finset.sum_comm, Finset.sum_eq_zero fun i hi => by rw [← Finset.mul_sum, h1 i (Finset.mem_range.1 hi), mul_zero]] at h3
  exact zero_ne_one h3

/-- coordinates of an image -/
theorem svd_coord (y : ℕ → E) {i : ℕ} (hi : i < n) :
    ∑ l ∈ Finset.range n, V i l • ((1 / 2 : ℝ) • PgExtra.laplace n W y l) = S i • ∑ l ∈ Finset.range n, V i l • y l := by
  have h1 : ∀ l ∈ Finset.range n, V i l • ((1 / 2 : ℝ) • PgExtra.laplace n W y l) = ∑ k ∈ Finset.range n, (halfLaplace W k l * V i l) • y k := by
    intro l hl
    rw [← halfLaplace_apply, Finset.smul_sum]
    refine Finset.sum_congr rfl fun k hk => ?_
    rw [smul_smul, halfLaplace_symm hs (Finset.mem_range.1 hl) (Finset.mem_range.1 hk), mul_comm]
  rw [Finset.sum_congr rfl h1, Finset.sum_comm, Finset.smul_sum]
  refine Finset.sum_congr rfl fun k hk => ?_
  rw [← Finset.sum_smul, svd_eigen hW hs hsvd hi (Finset.mem_range.1 hk), mul_smul]

omit hW hs in
/-- Parseval for the first rows -/
theorem svd_parseval {N : ℕ} (hN : N ≤ n) (r : ℕ → E) : ∑ j ∈ Finset.range n, ‖∑ i ∈ Finset.range N, V i j • r i‖ ^ 2 = ∑ i ∈ Finset.range N, ‖r i‖ ^ 2 := by
  have h1 : ∀ j, ‖∑ i ∈ Finset.range N, V i j • r i‖ ^ 2 = ∑ i ∈ Finset.range N, ∑ k ∈ Finset.range N, V i j * V k j * ⟪r i, r k⟫_ℝ := by
    intro j
    rw [← real_inner_self_eq_norm_sq, sum_inner]
    refine Finset.sum_congr rfl fun i _ => ?_
    rw [inner_sum]
    refine Finset.sum_congr rfl fun k _ => ?_
    rw [real_inner_smul_left, real_inner_smul_right]
    ring
  simp only [h1]
  rw [Finset.sum_comm]
  refine Finset.sum_congr rfl fun i hi => ?_
  have hi := Finset.mem_range.1 hi
  rw [Finset.sum_comm]
  have h2 : ∀ k ∈ Finset.range N, ∑ j ∈ Finset.range n, V i j * V k j * ⟪r i, r k⟫_ℝ = if i = k then ‖r i‖ ^ 2 else 0 := by
    intro k hk
    rw [← Finset.sum_mul, hsvd.vRows i (by omega) k (by have := Finset.mem_range.1 hk; omega)]
    split
    · rename_i h; subst h; rw [one_mul, real_inner_self_eq_norm_sq]
    · rw [zero_mul]
  rw [Finset.sum_congr rfl h2, Finset.sum_ite_eq (Finset.range N) i, if_pos (Finset.mem_range.2 hi)]

omit hW hs in
theorem svd_parseval_inner (y w : ℕ → E) :
    ∑ i ∈ Finset.range n, ⟪∑ l ∈ Finset.range n, V i l • y l, ∑ l ∈ Finset.range n, V i l • w l⟫_ℝ = ∑ j ∈ Finset.range n, ⟪y j, w j⟫_ℝ := by
  have h1 : ∀ i, ⟪∑ l ∈ Finset.range n, V i l • y l, ∑ l ∈ Finset.range n, V i l • w l⟫_ℝ =
      ∑ j ∈ Finset.range n, ∑ l ∈ Finset.range n, V i j * V i l * ⟪y j, w l⟫_ℝ := by
    intro i
    rw [sum_inner]
    refine Finset.sum_congr rfl fun j _ => ?_
    rw [inner_sum]
    refine Finset.sum_congr rfl fun l _ => ?_
    rw [real_inner_smul_left, real_inner_smul_right]
    ring
  simp only [h1]
  rw [Finset.sum_comm]
  refine Finset.sum_congr rfl fun j hj => ?_
  have hj := Finset.mem_range.1 hj
  rw [Finset.sum_comm]
  have h2 : ∀ l ∈ Finset.range n, ∑ i ∈ Finset.range n, V i j * V i l * ⟪y j, w l⟫_ℝ = if j = l then ⟪y j, w j⟫_ℝ else 0 := by
    intro l hl
    rw [← Finset.sum_mul, hsvd.vCols j hj l (Finset.mem_range.1 hl)]
    split
    · rename_i h; subst h; rw [one_mul]
    · rw [zero_mul]
  rw [Finset.sum_congr rfl h2, Finset.sum_ite_eq (Finset.range n) j, if_pos (Finset.mem_range.2 hj)]

/-- **the value of the metric** on `(x, (I - W) y / 2)` -/
theorem mInner_eq (hcon : WeightConnected n W) (hn : 0 < n) {alpha : ℝ} (ha : 0 < alpha) (x y w : ℕ → E)
    (hw : ∀ j < n, w j = (1 / 2 : ℝ) • PgExtra.laplace n W y j) :
    mInner n V S x w x w alpha = 1 / alpha * (PgExtra.nsq n x - PgExtra.esq n W (PgExtra.diff x) + PgExtra.esq n W (PgExtra.diff (x + y))) := by
  -- the dual part
  have h1 : alpha * ∑ j ∈ Finset.range n, ⟪metricDual n V S alpha w j, metricDual n V S alpha w j⟫_ℝ = 1 / alpha * PgExtra.esq n W (PgExtra.diff y) := by
    have hcoord : ∀ i < n, ∑ l ∈ Finset.range n, V i l • w l = S i • ∑ l ∈ Finset.range n, V i l • y l := by
      intro i hi
      rw [← svd_coord hW hs hsvd y hi]
      exact Finset.sum_congr rfl fun l hl => by rw [hw l (Finset.mem_range.1 hl)]
    have h2 : ∀ j, ⟪metricDual n V S alpha w j, metricDual n V S alpha w j⟫_ℝ = (1 / alpha) ^ 2 *
        ‖∑ i ∈ Finset.range (n - 1), V i j • ((1 / Real.sqrt (S i)) • ∑ l ∈ Finset.range n, V i l • w l)‖ ^ 2 := by
      intro j
      rw [real_inner_self_eq_norm_sq, metricDual, norm_smul, mul_pow, Real.norm_eq_abs, sq_abs]
    simp only [h2]
    rw [← Finset.mul_sum, svd_parseval hsvd (by omega)]
    have h3 : ∀ i ∈ Finset.range (n - 1), ‖(1 / Real.sqrt (S i)) • ∑ l ∈ Finset.range n, V i l • w l‖ ^ 2 =
        ⟪∑ l ∈ Finset.range n, V i l • y l, ∑ l ∈ Finset.range n, V i l • w l⟫_ℝ := by
      intro i hi
      have hi := Finset.mem_range.1 hi
      have hp := svd_pos hW hs hsvd hcon (i := i) (by omega)
      rw [hcoord i (by omega), real_inner_smul_right, real_inner_self_eq_norm_sq, norm_smul, norm_smul, Real.norm_eq_abs, Real.norm_eq_abs, mul_pow, mul_pow,
        sq_abs, sq_abs, div_pow, Real.sq_sqrt hp.le]
      field_simp
    have h4 : ∑ i ∈ Finset.range (n - 1), ⟪∑ l ∈ Finset.range n, V i l • y l, ∑ l ∈ Finset.range n, V i l • w l⟫_ℝ =
        ∑ i ∈ Finset.range n, ⟪∑ l ∈ Finset.range n, V i l • y l, ∑ l ∈ Finset.range n, V i l • w l⟫_ℝ := by
      obtain ⟨m, rfl⟩ : ∃ m, n = m + 1 := ⟨n - 1, by omega⟩
      have h0 := svd_zero hW hs hsvd hn
      rw [Nat.add_sub_cancel] at h0 ⊢
      rw [Finset.sum_range_succ, hcoord m (by omega), h0, zero_smul, inner_zero_right, add_zero]
    rw [Finset.sum_congr rfl h3, h4, svd_parseval_inner hsvd]
    have h5 := PgExtra.sum_inner_laplace hs hW.rows y y
    have h6 : ∑ j ∈ Finset.range n, ⟪y j, w j⟫_ℝ = PgExtra.esq n W (PgExtra.diff y) := by
      rw [show PgExtra.esq n W (PgExtra.diff y) = wip (PgExtra.pairs n) (PgExtra.pw W) (PgExtra.diff y) (PgExtra.diff y) by
        unfold PgExtra.esq wsq wip
        exact Finset.sum_congr rfl fun p _ => by rw [real_inner_self_eq_norm_sq], ← h5]
      exact Finset.sum_congr rfl fun j hj => by rw [hw j (Finset.mem_range.1 hj), real_inner_comm]
    rw [h6]
    field_simp
  have h7 := PgExtra.sum_inner_laplace hs hW.rows y x
  have h8 : ∑ j ∈ Finset.range n, ⟪w j, x j⟫_ℝ = wip (PgExtra.pairs n) (PgExtra.pw W) (PgExtra.diff y) (PgExtra.diff x) := by
    rw [← h7]
    exact Finset.sum_congr rfl fun j hj => by rw [hw j (Finset.mem_range.1 hj)]
  have h9 : ∑ j ∈ Finset.range n, ⟪x j, w j⟫_ℝ = ∑ j ∈ Finset.range n, ⟪w j, x j⟫_ℝ := Finset.sum_congr rfl fun j _ => real_inner_comm _ _
  have h10 : ∑ j ∈ Finset.range n, ⟪x j, x j⟫_ℝ = PgExtra.nsq n x := by
    rw [PgExtra.nsq_eq]
    exact Finset.sum_congr rfl fun j _ => real_inner_self_eq_norm_sq _
  have h11 := wip_add_sq (PgExtra.pairs n) (PgExtra.pw W) (PgExtra.diff y) (PgExtra.diff x)
  have h12 : PgExtra.diff (x + y) = PgExtra.diff y + PgExtra.diff x := by
    funext p
    simp only [PgExtra.diff, Pi.add_apply]
    abel
  unfold mInner
  rw [h1, h9, h8, h10, h12]
  unfold PgExtra.esq
  linear_combination 1 / alpha * h11

end svd

/-! ### The steps shrink -/

namespace PgExtra
variable {n : ℕ} {W : ℕ → ℕ → ℝ} {b c rho L kap : ℝ} {F : ℕ → CFun E} {H : ℕ → E → ℝ} {gr : ℕ → E → E} {x : ℕ → ℕ → E} {xh : E} {gh : ℕ → E}
  {Ih : ℕ → ℕ → E}

/-- the squared size of a step -/
noncomputable def stepSq (n : ℕ) (W : ℕ → ℕ → ℝ) (b c : ℝ) (x : ℕ → ℕ → E) (k : ℕ) : ℝ :=
  nsq n (x (k + 1) - x k) - b * esq n W (diff (x (k + 1) - x k)) + 2 * c * esq n W (diff (x (k + 1)))

variable (hC : Conv n W b c rho L kap F H gr x xh gh Ih)
include hC

theorem Conv.stepSq_ge (k : ℕ) : kap * nsq n (x (k + 1) - x k) + 2 * c * esq n W (diff (x (k + 1))) ≤ stepSq n W b c x k := by
  have h7 := hC.form (x (k + 1) - x k)
  rw [← nsq_eq] at h7
  unfold stepSq
  linarith

theorem Conv.stepSq_nonneg (k : ℕ) : 0 ≤ stepSq n W b c x k := by
  have h1 := hC.stepSq_ge k
  have h2 := mul_nonneg hC.kap_pos'.le (nsq_nonneg (n := n) (x (k + 1) - x k))
  have h3 := mul_nonneg hC.c_pos.le (hC.esq_nonneg (diff (x (k + 1))))
  linarith

/-- cocoercivity between consecutive points -/
theorem Conv.smooth_gap_step (k : ℕ) : -(L / 4) * nsq n ((x (k + 1) - x k) - (x (k + 2) - x (k + 1))) ≤
    ∑ j ∈ Finset.range n, ⟪gr j (x (k + 1) j) - gr j (x k j), x (k + 2) j - x (k + 1) j⟫_ℝ := by
  rw [nsq_eq, Finset.mul_sum]
  refine Finset.sum_le_sum fun j hj => ?_
  have hj := Finset.mem_range.1 hj
  have up := descent (hC.convex j hj).2 (hC.lip j hj)
  have lo : ∀ x y, H j x + ⟪gr j x, y - x⟫_ℝ + (0 : ℝ) / 2 * ‖y - x‖ ^ 2 ≤ H j y := fun x y => by
    have := ConvexGradient.le (hC.convex j hj) x y
    linarith
  have h1 := smooth_strong hC.L_pos lo up (x (k + 1) j) (x k j)
  have h2 := smooth_strong hC.L_pos lo up (x k j) (x (k + 1) j)
  simp only [zero_smul, sub_zero, zero_div, zero_mul, add_zero] at h1 h2
  set d := gr j (x (k + 1) j) - gr j (x k j) with hd
  have e1 : gr j (x k j) - gr j (x (k + 1) j) = -d := by rw [hd]; abel
  rw [e1, norm_neg] at h2
  have h3 : 1 / L * ‖d‖ ^ 2 ≤ ⟪d, x (k + 1) j - x k j⟫_ℝ := by
    have e2 : ⟪d, x (k + 1) j - x k j⟫_ℝ = -⟪gr j (x k j), x (k + 1) j - x k j⟫_ℝ - ⟪gr j (x (k + 1) j), x k j - x (k + 1) j⟫_ℝ := by
      rw [hd, inner_sub_left, ← neg_sub (x k j) (x (k + 1) j), inner_neg_right]
      ring
    have e3 : 1 / (2 * L) * ‖d‖ ^ 2 = 1 / L * ‖d‖ ^ 2 / 2 := by
      have := hC.L_pos.ne'
      field_simp
    rw [e2]
    linarith
  have h4 : ⟪d, x (k + 2) j - x (k + 1) j⟫_ℝ = ⟪d, x (k + 1) j - x k j⟫_ℝ - ⟪d, (x (k + 1) j - x k j) - (x (k + 2) j - x (k + 1) j)⟫_ℝ := by
    rw [← inner_sub_right]
    congr 1
    abel
  simp only [Pi.sub_apply]
  rw [h4]
  generalize (x (k + 1) j - x k j) - (x (k + 2) j - x (k + 1) j) = v
  have h5 : ⟪d, v⟫_ℝ ≤ ‖d‖ * ‖v‖ := real_inner_le_norm _ _
  have h6 : ‖d‖ * ‖v‖ ≤ 1 / L * ‖d‖ ^ 2 + L / 4 * ‖v‖ ^ 2 := by
    have hL := hC.L_pos
    have h8 : 1 / L * ‖d‖ ^ 2 + L / 4 * ‖v‖ ^ 2 - ‖d‖ * ‖v‖ = 1 / L * (‖d‖ - L / 2 * ‖v‖) ^ 2 := by
      field_simp
      ring
    have h9 : 0 ≤ 1 / L * (‖d‖ - L / 2 * ‖v‖) ^ 2 := by positivity
    linarith
  linarith

/-- the steps do not grow -/
theorem Conv.stepSq_anti (k : ℕ) : stepSq n W b c x (k + 1) ≤ stepSq n W b c x k := by
  -- monotonicity of the nonsmooth parts
  set p := x (k + 1) - x k with hp
  set q := x (k + 2) - x (k + 1) with hq
  have m1 : 0 ≤ ∑ j ∈ Finset.range n, ⟪rho⁻¹ • (x (k + 1) j - (b / 2) • laplace n W (x (k + 1)) j -
      c • laplace n W (fun l => ∑ t ∈ Finset.range (k + 1 + 1), x t l) j - rho • gr j (x (k + 1) j) - x (k + 1 + 1) j) -
      rho⁻¹ • (x k j - (b / 2) • laplace n W (x k) j - c • laplace n W (fun l => ∑ t ∈ Finset.range (k + 1), x t l) j - rho • gr j (x k j) -
        x (k + 1) j), q j⟫_ℝ := by
    refine Finset.sum_nonneg fun j hj => ?_
    have hj := Finset.mem_range.1 hj
    obtain ⟨h1, -, h2⟩ := hC.step k j hj
    obtain ⟨h3, -, h4⟩ := hC.step (k + 1) j hj
    have h5 := h2 _ h3
    have h6 := h4 _ h1
    have e : q j = x (k + 1 + 1) j - x (k + 1) j := rfl
    rw [inner_sub_left, e]
    rw [← neg_sub (x (k + 1 + 1) j) (x (k + 1) j), inner_neg_right] at h6
    linarith
  have s1 := hC.pair_step (k + 1) q
  have s2 := hC.pair_step k q
  have m2 : 0 ≤ (nip n (x (k + 1) - x (k + 2)) q - b * eip n W (diff (x (k + 1))) (diff q) - 2 * c * eip n W (cur x (k + 2)) (diff q) -
      rho * ∑ j ∈ Finset.range n, ⟪gr j (x (k + 1) j), q j⟫_ℝ) -
      (nip n (x k - x (k + 1)) q - b * eip n W (diff (x k)) (diff q) - 2 * c * eip n W (cur x (k + 1)) (diff q) -
      rho * ∑ j ∈ Finset.range n, ⟪gr j (x k j), q j⟫_ℝ) := by
    simp only [inner_sub_left (𝕜 := ℝ), real_inner_smul_left, Finset.sum_sub_distrib, ← Finset.mul_sum] at m1 s1 s2
    rw [← s1, ← s2]
    have hr := hC.rho_pos
    have h7 := mul_nonneg hr.le m1
    rw [mul_sub, mul_inv_cancel_left₀ hr.ne', mul_inv_cancel_left₀ hr.ne'] at h7
    exact h7
  have hg := hC.smooth_gap_step k
  rw [← hp, ← hq] at hg
  -- expansions
  have a1 : nip n (x (k + 1) - x (k + 2)) q = -nsq n q := by
    rw [nip_eq, nsq_eq, ← Finset.sum_neg_distrib]
    refine Finset.sum_congr rfl fun j _ => ?_
    rw [show (x (k + 1) - x (k + 2)) j = -q j by simp [hq], inner_neg_left, real_inner_self_eq_norm_sq]
  have a2 : nip n (x k - x (k + 1)) q = -nip n p q := by
    rw [nip_eq, nip_eq, ← Finset.sum_neg_distrib]
    refine Finset.sum_congr rfl fun j _ => ?_
    rw [show (x k - x (k + 1)) j = -p j by simp [hp], inner_neg_left]
  have a3 := wip_sub_left (pairs n) (pw W) (diff (x (k + 1))) (diff (x k)) (diff q)
  rw [← diff_sub, ← hp] at a3
  have a4 := wip_sub_left (pairs n) (pw W) (cur x (k + 2)) (cur x (k + 1)) (diff q)
  rw [cur_succ x (k + 1), add_sub_cancel_left, ← cur_succ x (k + 1)] at a4
  have a5 := wip_sub_sq (Finset.range n) (fun _ => (1 : ℝ)) p q
  have a6 := wip_sub_sq (pairs n) (pw W) (diff p) (diff q)
  rw [← diff_sub] at a6
  have a7 := wip_add_sq (pairs n) (pw W) (diff (x (k + 1))) (diff q)
  have a8 : diff (x (k + 1)) + diff q = diff (x (k + 2)) := by
    funext t
    simp only [diff, hq, Pi.add_apply, Pi.sub_apply]
    abel
  rw [a8] at a7
  have a9 := hC.form (p - q)
  rw [← nsq_eq] at a9
  have a10 := mul_le_mul_of_nonneg_left hg hC.rho_pos.le
  have a11 : ∑ j ∈ Finset.range n, ⟪gr j (x (k + 1) j) - gr j (x k j), x (k + 2) j - x (k + 1) j⟫_ℝ =
      ∑ j ∈ Finset.range n, ⟪gr j (x (k + 1) j), q j⟫_ℝ - ∑ j ∈ Finset.range n, ⟪gr j (x k j), q j⟫_ℝ := by
    rw [← Finset.sum_sub_distrib]
    exact Finset.sum_congr rfl fun j _ => by rw [inner_sub_left]; rfl
  rw [a11] at a10
  have a12 := mul_nonneg (sub_nonneg.2 hC.gain.le) (hC.esq_nonneg (diff q))
  have a13 : rho * L / 2 * nsq n (p - q) ≤ kap * nsq n (p - q) := mul_le_mul_of_nonneg_right hC.kap_pos.le (nsq_nonneg _)
  unfold stepSq
  rw [← hp, show x (k + 1 + 1) - x (k + 1) = q from rfl]
  rw [a1, a2] at m2
  unfold eip nip at m2
  unfold esq nsq at *
  have b3 := congrArg (b * ·) a3
  have b4 := congrArg (c * ·) a4
  have b6 := congrArg (b * ·) a6
  have b7 := congrArg (c * ·) a7
  linarith

/-- sums of the squared steps are bounded -/
theorem Conv.stepSq_sum : ∃ B, ∀ m, ∑ k ∈ Finset.range m, stepSq n W b c x k ≤ B := by
  have hpos : 0 < kap - rho * L / 2 := by linarith [hC.kap_pos]
  have hgain : 0 < b - c := by linarith [hC.gain]
  have hc := hC.c_pos
  refine ⟨(2 / (kap - rho * L / 2) + 2 * c / (b - c)) * energy n W b c x xh Ih 0, fun m => ?_⟩
  have hM : 0 < 2 / (kap - rho * L / 2) + 2 * c / (b - c) := by positivity
  rw [← div_le_iff₀' hM, Finset.sum_div]
  refine hC.sum_part (fun k => ?_) m
  rw [div_le_iff₀' hM]
  obtain ⟨h3, h4, h5⟩ := hC.terms_nonneg k
  have e1 : nsq n (x (k + 1) - x k) = nsq n (x k - x (k + 1)) := by
    rw [nsq_eq, nsq_eq]
    exact Finset.sum_congr rfl fun j _ => by rw [Pi.sub_apply, Pi.sub_apply, norm_sub_rev]
  have h6 : stepSq n W b c x k ≤ nsq n (x k - x (k + 1)) + 2 * c * esq n W (diff (x (k + 1))) := by
    have := mul_nonneg (by linarith : 0 ≤ b) (hC.esq_nonneg (diff (x (k + 1) - x k)))
    unfold stepSq
    rw [e1]
    linarith
  refine h6.trans ?_
  have h7 : nsq n (x k - x (k + 1)) = 2 / (kap - rho * L / 2) * (1 / 2 * (kap - rho * L / 2) * nsq n (x k - x (k + 1))) := by
    rw [← mul_assoc, show 2 / (kap - rho * L / 2) * (1 / 2 * (kap - rho * L / 2)) = 2 * (1 / 2) * ((kap - rho * L / 2) / (kap - rho * L / 2)) by ring,
      div_self hpos.ne']
    ring
  have h8 : 2 * c * esq n W (diff (x (k + 1))) = 2 * c / (b - c) * ((b - c) * esq n W (diff (x (k + 1)))) := by field_simp
  have i1 : 0 ≤ 2 / (kap - rho * L / 2) := by positivity
  have i2 : 0 ≤ 2 * c / (b - c) := by positivity
  rw [add_mul]
  refine add_le_add (h7.le.trans (mul_le_mul_of_nonneg_left (by linarith) i1)) (h8.le.trans (mul_le_mul_of_nonneg_left (by linarith) i2))

end PgExtra
end Verif
