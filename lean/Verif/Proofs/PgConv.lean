import Verif.Proofs.PgExtra
import Verif.Proofs.DadmmConv

/-!
# PG-EXTRA: energy decrease and limits
-/

namespace Verif
open scoped InnerProductSpace

variable {E : Type} [NormedAddCommGroup E] [InnerProductSpace ℝ E]

/-! ### Weighted sums of inner products -/

section wip
variable {ι : Type}

noncomputable def wip (S : Finset ι) (w : ι → ℝ) (f g : ι → E) : ℝ := ∑ i ∈ S, w i * ⟪f i, g i⟫_ℝ

noncomputable def wsq (S : Finset ι) (w : ι → ℝ) (f : ι → E) : ℝ := ∑ i ∈ S, w i * ‖f i‖ ^ 2

variable (S : Finset ι) (w : ι → ℝ)

theorem wip_three (a b c : ι → E) : 2 * wip S w (a - b) (b - c) = wsq S w (a - c) - wsq S w (a - b) - wsq S w (b - c) := by
  unfold wip wsq
  rw [Finset.mul_sum, ← Finset.sum_sub_distrib, ← Finset.sum_sub_distrib]
  refine Finset.sum_congr rfl fun i _ => ?_
  have h : (a - c) i = (a - b) i + (b - c) i := by simp
  rw [h, norm_add_sq_real]
  ring

theorem wip_sub_sq (a b : ι → E) : 2 * wip S w a b = wsq S w a + wsq S w b - wsq S w (a - b) := by
  unfold wip wsq
  rw [Finset.mul_sum, ← Finset.sum_add_distrib, ← Finset.sum_sub_distrib]
  refine Finset.sum_congr rfl fun i _ => ?_
  rw [Pi.sub_apply, norm_sub_sq_real]
  ring

theorem wip_add_sq (a b : ι → E) : 2 * wip S w a b = wsq S w (a + b) - wsq S w a - wsq S w b := by
  unfold wip wsq
  rw [Finset.mul_sum, ← Finset.sum_sub_distrib, ← Finset.sum_sub_distrib]
  refine Finset.sum_congr rfl fun i _ => ?_
  rw [Pi.add_apply, norm_add_sq_real]
  ring

theorem wip_sub_left (a b c : ι → E) : wip S w (a - b) c = wip S w a c - wip S w b c := by
  unfold wip
  rw [← Finset.sum_sub_distrib]
  refine Finset.sum_congr rfl fun i _ => ?_
  rw [Pi.sub_apply, inner_sub_left]
  ring

variable {S w}

theorem wsq_nonneg (hw : ∀ i ∈ S, 0 ≤ w i) (f : ι → E) : 0 ≤ wsq S w f :=
  Finset.sum_nonneg fun i hi => mul_nonneg (hw i hi) (by positivity)

theorem wip_sq_le (hw : ∀ i ∈ S, 0 ≤ w i) (f g : ι → E) : wip S w f g ^ 2 ≤ wsq S w f * wsq S w g := by
  have h1 : |wip S w f g| ≤ ∑ i ∈ S, (Real.sqrt (w i) * ‖f i‖) * (Real.sqrt (w i) * ‖g i‖) := by
    refine (Finset.abs_sum_le_sum_abs _ _).trans (Finset.sum_le_sum fun i hi => ?_)
    rw [abs_mul, abs_of_nonneg (hw i hi)]
    have h2 : w i * |⟪f i, g i⟫_ℝ| ≤ w i * (‖f i‖ * ‖g i‖) := mul_le_mul_of_nonneg_left (abs_real_inner_le_norm _ _) (hw i hi)
    have h3 : Real.sqrt (w i) * Real.sqrt (w i) = w i := Real.mul_self_sqrt (hw i hi)
    calc w i * |⟪f i, g i⟫_ℝ| ≤ w i * (‖f i‖ * ‖g i‖) := h2
      _ = (Real.sqrt (w i) * Real.sqrt (w i)) * (‖f i‖ * ‖g i‖) := by rw [h3]
      _ = _ := by ring
  have h4 := Finset.sum_mul_sq_le_sq_mul_sq S (fun i => Real.sqrt (w i) * ‖f i‖) (fun i => Real.sqrt (w i) * ‖g i‖)
  have h5 : ∀ f : ι → E, ∑ i ∈ S, (Real.sqrt (w i) * ‖f i‖) ^ 2 = wsq S w f := fun f =>
    Finset.sum_congr rfl fun i hi => by rw [mul_pow, Real.sq_sqrt (hw i hi)]
  rw [h5, h5] at h4
  calc wip S w f g ^ 2 = |wip S w f g| ^ 2 := (sq_abs _).symm
    _ ≤ _ := pow_le_pow_left₀ (abs_nonneg _) h1 2
    _ ≤ _ := h4

theorem wip_tendsto (hw : ∀ i ∈ S, 0 ≤ w i) {f g : ℕ → ι → E} {B : ℝ} (hf : ∀ k, wsq S w (f k) ≤ B)
    (hg : Filter.Tendsto (fun k => wsq S w (g k)) Filter.atTop (nhds 0)) :
    Filter.Tendsto (fun k => wip S w (f k) (g k)) Filter.atTop (nhds 0) := by
  have h1 : Filter.Tendsto (fun k => Real.sqrt (B * wsq S w (g k))) Filter.atTop (nhds 0) := by
    simpa using (hg.const_mul B).sqrt
  refine squeeze_zero_norm (fun k => ?_) h1
  rw [Real.norm_eq_abs]
  refine Real.le_sqrt_of_sq_le ?_
  rw [sq_abs]
  exact (wip_sq_le hw _ _).trans (mul_le_mul_of_nonneg_right (hf k) (wsq_nonneg hw _))

end wip

namespace PgExtra

/-- pairs of nodes -/
def pairs (n : ℕ) : Finset (ℕ × ℕ) := Finset.range n ×ˢ Finset.range n

/-- a quarter of the weight of a pair -/
noncomputable def pw (W : ℕ → ℕ → ℝ) (p : ℕ × ℕ) : ℝ := W p.1 p.2 / 4

/-- differences of the values at two nodes -/
def diff (x : ℕ → E) (p : ℕ × ℕ) : E := x p.1 - x p.2

theorem diff_sub (x y : ℕ → E) : diff (x - y) = diff x - diff y := by
  funext p
  simp only [diff, Pi.sub_apply]
  abel

theorem diff_const (v : E) : diff (fun _ => v) = 0 := by
  funext p
  simp [diff]

variable {n : ℕ} {W : ℕ → ℕ → ℝ}

/-- summation by parts -/
theorem sum_inner_flow (hs : ∀ j < n, ∀ l < n, W j l = W l j) {I : ℕ → ℕ → E} (hI : ∀ j < n, ∀ l < n, I j l + I l j = 0) (y : ℕ → E) :
    ∑ j ∈ Finset.range n, ⟪(1 / 2 : ℝ) • ∑ l ∈ Finset.range n, W j l • I j l, y j⟫_ℝ = wip (pairs n) (pw W) (fun p => I p.1 p.2) (diff y) := by
  unfold wip pairs pw diff
  rw [Finset.sum_product]
  have h1 : ∀ j, ⟪(1 / 2 : ℝ) • ∑ l ∈ Finset.range n, W j l • I j l, y j⟫_ℝ = ∑ l ∈ Finset.range n, W j l / 2 * ⟪I j l, y j⟫_ℝ := by
    intro j
    rw [real_inner_smul_left, sum_inner, Finset.mul_sum]
    refine Finset.sum_congr rfl fun l _ => ?_
    rw [real_inner_smul_left]
    ring
  simp only [h1, inner_sub_right, mul_sub, Finset.sum_sub_distrib]
  have h2 : ∑ j ∈ Finset.range n, ∑ l ∈ Finset.range n, W j l / 4 * ⟪I j l, y l⟫_ℝ =
      - ∑ j ∈ Finset.range n, ∑ l ∈ Finset.range n, W j l / 4 * ⟪I j l, y j⟫_ℝ := by
    rw [Finset.sum_comm, ← Finset.sum_neg_distrib]
    refine Finset.sum_congr rfl fun j hj => ?_
    rw [← Finset.sum_neg_distrib]
    refine Finset.sum_congr rfl fun l hl => ?_
    have := hI l (Finset.mem_range.1 hl) j (Finset.mem_range.1 hj)
    rw [hs l (Finset.mem_range.1 hl) j (Finset.mem_range.1 hj), eq_neg_of_add_eq_zero_left this, inner_neg_left]
    ring
  rw [h2, sub_neg_eq_add, ← two_mul, Finset.mul_sum]
  refine Finset.sum_congr rfl fun j _ => ?_
  rw [Finset.mul_sum]
  refine Finset.sum_congr rfl fun l _ => ?_
  ring

theorem sum_inner_laplace (hs : ∀ j < n, ∀ l < n, W j l = W l j) (hr : ∀ j < n, ∑ l ∈ Finset.range n, W j l = 1) (s y : ℕ → E) :
    ∑ j ∈ Finset.range n, ⟪(1 / 2 : ℝ) • laplace n W s j, y j⟫_ℝ = wip (pairs n) (pw W) (diff s) (diff y) := by
  have := sum_inner_flow hs (I := fun j l => s j - s l) (fun j _ l _ => by abel) y
  rw [show (fun p : ℕ × ℕ => s p.1 - s p.2) = diff s from rfl] at this
  rw [← this]
  exact Finset.sum_congr rfl fun j hj => by rw [laplace_eq hr s (Finset.mem_range.1 hj)]

/-- what an execution of the recursion is, together with a solution -/
structure Conv (n : ℕ) (W : ℕ → ℕ → ℝ) (b c rho L kap : ℝ) (F : ℕ → CFun E) (H : ℕ → E → ℝ) (gr : ℕ → E → E) (x : ℕ → ℕ → E) (xh : E)
    (gh : ℕ → E) (Ih : ℕ → ℕ → E) : Prop where
  nonneg : ∀ j < n, ∀ l < n, 0 ≤ W j l
  symm : ∀ j < n, ∀ l < n, W j l = W l j
  rows : ∀ j < n, ∑ l ∈ Finset.range n, W j l = 1
  c_pos : 0 < c
  rho_pos : 0 < rho
  L_pos : 0 < L
  convex : ∀ j < n, ConvexGradient (H j) (gr j)
  lip : ∀ j < n, ∀ x y, ‖gr j x - gr j y‖ ≤ L * ‖x - y‖
  step : ∀ k, ∀ j < n, (F j).Sample (x (k + 1) j) (rho⁻¹ • (x k j - (b / 2) • laplace n W (x k) j -
    c • laplace n W (fun l => ∑ t ∈ Finset.range (k + 1), x t l) j - rho • gr j (x k j) - x (k + 1) j)) ((F j).f (x (k + 1) j))
  opt : ∀ j < n, (F j).Sample xh (gh j) ((F j).f xh)
  anti : ∀ j < n, ∀ l < n, Ih j l + Ih l j = 0
  flow : ∀ j < n, (1 / 2 : ℝ) • ∑ l ∈ Finset.range n, W j l • Ih j l = -(rho / (2 * c)) • (gh j + gr j xh)
  kap_pos : rho * L / 2 < kap
  form : ∀ y : ℕ → E, kap * ∑ j ∈ Finset.range n, ‖y j‖ ^ 2 + b * wsq (pairs n) (pw W) (diff y) ≤ ∑ j ∈ Finset.range n, ‖y j‖ ^ 2
  gain : c < b

variable {b c rho L kap : ℝ} {F : ℕ → CFun E} {H : ℕ → E → ℝ} {gr : ℕ → E → E} {x : ℕ → ℕ → E} {xh : E} {gh : ℕ → E} {Ih : ℕ → ℕ → E}

/-- the differences of the sum of the points so far -/
noncomputable def cur (x : ℕ → ℕ → E) (k : ℕ) : ℕ × ℕ → E := diff fun l => ∑ t ∈ Finset.range k, x t l

theorem cur_succ (x : ℕ → ℕ → E) (k : ℕ) : cur x (k + 1) = cur x k + diff (x k) := by
  funext p
  simp only [cur, diff, Finset.sum_range_succ, Pi.add_apply]
  abel

noncomputable abbrev nip (n : ℕ) (x y : ℕ → E) : ℝ := wip (Finset.range n) (fun _ => 1) x y
noncomputable abbrev nsq (n : ℕ) (x : ℕ → E) : ℝ := wsq (Finset.range n) (fun _ => 1) x
noncomputable abbrev eip (n : ℕ) (W : ℕ → ℕ → ℝ) (x y : ℕ × ℕ → E) : ℝ := wip (pairs n) (pw W) x y
noncomputable abbrev esq (n : ℕ) (W : ℕ → ℕ → ℝ) (x : ℕ × ℕ → E) : ℝ := wsq (pairs n) (pw W) x

theorem nsq_eq (x : ℕ → E) : nsq n x = ∑ j ∈ Finset.range n, ‖x j‖ ^ 2 := by
  unfold nsq wsq
  simp

theorem nip_eq (x y : ℕ → E) : nip n x y = ∑ j ∈ Finset.range n, ⟪x j, y j⟫_ℝ := by
  unfold nip wip
  simp

variable (hC : Conv n W b c rho L kap F H gr x xh gh Ih)
include hC

theorem Conv.pw_nonneg : ∀ p ∈ pairs n, 0 ≤ pw W p := by
  intro p hp
  obtain ⟨h1, h2⟩ := Finset.mem_product.1 hp
  unfold pw
  have := hC.nonneg _ (Finset.mem_range.1 h1) _ (Finset.mem_range.1 h2)
  positivity

omit hC in
theorem one_nonneg : ∀ i ∈ Finset.range n, (0 : ℝ) ≤ (fun _ : ℕ => (1 : ℝ)) i := fun _ _ => zero_le_one

theorem Conv.esq_nonneg (f : ℕ × ℕ → E) : 0 ≤ esq n W f := wsq_nonneg hC.pw_nonneg f

omit hC in
theorem nsq_nonneg (f : ℕ → E) : 0 ≤ nsq n f := wsq_nonneg one_nonneg f

theorem Conv.kap_pos' : 0 < kap := by
  have := hC.kap_pos
  have h1 := hC.rho_pos
  have h2 := hC.L_pos
  have : 0 < rho * L / 2 := by positivity
  linarith [hC.kap_pos]

/-- the new subgradients, multiplied by `rho` and paired with anything -/
theorem Conv.pair_step (k : ℕ) (y : ℕ → E) :
    ∑ j ∈ Finset.range n, ⟪x k j - (b / 2) • laplace n W (x k) j - c • laplace n W (fun l => ∑ t ∈ Finset.range (k + 1), x t l) j - rho • gr j (x k j) -
      x (k + 1) j, y j⟫_ℝ =
    nip n (x k - x (k + 1)) y - b * eip n W (diff (x k)) (diff y) - 2 * c * eip n W (cur x (k + 1)) (diff y) -
      rho * ∑ j ∈ Finset.range n, ⟪gr j (x k j), y j⟫_ℝ := by
  rw [nip_eq]
  have h1 := sum_inner_laplace hC.symm hC.rows (x k) y
  have h2 := sum_inner_laplace hC.symm hC.rows (fun l => ∑ t ∈ Finset.range (k + 1), x t l) y
  unfold eip cur
  rw [← h1, ← h2, Finset.mul_sum, Finset.mul_sum, Finset.mul_sum, ← Finset.sum_sub_distrib, ← Finset.sum_sub_distrib, ← Finset.sum_sub_distrib]
  refine Finset.sum_congr rfl fun j _ => ?_
  simp only [Pi.sub_apply, inner_sub_left, real_inner_smul_left]
  ring

/-- the optimal subgradients, multiplied by `rho` and paired with anything -/
theorem Conv.pair_opt (y : ℕ → E) : rho * ∑ j ∈ Finset.range n, ⟪gh j + gr j xh, y j⟫_ℝ = -(2 * c * eip n W (fun p => Ih p.1 p.2) (diff y)) := by
  unfold eip
  rw [← sum_inner_flow hC.symm hC.anti y, Finset.mul_sum, Finset.mul_sum, ← Finset.sum_neg_distrib]
  refine Finset.sum_congr rfl fun j hj => ?_
  rw [hC.flow j (Finset.mem_range.1 hj), neg_smul, inner_neg_left, real_inner_smul_left]
  have := hC.c_pos.ne'
  field_simp

/-- the monotone gap of the nonsmooth parts -/
noncomputable def mono (n : ℕ) (W : ℕ → ℕ → ℝ) (b c rho : ℝ) (gr : ℕ → E → E) (x : ℕ → ℕ → E) (xh : E) (gh : ℕ → E) (k : ℕ) : ℝ :=
  ∑ j ∈ Finset.range n, ⟪rho⁻¹ • (x k j - (b / 2) • laplace n W (x k) j -
    c • laplace n W (fun l => ∑ t ∈ Finset.range (k + 1), x t l) j - rho • gr j (x k j) - x (k + 1) j) - gh j, x (k + 1) j - xh⟫_ℝ

theorem Conv.mono_eq (k : ℕ) : rho * mono n W b c rho gr x xh gh k =
    nip n (x k - x (k + 1)) (x (k + 1) - fun _ => xh) - b * eip n W (diff (x k)) (diff (x (k + 1))) -
      2 * c * eip n W (cur x (k + 1) - fun p => Ih p.1 p.2) (diff (x (k + 1))) -
      rho * ∑ j ∈ Finset.range n, ⟪gr j (x k j) - gr j xh, x (k + 1) j - xh⟫_ℝ := by
  have h1 := hC.pair_step k (x (k + 1) - fun _ => xh)
  have h2 := hC.pair_opt (x (k + 1) - fun _ => xh)
  rw [diff_sub, diff_const, sub_zero] at h1 h2
  have h3 : eip n W (cur x (k + 1) - fun p => Ih p.1 p.2) (diff (x (k + 1))) =
      eip n W (cur x (k + 1)) (diff (x (k + 1))) - eip n W (fun p => Ih p.1 p.2) (diff (x (k + 1))) := wip_sub_left _ _ _ _ _
  have h4 : rho * mono n W b c rho gr x xh gh k = ∑ j ∈ Finset.range n, ⟪x k j - (b / 2) • laplace n W (x k) j -
      c • laplace n W (fun l => ∑ t ∈ Finset.range (k + 1), x t l) j - rho • gr j (x k j) - x (k + 1) j, (x (k + 1) - fun _ => xh : ℕ → E) j⟫_ℝ -
      rho * ∑ j ∈ Finset.range n, ⟪gh j, x (k + 1) j - xh⟫_ℝ := by
    unfold mono
    rw [Finset.mul_sum, Finset.mul_sum, ← Finset.sum_sub_distrib]
    refine Finset.sum_congr rfl fun j _ => ?_
    rw [inner_sub_left, real_inner_smul_left, mul_sub, mul_inv_cancel_left₀ hC.rho_pos.ne']
    rfl
  rw [h4, h1, h3]
  simp only [inner_add_left, inner_sub_left, Finset.sum_add_distrib, Finset.sum_sub_distrib, Pi.sub_apply] at h2 ⊢
  linarith

/-- cocoercivity against a moved point -/
theorem Conv.smooth_gap (k : ℕ) : -(L / 4) * nsq n (x k - x (k + 1)) ≤
    ∑ j ∈ Finset.range n, ⟪gr j (x k j) - gr j xh, x (k + 1) j - xh⟫_ℝ := by
  rw [nsq_eq, Finset.mul_sum]
  refine Finset.sum_le_sum fun j hj => ?_
  have hj := Finset.mem_range.1 hj
  have up := descent (hC.convex j hj).2 (hC.lip j hj)
  have lo : ∀ x y, H j x + ⟪gr j x, y - x⟫_ℝ + (0 : ℝ) / 2 * ‖y - x‖ ^ 2 ≤ H j y := fun x y => by
    have := ConvexGradient.le (hC.convex j hj) x y
    linarith
  have h1 := smooth_strong hC.L_pos lo up (x k j) xh
  have h2 := smooth_strong hC.L_pos lo up xh (x k j)
  simp only [zero_smul, sub_zero, zero_div, zero_mul, add_zero] at h1 h2
  set d := gr j (x k j) - gr j xh with hd
  have e1 : gr j xh - gr j (x k j) = -d := by rw [hd]; abel
  rw [e1, norm_neg] at h2
  have h3 : 1 / L * ‖d‖ ^ 2 ≤ ⟪d, x k j - xh⟫_ℝ := by
    have e2 : ⟪d, x k j - xh⟫_ℝ = -⟪gr j xh, x k j - xh⟫_ℝ - ⟪gr j (x k j), xh - x k j⟫_ℝ := by
      rw [hd, inner_sub_left, ← neg_sub xh (x k j), inner_neg_right]
      ring
    have e3 : 1 / (2 * L) * ‖d‖ ^ 2 = 1 / L * ‖d‖ ^ 2 / 2 := by
      have := hC.L_pos.ne'
      field_simp
    rw [e2]
    linarith
  have h4 : ⟪d, x (k + 1) j - xh⟫_ℝ = ⟪d, x k j - xh⟫_ℝ - ⟪d, x k j - x (k + 1) j⟫_ℝ := by
    rw [← inner_sub_right]
    congr 1
    abel
  have h5 : ⟪d, x k j - x (k + 1) j⟫_ℝ ≤ ‖d‖ * ‖x k j - x (k + 1) j‖ := real_inner_le_norm _ _
  rw [h4, Pi.sub_apply]
  have h6 : ‖d‖ * ‖x k j - x (k + 1) j‖ ≤ 1 / L * ‖d‖ ^ 2 + L / 4 * ‖x k j - x (k + 1) j‖ ^ 2 := by
    have hL := hC.L_pos
    have h7 := sq_nonneg (‖d‖ - L / 2 * ‖x k j - x (k + 1) j‖)
    have h8 : 1 / L * ‖d‖ ^ 2 + L / 4 * ‖x k j - x (k + 1) j‖ ^ 2 - ‖d‖ * ‖x k j - x (k + 1) j‖ =
        1 / L * (‖d‖ - L / 2 * ‖x k j - x (k + 1) j‖) ^ 2 := by
      field_simp
      ring
    have h9 : 0 ≤ 1 / L * (‖d‖ - L / 2 * ‖x k j - x (k + 1) j‖) ^ 2 := by positivity
    linarith
  linarith

/-- the energy -/
noncomputable def energy (n : ℕ) (W : ℕ → ℕ → ℝ) (b c : ℝ) (x : ℕ → ℕ → E) (xh : E) (Ih : ℕ → ℕ → E) (k : ℕ) : ℝ :=
  1 / 2 * nsq n (x k - fun _ => xh) - b / 2 * esq n W (diff (x k)) + c * esq n W (cur x (k + 1) - fun p => Ih p.1 p.2)

theorem Conv.energy_step (k : ℕ) : rho * mono n W b c rho gr x xh gh k + 1 / 2 * (kap - rho * L / 2) * nsq n (x k - x (k + 1)) +
    (b - c) * esq n W (diff (x (k + 1))) ≤ energy n W b c x xh Ih k - energy n W b c x xh Ih (k + 1) := by
  have h1 := hC.mono_eq k
  have h2 := hC.smooth_gap k
  have h3 := wip_three (Finset.range n) (fun _ => 1) (x k) (x (k + 1)) (fun _ => xh)
  have h4 := wip_sub_sq (pairs n) (pw W) (diff (x k)) (diff (x (k + 1)))
  have h5 := wip_add_sq (pairs n) (pw W) (cur x (k + 1) - fun p => Ih p.1 p.2) (diff (x (k + 1)))
  have h6 : cur x (k + 1) - (fun p => Ih p.1 p.2) + diff (x (k + 1)) = cur x (k + 1 + 1) - fun p => Ih p.1 p.2 := by
    rw [cur_succ x (k + 1)]
    abel
  rw [h6] at h5
  rw [← diff_sub] at h4
  have h7 := hC.form (x k - x (k + 1))
  rw [← nsq_eq] at h7
  have h8 := mul_le_mul_of_nonneg_left h2 hC.rho_pos.le
  unfold energy
  linear_combination h1 + h8 + 1 / 2 * h3 - b / 2 * h4 - c * h5 + 1 / 2 * h7

theorem Conv.energy_ge (k : ℕ) : kap / 2 * nsq n (x k - fun _ => xh) + c * esq n W (cur x (k + 1) - fun p => Ih p.1 p.2) ≤
    energy n W b c x xh Ih k := by
  have h7 := hC.form (x k - fun _ => xh)
  rw [← nsq_eq, diff_sub, diff_const, sub_zero] at h7
  unfold energy
  linear_combination 1 / 2 * h7

theorem Conv.mono_nonneg (k : ℕ) : 0 ≤ mono n W b c rho gr x xh gh k := by
  refine Finset.sum_nonneg fun j hj => ?_
  have hj := Finset.mem_range.1 hj
  obtain ⟨h1, -, h2⟩ := hC.step k j hj
  obtain ⟨h3, -, h4⟩ := hC.opt j hj
  have h5 := h2 _ h3
  have h6 := h4 _ h1
  rw [inner_sub_left]
  rw [← neg_sub (x (k + 1) j) xh, inner_neg_right] at h5
  linarith

theorem Conv.mono_strong {mu : ℝ} (hF : ∀ j < n, StrongConvexOn (F j).dom mu (F j).f) (k : ℕ) :
    mu * nsq n (x (k + 1) - fun _ => xh) ≤ mono n W b c rho gr x xh gh k := by
  rw [nsq_eq, Finset.mul_sum]
  refine Finset.sum_le_sum fun j hj => ?_
  have hj := Finset.mem_range.1 hj
  have h5 := strong_sample (hF j hj) (hC.step k j hj) (hC.opt j hj).1
  have h6 := strong_sample (hF j hj) (hC.opt j hj) (hC.step k j hj).1
  rw [inner_sub_left, Pi.sub_apply]
  have e1 : ‖xh - x (k + 1) j‖ = ‖x (k + 1) j - xh‖ := norm_sub_rev _ _
  rw [e1] at h5
  rw [← neg_sub (x (k + 1) j) xh, inner_neg_right] at h5
  linarith

theorem Conv.sum_le (m : ℕ) : ∑ k ∈ Finset.range m, (rho * mono n W b c rho gr x xh gh k + 1 / 2 * (kap - rho * L / 2) * nsq n (x k - x (k + 1)) +
    (b - c) * esq n W (diff (x (k + 1)))) ≤ energy n W b c x xh Ih 0 - energy n W b c x xh Ih m := by
  induction m with
  | zero => simp
  | succ m ih =>
    rw [Finset.sum_range_succ]
    have := hC.energy_step m
    linarith

theorem Conv.energy_nonneg (k : ℕ) : 0 ≤ energy n W b c x xh Ih k := by
  have := hC.energy_ge k
  have h1 : 0 ≤ kap / 2 * nsq n (x k - fun _ => xh) := mul_nonneg (by linarith [hC.kap_pos']) (nsq_nonneg _)
  have h2 : 0 ≤ c * esq n W (cur x (k + 1) - fun p => Ih p.1 p.2) := mul_nonneg hC.c_pos.le (hC.esq_nonneg _)
  linarith

theorem Conv.terms_nonneg (k : ℕ) : 0 ≤ rho * mono n W b c rho gr x xh gh k ∧ 0 ≤ 1 / 2 * (kap - rho * L / 2) * nsq n (x k - x (k + 1)) ∧
    0 ≤ (b - c) * esq n W (diff (x (k + 1))) :=
  ⟨mul_nonneg hC.rho_pos.le (hC.mono_nonneg k), mul_nonneg (by linarith [hC.kap_pos]) (nsq_nonneg _),
    mul_nonneg (by linarith [hC.gain]) (hC.esq_nonneg _)⟩

theorem Conv.energy_le (k : ℕ) : energy n W b c x xh Ih k ≤ energy n W b c x xh Ih 0 := by
  have h1 := hC.sum_le k
  have h2 : 0 ≤ ∑ k ∈ Finset.range k, (rho * mono n W b c rho gr x xh gh k + 1 / 2 * (kap - rho * L / 2) * nsq n (x k - x (k + 1)) +
    (b - c) * esq n W (diff (x (k + 1)))) := Finset.sum_nonneg fun t _ => by
      obtain ⟨h3, h4, h5⟩ := hC.terms_nonneg t
      linarith
  linarith

/-- any nonnegative part of the decrease has bounded sums -/
theorem Conv.sum_part {u : ℕ → ℝ} (h : ∀ k, u k ≤ rho * mono n W b c rho gr x xh gh k + 1 / 2 * (kap - rho * L / 2) * nsq n (x k - x (k + 1)) +
    (b - c) * esq n W (diff (x (k + 1)))) (m : ℕ) : ∑ k ∈ Finset.range m, u k ≤ energy n W b c x xh Ih 0 := by
  have h1 := hC.sum_le m
  have h2 := hC.energy_nonneg m
  have h3 := Finset.sum_le_sum (s := Finset.range m) fun k _ => h k
  linarith

theorem Conv.nsq_tendsto : Filter.Tendsto (fun k => nsq n (x k - x (k + 1))) Filter.atTop (nhds 0) := by
  have hpos : 0 < 1 / 2 * (kap - rho * L / 2) := by linarith [hC.kap_pos]
  have h1 := Dadmm.tendsto_zero_of_sum_le (u := fun k => 1 / 2 * (kap - rho * L / 2) * nsq n (x k - x (k + 1)))
    (fun k => (hC.terms_nonneg k).2.1) (hC.sum_part fun k => by
      obtain ⟨h3, h4, h5⟩ := hC.terms_nonneg k
      linarith)
  have h2 := h1.const_mul (1 / 2 * (kap - rho * L / 2))⁻¹
  rw [mul_zero] at h2
  exact h2.congr fun k => inv_mul_cancel_left₀ hpos.ne' _

theorem Conv.esq_tendsto : Filter.Tendsto (fun k => esq n W (diff (x (k + 1)))) Filter.atTop (nhds 0) := by
  have hpos : 0 < b - c := by linarith [hC.gain]
  have h1 := Dadmm.tendsto_zero_of_sum_le (u := fun k => (b - c) * esq n W (diff (x (k + 1))))
    (fun k => (hC.terms_nonneg k).2.2) (hC.sum_part fun k => by
      obtain ⟨h3, h4, h5⟩ := hC.terms_nonneg k
      linarith)
  have h2 := h1.const_mul (b - c)⁻¹
  simpa [inv_mul_cancel_left₀ hpos.ne'] using h2

theorem Conv.values_tendsto : Filter.Tendsto (fun k => ∑ j ∈ Finset.range n, ((F j).f (x (k + 1) j) + H j (x (k + 1) j))) Filter.atTop
    (nhds (∑ j ∈ Finset.range n, ((F j).f xh + H j xh))) := by
  set U : ℕ → ℝ := fun k => nip n (x k - x (k + 1)) (x (k + 1) - fun _ => xh) - b * eip n W (diff (x k)) (diff (x (k + 1))) -
      2 * c * eip n W (cur x (k + 1)) (diff (x (k + 1))) + rho * L / 2 * nsq n (x k - x (k + 1)) with hU
  set Lo : ℕ → ℝ := fun k => -(2 * c * eip n W (fun p => Ih p.1 p.2) (diff (x (k + 1)))) with hLo
  have upper : ∀ k, ∑ j ∈ Finset.range n, ((F j).f (x (k + 1) j) + H j (x (k + 1) j)) ≤ ∑ j ∈ Finset.range n, ((F j).f xh + H j xh) + rho⁻¹ * U k := by
    intro k
    have h1 := hC.pair_step k (x (k + 1) - fun _ => xh)
    rw [diff_sub, diff_const, sub_zero] at h1
    have h2 : ∀ j ∈ Finset.range n, (F j).f (x (k + 1) j) + H j (x (k + 1) j) - ((F j).f xh + H j xh) ≤
        rho⁻¹ * ⟪x k j - (b / 2) • laplace n W (x k) j - c • laplace n W (fun l => ∑ t ∈ Finset.range (k + 1), x t l) j - rho • gr j (x k j) -
          x (k + 1) j, (x (k + 1) - fun _ => xh : ℕ → E) j⟫_ℝ + ⟪gr j (x k j), (x (k + 1) - fun _ => xh : ℕ → E) j⟫_ℝ + L / 2 * ‖(x k - x (k + 1)) j‖ ^ 2 := by
      intro j hj
      have hj := Finset.mem_range.1 hj
      have h3 := (hC.step k j hj).2.2 _ (hC.opt j hj).1
      have h4 := descent (hC.convex j hj).2 (hC.lip j hj) (x k j) (x (k + 1) j)
      have h5 := ConvexGradient.le (hC.convex j hj) (x k j) xh
      simp only [Pi.sub_apply]
      rw [← neg_sub (x (k + 1) j) xh, inner_neg_right, real_inner_smul_left] at h3
      rw [norm_sub_rev] at h4
      have h6 : ⟪gr j (x k j), x (k + 1) j - xh⟫_ℝ = ⟪gr j (x k j), x (k + 1) j - x k j⟫_ℝ - ⟪gr j (x k j), xh - x k j⟫_ℝ := by
        rw [← inner_sub_right]
        congr 1
        abel
      rw [h6]
      linarith
    have h7 := Finset.sum_le_sum h2
    simp only [Finset.sum_sub_distrib, Finset.sum_add_distrib, ← Finset.mul_sum] at h7 ⊢
    rw [h1, ← nsq_eq] at h7
    have hr := hC.rho_pos.ne'
    have h8 : rho⁻¹ * U k = rho⁻¹ * (nip n (x k - x (k + 1)) (x (k + 1) - fun _ => xh) - b * eip n W (diff (x k)) (diff (x (k + 1))) -
      2 * c * eip n W (cur x (k + 1)) (diff (x (k + 1))) - rho * ∑ j ∈ Finset.range n, ⟪gr j (x k j), (x (k + 1) - fun _ => xh : ℕ → E) j⟫_ℝ) +
      ∑ j ∈ Finset.range n, ⟪gr j (x k j), (x (k + 1) - fun _ => xh : ℕ → E) j⟫_ℝ + L / 2 * nsq n (x k - x (k + 1)) := by
      rw [hU]
      field_simp
      ring
    rw [h8]
    linarith
  have lower : ∀ k, ∑ j ∈ Finset.range n, ((F j).f xh + H j xh) + rho⁻¹ * Lo k ≤ ∑ j ∈ Finset.range n, ((F j).f (x (k + 1) j) + H j (x (k + 1) j)) := by
    intro k
    have h1 := hC.pair_opt (x (k + 1) - fun _ => xh)
    rw [diff_sub, diff_const, sub_zero] at h1
    rw [hLo]
    simp only
    rw [← h1, inv_mul_cancel_left₀ hC.rho_pos.ne', ← Finset.sum_add_distrib]
    refine Finset.sum_le_sum fun j hj => ?_
    have hj := Finset.mem_range.1 hj
    have h3 := (hC.opt j hj).2.2 _ (hC.step k j hj).1
    have h5 := ConvexGradient.le (hC.convex j hj) xh (x (k + 1) j)
    rw [inner_add_left, Pi.sub_apply]
    linarith
  -- bounds
  have hk := hC.kap_pos'
  have hc := hC.c_pos
  have b1 : ∀ k, nsq n (x (k + 1) - fun _ => xh) ≤ energy n W b c x xh Ih 0 / (kap / 2) := by
    intro k
    rw [le_div_iff₀ (by linarith)]
    have h1 := hC.energy_ge (k + 1)
    have h2 := hC.energy_le (k + 1)
    have h3 : 0 ≤ c * esq n W (cur x (k + 1 + 1) - fun p => Ih p.1 p.2) := mul_nonneg hc.le (hC.esq_nonneg _)
    linarith
  have b2 : ∀ k, esq n W (cur x (k + 1) - fun p => Ih p.1 p.2) ≤ energy n W b c x xh Ih 0 / c := by
    intro k
    rw [le_div_iff₀ hc]
    have h1 := hC.energy_ge k
    have h2 := hC.energy_le k
    have h3 : 0 ≤ kap / 2 * nsq n (x k - fun _ => xh) := mul_nonneg (by linarith) (nsq_nonneg _)
    linarith
  -- limits
  have l1 : Filter.Tendsto (fun k => nip n (x k - x (k + 1)) (x (k + 1) - fun _ => xh)) Filter.atTop (nhds 0) := by
    have := wip_tendsto (S := Finset.range n) (w := fun _ => 1) one_nonneg b1 hC.nsq_tendsto
    refine this.congr fun k => ?_
    unfold wip
    exact Finset.sum_congr rfl fun j _ => by rw [real_inner_comm]
  have l2' : Filter.Tendsto (fun k => esq n W (diff (x k))) Filter.atTop (nhds 0) :=
    (Filter.tendsto_add_atTop_iff_nat (f := fun k => esq n W (diff (x k))) 1).1 hC.esq_tendsto
  have l2 : Filter.Tendsto (fun k => eip n W (diff (x k)) (diff (x (k + 1)))) Filter.atTop (nhds 0) := by
    obtain ⟨B, hB⟩ := l2'.bddAbove_range
    exact wip_tendsto hC.pw_nonneg (B := B) (fun k => hB ⟨k, rfl⟩) hC.esq_tendsto
  have l3 : Filter.Tendsto (fun k => eip n W (fun p => Ih p.1 p.2) (diff (x (k + 1)))) Filter.atTop (nhds 0) :=
    wip_tendsto hC.pw_nonneg (f := fun _ p => Ih p.1 p.2) (fun _ => le_rfl) hC.esq_tendsto
  have l4 : Filter.Tendsto (fun k => eip n W (cur x (k + 1)) (diff (x (k + 1)))) Filter.atTop (nhds 0) := by
    have h1 := (wip_tendsto hC.pw_nonneg b2 hC.esq_tendsto).add l3
    rw [add_zero] at h1
    refine h1.congr fun k => ?_
    rw [wip_sub_left]
    ring
  have lU : Filter.Tendsto U Filter.atTop (nhds 0) := by
    have := ((l1.sub (l2.const_mul b)).sub (l4.const_mul (2 * c))).add (hC.nsq_tendsto.const_mul (rho * L / 2))
    simpa using this
  have lLo : Filter.Tendsto Lo Filter.atTop (nhds 0) := by
    have := (l3.const_mul (2 * c)).neg
    simpa using this
  refine tendsto_of_tendsto_of_tendsto_of_le_of_le ?_ ?_ lower upper
  · simpa using (lLo.const_mul rho⁻¹).const_add (∑ j ∈ Finset.range n, ((F j).f xh + H j xh))
  · simpa using (lU.const_mul rho⁻¹).const_add (∑ j ∈ Finset.range n, ((F j).f xh + H j xh))

end PgExtra
end Verif
