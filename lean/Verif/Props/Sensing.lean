import Verif.Proofs.Metric
import Verif.Props.Extra

/-!
# C55, C56: decentralised compressed sensing

`pg_extra_compressed_sensing` and `obtain_opt_prob_solution` of `decentr_compressed_sensing.py`.  Axioms of every theorem: propext, Classical.choice,
Quot.sound.
-/

namespace Verif
open scoped InnerProductSpace
open Filter (Tendsto atTop)

variable {m : ℕ} {S : Type} [NormedAddCommGroup S] [InnerProductSpace ℝ S]

/-- the quadratic part -/
noncomputable def residual (A : ℕ → EuclideanSpace ℝ (Fin m) →ₗ[ℝ] S) (b : ℕ → S) (j : ℕ) (x : EuclideanSpace ℝ (Fin m)) : ℝ := 1 / 2 * ‖A j x - b j‖ ^ 2

theorem residual_gradient (A : ℕ → EuclideanSpace ℝ (Fin m) →ₗ[ℝ] S) (AT : ℕ → S →ₗ[ℝ] EuclideanSpace ℝ (Fin m)) (b : ℕ → S) (j : ℕ)
    (hT : ∀ x s, ⟪AT j s, x⟫_ℝ = ⟪s, A j x⟫_ℝ) : ConvexGradient (residual A b j) (sensingGrad A AT b j) := by
  have hd : ∀ x, HasFDerivAt (residual A b j) (innerSL ℝ (sensingGrad A AT b j x)) x := by
    intro x
    have h1 : HasFDerivAt (fun y => A j y - b j) (A j).toContinuousLinearMap x := ((A j).toContinuousLinearMap.hasFDerivAt).sub_const _
    have h2 := h1.norm_sq.const_mul (1 / 2 : ℝ)
    refine h2.congr_fderiv ?_
    ext y
    simp only [sensingGrad, smul_apply, ContinuousLinearMap.comp_apply, innerSL_apply_apply, smul_eq_mul, hT,
      LinearMap.coe_toContinuousLinearMap', nsmul_eq_mul]
    ring
  refine ⟨?_, hd⟩
  refine ⟨convex_univ, fun x _ y _ p q hp hq hpq => ?_⟩
  have hq' : q = 1 - p := by linarith
  subst hq'
  simp only [residual, smul_eq_mul]
  have e : A j (p • x + (1 - p) • y) - b j = p • (A j x - b j) + (1 - p) • (A j y - b j) := by
    rw [map_add, map_smul, map_smul]
    module
  have h3 : ‖p • (A j x - b j) + (1 - p) • (A j y - b j)‖ ^ 2 = p * ‖A j x - b j‖ ^ 2 + (1 - p) * ‖A j y - b j‖ ^ 2 -
      p * (1 - p) * ‖(A j x - b j) - (A j y - b j)‖ ^ 2 := by
    generalize A j x - b j = u
    generalize A j y - b j = v
    simp only [← real_inner_self_eq_norm_sq, inner_add_left, inner_add_right, inner_sub_left, inner_sub_right, real_inner_smul_left, real_inner_smul_right,
      real_inner_comm u v]
    ring
  rw [e, h3]
  have : 0 ≤ p * (1 - p) * ‖(A j x - b j) - (A j y - b j)‖ ^ 2 := by positivity
  linarith

theorem residual_lip (A : ℕ → EuclideanSpace ℝ (Fin m) →ₗ[ℝ] S) (AT : ℕ → S →ₗ[ℝ] EuclideanSpace ℝ (Fin m)) (b : ℕ → S) (j : ℕ)
    (hT : ∀ x s, ⟪AT j s, x⟫_ℝ = ⟪s, A j x⟫_ℝ) {L : ℝ} (hL : 0 ≤ L) (hA : ∀ x, ‖A j x‖ ^ 2 ≤ L * ‖x‖ ^ 2) (x y : EuclideanSpace ℝ (Fin m)) :
    ‖sensingGrad A AT b j x - sensingGrad A AT b j y‖ ≤ L * ‖x - y‖ := by
  have e : sensingGrad A AT b j x - sensingGrad A AT b j y = AT j (A j (x - y)) := by
    unfold sensingGrad
    rw [← map_sub, map_sub (A j)]
    congr 1
    abel
  rw [e]
  set v := x - y
  set u := AT j (A j v) with hu
  have hA' : ∀ x, ‖A j x‖ ≤ Real.sqrt L * ‖x‖ := fun x => by
    rw [← Real.sqrt_sq (norm_nonneg x), ← Real.sqrt_mul hL]
    exact Real.le_sqrt_of_sq_le (hA x)
  have h1 : ‖u‖ ^ 2 ≤ L * ‖u‖ * ‖v‖ := by
    have h2 : ‖u‖ ^ 2 = ⟪A j v, A j u⟫_ℝ := by rw [← real_inner_self_eq_norm_sq, ← hT, ← hu]
    have h3 := real_inner_le_norm (A j v) (A j u)
    have h4 := mul_le_mul (hA' v) (hA' u) (norm_nonneg _) (by positivity)
    have h5 : Real.sqrt L * ‖v‖ * (Real.sqrt L * ‖u‖) = L * ‖u‖ * ‖v‖ := by
      rw [show Real.sqrt L * ‖v‖ * (Real.sqrt L * ‖u‖) = Real.sqrt L * Real.sqrt L * (‖u‖ * ‖v‖) by ring, Real.mul_self_sqrt hL]
      ring
    linarith
  rcases (norm_nonneg u).eq_or_lt with h0 | h0
  · rw [← h0]; positivity
  · refine le_of_mul_le_mul_left ?_ h0
    rw [← sq]
    linarith

theorem l1Fun_convex {rho : ℝ} (hr : 0 ≤ rho) : ConvexOn ℝ (l1Fun m rho).dom (l1Fun m rho).f := by
  refine ⟨convex_univ, fun x _ y _ p q hp hq _ => ?_⟩
  simp only [l1Fun, smul_eq_mul]
  have h1 : ∑ i, |(p • x + q • y) i| ≤ p * ∑ i, |x i| + q * ∑ i, |y i| := by
    rw [Finset.mul_sum, Finset.mul_sum, ← Finset.sum_add_distrib]
    refine Finset.sum_le_sum fun i _ => ?_
    have := abs_add_le (p * x i) (q * y i)
    rw [abs_mul, abs_mul, abs_of_nonneg hp, abs_of_nonneg hq] at this
    simpa using this
  have h2 := mul_le_mul_of_nonneg_left h1 hr
  linarith

omit [InnerProductSpace ℝ S] in
theorem sensing_total [InnerProductSpace ℝ S] (n : ℕ) (W : ℕ → ℕ → ℝ) (A : ℕ → EuclideanSpace ℝ (Fin m) →ₗ[ℝ] S)
    (AT : ℕ → S →ₗ[ℝ] EuclideanSpace ℝ (Fin m)) (b : ℕ → S) (alpha rho : ℝ) (x0 : ℕ → EuclideanSpace ℝ (Fin m)) (k : ℕ) :
    sensingStates n W A AT b alpha rho x0 k = some (sensingState n W A AT b alpha rho x0 k) := by
  have h : ∃ s, sensingStates n W A AT b alpha rho x0 k = some s := by
    induction k with
    | zero => exact ⟨_, rfl⟩
    | succ k ih =>
      obtain ⟨s, hs⟩ := ih
      unfold sensingStates at hs ⊢
      simp only [extraStates, hs, Option.bind_some, extraStep']
      unfold allSome
      rw [if_pos (by simp)]
      exact ⟨_, rfl⟩
  obtain ⟨s, hs⟩ := h
  unfold sensingState
  rw [hs]
  rfl

theorem sensing_sumMin {n : ℕ} {A : ℕ → EuclideanSpace ℝ (Fin m) →ₗ[ℝ] S} {b : ℕ → S} {rho : ℝ} {x : EuclideanSpace ℝ (Fin m)} :
    SumMin n (sensingFun (fun j => A j) b rho) x ↔ SumMin n (fun j => (l1Fun m rho).plus (residual A b j)) x := by
  have : (sensingFun (fun j => A j) b rho) = fun j => (l1Fun m rho).plus (residual A b j) := by
    funext j
    simp only [sensingFun, CFun.plus, l1Fun, residual]
    congr 1
    funext x
    ring
  rw [this]

section main
variable (n : ℕ) (hn : 0 < n) (G : NxGraph) (hG : G.Simple) (hcon : G.Connected n) (W : ℕ → ℕ → ℝ) (hW : mhWeights n G = .ok W) (d : ℕ)
  (hd : ∀ j < n, G.degree (j + 1) ≤ d) (A : ℕ → EuclideanSpace ℝ (Fin m) →ₗ[ℝ] S) (AT : ℕ → S →ₗ[ℝ] EuclideanSpace ℝ (Fin m)) (b : ℕ → S)
  (hT : ∀ j < n, ∀ x s, ⟪AT j s, x⟫_ℝ = ⟪s, A j x⟫_ℝ) (alpha rho L : ℝ) (ha : 0 < alpha) (hr : 0 ≤ rho) (hL : 0 ≤ L)
  (hA : ∀ j < n, ∀ x, ‖A j x‖ ^ 2 ≤ L * ‖x‖ ^ 2) (hstep : alpha * L < 2 / ((d : ℝ) + 1)) (x0 : ℕ → EuclideanSpace ℝ (Fin m))
include hn hG hcon hW hd hT ha hr hL hA hstep

theorem sensing_setting (xh : EuclideanSpace ℝ (Fin m)) (hx : SumMin n (sensingFun (fun j => A j) b rho) xh) :
    ExtraSetting n W alpha (fun _ => l1Fun m rho) (residual A b) (sensingGrad A AT b) L xh :=
  extra_metropolis hn hG hcon hW hd ha hL hstep
    (fun j hj => ⟨residual_gradient A AT b j (hT j hj), residual_lip A AT b j (hT j hj) hL (hA j hj)⟩)
    (SumMin.opt_plus (fun _ _ => l1Fun_convex hr) (fun j hj => residual_gradient A AT b j (hT j hj)) (x0 := 0) (fun _ _ => by simp [l1Fun])
      (sensing_sumMin.1 hx))

theorem sensing_conv (xh : EuclideanSpace ℝ (Fin m)) (hx : SumMin n (sensingFun (fun j => A j) b rho) xh) :
    ∃ L' kap gh Ih, PgExtra.Conv n W 1 (1 / 2) alpha L' kap (fun _ => l1Fun m rho) (residual A b) (sensingGrad A AT b)
      (fun k => (sensingState n W A AT b alpha rho x0 k).x) xh gh Ih := by
  obtain ⟨L', kap, gh, Ih, -, hC⟩ := extra_conv (sensing_setting n hn G hG hcon W hW d hd A AT b hT alpha rho L ha hr hL hA hstep xh hx)
    (sensing_total n W A AT b alpha rho x0) (fun j _ z p h => by cases h; exact soft_sample ha hr z) (fun j _ x => rfl)
  exact ⟨L', kap, gh, Ih, hC⟩

/-- **C55** (`decentr_compressed_sensing.py`), points: with a step `alpha L < 2 / (d + 1)`, where `d` bounds the degrees and `L` the squared norms of
the sensing blocks, the points of all nodes converge to one and the same minimiser of the problem. -/
theorem C55_sensing_iterates (xh : EuclideanSpace ℝ (Fin m)) (hx : SumMin n (sensingFun (fun j => A j) b rho) xh) :
    ∃ xl, SumMin n (sensingFun (fun j => A j) b rho) xl ∧
      ∀ j < n, Tendsto (fun k => (sensingState n W A AT b alpha rho x0 k).x j) atTop (nhds xl) := by
  obtain ⟨L', kap, gh, Ih, hC⟩ := sensing_conv n hn G hG hcon W hW d hd A AT b hT alpha rho L ha hr hL hA hstep x0 xh hx
  have hset := sensing_setting n hn G hG hcon W hW d hd A AT b hT alpha rho L ha hr hL hA hstep xh hx
  obtain ⟨xl, h1, gl, h2, h3⟩ := hC.converges hset.nodes hset.connected (fun j _ z => ⟨_, soft_sample ha hr z⟩)
  exact ⟨xl, sensing_sumMin.2 (sumMin_of_samples (fun j hj => (hset.smooth j hj).1) h2 h3).min, h1⟩

theorem sensing_values_tendsto (xh : EuclideanSpace ℝ (Fin m)) (hx : SumMin n (sensingFun (fun j => A j) b rho) xh) :
    Tendsto (fun k => ∑ j ∈ Finset.range n, sensingValue A b rho j ((sensingState n W A AT b alpha rho x0 k).x j)) atTop
      (nhds (∑ j ∈ Finset.range n, (sensingFun (fun j => A j) b rho j).f xh)) := by
  obtain ⟨L', kap, gh, Ih, hC⟩ := sensing_conv n hn G hG hcon W hW d hd A AT b hT alpha rho L ha hr hL hA hstep x0 xh hx
  have h1 := (Filter.tendsto_add_atTop_iff_nat (f := fun k => ∑ j ∈ Finset.range n, ((l1Fun m rho).f ((sensingState n W A AT b alpha rho x0 k).x j) +
    residual A b j ((sensingState n W A AT b alpha rho x0 k).x j))) 1).1 hC.values_tendsto
  convert h1 using 2
  · refine Finset.sum_congr rfl fun j _ => ?_
    simp only [sensingValue, l1Fun, residual]
    ring
  · refine Finset.sum_congr rfl fun j _ => ?_
    simp only [sensingFun, l1Fun, residual]
    ring

/-- **C55** (`decentr_compressed_sensing.py`), values: called with the optimal value, the relative differences of values in the result tend to zero. -/
theorem C55_sensing_values (V : ℕ → ℕ → ℝ) (sv : ℕ → ℝ) (xh : EuclideanSpace ℝ (Fin m)) (hx : SumMin n (sensingFun (fun j => A j) b rho) xh)
    (xstar : ℕ → EuclideanSpace ℝ (Fin m)) (_hne : ∑ j ∈ Finset.range n, (sensingFun (fun j => A j) b rho j).f xh ≠ 0) (eps : ℝ) (he : 0 < eps) :
    ∃ N : ℕ, ∀ (itr k : ℕ) (v : ℝ), N ≤ k →
      (pgExtraSensing n itr W V sv A AT b alpha rho x0 xstar (∑ j ∈ Finset.range n, (sensingFun (fun j => A j) b rho j).f xh)).fReldiff[k]? = some v →
      |v| < eps := by
  have h1 := sensing_values_tendsto n hn G hG hcon W hW d hd A AT b hT alpha rho L ha hr hL hA hstep x0 xh hx
  set fs := ∑ j ∈ Finset.range n, (sensingFun (fun j => A j) b rho j).f xh
  have h2 := ((((Filter.tendsto_add_atTop_iff_nat 1).2 h1).const_sub fs).abs.div_const fs).abs
  rw [sub_self, abs_zero, zero_div, abs_zero] at h2
  obtain ⟨N, hN⟩ := Filter.eventually_atTop.1 (h2.eventually_lt_const he)
  refine ⟨N, fun itr k v hk hv => ?_⟩
  simp only [pgExtraSensing] at hv
  rw [(get_range_map hv).2]
  exact hN k hk

/-- **C55** (`decentr_compressed_sensing.py`), distances: if the minimiser is unique, the recorded distances to it tend to zero. -/
theorem C55_sensing_distances (V : ℕ → ℕ → ℝ) (sv : ℕ → ℝ) (xh : EuclideanSpace ℝ (Fin m)) (hx : SumMin n (sensingFun (fun j => A j) b rho) xh)
    (huniq : ∀ y, SumMin n (sensingFun (fun j => A j) b rho) y → y = xh) (fstar : ℝ) (eps : ℝ) (he : 0 < eps) :
    ∃ N : ℕ, ∀ (itr k : ℕ) (v : ℝ), N ≤ k →
      (pgExtraSensing n itr W V sv A AT b alpha rho x0 (fun _ => xh) fstar).errOptStar[k]? = some v → |v| < eps := by
  obtain ⟨xl, h1, h2⟩ := C55_sensing_iterates n hn G hG hcon W hW d hd A AT b hT alpha rho L ha hr hL hA hstep x0 xh hx
  rw [huniq xl h1] at h2
  have h3 := (frobDist_tendsto (x := fun k => (sensingState n W A AT b alpha rho x0 k).x) h2).abs
  rw [abs_zero] at h3
  obtain ⟨N, hN⟩ := Filter.eventually_atTop.1 (h3.eventually_lt_const he)
  refine ⟨N, fun itr k v hk hv => ?_⟩
  simp only [pgExtraSensing] at hv
  rw [(get_range_map hv).2]
  exact hN k hk

/-- **C55** (`decentr_compressed_sensing.py`) `obtain_opt_prob_solution` returns, for sufficiently many iterations, points near one minimiser and a
value near the optimal value. -/
theorem C55_sensing_solution (xh : EuclideanSpace ℝ (Fin m)) (hx : SumMin n (sensingFun (fun j => A j) b rho) xh) :
    ∃ xl, SumMin n (sensingFun (fun j => A j) b rho) xl ∧ ∀ eps > 0, ∃ N : ℕ, ∀ itr, N ≤ itr →
      ∃ x f, sensingSolution n itr W A AT b alpha rho x0 = some (x, f) ∧ (∀ j < n, ‖x j - xl‖ < eps) ∧
        |f - ∑ j ∈ Finset.range n, (sensingFun (fun j => A j) b rho j).f xh| < eps := by
  obtain ⟨xl, h1, h2⟩ := C55_sensing_iterates n hn G hG hcon W hW d hd A AT b hT alpha rho L ha hr hL hA hstep x0 xh hx
  have h3 := sensing_values_tendsto n hn G hG hcon W hW d hd A AT b hT alpha rho L ha hr hL hA hstep x0 xh hx
  refine ⟨xl, h1, fun eps he => ?_⟩
  have h4 : ∀ᶠ k in atTop, ∀ j ∈ Finset.range n, ‖(sensingState n W A AT b alpha rho x0 k).x j - xl‖ < eps := by
    rw [Filter.eventually_all_finset]
    intro j hj
    have := (((h2 j (Finset.mem_range.1 hj)).sub_const xl).norm)
    rw [sub_self, norm_zero] at this
    exact this.eventually_lt_const he
  have h5 := (h3.sub_const (∑ j ∈ Finset.range n, (sensingFun (fun j => A j) b rho j).f xh)).abs
  rw [sub_self, abs_zero] at h5
  obtain ⟨N, hN⟩ := Filter.eventually_atTop.1 (h4.and (h5.eventually_lt_const he))
  refine ⟨N, fun itr hi => ?_⟩
  obtain ⟨h6, h7⟩ := hN (2 * itr) (by omega)
  refine ⟨_, _, by rw [sensingSolution, sensing_total]; rfl, fun j hj => h6 j (Finset.mem_range.2 hj), h7⟩

/-! ## C56: the recorded operator norm -/

variable (U V : ℕ → ℕ → ℝ) (sv : ℕ → ℝ) (hsvd : IsSvd n (halfLaplace W) U V sv)
include hsvd

omit hd hT hr hL hA hstep in
theorem sensing_opNorm (itr k : ℕ) (v : ℝ) (xstar : ℕ → EuclideanSpace ℝ (Fin m)) (fstar : ℝ)
    (h : (pgExtraSensing n itr W V sv A AT b alpha rho x0 xstar fstar).opNorm[k]? = some v) :
    v = 1 / (4 * alpha) * PgExtra.stepSq n W 1 (1 / 2) (fun k => (sensingState n W A AT b alpha rho x0 k).x) k := by
  simp only [pgExtraSensing] at h
  rw [(get_range_map h).2, mNormSq, mInner_eq (C46_doublyStochastic n G hG W hW) (fun j _ l _ => C46_symmetric n G hG W hW j l) hsvd (C46_connected n G hG hcon W hW) hn ha
    _ (sensingState n W A AT b alpha rho x0 k).x _ (fun j _ => by
      rw [(extra_step (sensing_total n W A AT b alpha rho x0) k).2 j, add_sub_cancel_left])]
  have e1 : (fun j => (sensingState n W A AT b alpha rho x0 (k + 1)).x j - (sensingState n W A AT b alpha rho x0 k).x j) =
    (sensingState n W A AT b alpha rho x0 (k + 1)).x - (sensingState n W A AT b alpha rho x0 k).x := rfl
  rw [e1, sub_add_cancel]
  unfold PgExtra.stepSq
  field_simp

omit hd hT hr hL hA hstep in
/-- **C56** the recorded operator norm is nonnegative, for every step size, start and sensing data. -/
theorem C56_nonneg (itr k : ℕ) (v : ℝ) (xstar : ℕ → EuclideanSpace ℝ (Fin m)) (fstar : ℝ)
    (h : (pgExtraSensing n itr W V sv A AT b alpha rho x0 xstar fstar).opNorm[k]? = some v) : 0 ≤ v := by
  rw [sensing_opNorm n hn G hG hcon W hW A AT b alpha rho ha x0 U V sv hsvd itr k v xstar fstar h]
  have hD := C46_doublyStochastic n G hG W hW
  set p := (sensingState n W A AT b alpha rho x0 (k + 1)).x - (sensingState n W A AT b alpha rho x0 k).x with hp
  have h1 := diagonal_bound (b := 1) (δ := 0) hD (by norm_num) (fun j hj => hD.nonneg j hj j hj) p
  have h2 := form_eq hD p
  have h3 : 0 ≤ PgExtra.nsq n p - PgExtra.esq n W (PgExtra.diff p) := by
    have : ((1 : ℝ) - 1 * (1 - 0)) * ∑ j ∈ Finset.range n, ‖p j‖ ^ 2 = 0 := by ring
    rw [this, h2, ← PgExtra.nsq_eq] at h1
    exact h1
  have h4 : 0 ≤ PgExtra.esq n W (PgExtra.diff (sensingState n W A AT b alpha rho x0 (k + 1)).x) := by
    unfold PgExtra.esq wsq
    refine Finset.sum_nonneg fun q hq => mul_nonneg ?_ (by positivity)
    obtain ⟨h5, h6⟩ := Finset.mem_product.1 hq
    have := hD.nonneg q.1 (Finset.mem_range.1 h5) q.2 (Finset.mem_range.1 h6)
    unfold PgExtra.pw
    positivity
  unfold PgExtra.stepSq
  refine mul_nonneg (by positivity) ?_
  simp only [← hp]
  linarith

/-- **C56** the recorded operator norms never increase. -/
theorem C56_antitone (xh : EuclideanSpace ℝ (Fin m)) (hx : SumMin n (sensingFun (fun j => A j) b rho) xh) (itr k : ℕ) (v v' : ℝ)
    (xstar : ℕ → EuclideanSpace ℝ (Fin m)) (fstar : ℝ)
    (h : (pgExtraSensing n itr W V sv A AT b alpha rho x0 xstar fstar).opNorm[k]? = some v)
    (h' : (pgExtraSensing n itr W V sv A AT b alpha rho x0 xstar fstar).opNorm[k + 1]? = some v') : v' ≤ v := by
  obtain ⟨L', kap, gh, Ih, hC⟩ := sensing_conv n hn G hG hcon W hW d hd A AT b hT alpha rho L ha hr hL hA hstep x0 xh hx
  rw [sensing_opNorm n hn G hG hcon W hW A AT b alpha rho ha x0 U V sv hsvd itr k v xstar fstar h,
    sensing_opNorm n hn G hG hcon W hW A AT b alpha rho ha x0 U V sv hsvd itr (k + 1) v' xstar fstar h']
  exact mul_le_mul_of_nonneg_left (hC.stepSq_anti k) (by positivity)

/-- **C56** the recorded operator norms decrease at least like `1 / (k + 1)`. -/
theorem C56_rate (xh : EuclideanSpace ℝ (Fin m)) (hx : SumMin n (sensingFun (fun j => A j) b rho) xh) :
    ∃ B : ℝ, ∀ (itr k : ℕ) (v : ℝ) (xstar : ℕ → EuclideanSpace ℝ (Fin m)) (fstar : ℝ),
      (pgExtraSensing n itr W V sv A AT b alpha rho x0 xstar fstar).opNorm[k]? = some v → v ≤ B / (k + 1) := by
  obtain ⟨L', kap, gh, Ih, hC⟩ := sensing_conv n hn G hG hcon W hW d hd A AT b hT alpha rho L ha hr hL hA hstep x0 xh hx
  obtain ⟨B, hB⟩ := hC.stepSq_sum
  refine ⟨1 / (4 * alpha) * B, fun itr k v xstar fstar h => ?_⟩
  rw [sensing_opNorm n hn G hG hcon W hW A AT b alpha rho ha x0 U V sv hsvd itr k v xstar fstar h, mul_div_assoc]
  refine mul_le_mul_of_nonneg_left ?_ (by positivity)
  rw [le_div_iff₀ (by positivity)]
  refine le_trans ?_ (hB (k + 1))
  have hanti : Antitone (PgExtra.stepSq n W 1 (1 / 2) fun k => (sensingState n W A AT b alpha rho x0 k).x) := antitone_nat_of_succ_le hC.stepSq_anti
  have h1 : ∑ _t ∈ Finset.range (k + 1), PgExtra.stepSq n W 1 (1 / 2) (fun k => (sensingState n W A AT b alpha rho x0 k).x) k ≤
      ∑ t ∈ Finset.range (k + 1), PgExtra.stepSq n W 1 (1 / 2) (fun k => (sensingState n W A AT b alpha rho x0 k).x) t :=
    Finset.sum_le_sum fun t ht => hanti (by have := Finset.mem_range.1 ht; omega)
  rw [Finset.sum_const, Finset.card_range, nsmul_eq_mul] at h1
  push_cast at h1
  linarith

end main

/-- **C55** (`decentr_compressed_sensing.py`) with a positive weight of the 1-norm a minimiser exists. -/
theorem C55_sensing_exists (n : ℕ) (hn : 0 < n) (A : ℕ → EuclideanSpace ℝ (Fin m) →ₗ[ℝ] S) (b : ℕ → S) (rho : ℝ) (hr : 0 < rho) :
    ∃ xh, SumMin n (sensingFun (fun j => A j) b rho) xh := by
  have hc : Continuous fun x => ∑ j ∈ Finset.range n, (sensingFun (fun j => A j) b rho j).f x := by
    refine continuous_finsetSum _ fun j _ => ?_
    have := (A j).toContinuousLinearMap.continuous
    simp only [LinearMap.coe_toContinuousLinearMap'] at this
    unfold sensingFun
    simp only
    fun_prop
  have hl : ∀ x : EuclideanSpace ℝ (Fin m), rho * ‖x‖ ≤ ∑ j ∈ Finset.range n, (sensingFun (fun j => A j) b rho j).f x := by
    intro x
    have h0 : ∀ j ∈ Finset.range n, 0 ≤ (sensingFun (fun j => A j) b rho j).f x := by
      intro j _
      unfold sensingFun
      positivity
    refine le_trans ?_ (Finset.single_le_sum h0 (Finset.mem_range.2 hn))
    have h1 : ‖x‖ ≤ ∑ i, |x i| := by
      rw [EuclideanSpace.norm_eq]
      refine Real.sqrt_le_iff.2 ⟨Finset.sum_nonneg fun _ _ => abs_nonneg _, ?_⟩
      simp only [Real.norm_eq_abs]
      exact Finset.sum_sq_le_sq_sum_of_nonneg fun _ _ => abs_nonneg _
    have h2 := mul_le_mul_of_nonneg_left h1 hr.le
    unfold sensingFun
    simp only
    have : 0 ≤ 1 / 2 * ‖A 0 x - b 0‖ ^ 2 := by positivity
    linarith
  have ht' : Tendsto (fun x => ∑ j ∈ Finset.range n, (sensingFun (fun j => A j) b rho j).f x) (Filter.cocompact (EuclideanSpace ℝ (Fin m))) atTop :=
    Filter.tendsto_atTop_mono hl (Filter.Tendsto.const_mul_atTop hr tendsto_norm_cocompact_atTop)
  obtain ⟨xh, hx⟩ := hc.exists_forall_le ht'
  exact ⟨xh, fun j _ => trivial, fun y _ => hx y⟩

/-- **C56** the squared norm is the square of the norm, and positive unless the point is zero at all nodes, for every vector and every image of
`(I - W) / 2`. -/
theorem C56_norm (n : ℕ) (hn : 0 < n) (G : NxGraph) (hG : G.Simple) (hcon : G.Connected n) (W : ℕ → ℕ → ℝ) (hW : mhWeights n G = .ok W)
    (U V : ℕ → ℕ → ℝ) (sv : ℕ → ℝ) (hsvd : IsSvd n (halfLaplace W) U V sv) (alpha : ℝ) (ha : 0 < alpha) (x y w : ℕ → S)
    (hw : ∀ j < n, w j = ∑ l ∈ Finset.range n, halfLaplace W j l • y l) :
    0 ≤ mNormSq n V sv x w alpha ∧ mNorm n V sv x w alpha ^ 2 = mNormSq n V sv x w alpha ∧ (mNormSq n V sv x w alpha = 0 → ∀ j < n, x j = 0 ∧ w j = 0) := by
  have hD := C46_doublyStochastic n G hG W hW
  have hsym : ∀ j < n, ∀ l < n, W j l = W l j := fun j _ l _ => C46_symmetric n G hG W hW j l
  have hw' : ∀ j < n, w j = (1 / 2 : ℝ) • PgExtra.laplace n W y j := fun j hj => by rw [hw j hj, halfLaplace_apply]
  have e := mInner_eq hD hsym hsvd (C46_connected n G hG hcon W hW) hn ha x y w hw'
  have hdeg : ∃ δ : ℝ, 0 < δ ∧ ∀ j < n, δ ≤ W j j := by
    refine ⟨1 / ((∑ j ∈ Finset.range n, (G.degree (j + 1) : ℝ)) + 1), by positivity, fun j hj => ?_⟩
    refine le_trans (one_div_le_one_div_of_le (by positivity) ?_) (C46_diagonal n G hG W hW j hj).1
    have := Finset.single_le_sum (f := fun j => (G.degree (j + 1) : ℝ)) (fun _ _ => by positivity) (Finset.mem_range.2 hj)
    linarith
  obtain ⟨δ, hδ, hdiag⟩ := hdeg
  have h1 := diagonal_bound (b := 1) (δ := δ) hD (by norm_num) hdiag x
  rw [form_eq hD x, ← PgExtra.nsq_eq] at h1
  have hnn : ∀ z : ℕ → S, 0 ≤ PgExtra.esq n W (PgExtra.diff z) := by
    intro z
    unfold PgExtra.esq wsq
    refine Finset.sum_nonneg fun q hq => mul_nonneg ?_ (by positivity)
    obtain ⟨h5, h6⟩ := Finset.mem_product.1 hq
    have := hD.nonneg q.1 (Finset.mem_range.1 h5) q.2 (Finset.mem_range.1 h6)
    unfold PgExtra.pw
    positivity
  have h2 : (1 - 1 * (1 - δ)) * PgExtra.nsq n x ≤ PgExtra.nsq n x - PgExtra.esq n W (PgExtra.diff x) := h1
  have h3 : 0 ≤ (1 - 1 * (1 - δ)) * PgExtra.nsq n x := mul_nonneg (by linarith) (PgExtra.nsq_nonneg _)
  have h4 := hnn (x + y)
  have h5 : 0 ≤ mInner n V sv x w x w alpha := by
    rw [e]
    exact mul_nonneg (by positivity) (by linarith)
  refine ⟨mul_nonneg (by norm_num) h5, ?_, fun h0 => ?_⟩
  · unfold mNorm mNormSq
    rw [mul_pow, Real.sq_sqrt h5]
    norm_num
  · have h6 : mInner n V sv x w x w alpha = 0 := by
      unfold mNormSq at h0
      linarith
    rw [e] at h6
    have h7 := (mul_eq_zero.1 h6).resolve_left (by positivity)
    have h8 : PgExtra.nsq n x = 0 := by
      have h9 : (1 - 1 * (1 - δ)) * PgExtra.nsq n x = 0 := by linarith
      exact (mul_eq_zero.1 h9).resolve_left (by linarith)
    have h10 : ∀ j < n, x j = 0 := by
      rw [PgExtra.nsq_eq] at h8
      intro j hj
      have := (Finset.sum_eq_zero_iff_of_nonneg fun _ _ => by positivity).1 h8 j (Finset.mem_range.2 hj)
      simpa using this
    have h11 : PgExtra.esq n W (PgExtra.diff (x + y)) = 0 := by linarith
    refine fun j hj => ⟨h10 j hj, ?_⟩
    rw [hw' j hj]
    unfold PgExtra.laplace
    have h12 : ∀ l < n, W j l = 0 ∨ y j - y l = 0 := by
      intro l hl
      unfold PgExtra.esq wsq at h11
      have := (Finset.sum_eq_zero_iff_of_nonneg fun q hq => mul_nonneg (by
        obtain ⟨h5, h6⟩ := Finset.mem_product.1 hq
        have := hD.nonneg q.1 (Finset.mem_range.1 h5) q.2 (Finset.mem_range.1 h6)
        unfold PgExtra.pw
        positivity) (by positivity)).1 h11 (j, l) (Finset.mem_product.2 ⟨Finset.mem_range.2 hj, Finset.mem_range.2 hl⟩)
      rcases mul_eq_zero.1 this with h | h
      · left
        unfold PgExtra.pw at h
        simp only at h
        linarith
      · right
        simpa [PgExtra.diff, h10 j hj, h10 l hl] using h
    have h13 : ∑ l ∈ Finset.range n, ((if j = l then (1 : ℝ) else 0) - W j l) • y l = y j - ∑ l ∈ Finset.range n, W j l • y l := by
      simp only [sub_smul, Finset.sum_sub_distrib, ite_smul, one_smul, zero_smul]
      rw [Finset.sum_ite_eq (Finset.range n) j, if_pos (Finset.mem_range.2 hj)]
    have h14 : ∑ l ∈ Finset.range n, W j l • y l = y j := by
      have : ∀ l ∈ Finset.range n, W j l • y l = W j l • y j := by
        intro l hl
        rcases h12 l (Finset.mem_range.1 hl) with h | h
        · rw [h, zero_smul, zero_smul]
        · rw [sub_eq_zero.1 h]
      rw [Finset.sum_congr rfl this, ← Finset.sum_smul, hD.rows j hj, one_smul]
    rw [h13, h14, sub_self, smul_zero]

/-! ### The hypotheses can be met -/

/-- a decomposition of the matrix of the two-node network -/
theorem svd_graph2 (W : ℕ → ℕ → ℝ) (hW : W 0 0 = 1 / 2 ∧ W 0 1 = 1 / 2 ∧ W 1 0 = 1 / 2 ∧ W 1 1 = 1 / 2) :
    ∃ U V sv, IsSvd 2 (halfLaplace W) U V sv ∧ sv 0 = 1 / 2 := by
  obtain ⟨h00, h01, h10, h11⟩ := hW
  have hr : Real.sqrt (1 / 2) * Real.sqrt (1 / 2) = 1 / 2 := Real.mul_self_sqrt (by norm_num)
  set r := Real.sqrt (1 / 2)
  refine ⟨fun j i => if i = 0 ∧ j = 1 then -r else r, fun i j => if i = 0 ∧ j = 1 then -r else r, fun i => if i = 0 then 1 / 2 else 0, ⟨?_, ?_, ?_, ?_, ?_, ?_⟩,
    rfl⟩
  · intro j hj l hl
    interval_cases j <;> interval_cases l <;> norm_num [Finset.sum_range_succ, halfLaplace, h00, h01, h10, h11] <;> nlinarith
  all_goals
    intro i hi
    try intro j hj
    interval_cases i
  all_goals first
    | (interval_cases j <;> norm_num [Finset.sum_range_succ] <;> nlinarith)
    | norm_num

example : ∃ (W U V : ℕ → ℕ → ℝ) (sv : ℕ → ℝ), mhWeights 2 graph2 = .ok W ∧ IsSvd 2 (halfLaplace W) U V sv ∧ graph2.Connected 2 ∧ graph2.Simple ∧
    ∀ j < 2, graph2.degree (j + 1) ≤ 1 := by
  obtain ⟨W, h1, h2⟩ := weights_graph2
  obtain ⟨U, V, sv, h3, -⟩ := svd_graph2 W h2
  exact ⟨W, U, V, sv, h1, h3, connected_graph2, simple_graph2, by decide⟩

/-- the conditions on the data: identity blocks have `L = 1`, and every step below `1` is allowed on the two-node network -/
example (b : ℕ → EuclideanSpace ℝ (Fin m)) : (∀ j < 2, ∀ x s : EuclideanSpace ℝ (Fin m), ⟪(LinearMap.id : EuclideanSpace ℝ (Fin m) →ₗ[ℝ] _) s, x⟫_ℝ =
    ⟪s, (LinearMap.id : EuclideanSpace ℝ (Fin m) →ₗ[ℝ] _) x⟫_ℝ) ∧ (∀ x : EuclideanSpace ℝ (Fin m), ‖(LinearMap.id : EuclideanSpace ℝ (Fin m) →ₗ[ℝ] _) x‖ ^ 2 ≤ 1 * ‖x‖ ^ 2) ∧
    (1 / 2 : ℝ) * 1 < 2 / (((1 : ℕ) : ℝ) + 1) ∧
    ∃ xh, SumMin 2 (sensingFun (fun _ => (LinearMap.id : EuclideanSpace ℝ (Fin m) →ₗ[ℝ] _)) b 1) xh :=
  ⟨fun _ _ _ _ => rfl, fun _ => by simp, by norm_num, C55_sensing_exists 2 (by norm_num) (fun _ => LinearMap.id) b 1 one_pos⟩

end Verif
