import Verif.Spec.Classes
import Mathlib.Analysis.Calculus.Deriv.MeanValue
import Mathlib.Analysis.Calculus.LocalExtr.Basic
import Mathlib.Analysis.Calculus.Deriv.Pow
import Mathlib.Analysis.Calculus.FDeriv.Linear
import Mathlib.Analysis.Calculus.FDeriv.Add
import Mathlib.Analysis.InnerProductSpace.Calculus

namespace Verif
open scoped InnerProductSpace

variable {E : Type} [NormedAddCommGroup E] [InnerProductSpace ℝ E]

/-- strong convexity strengthens the subgradient inequality -/
theorem strong_sample {F : CFun E} {mu : ℝ} (hF : StrongConvexOn F.dom mu F.f) {x g : E} {v : ℝ} (hs : F.Sample x g v)
    {y : E} (hy : y ∈ F.dom) : v + ⟪g, y - x⟫_ℝ + mu / 2 * ‖y - x‖ ^ 2 ≤ F.f y := by
  obtain ⟨hx, hv, hsub⟩ := hs
  -- for t in (0,1): v + t<g,y-x> ≤ F((1-t)x+ty) ≤ (1-t) v + t F y - (1-t) t mu/2 |x-y|^2
  have key : ∀ t : ℝ, 0 < t → t < 1 → v + ⟪g, y - x⟫_ℝ + (1 - t) * (mu / 2 * ‖y - x‖ ^ 2) ≤ F.f y := by
    intro t h0 h1
    have hc := hF.2 hx hy (by linarith : (0:ℝ) ≤ 1 - t) h0.le (by ring)
    have hmem := hF.1 hx hy (by linarith : (0:ℝ) ≤ 1 - t) h0.le (by ring)
    have := hsub _ hmem
    have e : (1 - t) • x + t • y - x = t • (y - x) := by rw [sub_smul, one_smul, smul_sub]; abel
    rw [e, inner_smul_right] at this
    simp only [smul_eq_mul] at hc
    rw [hv, norm_sub_rev x y] at hc
    have h2 : v + t * ⟪g, y - x⟫_ℝ ≤ (1 - t) * v + t * F.f y - (1 - t) * t * (mu / 2 * ‖y - x‖ ^ 2) := this.trans hc
    have h3 : t * (v + ⟪g, y - x⟫_ℝ + (1 - t) * (mu / 2 * ‖y - x‖ ^ 2)) ≤ t * F.f y := by linarith
    exact le_of_mul_le_mul_left h3 h0
  have lim : Filter.Tendsto (fun t : ℝ => v + ⟪g, y - x⟫_ℝ + (1 - t) * (mu / 2 * ‖y - x‖ ^ 2)) (nhdsWithin 0 (Set.Ioi 0))
      (nhds (v + ⟪g, y - x⟫_ℝ + (1 - 0) * (mu / 2 * ‖y - x‖ ^ 2))) := by
    apply Filter.Tendsto.mono_left _ nhdsWithin_le_nhds
    exact Continuous.tendsto (by fun_prop) 0
  rw [sub_zero, one_mul] at lim
  refine le_of_tendsto lim ?_
  filter_upwards [Ioo_mem_nhdsGT (show (0:ℝ) < 1 by norm_num)] with t ht
  exact key t ht.1 ht.2

/-- the gradient is the only subgradient -/
theorem subgrad_unique {F : CFun E} (hd : F.dom = Set.univ) {G x : E} (hG : HasFDerivAt F.f (innerSL ℝ G) x) {g : E} {v : ℝ}
    (hs : F.Sample x g v) : g = G := by
  obtain ⟨-, hv, hsub⟩ := hs
  have hmin : IsLocalMin (fun y => F.f y - ⟪g, y⟫_ℝ) x := by
    refine Filter.Eventually.of_forall fun y => ?_
    have := hsub y (by rw [hd]; trivial)
    rw [inner_sub_right] at this
    simp only
    rw [hv]; linarith
  have hder : HasFDerivAt (fun y => F.f y - ⟪g, y⟫_ℝ) (innerSL ℝ G - innerSL ℝ g) x :=
    hG.sub (innerSL ℝ g).hasFDerivAt
  have := hmin.hasFDerivAt_eq_zero hder
  have h2 := congrArg (fun l => l (G - g)) this
  simp only [ContinuousLinearMap.sub_apply, innerSL_apply_apply, ContinuousLinearMap.zero_apply] at h2
  rw [← inner_sub_left] at h2
  exact (sub_eq_zero.1 (inner_self_eq_zero.1 h2)).symm

/-- descent lemma -/
theorem descent {f : E → ℝ} {G : E → E} {L : ℝ} (hG : ∀ x, HasFDerivAt f (innerSL ℝ (G x)) x)
    (hL : ∀ x y, ‖G x - G y‖ ≤ L * ‖x - y‖) (x y : E) : f y ≤ f x + ⟪G x, y - x⟫_ℝ + L / 2 * ‖y - x‖ ^ 2 := by
  set d := y - x with hd
  let ψ : ℝ → ℝ := fun t => f (x + t • d) - t * ⟪G x, d⟫_ℝ - L / 2 * ‖d‖ ^ 2 * t ^ 2
  have hder : ∀ t : ℝ, HasDerivAt ψ (⟪G (x + t • d), d⟫_ℝ - ⟪G x, d⟫_ℝ - L / 2 * ‖d‖ ^ 2 * (2 * t)) t := by
    intro t
    have hline : HasDerivAt (fun t : ℝ => x + t • d) d t := by
      have := ((hasDerivAt_id t).smul_const d).const_add x
      simpa using this
    have h1 : HasDerivAt (fun t : ℝ => f (x + t • d)) (⟪G (x + t • d), d⟫_ℝ) t := by
      have := (hG (x + t • d)).comp_hasDerivAt t hline
      exact this
    have h2 : HasDerivAt (fun t : ℝ => t * ⟪G x, d⟫_ℝ) (⟪G x, d⟫_ℝ) t := by
      simpa using (hasDerivAt_id t).mul_const ⟪G x, d⟫_ℝ
    have h3 : HasDerivAt (fun t : ℝ => L / 2 * ‖d‖ ^ 2 * t ^ 2) (L / 2 * ‖d‖ ^ 2 * (2 * t)) t := by
      simpa using (hasDerivAt_pow 2 t).const_mul (L / 2 * ‖d‖ ^ 2)
    exact (h1.sub h2).sub h3
  have hanti : AntitoneOn ψ (Set.Icc 0 1) := by
    refine antitoneOn_of_deriv_nonpos (convex_Icc 0 1) (fun t _ => (hder t).continuousAt.continuousWithinAt)
      (fun t _ => (hder t).differentiableAt.differentiableWithinAt) ?_
    intro t ht
    rw [interior_Icc] at ht
    rw [(hder t).deriv]
    have h1 : ⟪G (x + t • d) - G x, d⟫_ℝ ≤ ‖G (x + t • d) - G x‖ * ‖d‖ := real_inner_le_norm _ _
    have h2 := hL (x + t • d) x
    rw [add_sub_cancel_left, norm_smul, Real.norm_eq_abs, abs_of_pos ht.1] at h2
    rw [inner_sub_left] at h1
    nlinarith [norm_nonneg d, mul_le_mul_of_nonneg_right h2 (norm_nonneg d)]
  have := hanti (Set.left_mem_Icc.2 zero_le_one) (Set.right_mem_Icc.2 zero_le_one) zero_le_one
  simp only [ψ, zero_smul, add_zero, one_smul] at this
  have e : x + d = y := by rw [hd]; abel
  rw [e] at this
  linarith

/-- interpolation inequality of `mu`-strongly convex functions with `L`-Lipschitz gradient, from the two quadratic bounds -/
theorem smooth_strong {f : E → ℝ} {G : E → E} {mu L : ℝ} (hmL : mu < L)
    (lower : ∀ x y, f x + ⟪G x, y - x⟫_ℝ + mu / 2 * ‖y - x‖ ^ 2 ≤ f y)
    (upper : ∀ x y, f y ≤ f x + ⟪G x, y - x⟫_ℝ + L / 2 * ‖y - x‖ ^ 2) (x y : E) :
    f y - f x + ⟪G y, x - y⟫_ℝ + mu / 2 * ‖x - y‖ ^ 2 + 1 / (2 * (L - mu)) * ‖G x - G y - mu • (x - y)‖ ^ 2 ≤ 0 := by
  set c := L - mu with hc
  have hc0 : 0 < c := by rw [hc]; linarith
  set u := G x - G y - mu • (x - y) with hu
  -- step from x to z = x - (1/c) u
  have h1 := lower y (x - (1 / c) • u)
  have h2 := upper x (x - (1 / c) • u)
  have e1 : x - (1 / c) • u - x = -((1 / c) • u) := by abel
  have e2 : x - (1 / c) • u - y = (x - y) - (1 / c) • u := by abel
  rw [e1, inner_neg_right, norm_neg, inner_smul_right, norm_smul, Real.norm_eq_abs, mul_pow, sq_abs] at h2
  rw [e2, inner_sub_right, inner_smul_right, norm_sub_sq_real, inner_smul_right, norm_smul, Real.norm_eq_abs, mul_pow, sq_abs] at h1
  have h3 : ⟪u, u⟫_ℝ = ⟪G x, u⟫_ℝ - ⟪G y, u⟫_ℝ - mu * ⟪x - y, u⟫_ℝ := by
    conv_lhs => rw [hu, ← hu]
    rw [show ⟪u, u⟫_ℝ = ⟪G x - G y - mu • (x - y), u⟫_ℝ by rw [← hu], inner_sub_left, inner_sub_left, inner_smul_left]
    simp
  rw [real_inner_self_eq_norm_sq] at h3
  have h4 : (1 / c) ^ 2 * ‖u‖ ^ 2 * c = (1 / c) * ‖u‖ ^ 2 := by field_simp
  have h5 : 1 / (2 * c) * ‖u‖ ^ 2 = (1/2) * ((1 / c) * ‖u‖ ^ 2) := by field_simp
  rw [h5]
  have hL : L = c + mu := by rw [hc]; ring
  rw [hL] at h2
  have h6 : (1 / c) * ‖u‖ ^ 2 = (1 / c) * (⟪G x, u⟫_ℝ - ⟪G y, u⟫_ℝ - mu * ⟪x - y, u⟫_ℝ) := by rw [h3]
  nlinarith [h1, h2, h4, h6]

end Verif
