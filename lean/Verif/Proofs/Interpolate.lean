import Verif.Spec.Interp
import Mathlib.Analysis.Convex.StdSimplex
import Mathlib.Analysis.Calculus.FDeriv.Basic
import Mathlib.Analysis.Calculus.FDeriv.Add
import Mathlib.Analysis.InnerProductSpace.Calculus
import Mathlib.Analysis.Convex.Strong

/-!
# From samples to a function: the interpolation inequalities are sufficient

`Interp.maxAff` interpolates samples of convex functions, `Interp.smooth` samples of smooth convex functions.
-/

namespace Verif.Interp
open scoped InnerProductSpace

variable {E : Type} [NormedAddCommGroup E] [InnerProductSpace ℝ E]
variable {ι : Type} [Fintype ι] [Nonempty ι]

/-! ## convex functions: the maximum of affine functions -/

noncomputable def maxAff (x g : ι → E) (f : ι → ℝ) (y : E) : ℝ :=
  Finset.univ.sup' Finset.univ_nonempty fun i => f i + ⟪g i, y - x i⟫_ℝ

theorem le_maxAff (x g : ι → E) (f : ι → ℝ) (y : E) (i : ι) : f i + ⟪g i, y - x i⟫_ℝ ≤ maxAff x g f y :=
  Finset.le_sup' (fun i => f i + ⟪g i, y - x i⟫_ℝ) (Finset.mem_univ i)

theorem maxAff_convex (x g : ι → E) (f : ι → ℝ) : ConvexOn ℝ Set.univ (maxAff x g f) := by
  refine ⟨convex_univ, fun y _ z _ a b ha hb hab => ?_⟩
  refine Finset.sup'_le _ _ fun i _ => ?_
  have e : f i + ⟪g i, a • y + b • z - x i⟫_ℝ = a * (f i + ⟪g i, y - x i⟫_ℝ) + b * (f i + ⟪g i, z - x i⟫_ℝ) := by
    simp only [inner_sub_right, inner_add_right, inner_smul_right]
    have : b = 1 - a := by linarith
    subst this; ring
  rw [e]
  exact add_le_add (mul_le_mul_of_nonneg_left (le_maxAff x g f y i) ha) (mul_le_mul_of_nonneg_left (le_maxAff x g f z i) hb)

theorem maxAff_sample {x g : ι → E} {f : ι → ℝ} (h : ∀ i j, f j - f i + ⟪g j, x i - x j⟫_ℝ ≤ 0) (i : ι) :
    maxAff x g f (x i) = f i := by
  refine le_antisymm (Finset.sup'_le _ _ fun j _ => by linarith [h i j]) ?_
  have := le_maxAff x g f (x i) i
  simpa using this

/-! ## smooth convex functions -/

/-- Jensen's inequality for the square of the norm -/
theorem norm_sq_comb (u v : E) {a b : ℝ} (ha : 0 ≤ a) (hb : 0 ≤ b) (hab : a + b = 1) :
    ‖a • u + b • v‖ ^ 2 ≤ a * ‖u‖ ^ 2 + b * ‖v‖ ^ 2 := by
  have h1 : ‖a • u + b • v‖ ^ 2 = a ^ 2 * ‖u‖ ^ 2 + 2 * (a * b) * ⟪u, v⟫_ℝ + b ^ 2 * ‖v‖ ^ 2 := by
    rw [norm_add_sq_real, norm_smul, norm_smul, inner_smul_left, inner_smul_right]
    simp only [mul_pow, Real.norm_eq_abs, sq_abs, conj_trivial]; ring
  have h2 : 0 ≤ ‖u - v‖ ^ 2 := by positivity
  rw [norm_sub_sq_real] at h2
  have h3 := mul_nonneg (mul_nonneg ha hb) h2
  rw [h1]
  have : b = 1 - a := by linarith
  subst this
  nlinarith

section smooth
variable (L : ℝ) (x g : ι → E) (f : ι → ℝ)

/-- value of the paraboloid of curvature `L` whose vertex is the combination `α` of the vertices of the samples -/
noncomputable def par (α : ι → ℝ) (y : E) : ℝ :=
  ∑ i, α i * (f i - ‖g i‖ ^ 2 / (2 * L)) + L / 2 * ‖y - ∑ i, α i • (x i - (1 / L) • g i)‖ ^ 2

omit [Nonempty ι] in
theorem par_continuous (y : E) : Continuous fun α => par L x g f α y := by
  unfold par
  fun_prop

theorem exists_min (y : E) : ∃ α ∈ stdSimplex ℝ ι, ∀ β ∈ stdSimplex ℝ ι, par L x g f α y ≤ par L x g f β y := by
  have hne : (stdSimplex ℝ ι).Nonempty := by
    classical
    exact ⟨_, single_mem_stdSimplex ℝ (Classical.arbitrary ι)⟩
  obtain ⟨α, h1, h2⟩ := (isCompact_stdSimplex ℝ ι).exists_isMinOn hne (par_continuous L x g f y).continuousOn
  exact ⟨α, h1, h2⟩

noncomputable def best (y : E) : ι → ℝ := (exists_min L x g f y).choose
theorem best_mem (y : E) : best L x g f y ∈ stdSimplex ℝ ι := (exists_min L x g f y).choose_spec.1

/-- the lower envelope of the paraboloids -/
noncomputable def smooth (y : E) : ℝ := par L x g f (best L x g f y) y

theorem smooth_le {α : ι → ℝ} (hα : α ∈ stdSimplex ℝ ι) (y : E) : smooth L x g f y ≤ par L x g f α y :=
  (exists_min L x g f y).choose_spec.2 α hα

/-- its gradient -/
noncomputable def grad (y : E) : E := L • (y - ∑ i, best L x g f y i • (x i - (1 / L) • g i))

variable {L} (hL : 0 < L)
include hL

theorem smooth_convex : ConvexOn ℝ Set.univ (smooth L x g f) := by
  refine ⟨convex_univ, fun y _ z _ a b ha hb hab => ?_⟩
  set α := best L x g f y with hα
  set β := best L x g f z with hβ
  have hm : a • α + b • β ∈ stdSimplex ℝ ι := convex_stdSimplex ℝ ι (best_mem L x g f y) (best_mem L x g f z) ha hb hab
  refine (smooth_le L x g f hm _).trans ?_
  show par L x g f _ _ ≤ a * par L x g f α y + b * par L x g f β z
  unfold par
  have e1 : ∑ i, (a • α + b • β) i * (f i - ‖g i‖ ^ 2 / (2 * L)) =
      a * ∑ i, α i * (f i - ‖g i‖ ^ 2 / (2 * L)) + b * ∑ i, β i * (f i - ‖g i‖ ^ 2 / (2 * L)) := by
    rw [Finset.mul_sum, Finset.mul_sum, ← Finset.sum_add_distrib]
    refine Finset.sum_congr rfl fun i _ => ?_
    simp only [Pi.add_apply, Pi.smul_apply, smul_eq_mul]; ring
  have e2 : a • y + b • z - ∑ i, (a • α + b • β) i • (x i - (1 / L) • g i) =
      a • (y - ∑ i, α i • (x i - (1 / L) • g i)) + b • (z - ∑ i, β i • (x i - (1 / L) • g i)) := by
    have : ∑ i, (a • α + b • β) i • (x i - (1 / L) • g i) =
        a • ∑ i, α i • (x i - (1 / L) • g i) + b • ∑ i, β i • (x i - (1 / L) • g i) := by
      rw [Finset.smul_sum, Finset.smul_sum, ← Finset.sum_add_distrib]
      refine Finset.sum_congr rfl fun i _ => ?_
      simp only [Pi.add_apply, Pi.smul_apply, smul_eq_mul, add_smul, mul_smul]
    rw [this, smul_sub, smul_sub]; abel
  rw [e1, e2]
  have := norm_sq_comb (y - ∑ i, α i • (x i - (1 / L) • g i)) (z - ∑ i, β i • (x i - (1 / L) • g i)) ha hb hab
  nlinarith [mul_le_mul_of_nonneg_left this (by positivity : 0 ≤ L / 2)]

omit hL in
theorem smooth_upper (y z : E) :
    smooth L x g f z ≤ smooth L x g f y + ⟪grad L x g f y, z - y⟫_ℝ + L / 2 * ‖z - y‖ ^ 2 := by
  refine (smooth_le L x g f (best_mem L x g f y) z).trans (le_of_eq ?_)
  unfold smooth grad par
  set c := ∑ i, best L x g f y i • (x i - (1 / L) • g i)
  have e : z - c = (y - c) + (z - y) := by abel
  rw [e, norm_add_sq_real, inner_smul_left]
  simp only [conj_trivial]; ring

theorem smooth_lower (y z : E) : smooth L x g f y + ⟪grad L x g f y, z - y⟫_ℝ ≤ smooth L x g f z := by
  by_contra hc
  push Not at hc
  set F := smooth L x g f
  set G := grad L x g f y
  set D := F y + ⟪G, z - y⟫_ℝ - F z with hD
  have hDpos : 0 < D := by rw [hD]; linarith
  have key : ∀ s : ℝ, 0 < s → D ≤ s * (L / 2 * ‖z - y‖ ^ 2) := by
    intro s hs
    have hs1 : (0 : ℝ) < 1 + s := by linarith
    have hconv := (smooth_convex x g f hL).2 (Set.mem_univ (y - s • (z - y))) (Set.mem_univ z)
      (by positivity : (0 : ℝ) ≤ 1 / (1 + s)) (by positivity : (0 : ℝ) ≤ s / (1 + s)) (by field_simp)
    have e : (1 / (1 + s)) • (y - s • (z - y)) + (s / (1 + s)) • z = y := by
      have h1 : y - s • (z - y) = (1 + s) • y - s • z := by module
      rw [h1, smul_sub, smul_smul, smul_smul, one_div, inv_mul_cancel₀ hs1.ne', one_smul]
      rw [inv_mul_eq_div]; abel
    rw [e] at hconv
    have hup := smooth_upper (L := L) x g f y (y - s • (z - y))
    have e2 : y - s • (z - y) - y = (-s) • (z - y) := by module
    rw [e2, inner_smul_right, norm_smul, mul_pow, Real.norm_eq_abs, sq_abs] at hup
    simp only [smul_eq_mul] at hconv
    have h3 : (1 + s) * F y ≤ F (y - s • (z - y)) + s * F z := by
      have := mul_le_mul_of_nonneg_left hconv hs1.le
      have e3 : (1 + s) * (1 / (1 + s) * F (y - s • (z - y)) + s / (1 + s) * F z) = F (y - s • (z - y)) + s * F z := by
        field_simp
      rw [e3] at this; exact this
    have h4 : s * D ≤ s * (s * (L / 2 * ‖z - y‖ ^ 2)) := by
      rw [hD]; nlinarith
    exact le_of_mul_le_mul_left h4 hs
  have hN : 0 ≤ L / 2 * ‖z - y‖ ^ 2 := by positivity
  have h5 := key (D / (2 * (L / 2 * ‖z - y‖ ^ 2 + 1))) (by positivity)
  rw [div_mul_eq_mul_div, le_div_iff₀ (by positivity)] at h5
  nlinarith

theorem smooth_deriv (y : E) : HasFDerivAt (smooth L x g f) (innerSL ℝ (grad L x g f y)) y := by
  rw [hasFDerivAt_iff_isLittleO]
  refine Asymptotics.isLittleO_iff.2 fun c hc => ?_
  have : ∀ᶠ z in nhds y, ‖z - y‖ < c / L := by
    have := Metric.ball_mem_nhds y (div_pos hc hL)
    filter_upwards [this] with z hz
    rwa [Metric.mem_ball, dist_eq_norm] at hz
  filter_upwards [this] with z hz
  have h1 := smooth_upper (L := L) x g f y z
  have h2 := smooth_lower x g f hL y z
  rw [innerSL_apply_apply, Real.norm_eq_abs, abs_le]
  have h3 : L / 2 * ‖z - y‖ ^ 2 ≤ c * ‖z - y‖ := by
    have : L * ‖z - y‖ ≤ c := by rw [lt_div_iff₀ hL] at hz; linarith
    nlinarith [norm_nonneg (z - y)]
  have h4 : 0 ≤ c * ‖z - y‖ := by positivity
  constructor <;> linarith

theorem smooth_coco (y z : E) : smooth L x g f y + ⟪grad L x g f y, z - y⟫_ℝ +
    1 / (2 * L) * ‖grad L x g f z - grad L x g f y‖ ^ 2 ≤ smooth L x g f z := by
  set G := grad L x g f y
  set H := grad L x g f z
  have h1 := smooth_lower x g f hL y (z - (1 / L) • (H - G))
  have h2 := smooth_upper (L := L) x g f z (z - (1 / L) • (H - G))
  have e1 : z - (1 / L) • (H - G) - z = -((1 / L) • (H - G)) := by abel
  have e2 : z - (1 / L) • (H - G) - y = (z - y) - (1 / L) • (H - G) := by abel
  rw [e1, inner_neg_right, norm_neg, inner_smul_right, norm_smul, mul_pow, Real.norm_eq_abs, sq_abs] at h2
  rw [e2, inner_sub_right, inner_smul_right] at h1
  have e3 : ⟪H, H - G⟫_ℝ - ⟪G, H - G⟫_ℝ = ‖H - G‖ ^ 2 := by
    rw [← inner_sub_left, real_inner_self_eq_norm_sq]
  have e4 : L / 2 * ((1 / L) ^ 2 * ‖H - G‖ ^ 2) = 1 / (2 * L) * ‖H - G‖ ^ 2 := by field_simp
  have e5 : 1 / L * ‖H - G‖ ^ 2 = 2 * (1 / (2 * L) * ‖H - G‖ ^ 2) := by field_simp
  rw [e4] at h2
  rw [← e3] at e5
  have e6 : 1 / L * (⟪H, H - G⟫_ℝ - ⟪G, H - G⟫_ℝ) = 1 / L * ⟪H, H - G⟫_ℝ - 1 / L * ⟪G, H - G⟫_ℝ := by ring
  change smooth L x g f y + _ ≤ _ at h1
  change _ ≤ smooth L x g f z + -(1 / L * ⟪H, H - G⟫_ℝ) + _ at h2
  rw [← e3] at h2 ⊢
  linarith

theorem smooth_lipschitz (y z : E) : ‖grad L x g f y - grad L x g f z‖ ≤ L * ‖y - z‖ := by
  have h1 := smooth_coco x g f hL y z
  have h2 := smooth_coco x g f hL z y
  set G := grad L x g f y
  set H := grad L x g f z
  have e1 : ‖H - G‖ = ‖G - H‖ := norm_sub_rev _ _
  rw [e1] at h1
  have e2 : ⟪G, z - y⟫_ℝ + ⟪H, y - z⟫_ℝ = -⟪G - H, y - z⟫_ℝ := by
    simp only [inner_sub_left, inner_sub_right]; ring
  have h3 := real_inner_le_norm (G - H) (y - z)
  have e3 : 2 * (1 / (2 * L) * ‖G - H‖ ^ 2) = ‖G - H‖ ^ 2 / L := by field_simp
  have h4 : ‖G - H‖ ^ 2 / L ≤ ‖G - H‖ * ‖y - z‖ := by linarith
  rw [div_le_iff₀ hL] at h4
  rcases (norm_nonneg (G - H)).eq_or_lt with h0 | h0
  · rw [← h0]; positivity
  · nlinarith

omit [Nonempty ι] in
/-- the paraboloids lie above the affine functions of the samples -/
theorem par_ge (h : ∀ i j, f j - f i + ⟪g j, x i - x j⟫_ℝ + 1 / (2 * L) * ‖g i - g j‖ ^ 2 ≤ 0) {α : ι → ℝ}
    (hα : α ∈ stdSimplex ℝ ι) (i : ι) (y : E) : f i + ⟪g i, y - x i⟫_ℝ ≤ par L x g f α y := by
  unfold par
  set u := y - ∑ j, α j • (x j - (1 / L) • g j) with hu
  have h1 : ⟪g i, u⟫_ℝ - ‖g i‖ ^ 2 / (2 * L) ≤ L / 2 * ‖u‖ ^ 2 := by
    have h0 : 0 ≤ ‖(1 / L) • g i - u‖ ^ 2 := by positivity
    rw [norm_sub_sq_real, norm_smul, inner_smul_left, mul_pow, Real.norm_eq_abs, sq_abs, conj_trivial] at h0
    have h0' := mul_le_mul_of_nonneg_left h0 (by positivity : 0 ≤ L / 2)
    have e : L / 2 * ((1 / L) ^ 2 * ‖g i‖ ^ 2 - 2 * (1 / L * ⟪g i, u⟫_ℝ) + ‖u‖ ^ 2) =
        ‖g i‖ ^ 2 / (2 * L) - ⟪g i, u⟫_ℝ + L / 2 * ‖u‖ ^ 2 := by field_simp
    rw [e] at h0'
    linarith
  have h2 : ⟪g i, u⟫_ℝ = ∑ j, α j * ⟪g i, y - (x j - (1 / L) • g j)⟫_ℝ := by
    have : u = ∑ j, α j • (y - (x j - (1 / L) • g j)) := by
      simp only [hu, smul_sub _ y, Finset.sum_sub_distrib, ← Finset.sum_smul, hα.2, one_smul]
    rw [this, inner_sum]
    exact Finset.sum_congr rfl fun j _ => inner_smul_right _ _ _
  have h3 : f i + ⟪g i, y - x i⟫_ℝ = ∑ j, α j * (f i + ⟪g i, y - x i⟫_ℝ) := by
    rw [← Finset.sum_mul, hα.2, one_mul]
  have h4 : ‖g i‖ ^ 2 / (2 * L) = ∑ j, α j * (‖g i‖ ^ 2 / (2 * L)) := by
    rw [← Finset.sum_mul, hα.2, one_mul]
  have h5 : ∑ j, α j * (f i + ⟪g i, y - x i⟫_ℝ) ≤
      ∑ j, (α j * (f j - ‖g j‖ ^ 2 / (2 * L)) + α j * ⟪g i, y - (x j - (1 / L) • g j)⟫_ℝ - α j * (‖g i‖ ^ 2 / (2 * L))) := by
    refine Finset.sum_le_sum fun j _ => ?_
    rw [← mul_add, ← mul_sub]
    refine mul_le_mul_of_nonneg_left ?_ (hα.1 j)
    have hij := h j i
    rw [norm_sub_sq_real, real_inner_comm] at hij
    have e1 : ⟪g i, y - (x j - (1 / L) • g j)⟫_ℝ = ⟪g i, y - x i⟫_ℝ - ⟪g i, x j - x i⟫_ℝ + 1 / L * ⟪g i, g j⟫_ℝ := by
      simp only [inner_sub_right, inner_smul_right]; ring
    have e2 : 1 / (2 * L) * (‖g j‖ ^ 2 - 2 * ⟪g j, g i⟫_ℝ + ‖g i‖ ^ 2) =
        ‖g j‖ ^ 2 / (2 * L) - 1 / L * ⟪g i, g j⟫_ℝ + ‖g i‖ ^ 2 / (2 * L) := by
      rw [real_inner_comm]; field_simp
    have hij' : f i - f j + ⟪g i, x j - x i⟫_ℝ + (‖g j‖ ^ 2 / (2 * L) - 1 / L * ⟪g i, g j⟫_ℝ + ‖g i‖ ^ 2 / (2 * L)) ≤ 0 := by
      rw [← e2]
      have := h j i
      rwa [norm_sub_sq_real] at this
    rw [e1]; linarith
  rw [Finset.sum_sub_distrib, Finset.sum_add_distrib, ← h2, ← h4] at h5
  rw [h3]; linarith

theorem smooth_ge (h : ∀ i j, f j - f i + ⟪g j, x i - x j⟫_ℝ + 1 / (2 * L) * ‖g i - g j‖ ^ 2 ≤ 0) (i : ι) (y : E) :
    f i + ⟪g i, y - x i⟫_ℝ ≤ smooth L x g f y :=
  par_ge x g f hL h (best_mem L x g f y) i y

theorem smooth_sample (h : ∀ i j, f j - f i + ⟪g j, x i - x j⟫_ℝ + 1 / (2 * L) * ‖g i - g j‖ ^ 2 ≤ 0) (i : ι) :
    smooth L x g f (x i) = f i := by
  classical
  refine le_antisymm ?_ (by simpa using smooth_ge x g f hL h i (x i))
  refine (smooth_le L x g f (single_mem_stdSimplex ℝ i) (x i)).trans (le_of_eq ?_)
  unfold par
  simp only [Pi.single_apply, ite_mul, one_mul, zero_mul, Finset.sum_ite_eq', Finset.mem_univ, if_true, ite_smul, one_smul, zero_smul]
  rw [sub_sub_cancel, norm_smul, mul_pow, Real.norm_eq_abs, sq_abs]
  field_simp; ring

end smooth

/-! ## lists of samples -/

/-- the function `F` takes the values and has the subgradients of the list of samples `(x, g, v)` -/
def Fits (F : E → ℝ) (l : List (E × E × ℝ)) : Prop :=
  ∀ s ∈ l, F s.1 = s.2.2 ∧ ∀ y, s.2.2 + ⟪s.2.1, y - s.1⟫_ℝ ≤ F y

theorem exists_convex (l : List (E × E × ℝ))
    (h : ∀ s ∈ l, ∀ t ∈ l, t.2.2 - s.2.2 + ⟪t.2.1, s.1 - t.1⟫_ℝ ≤ 0) :
    ∃ F : E → ℝ, ConvexOn ℝ Set.univ F ∧ Fits F l := by
  by_cases hl : l = []
  · subst hl
    exact ⟨fun _ => 0, convexOn_const 0 convex_univ, by simp [Fits]⟩
  · have : Nonempty (Fin l.length) := ⟨⟨0, List.length_pos_iff.2 hl⟩⟩
    have h' : ∀ i j : Fin l.length, l[j].2.2 - l[i].2.2 + ⟪l[j].2.1, l[i].1 - l[j].1⟫_ℝ ≤ 0 :=
      fun i j => h _ (List.getElem_mem _) _ (List.getElem_mem _)
    refine ⟨_, maxAff_convex (fun i : Fin l.length => l[i].1) (fun i => l[i].2.1) (fun i => l[i].2.2), ?_⟩
    intro s hs
    obtain ⟨i, hi, rfl⟩ := List.getElem_of_mem hs
    exact ⟨maxAff_sample (x := fun i : Fin l.length => l[i].1) h' ⟨i, hi⟩,
      fun y => le_maxAff (fun i : Fin l.length => l[i].1) (fun i => l[i].2.1) (fun i => l[i].2.2) y ⟨i, hi⟩⟩

theorem exists_smooth {L : ℝ} (hL : 0 < L) (l : List (E × E × ℝ))
    (h : ∀ s ∈ l, ∀ t ∈ l, t.2.2 - s.2.2 + ⟪t.2.1, s.1 - t.1⟫_ℝ + 1 / (2 * L) * ‖s.2.1 - t.2.1‖ ^ 2 ≤ 0) :
    ∃ F : E → ℝ, ConvexOn ℝ Set.univ F ∧ LipschitzGradient F L ∧ Fits F l := by
  by_cases hl : l = []
  · subst hl
    refine ⟨fun _ => 0, convexOn_const 0 convex_univ, ⟨fun _ => 0, fun x => ?_, fun x y => ?_⟩, by simp [Fits]⟩
    · rw [map_zero]; exact hasFDerivAt_const 0 x
    · simp only [sub_self, norm_zero]; positivity
  · have : Nonempty (Fin l.length) := ⟨⟨0, List.length_pos_iff.2 hl⟩⟩
    have h' : ∀ i j : Fin l.length, l[j].2.2 - l[i].2.2 + ⟪l[j].2.1, l[i].1 - l[j].1⟫_ℝ +
        1 / (2 * L) * ‖l[i].2.1 - l[j].2.1‖ ^ 2 ≤ 0 :=
      fun i j => h _ (List.getElem_mem _) _ (List.getElem_mem _)
    refine ⟨_, smooth_convex (fun i : Fin l.length => l[i].1) (fun i => l[i].2.1) (fun i => l[i].2.2) hL,
      ⟨grad L (fun i : Fin l.length => l[i].1) (fun i => l[i].2.1) (fun i => l[i].2.2), smooth_deriv _ _ _ hL,
        smooth_lipschitz _ _ _ hL⟩, ?_⟩
    intro s hs
    obtain ⟨i, hi, rfl⟩ := List.getElem_of_mem hs
    exact ⟨smooth_sample (fun i : Fin l.length => l[i].1) _ _ hL h' ⟨i, hi⟩,
      fun y => smooth_ge (fun i : Fin l.length => l[i].1) (fun i => l[i].2.1) (fun i => l[i].2.2) hL h' ⟨i, hi⟩ y⟩

/-- subtract `mu/2 ‖x‖²` from the function -/
noncomputable def shift (mu : ℝ) (s : E × E × ℝ) : E × E × ℝ := (s.1, s.2.1 - mu • s.1, s.2.2 - mu / 2 * ‖s.1‖ ^ 2)

theorem fits_shift {mu : ℝ} (hmu : 0 ≤ mu) {F : E → ℝ} {l : List (E × E × ℝ)} (h : Fits F (l.map (shift mu))) :
    Fits (fun y => F y + mu / 2 * ‖y‖ ^ 2) l := by
  intro s hs
  obtain ⟨h1, h2⟩ := h _ (List.mem_map_of_mem hs)
  refine ⟨by simp only [shift] at h1; linarith, fun y => ?_⟩
  have := h2 y
  simp only [shift, inner_sub_left, inner_smul_left, conj_trivial, inner_sub_right, real_inner_self_eq_norm_sq] at this
  have h3 : 0 ≤ mu / 2 * ‖y - s.1‖ ^ 2 := by positivity
  rw [norm_sub_sq_real, real_inner_comm] at h3
  rw [inner_sub_right]
  linarith

theorem shift_strong (mu : ℝ) (s t : E × E × ℝ) :
    (shift mu t).2.2 - (shift mu s).2.2 + ⟪(shift mu t).2.1, (shift mu s).1 - (shift mu t).1⟫_ℝ =
      t.2.2 - s.2.2 + ⟪t.2.1, s.1 - t.1⟫_ℝ + mu / 2 * ‖s.1 - t.1‖ ^ 2 := by
  simp only [shift, inner_sub_left, inner_smul_left, conj_trivial, inner_sub_right, real_inner_self_eq_norm_sq]
  rw [norm_sub_sq_real, real_inner_comm s.1 t.1]
  ring

theorem shift_smooth {mu L : ℝ} (hL : 0 < L) (h : mu < L) (s t : E × E × ℝ) :
    (shift mu t).2.2 - (shift mu s).2.2 + ⟪(shift mu t).2.1, (shift mu s).1 - (shift mu t).1⟫_ℝ +
        1 / (2 * (L - mu)) * ‖(shift mu s).2.1 - (shift mu t).2.1‖ ^ 2 =
      t.2.2 - s.2.2 + ⟪t.2.1, s.1 - t.1⟫_ℝ + 1 / (2 * L) * ‖s.2.1 - t.2.1‖ ^ 2 +
        mu / (2 * (1 - mu / L)) * ‖s.1 - t.1 - (1 / L) • (s.2.1 - t.2.1)‖ ^ 2 := by
  have hd : L - mu ≠ 0 := by linarith
  rw [shift_strong]
  have e1 : (shift mu s).2.1 - (shift mu t).2.1 = (s.2.1 - t.2.1) - mu • (s.1 - t.1) := by
    simp only [shift]; module
  rw [e1]
  generalize s.1 - t.1 = a
  generalize s.2.1 - t.2.1 = b
  rw [norm_sub_sq_real, norm_sub_sq_real a, norm_smul, norm_smul, inner_smul_right, inner_smul_right, real_inner_comm a b]
  simp only [mul_pow, Real.norm_eq_abs, sq_abs]
  have hd2 : 1 - mu / L ≠ 0 := by
    rw [one_sub_div hL.ne']; exact div_ne_zero hd hL.ne'
  have hL0 := hL.ne'
  have e2 : mu / (2 * (1 - mu / L)) = mu * L / (2 * (L - mu)) := by
    rw [one_sub_div hL0]; field_simp
  rw [e2]
  field_simp
  ring

theorem strong_of_convex (mu : ℝ) {F : E → ℝ} (h : ConvexOn ℝ Set.univ F) :
    StrongConvexOn Set.univ mu fun y => F y + mu / 2 * ‖y‖ ^ 2 := by
  rw [strongConvexOn_iff_convex]
  refine h.congr fun y _ => ?_
  ring

theorem lipschitz_shift {mu L : ℝ} (hmu : 0 ≤ mu) {F : E → ℝ} (h : LipschitzGradient F (L - mu)) :
    LipschitzGradient (fun y => F y + mu / 2 * ‖y‖ ^ 2) L := by
  obtain ⟨G, h1, h2⟩ := h
  refine ⟨fun y => G y + mu • y, fun y => ?_, fun y z => ?_⟩
  · have h3 : HasFDerivAt (fun y : E => mu / 2 * ‖y‖ ^ 2) (innerSL ℝ (mu • y)) y := by
      have := ((hasStrictFDerivAt_norm_sq (F := E) y).hasFDerivAt).const_mul (mu / 2)
      refine this.congr_fderiv ?_
      ext z
      simp; ring
    rw [map_add]
    exact (h1 y).add h3
  · have e : G y + mu • y - (G z + mu • z) = (G y - G z) + mu • (y - z) := by module
    rw [e]
    refine (norm_add_le _ _).trans ?_
    rw [norm_smul, Real.norm_eq_abs, abs_of_nonneg hmu]
    linarith [h2 y z]

/-- the interpolation inequalities of a declared class are sufficient -/
theorem exists_of_lhs (d : FnDecl) (hok : d.Ok) (hre : d.cls = .convex ∨ (∃ mu, d.cls = .strongly mu) → d.reuse = false)
    (l : List (E × E × ℝ)) (h : ∀ s ∈ l, ∀ t ∈ l, d.cls.lhs s.1 s.2.1 s.2.2 t.1 t.2.1 t.2.2 ≤ 0) :
    ∃ F : CFun E, d.Holds F ∧ ∀ s ∈ l, F.Sample s.1 s.2.1 s.2.2 := by
  have fin : ∀ {F : E → ℝ}, Fits F l → ∀ s ∈ l, (CFun.mk Set.univ F).Sample s.1 s.2.1 s.2.2 :=
    fun hF s hs => ⟨Set.mem_univ _, (hF s hs).1, fun y _ => (hF s hs).2 y⟩
  cases d with
  | convex re =>
    obtain ⟨F, h1, h2⟩ := exists_convex l h
    have : re = false := hre (Or.inl rfl)
    exact ⟨⟨Set.univ, F⟩, ⟨h1, by simp [this]⟩, fin h2⟩
  | strongly mu re =>
    obtain ⟨F, h1, h2⟩ := exists_convex (l.map (shift (mu : ℝ))) (by
      simp only [List.forall_mem_map]
      intro s hs t ht
      rw [shift_strong]; exact h s hs t ht)
    have : re = false := hre (Or.inr ⟨mu, rfl⟩)
    exact ⟨⟨Set.univ, _⟩, ⟨strong_of_convex (mu : ℝ) h1, by simp [this]⟩, fin (fits_shift (by exact_mod_cast hok) h2)⟩
  | smoothStrongly mu L =>
    cases L with
    | none => exact hok.elim
    | some L =>
      have h0 : (0 : ℝ) ≤ mu := by exact_mod_cast hok.1
      have hlt : (mu : ℝ) < L := by exact_mod_cast hok.2
      obtain ⟨F, h1, h3, h2⟩ := exists_smooth (L := (L : ℝ) - mu) (by linarith) (l.map (shift (mu : ℝ))) (by
        simp only [List.forall_mem_map]
        intro s hs t ht
        rw [shift_smooth (by linarith) hlt]; exact h s hs t ht)
      exact ⟨⟨Set.univ, _⟩, ⟨rfl, strong_of_convex (mu : ℝ) h1, lipschitz_shift h0 h3⟩, fin (fits_shift h0 h2)⟩
  | smoothConvex L =>
    cases L with
    | none => exact hok.elim
    | some L =>
      have h0 : (0 : ℝ) < L := by exact_mod_cast (show (0 : ℚ) < L from hok)
      obtain ⟨F, h1, h3, h2⟩ := exists_smooth h0 l h
      exact ⟨⟨Set.univ, F⟩, ⟨rfl, h1, h3⟩, fin h2⟩

end Verif.Interp
