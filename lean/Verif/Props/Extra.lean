import Verif.Proofs.ExtraConv
import Verif.Proofs.SumRule
import Verif.Props.Prox
import Mathlib.Analysis.Convex.Mul

/-!
# C55: the decentralised solvers of the example problems converge

`p_extra_dgeom_median` of `decentr_geom_median.py` and `decentr_ell2_Anorm.py`.  Axioms of every theorem: propext, Classical.choice, Quot.sound.
-/

namespace Verif
open scoped InnerProductSpace
open Filter (Tendsto atTop)

variable {E : Type} [NormedAddCommGroup E] [InnerProductSpace ℝ E]

/-- a function with a subgradient everywhere is convex -/
theorem convex_of_samples {F : CFun E} (hd : F.dom = Set.univ) (h : ∀ p, ∃ g, F.Sample p g (F.f p)) : ConvexOn ℝ F.dom F.f := by
  rw [hd]
  refine ⟨convex_univ, fun x _ y _ a b ha hb hab => ?_⟩
  obtain ⟨g, -, -, hg⟩ := h (a • x + b • y)
  have h1 := hg x (by rw [hd]; trivial)
  have h2 := hg y (by rw [hd]; trivial)
  have h3 : a * ⟪g, x - (a • x + b • y)⟫_ℝ + b * ⟪g, y - (a • x + b • y)⟫_ℝ = 0 := by
    rw [← real_inner_smul_right, ← real_inner_smul_right, ← inner_add_right]
    have : a • (x - (a • x + b • y)) + b • (y - (a • x + b • y)) = (0 : E) := by
      have hb' : b = 1 - a := by linarith
      subst hb'
      module
    rw [this, inner_zero_right]
  have h4 := mul_le_mul_of_nonneg_left h1 ha
  have h5 := mul_le_mul_of_nonneg_left h2 hb
  simp only [smul_eq_mul]
  have h6 : F.f (a • x + b • y) = a * F.f (a • x + b • y) + b * F.f (a • x + b • y) := by rw [← add_mul, hab, one_mul]
  linarith

theorem half_convex {F : CFun E} (hd : F.dom = Set.univ) (h : ConvexOn ℝ F.dom F.f) (x y : E) :
    F.f ((1 / 2 : ℝ) • x + (1 / 2 : ℝ) • y) ≤ 1 / 2 * F.f x + 1 / 2 * F.f y := by
  have hx : x ∈ F.dom := by rw [hd]; trivial
  have hy : y ∈ F.dom := by rw [hd]; trivial
  have := h.2 hx hy (by norm_num : (0 : ℝ) ≤ 1 / 2) (by norm_num : (0 : ℝ) ≤ 1 / 2) (by norm_num)
  simpa only [smul_eq_mul] using this

theorem normFun_convex (b : E) : ConvexOn ℝ (normFun b).dom (normFun b).f := by
  have := convexOn_univ_dist b
  simpa [normFun, dist_eq_norm] using this

theorem normScFun_convex (b c : E) {theta : ℝ} (ht : 0 ≤ theta) : ConvexOn ℝ (normScFun b c theta).dom (normScFun b c theta).f := by
  have h1 := convexOn_univ_dist b
  have h2 := (ConvexOn.pow (convexOn_univ_dist c) (fun _ _ => dist_nonneg) 2).smul ht
  have := h1.add h2
  simp only [dist_eq_norm] at this
  exact this

omit [InnerProductSpace ℝ E] in
theorem medianFun_dom (b c : ℕ → E) (theta : ℝ) (j : ℕ) : (medianFun b c theta j).dom = Set.univ := by
  unfold medianFun
  split <;> rfl

omit [InnerProductSpace ℝ E] in
theorem medianFun_f (b c : ℕ → E) (theta : ℝ) (j : ℕ) : (medianFun b c theta j).f = medianValue b c theta j := by
  funext x
  unfold medianFun medianValue
  split <;> rfl

theorem medianFun_convex (b c : ℕ → E) {theta : ℝ} (ht : 0 ≤ theta) (j : ℕ) : ConvexOn ℝ (medianFun b c theta j).dom (medianFun b c theta j).f := by
  unfold medianFun
  split
  · exact normScFun_convex _ _ ht
  · exact normFun_convex _

theorem median_prox_sample (b c : ℕ → E) {theta rho : ℝ} (ht : 0 ≤ theta) (hr : 0 < rho) (j : ℕ) (z p : E) (h : medianProx b c theta rho j z = some p) :
    (medianFun b c theta j).Sample p (rho⁻¹ • (z - p)) ((medianFun b c theta j).f p) := by
  unfold medianProx at h
  unfold medianFun
  split at h
  · rename_i hj
    rw [if_pos hj]
    exact normSc_prox_sample hr ht h
  · rename_i hj
    rw [if_neg hj]
    exact norm_prox_sample hr h

/-- the proximal points exist -/
theorem norm_prox_exists (b : E) {rho : ℝ} (hr : 0 < rho) (z : E) : ∃ p, (normFun b).Sample p (rho⁻¹ • (z - p)) ((normFun b).f p) := by
  cases h : proxNorm z rho b with
  | none =>
    exact ⟨b, ((C47_norm_none z hr b).2 h).1.sample (normFun_convex b) hr⟩
  | some p => exact ⟨p, norm_prox_sample hr h⟩

theorem normSc_prox_exists (b c : E) {theta rho : ℝ} (ht : 0 ≤ theta) (hr : 0 < rho) (z : E) :
    ∃ p, (normScFun b c theta).Sample p (rho⁻¹ • (z - p)) ((normScFun b c theta).f p) := by
  have hd : 0 < 1 + 2 * rho * theta := by positivity
  obtain ⟨p, hp⟩ := norm_prox_exists b (rho := rho / (1 + 2 * rho * theta)) (by positivity) ((1 / (1 + 2 * rho * theta)) • (z + (2 * rho * theta) • c))
  refine ⟨p, ?_⟩
  have h1 := normSc_sample (c := c) ht hp
  convert h1 using 1
  rw [inv_div]
  match_scalars <;> field_simp <;> ring

theorem median_prox_exists (b c : ℕ → E) {theta rho : ℝ} (ht : 0 ≤ theta) (hr : 0 < rho) (j : ℕ) (z : E) :
    ∃ p, (medianFun b c theta j).Sample p (rho⁻¹ • (z - p)) ((medianFun b c theta j).f p) := by
  unfold medianFun
  split
  · exact normSc_prox_exists _ _ ht hr z
  · exact norm_prox_exists _ hr z

theorem zero_gradient : ConvexGradient (fun _ : E => (0 : ℝ)) (fun _ => 0) :=
  ⟨convexOn_const _ convex_univ, fun x => by simpa using hasFDerivAt_const (0 : ℝ) x⟩

/-- the setting of P-EXTRA: no smooth parts, any positive step -/
theorem extra_setting_prox [FiniteDimensional ℝ E] {n : ℕ} (hn : 0 < n) {G : NxGraph} (hG : G.Simple) (hcon : G.Connected n) {W : ℕ → ℕ → ℝ}
    (hW : mhWeights n G = .ok W) {rho : ℝ} (hr : 0 < rho) {F : ℕ → CFun E} (hdom : ∀ j < n, (F j).dom = Set.univ)
    (hF : ∀ j < n, ConvexOn ℝ (F j).dom (F j).f) {xh : E} (hx : SumMin n F xh) :
    ExtraSetting n W rho F (fun _ _ => 0) (fun _ _ => 0) 0 xh := by
  obtain ⟨g, h1, h2⟩ := hx.opt hF (x0 := 0) (fun j hj => by rw [hdom j hj, interior_univ]; trivial)
  refine extra_metropolis hn hG hcon hW (d := ∑ j ∈ Finset.range n, G.degree (j + 1)) (fun j hj =>
    Finset.single_le_sum (f := fun j => G.degree (j + 1)) (fun _ _ => Nat.zero_le _) (Finset.mem_range.2 hj)) hr le_rfl (by rw [mul_zero]; positivity)
    (fun j _ => ⟨zero_gradient, fun x y => by simp⟩) ⟨g, h1, by simpa using h2⟩

omit [NormedAddCommGroup E] [InnerProductSpace ℝ E] in
theorem extra_setting_zero {n : ℕ} {F : ℕ → CFun E} {x : E} : SumMin n (fun j => (F j).plus fun _ => 0) x ↔ SumMin n F x := by
  simp [SumMin, CFun.plus]

/-- **the points of P-EXTRA converge**, whatever the functions -/
theorem extra_iterates [FiniteDimensional ℝ E] {n : ℕ} {W : ℕ → ℕ → ℝ} {rho : ℝ} {F : ℕ → CFun E} {xh : E}
    (hset : ExtraSetting n W rho F (fun _ _ => 0) (fun _ _ => 0) 0 xh) {prox : ℕ → E → Option E} {x0 : ℕ → E} {st : ℕ → ExtraState E}
    (hst : ∀ k, extraStates n W prox (fun _ _ => 0) x0 k = some (st k))
    (hp : ∀ j < n, ∀ z p, prox j z = some p → (F j).Sample p (rho⁻¹ • (z - p)) ((F j).f p))
    (hmax : ∀ j < n, ∀ z, ∃ p, (F j).Sample p (rho⁻¹ • (z - p)) ((F j).f p)) :
    ∃ xl : E, SumMin n F xl ∧ ∀ j < n, Tendsto (fun k => (st k).x j) atTop (nhds xl) := by
  obtain ⟨L', kap, gh, Ih, -, hC⟩ := extra_conv hset hst hp (fun j _ x => by simp)
  obtain ⟨xl, h1, gl, h2, h3⟩ := hC.converges hset.nodes hset.connected hmax
  exact ⟨xl, extra_setting_zero.1 (sumMin_of_samples (fun j hj => (hset.smooth j hj).1) h2 h3).min, h1⟩

omit [InnerProductSpace ℝ E] in
theorem frobDist_tendsto {n : ℕ} {x : ℕ → ℕ → E} {xh : E} (h : ∀ j < n, Tendsto (fun k => x k j) atTop (nhds xh)) :
    Tendsto (fun k => frobDist n (x (k + 1)) fun _ => xh) atTop (nhds 0) := by
  have h3 : Tendsto (fun k => ∑ j ∈ Finset.range n, ‖x (k + 1) j - xh‖ ^ 2) atTop (nhds (∑ j ∈ Finset.range n, ‖xh - xh‖ ^ 2)) :=
    tendsto_finsetSum _ fun j hj => ((((Filter.tendsto_add_atTop_iff_nat 1).2 (h j (Finset.mem_range.1 hj))).sub_const xh).norm).pow 2
  have h4 := h3.sqrt
  simpa [frobDist] using h4

section median
variable [FiniteDimensional ℝ E] (n : ℕ) (hn : 0 < n) (G : NxGraph) (hG : G.Simple) (hcon : G.Connected n) (W : ℕ → ℕ → ℝ) (hW : mhWeights n G = .ok W)
  (b c : ℕ → E) (theta rho : ℝ) (ht : 0 ≤ theta) (hr : 0 < rho)
include hn hG hcon hW ht hr

/-- **C55** (`decentr_geom_median.py`), points: unless a NaN occurs, the points of all nodes converge to one and the same minimiser of the sum of
the functions, for every positive step. -/
theorem C55_median_iterates (xh : E) (hx : SumMin n (medianFun b c theta) xh) (st : ℕ → ExtraState E)
    (hst : ∀ k, extraStates n W (medianProx b c theta rho) (fun _ _ => 0) b k = some (st k)) :
    ∃ xl : E, SumMin n (medianFun b c theta) xl ∧ ∀ j < n, Tendsto (fun k => (st k).x j) atTop (nhds xl) :=
  extra_iterates (extra_setting_prox hn hG hcon hW hr (fun j _ => medianFun_dom b c theta j) (fun j _ => medianFun_convex b c ht j) hx) hst
    (fun j _ => median_prox_sample b c ht hr j) (fun j _ => median_prox_exists b c ht hr j)

/-- **C55** (`decentr_geom_median.py`), values: the relative differences of values in the result, as far as they are no NaN, tend to zero. -/
theorem C55_median_values (xh : E) (hx : SumMin n (medianFun b c theta) xh) (xstar : ℕ → E)
    (_hne : ∑ j ∈ Finset.range n, (medianFun b c theta j).f xh ≠ 0) (eps : ℝ) (he : 0 < eps) :
    ∃ N : ℕ, ∀ (itr k : ℕ) (v : ℝ), N ≤ k →
      (pExtraMedian n itr W b c theta rho xstar (∑ j ∈ Finset.range n, (medianFun b c theta j).f xh)).fReldiff[k]? = some (some v) → |v| < eps := by
  have hset := extra_setting_prox hn hG hcon hW hr (fun j _ => medianFun_dom b c theta j) (fun j _ => medianFun_convex b c ht j) hx
  refine extra_eventually extra_cases (fun s => |_ - ∑ j ∈ Finset.range n, medianValue b c theta j (s.x j)| / _) (fun st hst => ?_) eps he
  obtain ⟨L', kap, gh, Ih, -, hC⟩ := extra_conv hset hst (fun j _ => median_prox_sample b c ht hr j) (fun j _ x => by simp)
  have h1 := hC.values_tendsto
  simp only [add_zero] at h1
  have h2 := (h1.const_sub (∑ j ∈ Finset.range n, (medianFun b c theta j).f xh)).abs.div_const (∑ j ∈ Finset.range n, (medianFun b c theta j).f xh)
  rw [sub_self, abs_zero, zero_div] at h2
  simpa only [medianFun_f] using h2

/-- **C55** (`decentr_geom_median.py`), distances: if the minimiser is unique, the distances to it in the result tend to zero. -/
theorem C55_median_distances (xh : E) (hx : SumMin n (medianFun b c theta) xh) (huniq : ∀ y, SumMin n (medianFun b c theta) y → y = xh) (fstar : ℝ)
    (eps : ℝ) (he : 0 < eps) :
    ∃ N : ℕ, ∀ (itr k : ℕ) (v : ℝ), N ≤ k →
      (pExtraMedian n itr W b c theta rho (fun _ => xh) fstar).errOptStar[k]? = some (some v) → |v| < eps := by
  refine extra_eventually extra_cases (fun s => frobDist n s.x fun _ => xh) (fun st hst => ?_) eps he
  obtain ⟨xl, h1, h2⟩ := C55_median_iterates n hn G hG hcon W hW b c theta rho ht hr xh hx st hst
  rw [huniq xl h1] at h2
  exact frobDist_tendsto (x := fun k => (st k).x) h2

end median

/-- **C55** (`decentr_geom_median.py`) a minimiser exists. -/
theorem C55_median_exists [FiniteDimensional ℝ E] (n : ℕ) (hn : 0 < n) (b c : ℕ → E) (theta : ℝ) (ht : 0 ≤ theta) : ∃ xh, SumMin n (medianFun b c theta) xh := by
  have hc : Continuous fun x => ∑ j ∈ Finset.range n, medianValue b c theta j x := by
    refine continuous_finsetSum _ fun j _ => ?_
    unfold medianValue
    split <;> fun_prop
  have hl : ∀ x, ‖x‖ - ‖b 0‖ ≤ ∑ j ∈ Finset.range n, medianValue b c theta j x := by
    intro x
    have h0 : ∀ j ∈ Finset.range n, 0 ≤ medianValue b c theta j x := by
      intro j _
      unfold medianValue
      split <;> positivity
    refine le_trans ?_ (Finset.single_le_sum h0 (Finset.mem_range.2 hn))
    exact norm_sub_norm_le x (b 0)
  have ht' : Tendsto (fun x => ∑ j ∈ Finset.range n, medianValue b c theta j x) (Filter.cocompact E) atTop := by
    refine Filter.tendsto_atTop_mono hl ?_
    have := tendsto_norm_cocompact_atTop (E := E)
    exact Filter.tendsto_atTop_add_const_right _ _ this
  obtain ⟨xh, hx⟩ := hc.exists_forall_le ht'
  exact ⟨xh, fun j _ => by rw [medianFun_dom]; trivial, fun y _ => by simpa only [medianFun_f] using hx y⟩

/-- **C55** (`decentr_geom_median.py`) with at least four nodes and a positive `theta` the minimiser is unique. -/
theorem C55_median_unique (n : ℕ) (hn : 3 < n) (b c : ℕ → E) (theta : ℝ) (ht : 0 < theta) (x y : E) (hx : SumMin n (medianFun b c theta) x)
    (hy : SumMin n (medianFun b c theta) y) : x = y := by
  have h1 := hx.2 ((1 / 2 : ℝ) • x + (1 / 2 : ℝ) • y) (fun j _ => by rw [medianFun_dom]; trivial)
  have h2 := hy.2 ((1 / 2 : ℝ) • x + (1 / 2 : ℝ) • y) (fun j _ => by rw [medianFun_dom]; trivial)
  have h3 : ∀ j ∈ Finset.range n, (medianFun b c theta j).f ((1 / 2 : ℝ) • x + (1 / 2 : ℝ) • y) +
      (if j = 3 then theta / 4 * ‖x - y‖ ^ 2 else 0) ≤ 1 / 2 * (medianFun b c theta j).f x + 1 / 2 * (medianFun b c theta j).f y := by
    intro j _
    split
    · rename_i hj
      subst hj
      simp only [medianFun_f, medianValue, true_or, if_true]
      have h4 := half_convex rfl (normFun_convex (b 3)) x y
      simp only [normFun] at h4
      have h5 : ‖(1 / 2 : ℝ) • x + (1 / 2 : ℝ) • y - c 3‖ ^ 2 = 1 / 2 * ‖x - c 3‖ ^ 2 + 1 / 2 * ‖y - c 3‖ ^ 2 - 1 / 4 * ‖x - y‖ ^ 2 := by
        have e1 : (1 / 2 : ℝ) • x + (1 / 2 : ℝ) • y - c 3 = (1 / 2 : ℝ) • (x - c 3) + (1 / 2 : ℝ) • (y - c 3) := by module
        have e2 : x - y = (x - c 3) - (y - c 3) := by abel
        rw [e1, e2, norm_add_sq_real, norm_sub_sq_real (x - c 3), norm_smul, norm_smul, real_inner_smul_left, real_inner_smul_right]
        norm_num
        ring
      rw [h5]
      nlinarith
    · rw [add_zero]
      exact half_convex (medianFun_dom b c theta j) (medianFun_convex b c ht.le j) x y
  have h4 := Finset.sum_le_sum h3
  rw [Finset.sum_add_distrib, Finset.sum_add_distrib, ← Finset.mul_sum, ← Finset.mul_sum, Finset.sum_ite_eq' (Finset.range n) 3,
    if_pos (Finset.mem_range.2 hn)] at h4
  have h5 : ‖x - y‖ ^ 2 ≤ 0 := by nlinarith
  have h6 : ‖x - y‖ = 0 := by nlinarith [norm_nonneg (x - y)]
  exact sub_eq_zero.1 (norm_eq_zero.1 h6)

/-- **C55** (`decentr_geom_median.py`, not as expected) if all data points agree, every entry of the result is NaN. -/
theorem C55_median_nan (n itr : ℕ) (hn : 0 < n) (W : ℕ → ℕ → ℝ) (hW : ∑ l ∈ Finset.range n, W 0 l = 1) (b c : ℕ → E) (b0 : E) (hb : ∀ j < n, b j = b0)
    (theta rho : ℝ) (xstar : ℕ → E) (fstar : ℝ) :
    (pExtraMedian n itr W b c theta rho xstar fstar).errOptStar = List.replicate itr none ∧
    (pExtraMedian n itr W b c theta rho xstar fstar).fReldiff = List.replicate itr none := by
  have h0 : ∀ k, extraStates n W (medianProx b c theta rho) (fun _ _ => 0) b (k + 1) = none := by
    intro k
    induction k with
    | zero =>
      simp only [extraStates, Option.bind_some, extraStep', Option.map_eq_none_iff]
      unfold allSome
      rw [if_neg]
      intro h
      have h1 := List.all_eq_true.1 h 0 (List.mem_range.2 hn)
      have h2 : PgExtra.mix n W b 0 = b 0 := by
        unfold PgExtra.mix
        rw [Finset.sum_congr rfl fun l hl => by rw [hb l (Finset.mem_range.1 hl)], ← Finset.sum_smul, hW, one_smul, hb 0 hn]
      simp only [h2] at h1
      simp [medianProx, proxNorm] at h1
    | succ k ih => rw [extraStates, ih, Option.bind_none]
  constructor <;>
  · refine List.eq_replicate_iff.2 ⟨by simp [pExtraMedian, extraResult], fun v hv => ?_⟩
    simp only [pExtraMedian, extraResult, List.mem_map] at hv
    obtain ⟨k, -, rfl⟩ := hv
    rw [h0, Option.map_none]

/-! ### `decentr_ell2_Anorm.py` -/

theorem quadNormFun_convex (b : E) {P : E →ₗ[ℝ] E} (hP : SymPSD P) : ConvexOn ℝ (quadNormFun b P).dom (quadNormFun b P).f :=
  convex_of_samples rfl fun p => ⟨_, quadNorm_sample hP p⟩

theorem anormFun_dom (b : ℕ → E) (P : ℕ → E →ₗ[ℝ] E) (j : ℕ) : (anormFun b P j).dom = Set.univ := by
  unfold anormFun
  split <;> rfl

theorem anormFun_f (b : ℕ → E) (P : ℕ → E →ₗ[ℝ] E) (j : ℕ) : (anormFun b P j).f = anormValue b P j := by
  funext x
  unfold anormFun anormValue
  split <;> rfl

theorem anormFun_convex (b : ℕ → E) {P : ℕ → E →ₗ[ℝ] E} (hP : ∀ j, j = 3 ∨ j = 4 → SymPSD (P j)) (j : ℕ) : ConvexOn ℝ (anormFun b P j).dom (anormFun b P j).f := by
  unfold anormFun
  split
  · rename_i h
    exact quadNormFun_convex _ (hP j h)
  · exact normFun_convex _

/-- `np.linalg.solve` as specified: what it returns solves the system, and it raises for singular matrices only -/
structure SolveSpec (solve : (E →ₗ[ℝ] E) → E → Except Err E) : Prop where
  sound : ∀ A r v, solve A r = .ok v → A v = r
  total : ∀ (A : E →ₗ[ℝ] E) r, Function.Injective A → ∃ v, solve A r = .ok v

/-- the proximal operators without exceptions -/
noncomputable def anormProx' (solve : (E →ₗ[ℝ] E) → E → Except Err E) (b : ℕ → E) (P : ℕ → E →ₗ[ℝ] E) (rho : ℝ) (j : ℕ) (z : E) : Option E :=
  match anormProx solve b P rho j z with | .ok o => o | .error _ => none

section anorm
variable {solve : (E →ₗ[ℝ] E) → E → Except Err E} (hs : SolveSpec solve) (b : ℕ → E) {P : ℕ → E →ₗ[ℝ] E}
  (hP : ∀ j, j = 3 ∨ j = 4 → SymPSD (P j)) {rho : ℝ} (hr : 0 < rho)
include hs hP hr

theorem anormProx_ok (j : ℕ) (z : E) : anormProx solve b P rho j z = .ok (anormProx' solve b P rho j z) := by
  have : ∃ o, anormProx solve b P rho j z = .ok o := by
    unfold anormProx
    split
    · rename_i h
      obtain ⟨p, hp⟩ := C47_quadNorm_ok hs.total z (b j) hr (hP j h)
      exact ⟨some p, by rw [hp]; rfl⟩
    · exact ⟨_, rfl⟩
  obtain ⟨o, ho⟩ := this
  unfold anormProx'
  rw [ho]

theorem anormProx_sample (j : ℕ) (z p : E) (h : anormProx' solve b P rho j z = some p) :
    (anormFun b P j).Sample p (rho⁻¹ • (z - p)) ((anormFun b P j).f p) := by
  have h1 := anormProx_ok hs b hP hr j z
  rw [h] at h1
  unfold anormProx at h1
  unfold anormFun
  split at h1
  · rename_i hj
    rw [if_pos hj]
    obtain ⟨q, hq⟩ := C47_quadNorm_ok hs.total z (b j) hr (hP j hj)
    rw [hq] at h1
    cases h1
    exact (C47_quadNorm hs.sound hr (hP j hj) hq).1.sample (quadNormFun_convex _ (hP j hj)) hr
  · rename_i hj
    rw [if_neg hj]
    exact norm_prox_sample hr (Except.ok.inj h1)

theorem anorm_prox_exists (j : ℕ) (z : E) : ∃ p, (anormFun b P j).Sample p (rho⁻¹ • (z - p)) ((anormFun b P j).f p) := by
  by_cases hj : j = 3 ∨ j = 4
  · obtain ⟨q, hq⟩ := C47_quadNorm_ok hs.total z (b j) hr (hP j hj)
    have h1 : anormProx solve b P rho j z = .ok (some q) := by
      unfold anormProx
      rw [if_pos hj, hq]
      rfl
    exact ⟨q, anormProx_sample hs b hP hr j z q (by unfold anormProx'; rw [h1])⟩
  · unfold anormFun
    rw [if_neg hj]
    exact norm_prox_exists _ hr z

theorem anormStates_eq (n : ℕ) (W : ℕ → ℕ → ℝ) (x0 : ℕ → E) (k : ℕ) :
    anormStates n W (anormProx solve b P rho) x0 k = .ok (extraStates n W (anormProx' solve b P rho) (fun _ _ => 0) x0 k) := by
  induction k with
  | zero => rfl
  | succ k ih =>
    rw [anormStates, ih, extraStates]
    cases h : extraStates n W (anormProx' solve b P rho) (fun _ _ => 0) x0 k with
    | none => rfl
    | some s =>
      simp only [Option.bind_some]
      unfold anormStep extraStep' firstError
      simp only [anormProx_ok hs b hP hr, sub_zero]
      have : (List.range n).findSome? (fun _ => (none : Option Err)) = none := by
        rw [List.findSome?_eq_none_iff]
        exact fun _ _ => rfl
      rw [this]

end anorm

section anormTheorems
variable [FiniteDimensional ℝ E] (solve : (E →ₗ[ℝ] E) → E → Except Err E) (hs : SolveSpec solve) (n : ℕ) (hn : 0 < n) (G : NxGraph) (hG : G.Simple)
  (hcon : G.Connected n) (W : ℕ → ℕ → ℝ) (hW : mhWeights n G = .ok W) (b : ℕ → E) (P : ℕ → E →ₗ[ℝ] E) (hP : ∀ j, j = 3 ∨ j = 4 → SymPSD (P j)) (rho : ℝ)
  (hr : 0 < rho)
include hs hn hG hcon hW hP hr

omit [FiniteDimensional ℝ E] hn hG hcon hW in
/-- **C55** (`decentr_ell2_Anorm.py`) no exception is raised. -/
theorem C55_anorm_ok (itr : ℕ) (xstar : ℕ → E) (fstar : ℝ) : ∃ res, pExtraAnorm solve n itr W b P rho xstar fstar = .ok res := by
  unfold pExtraAnorm
  rw [anormStates_eq hs b hP hr]
  exact ⟨_, rfl⟩

omit [FiniteDimensional ℝ E] hn hG hcon hW in
theorem anorm_result {itr : ℕ} {xstar : ℕ → E} {fstar : ℝ} {res : ExtraResult} (h : pExtraAnorm solve n itr W b P rho xstar fstar = .ok res) :
    res = extraResult n itr (extraStates n W (anormProx' solve b P rho) (fun _ _ => 0) b) b xstar fstar (anormValue b P) := by
  unfold pExtraAnorm at h
  simp only [anormStates_eq hs b hP hr] at h
  exact (Except.ok.inj h).symm

/-- **C55** (`decentr_ell2_Anorm.py`), values: the relative differences of values in the result, as far as they are no NaN, tend to zero. -/
theorem C55_anorm_values (xh : E) (hx : SumMin n (anormFun b P) xh) (xstar : ℕ → E) (_hne : ∑ j ∈ Finset.range n, (anormFun b P j).f xh ≠ 0) (eps : ℝ)
    (he : 0 < eps) :
    ∃ N : ℕ, ∀ (itr : ℕ) (res : ExtraResult), pExtraAnorm solve n itr W b P rho xstar (∑ j ∈ Finset.range n, (anormFun b P j).f xh) = .ok res →
      ∀ (k : ℕ) (v : ℝ), N ≤ k → res.fReldiff[k]? = some (some v) → |v| < eps := by
  have hset := extra_setting_prox hn hG hcon hW hr (fun j _ => anormFun_dom b P j) (fun j _ => anormFun_convex b hP j) hx
  obtain ⟨N, hN⟩ := extra_eventually (S := extraStates n W (anormProx' solve b P rho) (fun _ _ => 0) b) extra_cases
    (fun s => |∑ j ∈ Finset.range n, (anormFun b P j).f xh - ∑ j ∈ Finset.range n, anormValue b P j (s.x j)| / ∑ j ∈ Finset.range n, (anormFun b P j).f xh)
    (fun st hst => by
      obtain ⟨L', kap, gh, Ih, -, hC⟩ := extra_conv hset hst (fun j _ => anormProx_sample hs b hP hr j) (fun j _ x => by simp)
      have h1 := hC.values_tendsto
      simp only [add_zero] at h1
      have h2 := (h1.const_sub (∑ j ∈ Finset.range n, (anormFun b P j).f xh)).abs.div_const (∑ j ∈ Finset.range n, (anormFun b P j).f xh)
      rw [sub_self, abs_zero, zero_div] at h2
      simpa only [anormFun_f] using h2) eps he
  refine ⟨N, fun itr res hres k v hk hv => hN itr k v hk ?_⟩
  rw [anorm_result solve hs n W b P hP rho hr hres] at hv
  exact hv

/-- **C55** (`decentr_ell2_Anorm.py`), distances: if the minimiser is unique, the distances to it in the result, as far as they are no NaN, tend to
zero. -/
theorem C55_anorm_distances (xh : E) (hx : SumMin n (anormFun b P) xh) (huniq : ∀ y, SumMin n (anormFun b P) y → y = xh) (fstar : ℝ) (eps : ℝ)
    (he : 0 < eps) :
    ∃ N : ℕ, ∀ (itr : ℕ) (res : ExtraResult), pExtraAnorm solve n itr W b P rho (fun _ => xh) fstar = .ok res →
      ∀ (k : ℕ) (v : ℝ), N ≤ k → res.errOptStar[k]? = some (some v) → |v| < eps := by
  have hset := extra_setting_prox hn hG hcon hW hr (fun j _ => anormFun_dom b P j) (fun j _ => anormFun_convex b hP j) hx
  obtain ⟨N, hN⟩ := extra_eventually (S := extraStates n W (anormProx' solve b P rho) (fun _ _ => 0) b) extra_cases
    (fun s => frobDist n s.x fun _ => xh) (fun st hst => by
      obtain ⟨xl, h1, h2⟩ := extra_iterates hset hst (fun j _ => anormProx_sample hs b hP hr j) (fun j _ => anorm_prox_exists hs b hP hr j)
      rw [huniq xl h1] at h2
      exact frobDist_tendsto (x := fun k => (st k).x) h2) eps he
  refine ⟨N, fun itr res hres k v hk hv => hN itr k v hk ?_⟩
  rw [anorm_result solve hs n W b P hP rho hr hres] at hv
  exact hv

end anormTheorems

/-! ### Concrete cases -/

/-- two connected nodes -/
def graph2 : NxGraph := NxGraph.empty.addEdges [(1, 2)]

theorem simple_graph2 : graph2.Simple := NxGraph.simple_empty.addEdges (by decide)

theorem connected_graph2 : graph2.Connected 2 := by
  refine NxGraph.connected_of_root simple_graph2 fun j hj => ?_
  interval_cases j
  · exact .refl
  · exact Relation.ReflTransGen.refl.tail (NxGraph.isEdge_of_nbrs simple_graph2 (by decide))

theorem weights_graph2 : ∃ W : ℕ → ℕ → ℝ, mhWeights 2 graph2 = .ok W ∧ W 0 0 = 1 / 2 ∧ W 0 1 = 1 / 2 ∧ W 1 0 = 1 / 2 ∧ W 1 1 = 1 / 2 := by
  have h : ∃ W : ℕ → ℕ → ℝ, mhWeights 2 graph2 = .ok W := by
    unfold mhWeights
    rw [if_pos (by decide)]
    exact ⟨_, rfl⟩
  obtain ⟨W, hW⟩ := h
  have h1 := (mhWeights_entries simple_graph2 hW).2.1 0 1 (by decide)
  rw [if_pos (NxGraph.isEdge_of_nbrs simple_graph2 (by decide))] at h1
  have h2 : W 0 1 = 1 / 2 := by
    rw [h1]
    unfold mhValue
    have : graph2.degree 1 = 1 ∧ graph2.degree 2 = 1 := by decide
    simp [this.1, this.2]
    norm_num
  have h3 := C46_rows 2 graph2 simple_graph2 W hW 0 (by norm_num)
  have h4 := C46_rows 2 graph2 simple_graph2 W hW 1 (by norm_num)
  have h5 := C46_symmetric 2 graph2 simple_graph2 W hW 0 1
  simp only [Finset.sum_range_succ, Finset.sum_range_zero, zero_add] at h3 h4
  exact ⟨W, hW, by linarith, h2, by linarith, by linarith⟩

theorem proxNorm_right {z rho b : ℝ} (h0 : 0 < rho) (h : rho ≤ z - b) : proxNorm z rho b = some (z - rho) := by
  unfold proxNorm
  have e : ‖b - z‖ = z - b := by rw [Real.norm_eq_abs, abs_of_nonpos (by linarith)]; ring
  have ne : z - b ≠ 0 := by linarith
  rw [e, if_neg ne, max_eq_left (by linarith)]
  congr 1
  simp only [smul_eq_mul]
  field_simp
  ring

theorem proxNorm_left {z rho b : ℝ} (h0 : 0 < rho) (h : rho ≤ b - z) : proxNorm z rho b = some (z + rho) := by
  unfold proxNorm
  have e : ‖b - z‖ = b - z := by rw [Real.norm_eq_abs, abs_of_nonneg (by linarith)]
  have ne : b - z ≠ 0 := by linarith
  rw [e, if_neg ne, max_eq_left (by linarith)]
  congr 1
  simp only [smul_eq_mul]
  field_simp
  ring

/-- two nodes with the data points `-1` and `1` and step 1: the hypotheses of the C55 theorems hold and no NaN ever occurs -/
example : ∃ W : ℕ → ℕ → ℝ, mhWeights 2 graph2 = .ok W ∧ graph2.Simple ∧ graph2.Connected 2 ∧
    (∃ xh, SumMin 2 (medianFun (fun j => if j = 0 then (-1 : ℝ) else 1) (fun _ => 0) 0) xh) ∧
    ∀ k, ∃ s, extraStates 2 W (medianProx (fun j => if j = 0 then (-1 : ℝ) else 1) (fun _ => 0) 0 1) (fun _ _ => 0) (fun j => if j = 0 then (-1 : ℝ) else 1) k =
      some s := by
  obtain ⟨W, hW, w00, w01, w10, w11⟩ := weights_graph2
  refine ⟨W, hW, simple_graph2, connected_graph2, C55_median_exists 2 (by norm_num) _ _ 0 le_rfl, fun k => ?_⟩
  have key : ∃ s, extraStates 2 W (medianProx (fun j => if j = 0 then (-1 : ℝ) else 1) (fun _ => 0) 0 1) (fun _ _ => 0) (fun j => if j = 0 then (-1 : ℝ) else 1) k =
      some s ∧ s.x 1 = -s.x 0 ∧ s.w 1 = -s.w 0 ∧ (1 + s.w 0) ^ 2 + (1 + s.w 0) * s.x 0 + s.x 0 ^ 2 / 2 ≤ 1 / 2 := by
    induction k with
    | zero => exact ⟨_, rfl, by norm_num, by norm_num, by norm_num⟩
    | succ k ih =>
      obtain ⟨s, h1, h2, h3, h4⟩ := ih
      have hd : (1 + s.w 0) ^ 2 ≤ 1 := by nlinarith [sq_nonneg (1 + s.w 0 + s.x 0)]
      have hd1 : 1 + s.w 0 ≤ 1 := by nlinarith
      have m0 : PgExtra.mix 2 W s.x 0 = 0 := by
        simp [PgExtra.mix, Finset.sum_range_succ, w00, w01, h2]
      have m1 : PgExtra.mix 2 W s.x 1 = 0 := by
        simp [PgExtra.mix, Finset.sum_range_succ, w10, w11, h2]
      have p0 : medianProx (fun j => if j = 0 then (-1 : ℝ) else 1) (fun _ => 0) 0 1 0 (PgExtra.mix 2 W s.x 0 - 0 - s.w 0) = some (-(1 + s.w 0)) := by
        rw [m0]
        change proxNorm (0 - 0 - s.w 0) 1 (-1) = _
        rw [proxNorm_right one_pos (by linarith)]
        congr 1
        ring
      have p1 : medianProx (fun j => if j = 0 then (-1 : ℝ) else 1) (fun _ => 0) 0 1 1 (PgExtra.mix 2 W s.x 1 - 0 - s.w 1) = some (1 + s.w 0) := by
        rw [m1, h3]
        change proxNorm (0 - 0 - -s.w 0) 1 1 = _
        rw [proxNorm_left one_pos (by linarith)]
        congr 1
        ring
      rw [extraStates, h1, Option.bind_some, extraStep']
      unfold allSome
      rw [if_pos (by simp only [List.all_eq_true, List.mem_range]; intro j hj; interval_cases j <;> simp only [p0, p1, Option.isSome_some])]
      refine ⟨_, rfl, ?_, ?_, ?_⟩
      · simp only [p0, p1, Option.getD_some, neg_neg]
      · simp only [PgExtra.laplace, Finset.sum_range_succ, Finset.sum_range_zero, w00, w01, w10, w11, h2, h3, smul_eq_mul]
        norm_num
        ring
      · simp only [p0, Option.getD_some, PgExtra.laplace, Finset.sum_range_succ, Finset.sum_range_zero, w00, w01, h2, smul_eq_mul]
        norm_num
        nlinarith
  obtain ⟨s, h, -⟩ := key
  exact ⟨s, h⟩

/-- the network of the experiments meets the hypotheses on the graph -/
example : graph6.Simple ∧ graph6.Connected 6 ∧ ∃ W : ℕ → ℕ → ℝ, mhWeights 6 graph6 = .ok W := by
  refine ⟨NxGraph.simple_graph6, NxGraph.connected_graph6, ?_⟩
  unfold mhWeights
  rw [if_pos (by decide)]
  exact ⟨_, rfl⟩

/-- linear systems can be solved as specified -/
example : ∃ solve : (E →ₗ[ℝ] E) → E → Except Err E, ∀ [FiniteDimensional ℝ E], SolveSpec solve := by
  classical
  refine ⟨fun A r => if h : ∃ v, A v = r then .ok h.choose else .error .value, ?_⟩
  intro _
  refine ⟨fun A r v h => ?_, fun A r hA => ?_⟩
  · split at h
    · rename_i h1
      cases h
      exact h1.choose_spec
    · cases h
  · have h1 : ∃ v, A v = r := LinearMap.injective_iff_surjective.1 hA r
    exact ⟨h1.choose, by simp only [dif_pos h1]⟩

end Verif
