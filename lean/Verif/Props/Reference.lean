import Verif.Spec.Reference
import Verif.Props.Sensing
import Verif.Props.DecQp

/-!
# C72: the reference solutions by CVXPY

Axioms of every theorem: propext, Classical.choice, Quot.sound.
-/

namespace Verif
open scoped InnerProductSpace
open Filter (Tendsto atTop)

section general
variable {E : Type} {solver : CvxSolver E}

theorem cvxSolve_min (hs : CvxSound solver) {p : CvxProblem E} {x : E} (h : cvxSolve solver p = .ok x) : p.Minimizes x := by
  unfold cvxSolve at h
  split at h
  · cases h
  · rename_i st y hy
    split at h
    · rename_i h1
      cases h
      exact hs p x (by rw [hy, h1])
    · cases h

theorem cvxSolve_ok (hs : CvxSound solver) (hc : CvxComplete solver) {p : CvxProblem E} (h : ∃ x, p.Minimizes x) :
    ∃ x, cvxSolve solver p = .ok x ∧ p.Minimizes x := by
  obtain ⟨x, hx⟩ := hc p h
  have : cvxSolve solver p = .ok x := by simp [cvxSolve, hx]
  exact ⟨x, this, cvxSolve_min hs this⟩

/-- such a solver exists -/
theorem cvx_exists (E : Type) [Inhabited E] : ∃ solver : CvxSolver E, CvxSound solver ∧ CvxComplete solver := by
  classical
  refine ⟨fun p => if h : ∃ x, p.Minimizes x then .ok ("optimal", h.choose) else .ok ("infeasible", default), fun p x h => ?_, fun p h => ⟨h.choose, ?_⟩⟩
  · dsimp only at h
    split at h
    · rename_i h1
      cases h
      exact h1.choose_spec
    · simp at h
  · simp only [dif_pos h]

end general

section prox
variable {E : Type} [NormedAddCommGroup E] [InnerProductSpace ℝ E]

omit [InnerProductSpace ℝ E] in
theorem minimizes_prox {F : CFun E} (hF : F.dom = Set.univ) {f : E → ℝ} {rho : ℝ} {z : E} (hf : ∀ x, f x = F.f x + 1 / (2 * rho) * ‖x - z‖ ^ 2) (x : E) :
    (⟨f, []⟩ : CvxProblem E).Minimizes x ↔ F.IsProx rho z x := by
  simp only [CvxProblem.Minimizes, CvxProblem.Feasible, CFun.IsProx, hF, Set.mem_univ, true_and, forall_true_left, List.not_mem_nil, false_imp_iff, implies_true,
    hf, one_div_mul_eq_div]

omit [InnerProductSpace ℝ E] in
theorem cvx_prox {F : CFun E} (hF : F.dom = Set.univ) {f : E → ℝ} {rho : ℝ} {z : E} (hf : ∀ x, f x = F.f x + 1 / (2 * rho) * ‖x - z‖ ^ 2)
    {solver : CvxSolver E} (hs : CvxSound solver) (hc : CvxComplete solver) {q : E} (hq : F.IsUniqueProx rho z q) : cvxSolve solver ⟨f, []⟩ = .ok q := by
  obtain ⟨x, h1, h2⟩ := cvxSolve_ok hs hc ⟨q, (minimizes_prox hF hf q).2 hq.1⟩
  rw [h1, hq.2 x ((minimizes_prox hF hf x).1 h2)]

variable {solver : CvxSolver E} (hs : CvxSound solver) (hc : CvxComplete solver) (z b : E) {rho : ℝ} (hrho : 0 < rho)
include hs hc hrho

/-- **C72** `cvx_prox_fj_geom_mean` returns the proximal point, and it is what `prox_fj_geom_mean` returns, unless that is NaN. -/
theorem C72_proxNorm : ∃ p, cvxProxNorm solver z rho b = .ok p ∧ (normFun b).IsUniqueProx rho z p ∧ ∀ q, proxNorm z rho b = some q → q = p := by
  unfold cvxProxNorm
  cases h : proxNorm z rho b with
  | none => exact ⟨b, cvx_prox rfl (fun _ => rfl) hs hc ((C47_norm_none z hrho b).2 h), (C47_norm_none z hrho b).2 h, fun q hq => by cases hq⟩
  | some p => exact ⟨p, cvx_prox rfl (fun _ => rfl) hs hc (C47_norm hrho h), C47_norm hrho h, fun q hq => (Option.some.inj hq).symm⟩

/-- **C72** the same for `cvx_prox_fj_geom_mean_sc` of `decentr_geom_median.py`. -/
theorem C72_proxNormSc (c : E) {theta : ℝ} (ht : 0 ≤ theta) : ∃ p, cvxProxNormSc solver z rho b c theta = .ok p ∧
    (normScFun b c theta).IsUniqueProx rho z p ∧ ∀ q, proxNormSc z rho b c theta = some q → q = p := by
  unfold cvxProxNormSc
  cases h : proxNormSc z rho b c theta with
  | none =>
    have h1 := (C47_normSc_none z hrho ht b c).2 h
    exact ⟨b, cvx_prox rfl (fun _ => rfl) hs hc h1, h1, fun q hq => by cases hq⟩
  | some p => exact ⟨p, cvx_prox rfl (fun _ => rfl) hs hc (C47_normSc hrho ht h), C47_normSc hrho ht h, fun q hq => (Option.some.inj hq).symm⟩

/-- **C72** the same for `cvx_prox_fj_geom_mean_sc` of `decentr_ell2_Anorm.py`: the closed form by `np.linalg.solve` and CVXPY return the same point. -/
theorem C72_proxQuadNorm {solve : (E →ₗ[ℝ] E) → E → Except Err E} (hsolve : SolveSpec solve) {P : E →ₗ[ℝ] E} (hP : SymPSD P) :
    ∃ p, cvxProxQuadNorm solver z rho b P = .ok p ∧ proxQuadNorm solve z rho b P = .ok p ∧ (quadNormFun b P).IsUniqueProx rho z p := by
  obtain ⟨p, hp⟩ := C47_quadNorm_ok hsolve.total z b hrho hP
  have h1 := C47_quadNorm hsolve.sound hrho hP hp
  exact ⟨p, cvx_prox rfl (fun x => by simp only [quadNormFun]; norm_num) hs hc h1, hp, h1⟩

end prox

/-! ### The sums over the nodes -/

theorem stackRows_eq {m : ℕ} {n : ℕ} (x : Vec m) {j : ℕ} (hj : j < n) : stackRows n x j = x := by
  ext i
  have h : ((i : ℕ) * n + j) / n = i := by
    rw [Nat.mul_comm, Nat.mul_add_div (by omega), Nat.div_eq_of_lt hj, Nat.add_zero]
  simp [stackRows, npT, npReshape, npRepeat, h]

theorem foldl_sum {E : Type} (step : (E → ℝ) → ℕ → E → ℝ) (term : ℕ → E → ℝ) (h : ∀ f j x, step f j x = f x + term j x) (f0 : E → ℝ) (n : ℕ) (x : E) :
    (List.range n).foldl step f0 x = f0 x + ∑ j ∈ Finset.range n, term j x := by
  induction n with
  | zero => simp
  | succ n ih => rw [List.range_succ, List.foldl_append, List.foldl_cons, List.foldl_nil, h, ih, Finset.sum_range_succ, add_assoc]

theorem minimizes_sum {E : Type} [NormedAddCommGroup E] [InnerProductSpace ℝ E] {F : ℕ → CFun E} (hF : ∀ j, (F j).dom = Set.univ) {n : ℕ} {f : E → ℝ}
    (hf : ∀ x, f x = ∑ j ∈ Finset.range n, (F j).f x) (x : E) : (⟨f, []⟩ : CvxProblem E).Minimizes x ↔ SumMin n F x := by
  simp [CvxProblem.Minimizes, CvxProblem.Feasible, SumMin, hF, hf]

section median
variable {m : ℕ} {n : ℕ} {b c : ℕ → Vec m} {theta : ℝ}

theorem median_objective (x : Vec m) : (List.range n).foldl (fun f jj =>
    let f := fun x => f x + ‖x - b jj‖
    if jj = 3 ∨ jj = 4 then fun x => f x + theta * ‖x - c jj‖ ^ 2 else f) (fun _ => (0 : ℝ)) x = ∑ j ∈ Finset.range n, (medianFun b c theta j).f x := by
  rw [foldl_sum _ (fun j x => (medianFun b c theta j).f x) (fun f j x => ?_), zero_add]
  simp only [medianFun_f, medianValue]
  split <;> ring

end median

theorem reference_of {m : ℕ} {n : ℕ} (hn : 0 < n) {F : ℕ → CFun (Vec m)} {x : Vec m} (hx : SumMin n F x) {v : ℝ} (hv : v = ∑ j ∈ Finset.range n, (F j).f x) :
    IsReference n F (v, stackRows n x) := by
  refine ⟨show SumMin n F (stackRows n x 0) by rwa [stackRows_eq x hn], fun j hj => ?_, hv.trans (Finset.sum_congr rfl fun j hj => ?_)⟩
  · exact (stackRows_eq x hj).trans (stackRows_eq x hn).symm
  · exact congrArg _ (stackRows_eq x (Finset.mem_range.1 hj)).symm

section sums
variable {m : ℕ} {solver : CvxSolver (Vec m)} (hs : CvxSound solver) (hc : CvxComplete solver) {n : ℕ} (hn : 0 < n)
include hs hn

/-- **C72** whatever `cvx_geom_median` of `decentr_geom_median.py` returns is the minimal value and a minimiser. -/
theorem C72_median_sound (b c : ℕ → Vec m) (theta : ℝ) {r : ℝ × (ℕ → Vec m)} (h : cvxMedian solver n b c theta = .ok r) :
    IsReference n (medianFun b c theta) r := by
  unfold cvxMedian at h
  dsimp only at h
  split at h
  · cases h
  · rename_i x hx
    cases h
    exact reference_of hn ((minimizes_sum (medianFun_dom b c theta) median_objective x).1 (cvxSolve_min hs hx)) (median_objective x)

include hc in
/-- **C72** `cvx_geom_median` of `decentr_geom_median.py` raises no exception for a nonnegative `theta`. -/
theorem C72_median_ok (b c : ℕ → Vec m) {theta : ℝ} (ht : 0 ≤ theta) : ∃ r, cvxMedian solver n b c theta = .ok r := by
  obtain ⟨xh, hxh⟩ := C55_median_exists n hn b c theta ht
  obtain ⟨x, h1, -⟩ := cvxSolve_ok hs hc ⟨xh, (minimizes_sum (medianFun_dom b c theta) median_objective xh).2 hxh⟩
  exact ⟨_, by unfold cvxMedian; dsimp only; rw [h1]⟩

omit hs hn in
theorem anorm_objective {b : ℕ → Vec m} {P : ℕ → Vec m →ₗ[ℝ] Vec m} {n : ℕ} (x : Vec m) : (List.range n).foldl (fun f jj =>
    if jj = 3 ∨ jj = 4 then fun x => f x + 0.5 * ⟪x - b jj, P jj (x - b jj)⟫_ℝ else fun x => f x + ‖x - b jj‖) (fun _ => (0 : ℝ)) x =
      ∑ j ∈ Finset.range n, (anormFun b P j).f x := by
  rw [foldl_sum _ (fun j x => (anormFun b P j).f x) (fun f j x => ?_), zero_add]
  simp only [anormFun_f, anormValue]
  split <;> norm_num

/-- **C72** the same for `cvx_geom_median` of `decentr_ell2_Anorm.py`. -/
theorem C72_anorm_sound (b : ℕ → Vec m) (P : ℕ → Vec m →ₗ[ℝ] Vec m) {r : ℝ × (ℕ → Vec m)} (h : cvxAnorm solver n b P = .ok r) :
    IsReference n (anormFun b P) r := by
  unfold cvxAnorm at h
  dsimp only at h
  split at h
  · cases h
  · rename_i x hx
    cases h
    exact reference_of hn ((minimizes_sum (anormFun_dom b P) anorm_objective x).1 (cvxSolve_min hs hx)) (anorm_objective x)

omit hs in
theorem anorm_exists (b : ℕ → Vec m) {P : ℕ → Vec m →ₗ[ℝ] Vec m} (hP : ∀ j, j = 3 ∨ j = 4 → SymPSD (P j)) : ∃ xh, SumMin n (anormFun b P) xh := by
  have hcont : Continuous fun x => ∑ j ∈ Finset.range n, anormValue b P j x := by
    refine continuous_finsetSum _ fun j _ => ?_
    have := (P j).toContinuousLinearMap.continuous
    simp only [LinearMap.coe_toContinuousLinearMap'] at this
    unfold anormValue
    split <;> fun_prop
  have hl : ∀ x, ‖x‖ - ‖b 0‖ ≤ ∑ j ∈ Finset.range n, anormValue b P j x := by
    intro x
    have h0 : ∀ j ∈ Finset.range n, 0 ≤ anormValue b P j x := by
      intro j _
      unfold anormValue
      split
      · rename_i hj
        have := (hP j hj).2 (x - b j)
        positivity
      · positivity
    refine le_trans ?_ (Finset.single_le_sum h0 (Finset.mem_range.2 hn))
    exact norm_sub_norm_le x (b 0)
  obtain ⟨xh, hx⟩ := hcont.exists_forall_le
    (Filter.tendsto_atTop_mono hl (Filter.tendsto_atTop_add_const_right _ _ (tendsto_norm_cocompact_atTop (E := Vec m))))
  exact ⟨xh, fun j _ => by rw [anormFun_dom]; trivial, fun y _ => by simpa only [anormFun_f] using hx y⟩

include hc in
/-- **C72** `cvx_geom_median` of `decentr_ell2_Anorm.py` raises no exception for positive semidefinite matrices. -/
theorem C72_anorm_ok (b : ℕ → Vec m) {P : ℕ → Vec m →ₗ[ℝ] Vec m} (hP : ∀ j, j = 3 ∨ j = 4 → SymPSD (P j)) : ∃ r, cvxAnorm solver n b P = .ok r := by
  obtain ⟨xh, hxh⟩ := anorm_exists hn b hP
  obtain ⟨x, h1, -⟩ := cvxSolve_ok hs hc ⟨xh, (minimizes_sum (anormFun_dom b P) anorm_objective xh).2 hxh⟩
  exact ⟨_, by unfold cvxAnorm; dsimp only; rw [h1]⟩

section sensing
variable {S : Type} [NormedAddCommGroup S] [InnerProductSpace ℝ S]

omit hs hn in
theorem sensing_objective {n : ℕ} {A : ℕ → Vec m →ₗ[ℝ] S} {b : ℕ → S} {rho : ℝ} (x : Vec m) :
    (List.range n).foldl (fun f jj x => f x + 1 / 2 * ‖A jj x - b jj‖ ^ 2) (fun x => n * rho * ∑ i, |x i|) x =
      ∑ j ∈ Finset.range n, (sensingFun (fun j => A j) b rho j).f x := by
  rw [foldl_sum _ (fun j x => 1 / 2 * ‖A j x - b j‖ ^ 2) (fun f j x => rfl)]
  simp only [sensingFun, Finset.sum_add_distrib, Finset.sum_const, Finset.card_range, nsmul_eq_mul]
  ring

/-- **C72** the same for `cvx_compressed_sensing`. -/
theorem C72_sensing_sound (A : ℕ → Vec m →ₗ[ℝ] S) (b : ℕ → S) (rho : ℝ) {r : ℝ × (ℕ → Vec m)} (h : cvxSensing solver n A b rho = .ok r) :
    IsReference n (sensingFun (fun j => A j) b rho) r := by
  unfold cvxSensing at h
  dsimp only at h
  split at h
  · cases h
  · rename_i x hx
    cases h
    exact reference_of hn ((minimizes_sum (fun _ => rfl) sensing_objective x).1 (cvxSolve_min hs hx)) (sensing_objective x)

include hc in
/-- **C72** `cvx_compressed_sensing` raises no exception for a positive weight of the 1-norm. -/
theorem C72_sensing_ok (A : ℕ → Vec m →ₗ[ℝ] S) (b : ℕ → S) {rho : ℝ} (hr : 0 < rho) : ∃ r, cvxSensing solver n A b rho = .ok r := by
  obtain ⟨xh, hxh⟩ := C55_sensing_exists n hn A b rho hr
  obtain ⟨x, h1, -⟩ := cvxSolve_ok hs hc ⟨xh, (minimizes_sum (F := sensingFun (fun j => A j) b rho) (fun _ => rfl) sensing_objective xh).2 hxh⟩
  exact ⟨_, by unfold cvxSensing; dsimp only; rw [h1]⟩

end sensing
end sums

section sensingProx
variable {m : ℕ} {S : Type} [NormedAddCommGroup S] [InnerProductSpace ℝ S]

theorem sensingFun_convex (A : ℕ → Vec m →ₗ[ℝ] S) (b : ℕ → S) {rho : ℝ} (hr : 0 ≤ rho) (j : ℕ) :
    ConvexOn ℝ (sensingFun (fun j => A j) b rho j).dom (sensingFun (fun j => A j) b rho j).f := by
  refine ⟨convex_univ, fun x _ y _ p q hp hq hpq => ?_⟩
  have h1 := (l1Fun_convex (m := m) hr).2 (Set.mem_univ x) (Set.mem_univ y) hp hq hpq
  have h2 := ((convexOn_univ_norm (E := S)).pow (fun _ _ => norm_nonneg _) 2).2 (Set.mem_univ (A j x - b j)) (Set.mem_univ (A j y - b j)) hp hq hpq
  have e : p • (A j x - b j) + q • (A j y - b j) = A j (p • x + q • y) - b j := by
    rw [map_add, map_smul, map_smul, smul_sub, smul_sub, sub_add_sub_comm, ← add_smul, hpq, one_smul]
  simp only [sensingFun, l1Fun, smul_eq_mul, Pi.pow_apply, e] at h1 h2 ⊢
  linarith

/-- **C72** `cvx_prox_fj_hj` returns the proximal point of the function of a node, for every positive step and nonnegative weight. -/
theorem C72_proxSensing {solver : CvxSolver (Vec m)} (hs : CvxSound solver) (hc : CvxComplete solver) (z : Vec m) {alpha rho : ℝ} (ha : 0 < alpha)
    (hr : 0 ≤ rho) (A : ℕ → Vec m →ₗ[ℝ] S) (b : ℕ → S) (j : ℕ) :
    ∃ p, cvxProxSensing solver z alpha rho (A j) (b j) = .ok p ∧ (sensingFun (fun j => A j) b rho j).IsUniqueProx alpha z p := by
  have hcont : Continuous fun x => (sensingFun (fun j => A j) b rho j).f x + 1 / (2 * alpha) * ‖x - z‖ ^ 2 := by
    have := (A j).toContinuousLinearMap.continuous
    simp only [LinearMap.coe_toContinuousLinearMap'] at this
    unfold sensingFun
    fun_prop
  have hl : ∀ x, 1 / (2 * alpha) * (2 * (‖x‖ - ‖z‖) - 1) ≤ (sensingFun (fun j => A j) b rho j).f x + 1 / (2 * alpha) * ‖x - z‖ ^ 2 := by
    intro x
    have h0 : 0 ≤ (sensingFun (fun j => A j) b rho j).f x := by
      unfold sensingFun
      have : 0 ≤ ∑ i, |x i| := Finset.sum_nonneg fun i _ => abs_nonneg _
      positivity
    have h1 := norm_sub_norm_le x z
    have h2 : 2 * (‖x‖ - ‖z‖) - 1 ≤ ‖x - z‖ ^ 2 := by nlinarith [sq_nonneg (‖x - z‖ - 1)]
    have h3 := mul_le_mul_of_nonneg_left h2 (by positivity : 0 ≤ 1 / (2 * alpha))
    linarith
  have ht : Tendsto (fun x : Vec m => 1 / (2 * alpha) * (2 * (‖x‖ - ‖z‖) - 1)) (Filter.cocompact (Vec m)) atTop := by
    refine Filter.Tendsto.const_mul_atTop (by positivity) (Filter.tendsto_atTop_add_const_right _ _ (Filter.Tendsto.const_mul_atTop (by norm_num) ?_))
    exact Filter.tendsto_atTop_add_const_right _ _ (tendsto_norm_cocompact_atTop (E := Vec m))
  obtain ⟨p, hp⟩ := hcont.exists_forall_le (Filter.tendsto_atTop_mono hl ht)
  have hprox : (sensingFun (fun j => A j) b rho j).IsProx alpha z p :=
    (minimizes_prox (f := fun x => (sensingFun (fun j => A j) b rho j).f x + 1 / (2 * alpha) * ‖x - z‖ ^ 2) rfl (fun _ => rfl) p).1
      ⟨by simp [CvxProblem.Feasible], fun y _ => hp y⟩
  have hu := uniqueProx_of_sample ha (hprox.sample (sensingFun_convex A b hr j) ha)
  exact ⟨p, cvx_prox rfl (fun _ => rfl) hs hc hu, hu⟩

end sensingProx

/-! ### The quadratic program -/

section qp
variable {m : ℕ} {solver : CvxSolver (Vec m)} {n : ℕ} (D : QpData m)

theorem qp_objective (x : Vec m) :
    (List.range n).foldl (fun f j x => f x + (1 / 2 * ⟪x, matMap (D.Q j) x⟫_ℝ + ∑ i, D.p j i * x i)) (fun _ => (0 : ℝ)) x = D.total n x := by
  rw [foldl_sum _ (fun j x => 1 / 2 * ⟪x, matMap (D.Q j) x⟫_ℝ + ∑ i, D.p j i * x i) (fun f j x => rfl), zero_add, total_eq]
  exact Finset.sum_congr rfl fun j _ => by rw [quadFun, vec_inner (D.p j)]

theorem qp_minimizes (x : Vec m) :
    (⟨(List.range n).foldl (fun f j x => f x + (1 / 2 * ⟪x, matMap (D.Q j) x⟫_ℝ + ∑ i, D.p j i * x i)) fun _ => (0 : ℝ),
      (List.range n).map fun j x => ∑ i, D.a j i * x i ≤ D.b j⟩ : CvxProblem (Vec m)).Minimizes x ↔ D.Solves n x := by
  simp only [CvxProblem.Minimizes, CvxProblem.Feasible, QpData.Solves, QpData.Feasible, qp_objective, List.mem_map, List.mem_range, forall_exists_index, and_imp,
    forall_apply_eq_imp_iff₂]

/-- **C72** whatever `min_cvx_quad_constraint` returns with the constraints is the solution of the quadratic program and its value. -/
theorem C72_qp_sound (hs : CvxSound solver) {f : ℝ} {x : Vec m} (h : minCvxQuad solver n D true = .ok (f, x)) : D.Solves n x ∧ f = D.total n x := by
  unfold minCvxQuad at h
  dsimp only at h
  split at h
  · cases h
  · rename_i y hy
    cases h
    exact ⟨(qp_minimizes D x).1 (cvxSolve_min hs hy), qp_objective D x⟩

/-- **C72** without the constraints it is a minimiser over all points: its value is a lower bound for the value of the quadratic program. -/
theorem C72_qp_free (hs : CvxSound solver) {f : ℝ} {x : Vec m} (h : minCvxQuad solver n D false = .ok (f, x)) :
    f = D.total n x ∧ (∀ y, f ≤ D.total n y) ∧ (D.Feasible n x ↔ D.Solves n x) := by
  unfold minCvxQuad at h
  dsimp only at h
  split at h
  · cases h
  · rename_i y hy
    cases h
    have h1 := (cvxSolve_min hs hy).2
    simp only [qp_objective] at h1
    have h2 : ∀ y, D.total n x ≤ D.total n y := fun y => h1 y fun c hc => by simp at hc
    exact ⟨qp_objective D x, fun y => (qp_objective D x).trans_le (h2 y), fun hx => ⟨hx, fun y _ => h2 y⟩, fun hx => hx.1⟩

/-- **C72** contradictory constraints are never answered with a point. -/
theorem C72_qp_infeasible (hs : CvxSound solver) (hinf : ∀ x, ¬ D.Feasible n x) : ∃ e, minCvxQuad solver n D true = .error e := by
  cases h : minCvxQuad solver n D true with
  | error e => exact ⟨e, rfl⟩
  | ok r => exact absurd (C72_qp_sound D hs (f := r.1) (x := r.2) h).1.1 (hinf _)

/-- **C72** for the generated data it returns the only solution, if some point satisfies the constraints and the drawn matrices have no common direction
that they map to zero. -/
theorem C72_qp_ok (hs : CvxSound solver) (hc : CvxComplete solver) (hn : 0 < n) (pNormal : ℕ → Vec m) (sqQ : ℕ → Matrix (Fin m) (Fin m) ℝ)
    (aNormal : ℕ → Vec m) (bNormal : ℕ → ℝ) (hinj : ∀ x : Vec m, (∀ j < n, matMap (sqQ j) x = 0) → x = 0)
    (hfeas : ∃ x, (qpData n pNormal sqQ aNormal bNormal).Feasible n x) :
    ∃ x, minCvxQuad solver n (qpData n pNormal sqQ aNormal bNormal) true = .ok ((qpData n pNormal sqQ aNormal bNormal).total n x, x) ∧
      (qpData n pNormal sqQ aNormal bNormal).Solves n x ∧ ∀ y, (qpData n pNormal sqQ aNormal bNormal).Solves n y → y = x := by
  obtain ⟨xh, hx, hu⟩ := C62_solution n pNormal sqQ aNormal bNormal hn hinj hfeas
  obtain ⟨x, h1, h2⟩ := cvxSolve_ok hs hc ⟨xh, (qp_minimizes _ xh).2 hx⟩
  have h3 := hu x ((qp_minimizes _ x).1 h2)
  refine ⟨xh, ?_, hx, hu⟩
  unfold minCvxQuad
  dsimp only
  rw [if_pos rfl, h1, h3]
  exact congrArg (fun v => Except.ok (v, xh)) (qp_objective _ xh)

end qp

/-! ### With the reference solution the recorded errors tend to zero -/

theorem frobDist_rows {E : Type} [NormedAddCommGroup E] {n : ℕ} (x : ℕ → E) {y y' : ℕ → E} (h : ∀ j < n, y j = y' j) : frobDist n x y = frobDist n x y' := by
  unfold frobDist
  rw [Finset.sum_congr rfl fun j hj => by rw [h j (Finset.mem_range.1 hj)]]

theorem reference_value {m n : ℕ} {F : ℕ → CFun (Vec m)} {r : ℝ × (ℕ → Vec m)} (h : IsReference n F r) : r.1 = ∑ j ∈ Finset.range n, (F j).f (r.2 0) :=
  h.2.2.trans (Finset.sum_congr rfl fun j hj => by rw [h.2.1 j (Finset.mem_range.1 hj)])

theorem extraResult_rows {E : Type} [NormedAddCommGroup E] [InnerProductSpace ℝ E] {n itr : ℕ} {st : ℕ → Option (ExtraState E)} {x0 y y' : ℕ → E} {fs : ℝ} {f : ℕ → E → ℝ}
    (h : ∀ j < n, y j = y' j) : extraResult n itr st x0 y fs f = extraResult n itr st x0 y' fs f := by
  simp only [extraResult, frobDist_rows _ h]

/-- **C72** (`decentr_ell2_Anorm.py`) with at least four nodes and a positive definite matrix at position 3, as `data_generation` makes it (C61), the minimiser
is unique. -/
theorem C72_anorm_unique {E : Type} [NormedAddCommGroup E] [InnerProductSpace ℝ E] (n : ℕ) (hn : 3 < n) (b : ℕ → E) (P : ℕ → E →ₗ[ℝ] E)
    (hP : ∀ j, j = 3 ∨ j = 4 → SymPSD (P j)) (hpos : ∀ x, ⟪x, P 3 x⟫_ℝ = 0 → x = 0) (x y : E) (hx : SumMin n (anormFun b P) x)
    (hy : SumMin n (anormFun b P) y) : x = y := by
  have h1 := hx.2 ((1 / 2 : ℝ) • x + (1 / 2 : ℝ) • y) (fun j _ => by rw [anormFun_dom]; trivial)
  have h2 := hy.2 ((1 / 2 : ℝ) • x + (1 / 2 : ℝ) • y) (fun j _ => by rw [anormFun_dom]; trivial)
  have h3 : ∀ j ∈ Finset.range n, (anormFun b P j).f ((1 / 2 : ℝ) • x + (1 / 2 : ℝ) • y) +
      (if j = 3 then 1 / 8 * ⟪x - y, P 3 (x - y)⟫_ℝ else 0) ≤ 1 / 2 * (anormFun b P j).f x + 1 / 2 * (anormFun b P j).f y := by
    intro j _
    split
    · rename_i hj
      subst hj
      simp only [anormFun_f, anormValue, true_or, if_true]
      have e1 : (1 / 2 : ℝ) • x + (1 / 2 : ℝ) • y - b 3 = (1 / 2 : ℝ) • (x - b 3) + (1 / 2 : ℝ) • (y - b 3) := by module
      have e2 : x - y = (x - b 3) - (y - b 3) := by abel
      rw [e1, e2]
      simp only [map_add, map_sub, map_smul, inner_add_left, inner_add_right, inner_sub_left, inner_sub_right, real_inner_smul_left, real_inner_smul_right]
      linarith
    · rw [add_zero]
      exact half_convex (anormFun_dom b P j) (anormFun_convex b hP j) x y
  have h4 := Finset.sum_le_sum h3
  rw [Finset.sum_add_distrib, Finset.sum_add_distrib, ← Finset.mul_sum, ← Finset.mul_sum, Finset.sum_ite_eq' (Finset.range n) 3,
    if_pos (Finset.mem_range.2 hn)] at h4
  have h5 := (hP 3 (Or.inl rfl)).2 (x - y)
  exact sub_eq_zero.1 (hpos _ (by linarith))

section runs
variable {m : ℕ} {solver : CvxSolver (Vec m)} (hs : CvxSound solver) (n : ℕ) (hn : 0 < n) (G : NxGraph) (hG : G.Simple) (hcon : G.Connected n) (W : ℕ → ℕ → ℝ)
  (hW : mhWeights n G = .ok W)
include hs hn hG hcon hW

/-- **C72** `p_extra_dgeom_median` of `decentr_geom_median.py`, called with what `cvx_geom_median` returns: with at least four nodes and a positive `theta`
the recorded distances, and for a nonzero reference value the recorded relative differences of values, tend to zero, as far as they are no NaN. -/
theorem C72_median_run (hn4 : 3 < n) (b c : ℕ → Vec m) (theta rho : ℝ) (ht : 0 < theta) (hr : 0 < rho) {r : ℝ × (ℕ → Vec m)}
    (href : cvxMedian solver n b c theta = .ok r) (eps : ℝ) (he : 0 < eps) :
    ∃ N : ℕ, ∀ (itr k : ℕ) (v : ℝ), N ≤ k →
      ((pExtraMedian n itr W b c theta rho r.2 r.1).errOptStar[k]? = some (some v) → |v| < eps) ∧
      (r.1 ≠ 0 → (pExtraMedian n itr W b c theta rho r.2 r.1).fReldiff[k]? = some (some v) → |v| < eps) := by
  have h := C72_median_sound hs hn b c theta href
  have hv := reference_value h
  obtain ⟨N1, h1⟩ := C55_median_distances n hn G hG hcon W hW b c theta rho ht.le hr (r.2 0) h.1
    (fun y hy => C55_median_unique n hn4 b c theta ht y _ hy h.1) r.1 eps he
  by_cases h0 : r.1 = 0
  · refine ⟨N1, fun itr k v hk => ⟨fun hv => h1 itr k v hk ?_, fun h => absurd h0 h⟩⟩
    rwa [pExtraMedian, extraResult_rows h.2.1] at hv
  · obtain ⟨N2, h2⟩ := C55_median_values n hn G hG hcon W hW b c theta rho ht.le hr (r.2 0) h.1 r.2 (hv ▸ h0) eps he
    rw [← hv] at h2
    refine ⟨max N1 N2, fun itr k v hk => ⟨fun hv => h1 itr k v (le_trans (le_max_left _ _) hk) ?_,
      fun _ hv => h2 itr k v (le_trans (le_max_right _ _) hk) hv⟩⟩
    rwa [pExtraMedian, extraResult_rows h.2.1] at hv

/-- **C72** the same for `decentr_ell2_Anorm.py`, if the minimiser is unique. -/
theorem C72_anorm_run (solve : (Vec m →ₗ[ℝ] Vec m) → Vec m → Except Err (Vec m)) (hsol : SolveSpec solve) (b : ℕ → Vec m) (P : ℕ → Vec m →ₗ[ℝ] Vec m)
    (hP : ∀ j, j = 3 ∨ j = 4 → SymPSD (P j)) (rho : ℝ) (hr : 0 < rho) (huniq : ∀ x y, SumMin n (anormFun b P) x → SumMin n (anormFun b P) y → x = y)
    {r : ℝ × (ℕ → Vec m)} (href : cvxAnorm solver n b P = .ok r) (eps : ℝ) (he : 0 < eps) :
    ∃ N : ℕ, ∀ (itr : ℕ), ∃ res, pExtraAnorm solve n itr W b P rho r.2 r.1 = .ok res ∧ ∀ (k : ℕ) (v : ℝ), N ≤ k →
      (res.errOptStar[k]? = some (some v) → |v| < eps) ∧ (r.1 ≠ 0 → res.fReldiff[k]? = some (some v) → |v| < eps) := by
  have h := C72_anorm_sound hs hn b P href
  have hv := reference_value h
  have hrows : ∀ itr, pExtraAnorm solve n itr W b P rho r.2 r.1 = pExtraAnorm solve n itr W b P rho (fun _ => r.2 0) r.1 := fun itr => by
    simp only [pExtraAnorm, extraResult_rows h.2.1]
  obtain ⟨N1, h1⟩ := C55_anorm_distances solve hsol n hn G hG hcon W hW b P hP rho hr (r.2 0) h.1 (fun y hy => huniq y _ hy h.1) r.1 eps he
  by_cases h0 : r.1 = 0
  · refine ⟨N1, fun itr => ?_⟩
    obtain ⟨res, hres⟩ := C55_anorm_ok solve hsol n W b P hP rho hr itr r.2 r.1
    exact ⟨res, hres, fun k v hk => ⟨fun hv => h1 itr res (hrows itr ▸ hres) k v hk hv, fun h => absurd h0 h⟩⟩
  · obtain ⟨N2, h2⟩ := C55_anorm_values solve hsol n hn G hG hcon W hW b P hP rho hr (r.2 0) h.1 r.2 (hv ▸ h0) eps he
    rw [← hv] at h2
    refine ⟨max N1 N2, fun itr => ?_⟩
    obtain ⟨res, hres⟩ := C55_anorm_ok solve hsol n W b P hP rho hr itr r.2 r.1
    exact ⟨res, hres, fun k v hk => ⟨fun hv => h1 itr res (hrows itr ▸ hres) k v (le_trans (le_max_left _ _) hk) hv,
      fun _ hv => h2 itr res hres k v (le_trans (le_max_right _ _) hk) hv⟩⟩

/-- **C72** the same for `pg_extra_compressed_sensing`, called with what `cvx_compressed_sensing` returns, if the minimiser is unique. -/
theorem C72_sensing_run {S : Type} [NormedAddCommGroup S] [InnerProductSpace ℝ S] (d : ℕ) (hd : ∀ j < n, G.degree (j + 1) ≤ d) (A : ℕ → Vec m →ₗ[ℝ] S)
    (AT : ℕ → S →ₗ[ℝ] Vec m) (b : ℕ → S) (hT : ∀ j < n, ∀ x s, ⟪AT j s, x⟫_ℝ = ⟪s, A j x⟫_ℝ) (alpha rho L : ℝ) (ha : 0 < alpha) (hr : 0 ≤ rho) (hL : 0 ≤ L)
    (hA : ∀ j < n, ∀ x, ‖A j x‖ ^ 2 ≤ L * ‖x‖ ^ 2) (hstep : alpha * L < 2 / (d + 1)) (x0 : ℕ → Vec m) (V : ℕ → ℕ → ℝ) (sv : ℕ → ℝ)
    (huniq : ∀ x y, SumMin n (sensingFun (fun j => A j) b rho) x → SumMin n (sensingFun (fun j => A j) b rho) y → x = y)
    {r : ℝ × (ℕ → Vec m)} (href : cvxSensing solver n A b rho = .ok r) (eps : ℝ) (he : 0 < eps) :
    ∃ N : ℕ, ∀ (itr k : ℕ) (v : ℝ), N ≤ k →
      ((pgExtraSensing n itr W V sv A AT b alpha rho x0 r.2 r.1).errOptStar[k]? = some v → |v| < eps) ∧
      (r.1 ≠ 0 → (pgExtraSensing n itr W V sv A AT b alpha rho x0 r.2 r.1).fReldiff[k]? = some v → |v| < eps) := by
  have h := C72_sensing_sound hs hn A b rho href
  have hv := reference_value h
  obtain ⟨N1, h1⟩ := C55_sensing_distances n hn G hG hcon W hW d hd A AT b hT alpha rho L ha hr hL hA hstep x0 V sv (r.2 0) h.1
    (fun y hy => huniq y _ hy h.1) r.1 eps he
  have hrows : ∀ itr, (pgExtraSensing n itr W V sv A AT b alpha rho x0 r.2 r.1).errOptStar =
      (pgExtraSensing n itr W V sv A AT b alpha rho x0 (fun _ => r.2 0) r.1).errOptStar := fun itr => by
    simp only [pgExtraSensing, frobDist_rows _ h.2.1]
  by_cases h0 : r.1 = 0
  · exact ⟨N1, fun itr k v hk => ⟨fun hv => h1 itr k v hk (hrows itr ▸ hv), fun h => absurd h0 h⟩⟩
  · obtain ⟨N2, h2⟩ := C55_sensing_values n hn G hG hcon W hW d hd A AT b hT alpha rho L ha hr hL hA hstep x0 V sv (r.2 0) h.1 r.2 (hv ▸ h0) eps he
    rw [← hv] at h2
    exact ⟨max N1 N2, fun itr k v hk => ⟨fun hv => h1 itr k v (le_trans (le_max_left _ _) hk) (hrows itr ▸ hv),
      fun _ hv => h2 itr k v (le_trans (le_max_right _ _) hk) hv⟩⟩

/-- **C72** the same for the decentralised quadratic program: the reference value and point of `min_cvx_quad_constraint` with the constraints are what the
records of `pg_extra` approach. -/
theorem C72_qp_run (pNormal : ℕ → Vec m) (sqQ : ℕ → Matrix (Fin m) (Fin m) ℝ) (aNormal : ℕ → Vec m) (bNormal : ℕ → ℝ) (a : PgExtra ℝ) (hrho : 0 < a.rho) (d : ℕ)
    (hd : ∀ j < n, G.degree (j + 1) ≤ d) (s : ℝ) (hs0 : 0 ≤ s) (hsq : ∀ j < n, sumSq (sqQ j) ≤ s) (hh : 0 < a.h) (hb : a.h < a.b)
    (hpos : 0 < 1 - a.b * (d / ((d : ℝ) + 1))) (hstep : a.rho * (s / n) < 2 * (1 - a.b * (d / ((d : ℝ) + 1))))
    (hslater : ∃ x : Vec m, ∀ j < n, ∑ i, aNormal j i * x i < bNormal j) (hinj : ∀ x : Vec m, (∀ j < n, matMap (sqQ j) x = 0) → x = 0) {f : ℝ} {x : Vec m}
    (href : minCvxQuad solver n (qpData n pNormal sqQ aNormal bNormal) true = .ok (f, x)) (eps : ℝ) (he : 0 < eps) :
    ∃ N : ℕ, ∀ (itr : ℕ) (res : PgResult), pgExtra a n itr W G (fun _ => x) f (qpProx (qpData n pNormal sqQ aNormal bNormal))
        (qpGrad (qpData n pNormal sqQ aNormal bNormal)) (qpValue (qpData n pNormal sqQ aNormal bNormal)) = .ok res →
      ∀ (k : ℕ) (v : ℝ), N ≤ k → (res.errOptStar[k]? = some v → |v| < eps) ∧ (f ≠ 0 → res.fReldiff[k]? = some v → |v| < eps) := by
  obtain ⟨hx, hf⟩ := C72_qp_sound _ hs href
  obtain ⟨N1, h1⟩ := C62_distance n pNormal sqQ aNormal bNormal a hrho hn G hG hcon W hW d hd s hs0 hsq hh hb hpos hstep hslater x hx hinj f eps he
  by_cases h0 : f = 0
  · exact ⟨N1, fun itr res hres k v hk => ⟨fun hv => h1 itr res hres k v hk hv, fun h => absurd h0 h⟩⟩
  · obtain ⟨N2, h2⟩ := C62_values n pNormal sqQ aNormal bNormal a hrho hn G hG hcon W hW d hd s hs0 hsq hh hb hpos hstep hslater x hx (hf ▸ h0) (fun _ => x) eps he
    rw [← hf] at h2
    exact ⟨max N1 N2, fun itr res hres k v hk => ⟨fun hv => h1 itr res hres k v (le_trans (le_max_left _ _) hk) hv,
      fun _ hv => h2 itr res hres k v (le_trans (le_max_right _ _) hk) hv⟩⟩

end runs

/-! ### Concrete cases -/

/-- a solver as it is required exists for the vectors of every length, and with it the reference of the network with six nodes is found -/
example : ∃ solver : CvxSolver (Vec 2), CvxSound solver ∧ CvxComplete solver ∧
    ∃ r, cvxMedian solver 6 (fun j => EuclideanSpace.single 0 (j : ℝ)) (fun _ => 0) (1 / 10000) = .ok r := by
  obtain ⟨solver, hs, hc⟩ := cvx_exists (Vec 2)
  exact ⟨solver, hs, hc, C72_median_ok hs hc (by norm_num) _ _ (by norm_num)⟩

/-- constraints that contradict each other: `x ≤ 0` and `-x ≤ -1` -/
example : ∀ x, ¬ (⟨fun _ => 1, fun _ => 0, fun j => EuclideanSpace.single 0 (if j = 0 then 1 else -1), fun j => if j = 0 then 0 else -1⟩ : QpData 1).Feasible 2 x := by
  intro x h
  have h0 := h 0 (by norm_num)
  have h1 := h 1 (by norm_num)
  simp at h0 h1
  linarith

end Verif
