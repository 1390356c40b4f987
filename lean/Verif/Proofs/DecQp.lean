import Verif.Props.DataGen
import Verif.Props.Prox
import Verif.Props.PgLimit
import Mathlib.Analysis.InnerProductSpace.Calculus

/-!
# Lemmas for C62: the quadratic program of `decentr_qp.py`
-/

namespace Verif
open scoped InnerProductSpace
open Filter (Tendsto atTop)

section general
variable {E : Type} [NormedAddCommGroup E] [InnerProductSpace ℝ E] [FiniteDimensional ℝ E]

theorem quadFun_gradient {Q : E →ₗ[ℝ] E} (hQ : SymPSD Q) (p : E) : ConvexGradient (quadFun Q p) fun z => gradQuad z Q p := by
  constructor
  · refine ⟨convex_univ, fun x _ y _ s t hs ht hst => ?_⟩
    have h1 := C47_gradQuad hQ.1 p (s • x + t • y) x
    have h2 := C47_gradQuad hQ.1 p (s • x + t • y) y
    have e1 : x - (s • x + t • y) = t • (x - y) := by rw [show s = 1 - t by linarith]; module
    have e2 : y - (s • x + t • y) = (-s) • (x - y) := by rw [show t = 1 - s by linarith]; module
    have h0 := hQ.2 (x - y)
    rw [e1, map_smul, real_inner_smul_right, real_inner_smul_left, real_inner_smul_right] at h1
    rw [e2, map_smul, real_inner_smul_right, real_inner_smul_left, real_inner_smul_right] at h2
    rw [smul_eq_mul, smul_eq_mul, h1, h2]
    have : s = 1 - t := by linarith
    subst this
    nlinarith [mul_nonneg (mul_nonneg hs ht) h0]
  · intro x
    have h1 : HasFDerivAt (fun y => Q y) Q.toContinuousLinearMap x := Q.toContinuousLinearMap.hasFDerivAt
    have h2 := ((hasFDerivAt_id x).inner ℝ h1).const_mul (1 / 2 : ℝ)
    have h3 := (innerSL ℝ p).hasFDerivAt (x := x)
    refine (h2.add h3).congr_fderiv ?_
    ext v
    simp only [add_apply, smul_apply, ContinuousLinearMap.comp_apply, ContinuousLinearMap.prod_apply,
      fderivInnerCLM_apply, innerSL_apply_apply, gradQuad, inner_add_left, smul_eq_mul, id, ContinuousLinearMap.id_apply,
      LinearMap.coe_toContinuousLinearMap']
    rw [← hQ.1 x v, real_inner_comm v (Q x)]
    ring

omit [FiniteDimensional ℝ E] in
theorem interior_halfspace {a : E} {b : ℝ} {x : E} (h : ⟪a, x⟫_ℝ < b) : x ∈ interior (halfspaceFun a b).dom := by
  refine mem_interior.2 ⟨{y | ⟪a, y⟫_ℝ < b}, fun y (hy : ⟪a, y⟫_ℝ < b) => show ⟪a, y⟫_ℝ ≤ b from hy.le, ?_, h⟩
  exact isOpen_lt (by fun_prop) continuous_const

omit [FiniteDimensional ℝ E] in
theorem halfspace_convex (a : E) (b : ℝ) : ConvexOn ℝ (halfspaceFun a b).dom (halfspaceFun a b).f := by
  refine convexOn_const _ ?_
  exact convex_halfSpace_le (innerSL ℝ a).toLinearMap.isLinear b

end general

section qp
variable {m : ℕ} (D : QpData m) (n : ℕ)

theorem qpValue_eq (j : ℕ) (x : Vec m) : qpValue D j x = quadFun (matMap (D.Q j)) (D.p j) x := by
  unfold qpValue quadFun
  rw [vec_inner, vec_inner]
  congr 2
  simp only [matMap_apply, Finset.sum_mul, Finset.mul_sum]
  rw [Finset.sum_comm]
  exact Finset.sum_congr rfl fun _ _ => Finset.sum_congr rfl fun _ _ => by ring

theorem total_eq (x : Vec m) : D.total n x = ∑ j ∈ Finset.range n, quadFun (matMap (D.Q j)) (D.p j) x := by
  unfold QpData.total
  refine Finset.sum_congr rfl fun j _ => ?_
  rw [← qpValue_eq, qpValue]
  congr 2
  simp only [Finset.sum_mul]
  exact Finset.sum_comm

/-- the functions of the nodes -/
noncomputable def qpF (j : ℕ) : CFun (Vec m) := halfspaceFun (D.a j) (D.b j)

theorem solves_iff (x : Vec m) : D.Solves n x ↔ SumMin n (fun j => (qpF D j).plus (quadFun (matMap (D.Q j)) (D.p j))) x := by
  simp only [QpData.Solves, QpData.Feasible, SumMin, CFun.plus, qpF, halfspaceFun, total_eq, Set.mem_ofPred_eq, vec_inner, zero_add]

theorem qpProx_isProx {j : ℕ} {x0 : Vec m} (h0 : ⟪D.a j, x0⟫_ℝ ≤ D.b j) (z : Vec m) (r : ℝ) (hr : 0 < r) : (qpF D j).IsProx r z (qpProx D j z r) := by
  unfold qpProx qpF
  cases h : proxHalfspace z r (D.a j) (D.b j) with
  | none => exact absurd h0 ((C47_halfspace_none z r (D.a j) (D.b j)).1.1 h x0)
  | some p => exact (C47_halfspace hr h).1

theorem quadFun_mid {E : Type} [NormedAddCommGroup E] [InnerProductSpace ℝ E] {Q : E →ₗ[ℝ] E} (hQ : Q.IsSymmetric) (p x y : E) :
    quadFun Q p ((1 / 2 : ℝ) • (x + y)) = (quadFun Q p x + quadFun Q p y) / 2 - 1 / 8 * ⟪x - y, Q (x - y)⟫_ℝ := by
  have h : ⟪y, Q x⟫_ℝ = ⟪x, Q y⟫_ℝ := by rw [← hQ, real_inner_comm]
  simp only [quadFun, map_smul, map_add, map_sub, real_inner_smul_left, real_inner_smul_right, inner_add_left, inner_add_right, inner_sub_left,
    inner_sub_right, h]
  ring

/-- at most one solution, if no direction is annihilated by all quadratic parts -/
theorem solves_unique (hQ : ∀ j < n, SymPSD (matMap (D.Q j))) (hpos : ∀ x, (∀ j < n, ⟪x, matMap (D.Q j) x⟫_ℝ = 0) → x = 0) {x y : Vec m}
    (hx : D.Solves n x) (hy : D.Solves n y) : y = x := by
  have hf : D.Feasible n ((1 / 2 : ℝ) • (x + y)) := by
    intro j hj
    have h1 := hx.1 j hj
    have h2 := hy.1 j hj
    rw [← vec_inner] at h1 h2 ⊢
    rw [real_inner_smul_right, inner_add_right]
    linarith
  have h1 := hx.2 _ hf
  have h2 := hy.2 _ hf
  have h3 : D.total n ((1 / 2 : ℝ) • (x + y)) = (D.total n x + D.total n y) / 2 - 1 / 8 * ∑ j ∈ Finset.range n, ⟪x - y, matMap (D.Q j) (x - y)⟫_ℝ := by
    simp only [total_eq]
    rw [Finset.sum_congr rfl fun j hj => quadFun_mid (hQ j (Finset.mem_range.1 hj)).1 (D.p j) x y, Finset.sum_sub_distrib, ← Finset.sum_div,
      Finset.sum_add_distrib, Finset.mul_sum]
  have h4 : ∑ j ∈ Finset.range n, ⟪x - y, matMap (D.Q j) (x - y)⟫_ℝ = 0 :=
    le_antisymm (by linarith) (Finset.sum_nonneg fun j hj => (hQ j (Finset.mem_range.1 hj)).2 _)
  have h5 := (Finset.sum_eq_zero_iff_of_nonneg fun j hj => (hQ j (Finset.mem_range.1 hj)).2 _).1 h4
  have h6 := hpos (x - y) fun j hj => h5 j (Finset.mem_range.2 hj)
  exact (sub_eq_zero.1 h6).symm

/-- a quadratic that grows in every direction has a minimiser over a nonempty intersection of half-spaces -/
theorem solves_exists {c P : ℝ} (hc : 0 < c) (hl : ∀ x, c * ‖x‖ ^ 2 - P * ‖x‖ ≤ D.total n x) {x0 : Vec m} (h0 : D.Feasible n x0) : ∃ x, D.Solves n x := by
  have hcont : Continuous (D.total n) := by
    unfold QpData.total
    fun_prop
  have hclosed : IsClosed {x | D.Feasible n x} := by
    simp only [QpData.Feasible, Set.ofPred_forall]
    exact isClosed_iInter fun j => isClosed_iInter fun _ => isClosed_le (by fun_prop) continuous_const
  have ht : Tendsto (D.total n) (Filter.cocompact (Vec m)) atTop := by
    refine Filter.tendsto_atTop_mono hl ?_
    have h1 : Tendsto (fun t : ℝ => t * (c * t - P)) atTop atTop :=
      Filter.tendsto_id.atTop_mul_atTop₀ (Filter.tendsto_atTop_add_const_right _ (-P) (Filter.tendsto_id.const_mul_atTop hc))
    refine (h1.comp tendsto_norm_cocompact_atTop).congr fun x => ?_
    simp only [Function.comp]
    ring
  obtain ⟨x, hx, hmin⟩ := ContinuousOn.exists_isMinOn' hcont.continuousOn hclosed h0 ((ht.eventually_ge_atTop (D.total n x0)).filter_mono inf_le_left)
  exact ⟨x, hx, fun y hy => hmin hy⟩

end qp

section generated
variable {m : ℕ} (n : ℕ) (pNormal : ℕ → Vec m) (sqQ : ℕ → Matrix (Fin m) (Fin m) ℝ) (aNormal : ℕ → Vec m) (bNormal : ℕ → ℝ)

theorem sqQ_coercive (hn : 0 < n) (hinj : ∀ x : Vec m, (∀ j < n, matMap (sqQ j) x = 0) → x = 0) :
    ∃ c > 0, ∀ x, c * ‖x‖ ^ 2 ≤ ∑ j ∈ Finset.range n, 1 / (n : ℝ) * ‖matMap (sqQ j) x‖ ^ 2 := by
  let f : Vec m →ₗ[ℝ] (Fin n → Vec m) := LinearMap.pi fun j => matMap (sqQ j)
  obtain ⟨K, hK, h⟩ := f.exists_antilipschitzWith (LinearMap.ker_eq_bot'.2 fun x hx => hinj x fun j hj => congrFun hx ⟨j, hj⟩)
  have hn' : (0 : ℝ) < n := by exact_mod_cast hn
  have hK' : (0 : ℝ) < K := by exact_mod_cast hK
  refine ⟨1 / (n : ℝ) / (K : ℝ) ^ 2, by positivity, fun x => ?_⟩
  have h1 : ‖x‖ ≤ K * ‖f x‖ := by
    have := h.le_mul_dist x 0
    simpa [dist_eq_norm] using this
  have h2 : ‖f x‖ ≤ Real.sqrt (∑ j ∈ Finset.range n, ‖matMap (sqQ j) x‖ ^ 2) := by
    refine (pi_norm_le_iff_of_nonneg (Real.sqrt_nonneg _)).2 fun j => Real.le_sqrt_of_sq_le ?_
    exact Finset.single_le_sum (f := fun j => ‖matMap (sqQ j) x‖ ^ 2) (fun _ _ => by positivity) (Finset.mem_range.2 j.2)
  have h3 : ‖x‖ ^ 2 ≤ K ^ 2 * ∑ j ∈ Finset.range n, ‖matMap (sqQ j) x‖ ^ 2 := by
    have h4 := pow_le_pow_left₀ (norm_nonneg _) (h1.trans (mul_le_mul_of_nonneg_left h2 hK'.le)) 2
    rwa [mul_pow, Real.sq_sqrt (Finset.sum_nonneg fun _ _ => by positivity)] at h4
  rw [← Finset.mul_sum, div_mul_eq_mul_div, div_le_iff₀ (by positivity), mul_assoc]
  refine mul_le_mul_of_nonneg_left ?_ (by positivity)
  linarith

theorem qp_growth (hn : 0 < n) (hinj : ∀ x : Vec m, (∀ j < n, matMap (sqQ j) x = 0) → x = 0) :
    ∃ c > 0, ∃ P, ∀ x, c * ‖x‖ ^ 2 - P * ‖x‖ ≤ (qpData n pNormal sqQ aNormal bNormal).total n x := by
  obtain ⟨c, hc, h⟩ := sqQ_coercive n sqQ hn hinj
  refine ⟨c / 2, by positivity, ‖∑ j ∈ Finset.range n, (qpData n pNormal sqQ aNormal bNormal).p j‖, fun x => ?_⟩
  have h1 := h x
  have h2 := abs_le.1 (abs_real_inner_le_norm (∑ j ∈ Finset.range n, (qpData n pNormal sqQ aNormal bNormal).p j) x)
  rw [sum_inner] at h2
  rw [total_eq]
  simp only [quadFun, Finset.sum_add_distrib, ← Finset.mul_sum, (C61_qp n pNormal sqQ aNormal bNormal _).2.1]
  rw [← Finset.mul_sum] at h1
  linarith [h2.1]

end generated

end Verif
