import Verif.Props.CircuitsCentral
import Mathlib.Topology.Algebra.InfiniteSum.Real
import Mathlib.Topology.Instances.ENNReal.Lemmas

/-!
# C33: certificates imply convergence over all iterations

The one-step inequality of C34 is applied to every iteration of the discretized algorithm.

Axioms of every theorem: propext, Classical.choice, Quot.sound.
-/

namespace Verif
open Build
open scoped InnerProductSpace

variable {E : Type} [NormedAddCommGroup E] [InnerProductSpace ℝ E] {C : CAS}

/-- **C33**: one-step inequalities add up to a bound on the total dissipation, for every number of iterations. -/
theorem C33_telescope {En Delta : ℕ → ℝ} (h : ∀ k, En (k + 1) ≤ En k - Delta k) (N : ℕ) :
    En N + ∑ k ∈ Finset.range N, Delta k ≤ En 0 := by
  induction N with
  | zero => simp
  | succ n ih =>
    rw [Finset.sum_range_succ]
    have := h n
    linarith

/-- a sequence of non-negative terms that is dissipated at a positive rate is summable and vanishes -/
theorem summable_of_dissipation {En gap : ℕ → ℝ} {eta : ℝ} (heta : 0 < eta) (h : ∀ k, En (k + 1) ≤ En k - eta * gap k) (hE : ∀ k, 0 ≤ En k)
    (hg : ∀ k, 0 ≤ gap k) : Summable gap ∧ (∀ N, ∑ k ∈ Finset.range N, gap k ≤ En 0 / eta) ∧ Filter.Tendsto gap Filter.atTop (nhds 0) := by
  have hb : ∀ N, ∑ k ∈ Finset.range N, gap k ≤ En 0 / eta := by
    intro N
    have h1 := C33_telescope h N
    rw [← Finset.mul_sum] at h1
    rw [le_div_iff₀ heta]
    have := hE N
    linarith
  have hs : Summable gap := summable_of_sum_range_le hg hb
  exact ⟨hs, hb, hs.tendsto_atTop_zero⟩

/-- a sample with gradient 0 is a minimizer -/
theorem CFun.Sample.zero_iff {f : CFun E} {x : E} {v : ℝ} : f.Sample x 0 v ↔ x ∈ f.dom ∧ f.f x = v ∧ ∀ y ∈ f.dom, v ≤ f.f y := by
  simp [CFun.Sample]

/-- **C33** for `gradient_flow_circuit`: if `p` are the parameters of a feasible point with `eta > 0`, then along every run of the discretized
algorithm (any starting point, any number of iterations) on every function of the class with a minimizer `x_star`, the gaps `f (x k) - f x_star` are
summable, their sum is at most `Cap / (2 eta) ‖x 0 - x_star‖²`, and `f (x k)` tends to the minimum. -/
theorem C33_gradientFlow (hC : C.Lawful) (mu : ℚ) (L : Option ℚ) (Cap : ℚ) (hCap : 0 ≤ Cap) (hok : (defDecl mu L).Ok)
    {p : Name → ℝ} (hp : IpoptFeasible C (gradientFlow mu L Cap).prog stdParams p) (heta : 0 < p "eta")
    (f : CFun E) (hf : (defDecl mu L).Holds f) {x_star : E} (hdom : x_star ∈ f.dom) (hmin : ∀ y ∈ f.dom, f.f x_star ≤ f.f y)
    (x xh y yh : ℕ → E) (hx : ∀ k, f.Sample (x k) (y k) (f.f (x k))) (hxh : ∀ k, f.Sample (xh k) (yh k) (f.f (xh k)))
    (h1 : ∀ k, xh k = x k - (p "alpha" * p "h" / Cap) • y k)
    (h2 : ∀ k, x (k + 1) = x k - (p "beta" * p "h" / Cap) • y k - ((1 - p "beta") * p "h" / Cap) • yh k) :
    Summable (fun k => f.f (x k) - f.f x_star) ∧
      (∀ N, ∑ k ∈ Finset.range N, (f.f (x k) - f.f x_star) ≤ Cap / 2 * ‖x 0 - x_star‖ ^ 2 / p "eta") ∧
      Filter.Tendsto (fun k => f.f (x k)) Filter.atTop (nhds (f.f x_star)) := by
  have hstep := fun k => C34_gradientFlow hC mu L Cap hok hp f hf (CFun.Sample.zero_iff.2 ⟨hdom, rfl, hmin⟩) (hx k) (h1 k) (hxh k) (h2 k)
    (hx (k + 1)) rfl rfl rfl
  obtain ⟨a, b, c⟩ := summable_of_dissipation (En := fun k => Cap / 2 * ‖x k - x_star‖ ^ 2) (gap := fun k => f.f (x k) - f.f x_star) heta
    hstep (fun k => by have : (0 : ℝ) ≤ Cap := by exact_mod_cast hCap
                       positivity) (fun k => sub_nonneg.2 (hmin _ (hx k).1))
  refine ⟨a, b, ?_⟩
  have := c.add_const (f.f x_star)
  simpa using this

/-- **C33** for `ppm`: along every run of the discretized proximal point method the gaps `f (x (k+1)) - f x_star` are summable. -/
theorem C33_ppm (hC : C.Lawful) (mu : ℚ) (L : Option ℚ) (Cap R : ℚ) (hCap : 0 ≤ Cap) (hR : 0 < R) (hok : (defDecl mu L).Ok)
    {p : Name → ℝ} (hp : IpoptFeasible C (ppm mu L Cap R).prog stdParams p) (heta : 0 < p "eta") (hrho : 0 ≤ p "rho")
    (f : CFun E) (hf : (defDecl mu L).Holds f) {x_star : E} (hdom : x_star ∈ f.dom) (hmin : ∀ y ∈ f.dom, f.f x_star ≤ f.f y)
    (x y u g xh uh gh : ℕ → E) (hu : ∀ k, f.Prox R (x k) (u k) (g k) (f.f (u k))) (huh : ∀ k, f.Prox R (xh k) (uh k) (gh k) (f.f (uh k)))
    (hx : ∀ k, f.Sample (x (k + 1)) (y k) (f.f (x (k + 1))))
    (h1 : ∀ k, xh k = x k - (R : ℝ)⁻¹ • (p "alpha" * p "h" / Cap) • (x k - u k))
    (h2 : ∀ k, x (k + 1) = x k - (R : ℝ)⁻¹ • (p "beta" * p "h" / Cap) • (x k - u k) - (R : ℝ)⁻¹ • ((1 - p "beta") * p "h" / Cap) • (xh k - uh k)) :
    Summable (fun k => f.f (x (k + 1)) - f.f x_star) ∧
      (∀ N, ∑ k ∈ Finset.range N, (f.f (x (k + 1)) - f.f x_star) ≤ Cap / 2 * ‖x 0 - x_star‖ ^ 2 / p "eta") ∧
      Filter.Tendsto (fun k => f.f (x k)) Filter.atTop (nhds (f.f x_star)) := by
  have hR' : (0 : ℝ) < R := by exact_mod_cast hR
  have hstep := fun k => C34_ppm hC mu L Cap R hR.ne' hok hp f hf (CFun.Sample.zero_iff.2 ⟨hdom, rfl, hmin⟩) (hu k) (h1 k) (huh k) rfl (h2 k)
    (hx k) rfl rfl rfl
  obtain ⟨a, b, c⟩ := summable_of_dissipation (En := fun k => Cap / 2 * ‖x k - x_star‖ ^ 2) (gap := fun k => f.f (x (k + 1)) - f.f x_star) heta
    (fun k => (hstep k).trans (by
      have : 0 ≤ p "rho" * R * ‖(R : ℝ)⁻¹ • (x k - u k)‖ ^ 2 := by positivity
      linarith)) (fun k => by have : (0 : ℝ) ≤ Cap := by exact_mod_cast hCap
                              positivity) (fun k => sub_nonneg.2 (hmin _ (hx k).1))
  refine ⟨a, b, ?_⟩
  have := c.add_const (f.f x_star)
  simp only [sub_add_cancel, zero_add] at this
  exact (Filter.tendsto_add_atTop_iff_nat 1).1 this

/-! ### Non-vacuity -/

/-- the checked point is a feasible point with these parameter values -/
theorem ipopt_of_check {prog : List Instr} {params : List Name} {σ : ℕ → ℕ → ℕ → ℚ} {vals : List (Name × ℚ)}
    (h : (match buildNlp C prog params [] with
      | .ok x => x.1.state.cons.all (Constr.holdsQ σ) && vals.all fun nq => match x.1.state.vars.get? nq.1 with
        | some v => decide (σ v.id 0 0 = nq.2)
        | none => false
      | .error _ => false) = true) :
    ∃ p, IpoptFeasible C prog params p ∧ ∀ nq ∈ vals, p nq.1 = (nq.2 : ℝ) := by
  split at h
  · rename_i x hx
    obtain ⟨h1, h2⟩ := buildNlp_ok hx
    rw [Bool.and_eq_true] at h
    refine ⟨_, ⟨_, _, _, _, _, _, _, h1, h2, sat_of_holdsQ h.1, rfl⟩, fun nq hnq => ?_⟩
    have := List.all_eq_true.1 h.2 nq hnq
    split at this
    · rename_i v hv
      rw [decide_eq_true_eq] at this
      rw [CaState.value, hv, ← this]
    · cases this
  · cases h

/-- gradient descent with step 1/2 on 2-smooth convex functions: `alpha = 0`, `beta = 1`, `h = eta = 1/2`, one multiplier 1/2, `P = 0` -/
def gradientFlowSol : ℕ → ℕ → ℕ → ℚ
  | 0, 0, 0 => 1 / 2
  | 2, 0, 0 => 1 / 2
  | 6, 0, 0 => 1
  | 8, 0, 1 => 1 / 2
  | 9, 0, 0 => 1 / 2
  | 11, 0, 0 => 1
  | 12, 0, 0 => 1 / 2
  | 13, 0, 0 => 1 / 4
  | 14, 0, 0 => 1 / 4
  | 15, 0, 0 => 1 / 4
  | _, _, _ => 0

theorem gradientFlow_feasible : ∃ p, IpoptFeasible refCAS (gradientFlow 0 (some 2) 1).prog stdParams p ∧
    ∀ nq ∈ [("eta", (1 : ℚ) / 2), ("h", 1 / 2), ("alpha", 0), ("beta", 1)], p nq.1 = (nq.2 : ℝ) :=
  ipopt_of_check (σ := gradientFlowSol) (by decide +kernel)

/-- all hypotheses of `C33_gradientFlow` and `C34_gradientFlow` are met: gradient descent with step 1/2 on `x ^ 2`, started at 3 -/
example : ∃ p, IpoptFeasible refCAS (gradientFlow 0 (some 2) 1).prog stdParams p ∧ 0 < p "eta" ∧ p "h" = 1 / 2 ∧
    Summable (fun k : ℕ => sqFun.f (if k = 0 then 3 else 0) - sqFun.f 0) := by
  obtain ⟨p, hp, hv⟩ := gradientFlow_feasible
  simp only [List.mem_cons, List.not_mem_nil, or_false, forall_eq_or_imp, forall_eq] at hv
  obtain ⟨v1, v2, v3, v4⟩ := hv
  refine ⟨p, hp, by rw [v1]; norm_num, by rw [v2]; norm_num, ?_⟩
  refine (C33_gradientFlow refCAS_lawful 0 (some 2) 1 (by norm_num) (by norm_num [defDecl, FnDecl.Ok]) hp (by rw [v1]; norm_num) sqFun
    (by rw [C12_members]; exact ⟨sqFun_strong.mono (by norm_num), fun l hl => by cases hl; exact ⟨rfl, sqFun_lip (by norm_num)⟩⟩)
    (x_star := (0 : ℝ)) trivial (fun y _ => by simp [sqFun]; positivity) (fun k => if k = 0 then 3 else 0) (fun k => if k = 0 then 3 else 0)
    (fun k => if k = 0 then 6 else 0) (fun k => if k = 0 then 6 else 0) (fun k => ?_) (fun k => ?_) (fun k => ?_) fun k => ?_).1
  · by_cases hk : k = 0
    · simp only [hk, if_true]; simpa [sqFun] using (by norm_num : (2:ℝ) * 3 = 6) ▸ sqFun_sample 3
    · simp only [hk, if_false]; simpa [sqFun] using sqFun_sample 0
  · by_cases hk : k = 0
    · simp only [hk, if_true]; simpa [sqFun] using (by norm_num : (2:ℝ) * 3 = 6) ▸ sqFun_sample 3
    · simp only [hk, if_false]; simpa [sqFun] using sqFun_sample 0
  · rw [v3]; simp
  · rw [v2, v4]; by_cases hk : k = 0 <;> norm_num [hk]

end Verif
