import Verif.Props.CompleteCircuits
import Verif.Proofs.Hub

/-!
# C70: what the nonlinear program finds for gradient descent
-/

namespace Verif
open Build
open scoped InnerProductSpace

variable {C : CAS}

/-- the energy inequality of one explicit Euler step of the gradient flow with a convex `L`-smooth function, in closed form -/
theorem gradientDescent_step {L Cap : ℚ} (hL : 0 < L) (hCap : 0 < Cap) {p : Name → ℝ} (hb : p "beta" = 1) (hh : 0 ≤ p "h") :
    GradientFlowStep 0 (some L) Cap p ↔ p "eta" ≤ p "h" ∧ p "eta" ≤ 2 * p "h" - L * p "h" ^ 2 / Cap := by
  have hl : (0 : ℝ) < L := by exact_mod_cast hL
  have hc : (0 : ℝ) < Cap := by exact_mod_cast hCap
  have hdecl : defDecl 0 (some L) = .smoothConvex (some L) := by simp [defDecl]
  constructor
  · intro hs
    -- the inequality for the function `hubF L d`, started at 1
    have key : ∀ d : ℝ, 0 ≤ d → Cap / 2 * (1 - p "h" / Cap * (L * (1 - max (1 - d) 0))) ^ 2 ≤
        Cap / 2 - p "eta" * (L / 2 * (1 - max (1 - d) 0 ^ 2)) := by
      intro d hd
      have smp : ∀ x, (hubF L d).Sample x (L * (max x 0 - max (x - d) 0)) (L / 2 * (max x 0 ^ 2 - max (x - d) 0 ^ 2)) := fun x =>
        hubF_sample hl.le hd rfl rfl
      have s0 : (hubF L d).Sample 0 0 0 := hubF_sample hl.le hd (by simp [hd]) (by simp [hd])
      have s1 : (hubF L d).Sample 1 (L * (1 - max (1 - d) 0)) (L / 2 * (1 - max (1 - d) 0 ^ 2)) := hubF_sample hl.le hd (by simp) (by simp)
      have := hs ℝ (hubF L d) (hubF_holds hL hd) 0 1 _ _ _ _ _ 0 _ _ _ s0 s1 rfl (smp _) rfl (smp _)
      rw [hb] at this
      simp only [sub_zero, Real.norm_eq_abs, sq_abs, smul_eq_mul, sub_self, zero_mul, zero_div, one_mul, one_pow, mul_one] at this
      exact this
    have k2 := key 2 (by norm_num)
    rw [max_eq_right (by norm_num)] at k2
    have e2 : p "eta" ≤ 2 * p "h" - L * p "h" ^ 2 / Cap := by
      have e : Cap / 2 * (1 - p "h" / Cap * (L * (1 - 0))) ^ 2 = Cap / 2 - L / 2 * (2 * p "h" - L * p "h" ^ 2 / Cap) := by field_simp; ring
      rw [e] at k2
      have : L / 2 * p "eta" ≤ L / 2 * (2 * p "h" - L * p "h" ^ 2 / Cap) := by nlinarith
      exact le_of_mul_le_mul_left this (by positivity)
    refine ⟨?_, e2⟩
    by_contra hcon
    push Not at hcon
    -- a small slope
    obtain ⟨d, hd0, hd1, hd2⟩ : ∃ d : ℝ, 0 < d ∧ d < 1 ∧ d * (p "eta" / 2) < p "eta" - p "h" := by
      have he' : 0 < p "eta" := hh.trans_lt hcon
      have h1 : 0 < p "eta" - p "h" := by linarith
      refine ⟨(p "eta" - p "h") / (2 * p "eta"), by positivity, ?_, ?_⟩
      · rw [div_lt_one (by positivity)]; linarith
      · rw [show (p "eta" - p "h") / (2 * p "eta") * (p "eta" / 2) = (p "eta" - p "h") / 4 by field_simp; ring]; linarith
    have k := key d hd0.le
    rw [max_eq_left (by linarith)] at k
    have e : Cap / 2 * (1 - p "h" / Cap * (L * (1 - (1 - d)))) ^ 2 = Cap / 2 - p "h" * L * d + (p "h" * L * d) ^ 2 / (2 * Cap) := by field_simp; ring
    rw [e] at k
    have : 0 ≤ (p "h" * L * d) ^ 2 / (2 * Cap) := by positivity
    have hLd : 0 < L * d := by positivity
    nlinarith [mul_lt_mul_of_pos_left hd2 hLd]
  · rintro ⟨h1, h2⟩ E _ _ f hf x_star x_1 y_1 x_1p5 y_1p5 x_2 y_2 f_star f_1 f_1p5 f_2 s0 s1 - - rfl -
    rw [hdecl] at hf
    have c1 := lhs_nonpos (d := .smoothConvex (some L)) hL hf s1 s0
    have c2 := lhs_nonpos (d := .smoothConvex (some L)) hL hf s0 s1
    simp only [FnDecl.cls, FnClass.lhs, sub_zero, zero_sub, norm_neg, inner_zero_left] at c1 c2
    rw [hb]
    simp only [sub_self, zero_mul, zero_div, zero_smul, sub_zero, one_mul]
    set k := p "h" / Cap with hk
    have e : ‖x_1 - k • y_1 - x_star‖ ^ 2 = ‖x_1 - x_star‖ ^ 2 - 2 * k * ⟪y_1, x_1 - x_star⟫_ℝ + k ^ 2 * ‖y_1‖ ^ 2 := by
      rw [show x_1 - k • y_1 - x_star = (x_1 - x_star) - k • y_1 by abel, norm_sub_sq_real, norm_smul, inner_smul_right, real_inner_comm, mul_pow,
        Real.norm_eq_abs, sq_abs]
      ring
    rw [e]
    have c3 : ⟪y_1, x_star - x_1⟫_ℝ = - ⟪y_1, x_1 - x_star⟫_ℝ := by rw [← inner_neg_right, neg_sub]
    rw [c3] at c2
    set I := ⟪y_1, x_1 - x_star⟫_ℝ
    obtain ⟨w, hw⟩ : ∃ w, w = 1 / (2 * (L : ℝ)) * ‖y_1‖ ^ 2 := ⟨_, rfl⟩
    have hg : ‖y_1‖ ^ 2 = 2 * L * w := by rw [hw]; field_simp
    have hw0 : 0 ≤ w := by rw [hw]; positivity
    rw [← hw] at c1 c2
    have e1 : (Cap : ℝ) / 2 * (‖x_1 - x_star‖ ^ 2 - 2 * k * I + k ^ 2 * ‖y_1‖ ^ 2) =
        Cap / 2 * ‖x_1 - x_star‖ ^ 2 - p "h" * I + (L * p "h" ^ 2 / Cap) * w := by rw [hg, hk]; field_simp
    rw [e1]
    nlinarith [mul_nonneg hh (show 0 ≤ I - (f_1 - f_star) - w by linarith), mul_nonneg (sub_nonneg.2 h1) (show 0 ≤ f_1 - f_star - w by linarith),
      mul_nonneg (sub_nonneg.2 h2) hw0]

/-- **C70.** The gradient flow circuit with a convex `L`-smooth function, discretized by the explicit Euler method (`beta = 1`, that is gradient
descent with step `h / Cap`): building the problem and the nonlinear program of `solve_ipopt` raises no error, and the program has a feasible
point with the parameters `p` if and only if `0 ≤ eta ≤ min (h, 2 h - L h² / Cap)` and `rho ≥ 0`. -/
theorem C70_gradientDescent (hC : C.Lawful) {L Cap : ℚ} (hL : 0 < L) (hCap : 0 < Cap) :
    ∃ r h nlp h', runProblem C (gradientFlow 0 (some L) Cap).prog Heap.empty = .ok (r, h) ∧ solveIpopt C r stdParams [] [] h = .ok (nlp, h') ∧
      ∀ p : Name → ℝ, p "beta" = 1 → 0 < p "h" → p "alpha" ≠ 0 → p "alpha" ≠ 1 →
        ((∃ σ, nlp.state.Sat σ ∧ ∀ n ∈ scalarNames stdParams, nlp.state.value σ n = p n) ↔
          0 ≤ p "eta" ∧ 0 ≤ p "rho" ∧ p "eta" ≤ p "h" ∧ p "eta" ≤ 2 * p "h" - L * p "h" ^ 2 / Cap) := by
  obtain ⟨r, h, nlp, h', hr, hn, hiff⟩ := C69_gradientFlow hC 0 (some L) Cap (by simpa [defDecl, FnDecl.Ok] using hL) hCap.ne'
  refine ⟨r, h, nlp, h', hr, hn, fun p hb hh ha ha1 => ?_⟩
  rw [hiff p hh.ne' ha fun h => ha1 h.1]
  constructor
  · rintro ⟨h1, h2, h3, -⟩
    obtain ⟨h4, h5⟩ := (gradientDescent_step hL hCap hb hh.le).1 h1
    exact ⟨h2, h3, h4, h5⟩
  · rintro ⟨h2, h3, h4, h5⟩
    exact ⟨(gradientDescent_step hL hCap hb hh.le).2 ⟨h4, h5⟩, h2, h3, hh.le⟩

/-- **C70**, the best value: at every feasible point with `beta = 1` the decrease `eta` is at most `Cap / L`, and `Cap / L` is reached, with
`h = Cap / L`, that is with the step `1 / L`. -/
theorem C70_best (hC : C.Lawful) {L Cap : ℚ} (hL : 0 < L) (hCap : 0 < Cap) :
    ∃ r h nlp h', runProblem C (gradientFlow 0 (some L) Cap).prog Heap.empty = .ok (r, h) ∧ solveIpopt C r stdParams [] [] h = .ok (nlp, h') ∧
      (∀ σ, nlp.state.Sat σ → nlp.state.value σ "beta" = 1 → nlp.state.value σ "eta" ≤ Cap / L) ∧
      ∃ σ, nlp.state.Sat σ ∧ nlp.state.value σ "beta" = 1 ∧ nlp.state.value σ "h" = Cap / L ∧ nlp.state.value σ "eta" = Cap / L := by
  have hl : (0 : ℝ) < L := by exact_mod_cast hL
  have hc : (0 : ℝ) < Cap := by exact_mod_cast hCap
  obtain ⟨r, h, nlp, h', hr, hn, hiff⟩ := C70_gradientDescent hC hL hCap
  have hok : ∀ d ∈ decls (gradientFlow 0 (some L) Cap).prog, d.Ok := by
    calls_simp [gradientFlow]
    simpa [decls, defDecl, FnDecl.Ok] using hL
  have hclean : ∀ i ∈ (gradientFlow 0 (some L) Cap).prog, i.Clean {n | n ∈ stdParams} := by calls_simp [gradientFlow]; simp [Instr.Clean, stdParams]
  refine ⟨r, h, nlp, h', hr, hn, fun σ hσ hb => ?_, ?_⟩
  · have hg : Guaranteed (gradientFlow 0 (some L) Cap).prog (nlp.state.value σ) := guaranteed_of_feasible hC hclean (by decide) (by decide) hok ⟨r, h, [], [], nlp, h', σ, hr, hn, hσ, rfl⟩
    rw [guaranteed_gradientFlow] at hg
    obtain ⟨sm0, h0, -⟩ := solveIpopt_inv hn
    obtain ⟨sm, -, hsign⟩ := C26_iff hC hr hclean stdParams_simple (by simp) (solvable_of_ok hC hr hok h0) hn
    obtain ⟨-, -, -, hs⟩ := (hsign (nlp.state.value σ)).1 ⟨σ, hσ, fun n _ => rfl⟩
    have h2 := ((gradientDescent_step hL hCap hb (hs "h" (by simp))).1 hg).2
    generalize nlp.state.value σ "h" = t at h2
    have e : (Cap : ℝ) / L - (2 * t - L * t ^ 2 / Cap) = (L * t - Cap) ^ 2 / (L * Cap) := by field_simp; ring
    have : 0 ≤ (L * t - Cap) ^ 2 / (L * Cap) := by positivity
    linarith
  · obtain ⟨σ, hσ, hv⟩ := (hiff (fun n => if n = "beta" then 1 else if n = "alpha" then 1 / 2 else Cap / L) (by simp) (by simp; positivity) (by simp)
      (by simp)).2 ⟨by simp; positivity, by simp; positivity, by simp, by simp; field_simp; norm_num⟩
    refine ⟨σ, hσ, ?_, ?_, ?_⟩
    all_goals rw [hv _ (by decide)]; simp

end Verif
