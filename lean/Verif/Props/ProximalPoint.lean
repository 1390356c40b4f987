import Verif.Props.CompletePpm

/-!
# C71: what the nonlinear program finds for the proximal point method
-/

namespace Verif
open Build
open scoped InnerProductSpace

variable {C : CAS}

/-- `c |x|` -/
noncomputable def absF (c : ℝ) : CFun ℝ := ⟨Set.univ, fun x => c * |x|⟩

theorem absF_holds {c : ℝ} (hc : 0 ≤ c) : (defDecl 0 none).Holds (absF c) := by
  rw [C12_members]
  refine ⟨?_, by simp⟩
  rw [Rat.cast_zero, strongConvexOn_zero]
  refine ⟨convex_univ, fun x _ y _ s t hs ht _ => ?_⟩
  have := abs_add_le (s * x) (t * y)
  rw [abs_mul, abs_mul, abs_of_nonneg hs, abs_of_nonneg ht] at this
  simp only [absF, smul_eq_mul]
  nlinarith [mul_le_mul_of_nonneg_left this hc]

theorem absF_zero {c g : ℝ} (hg : |g| ≤ c) : (absF c).Sample 0 g 0 := by
  refine ⟨trivial, by simp [absF], fun y _ => ?_⟩
  change 0 + (y - 0) * g ≤ c * |y|
  rw [zero_add, sub_zero]
  calc y * g ≤ |y * g| := le_abs_self _
    _ = |g| * |y| := by rw [abs_mul, mul_comm]
    _ ≤ c * |y| := by gcongr

theorem absF_sample {c : ℝ} (hc : 0 ≤ c) (x : ℝ) : ∃ g, (absF c).Sample x g (c * |x|) := by
  rcases le_total 0 x with h | h
  · refine ⟨c, trivial, rfl, fun y _ => ?_⟩
    change c * |x| + (y - x) * c ≤ c * |y|
    rw [abs_of_nonneg h]
    nlinarith [mul_le_mul_of_nonneg_left (le_abs_self y) hc]
  · refine ⟨-c, trivial, rfl, fun y _ => ?_⟩
    change c * |x| + (y - x) * -c ≤ c * |y|
    rw [abs_of_nonpos h]
    nlinarith [mul_le_mul_of_nonneg_left (neg_le_abs y) hc]

/-- the energy inequality with the function `c |x|`, started at 1 -/
theorem ppm_abs {Cap R : ℚ} (hR : 0 < R) {p : Name → ℝ} (hb : p "beta" = 1) (hs : PpmStep 0 none Cap R p) :
    ∃ c0 : ℝ, 0 ≤ c0 ∧ ∀ c, c0 ≤ c → Cap / 2 * (1 - p "h" / (Cap * R)) ^ 2 + p "eta" * (c * |1 - p "h" / (Cap * R)|) + p "rho" / R ≤ Cap / 2 := by
  have hr : (0 : ℝ) < R := by exact_mod_cast hR
  set m := 1 - p "alpha" * (p "h" / (Cap * R)) with hm
  refine ⟨max (1 / R) (|m| / R), by positivity, fun c hc => ?_⟩
  have hc1 : 1 / (R : ℝ) ≤ c := (le_max_left _ _).trans hc
  have hc2 : |m| / (R : ℝ) ≤ c := (le_max_right _ _).trans hc
  have hc0 : 0 ≤ c := le_trans (by positivity) hc1
  obtain ⟨g, hg⟩ := absF_sample hc0 (1 - p "h" / (Cap * R))
  have s1 : (absF c).Prox R 1 0 (1 / (R : ℝ)) 0 := ⟨absF_zero (by rw [abs_of_pos (by positivity)]; exact hc1), by simp; field_simp⟩
  have s2 : (absF c).Prox R m 0 (m / R) 0 := ⟨absF_zero (by rw [abs_div, abs_of_pos hr]; exact hc2), by simp; field_simp⟩
  have := hs ℝ (absF c) (absF_holds hc0) 0 1 0 (1 / R) m 0 (m / R) (1 / R) (1 - p "h" / (Cap * R)) g 0 0 0 _ (absF_zero (by simpa using hc0)) s1
    (by simp only [sub_zero, smul_eq_mul, hm]; field_simp) s2 (by simp) (by simp only [hb, sub_zero, smul_eq_mul, sub_self, zero_mul, zero_div, mul_zero]; field_simp) hg
  simp only [sub_zero, Real.norm_eq_abs, sq_abs, one_pow, mul_one] at this
  have e : p "rho" * R * (1 / (R : ℝ)) ^ 2 = p "rho" / R := by field_simp
  rw [e] at this
  linarith

/-- the energy inequality of the explicit Euler step of the proximal point circuit with a convex function, in closed form -/
theorem ppm_step {Cap R : ℚ} (hCap : 0 < Cap) (hR : 0 < R) {p : Name → ℝ} (hb : p "beta" = 1) (hh : 0 ≤ p "h") (heta : 0 ≤ p "eta")
    (hne : p "h" ≠ Cap * R) : PpmStep 0 none Cap R p ↔ p "eta" = 0 ∧ p "rho" ≤ p "h" - p "h" ^ 2 / (2 * Cap * R) := by
  have hr : (0 : ℝ) < R := by exact_mod_cast hR
  have hc : (0 : ℝ) < Cap := by exact_mod_cast hCap
  constructor
  · intro hs
    obtain ⟨c0, h0, hcc⟩ := ppm_abs hR hb hs
    have hd : 0 < |1 - p "h" / (Cap * R)| := by
      rw [abs_pos, sub_ne_zero]
      intro he
      exact hne (by field_simp at he; linarith)
    set d := |1 - p "h" / (Cap * R)|
    have e0 : p "eta" = 0 := by
      by_contra hcon
      have hpos : 0 < p "eta" := lt_of_le_of_ne heta (Ne.symm hcon)
      set S := |Cap / 2 - Cap / 2 * (1 - p "h" / (Cap * R)) ^ 2 - p "rho" / R| + 1 with hS
      have h1 := hcc (c0 + S / (p "eta" * d)) (by have : 0 ≤ S / (p "eta" * d) := by positivity
                                                  linarith)
      have e : p "eta" * ((c0 + S / (p "eta" * d)) * d) = p "eta" * c0 * d + S := by field_simp
      rw [e] at h1
      have h2 : 0 ≤ p "eta" * c0 * d := by positivity
      have h3 := le_abs_self (Cap / 2 - Cap / 2 * (1 - p "h" / (Cap * R)) ^ 2 - p "rho" / R)
      linarith
    refine ⟨e0, ?_⟩
    have h1 := hcc c0 le_rfl
    rw [e0, zero_mul, add_zero] at h1
    have e : (Cap : ℝ) / 2 * (1 - p "h" / (Cap * R)) ^ 2 = Cap / 2 - (p "h" - p "h" ^ 2 / (2 * Cap * R)) / R := by field_simp; ring
    rw [e] at h1
    have : p "rho" / R ≤ (p "h" - p "h" ^ 2 / (2 * Cap * R)) / R := by linarith
    exact (div_le_div_iff_of_pos_right hr).1 this
  · rintro ⟨e0, h1⟩ E _ _ f hf x_star x_1 x1_prox y1_prox x_1p5 x1p5_prox y1p5_prox i_R_1 x_2 y_2 f_star f1_prox f1p5_prox f_2 s0 s1 - - hi h2 -
    have hy : i_R_1 = y1_prox := by
      rw [hi, ← s1.2, add_sub_cancel_left, smul_smul, inv_mul_cancel₀ hr.ne', one_smul]
    have hx : x_1 - x1_prox = (R : ℝ) • y1_prox := by rw [← s1.2, add_sub_cancel_left]
    have hx2 : x_2 = x_1 - (p "h" / Cap) • y1_prox := by
      rw [h2, hb, hx, one_mul, sub_self, zero_mul, zero_div, zero_smul, smul_zero, sub_zero, smul_smul, smul_smul]
      congr 2; field_simp
    have m1 := s1.1.2.2 x_star s0.1
    have m2 := s0.2.2 x1_prox s1.1.1
    rw [s0.2.1] at m1
    rw [s1.1.2.1] at m2
    rw [inner_zero_left, add_zero] at m2
    have hmono : 0 ≤ ⟪y1_prox, x1_prox - x_star⟫_ℝ := by
      have : ⟪y1_prox, x_star - x1_prox⟫_ℝ = - ⟪y1_prox, x1_prox - x_star⟫_ℝ := by rw [← inner_neg_right, neg_sub]
      linarith
    have hI : ⟪y1_prox, x_1 - x_star⟫_ℝ = ⟪y1_prox, x1_prox - x_star⟫_ℝ + R * ‖y1_prox‖ ^ 2 := by
      rw [show x_1 - x_star = (x1_prox - x_star) + (R : ℝ) • y1_prox by rw [← hx]; abel, inner_add_right, inner_smul_right, real_inner_self_eq_norm_sq]
    have e : ‖x_2 - x_star‖ ^ 2 = ‖x_1 - x_star‖ ^ 2 - 2 * (p "h" / Cap) * ⟪y1_prox, x_1 - x_star⟫_ℝ + (p "h" / Cap) ^ 2 * ‖y1_prox‖ ^ 2 := by
      rw [hx2, show x_1 - (p "h" / Cap) • y1_prox - x_star = (x_1 - x_star) - (p "h" / Cap) • y1_prox by abel, norm_sub_sq_real, norm_smul,
        inner_smul_right, real_inner_comm, mul_pow, Real.norm_eq_abs, sq_abs]
      ring
    rw [e, hI, e0, hy, zero_mul, zero_add]
    have e1 : (Cap : ℝ) / 2 * (‖x_1 - x_star‖ ^ 2 - 2 * (p "h" / Cap) * (⟪y1_prox, x1_prox - x_star⟫_ℝ + R * ‖y1_prox‖ ^ 2) +
        (p "h" / Cap) ^ 2 * ‖y1_prox‖ ^ 2) = Cap / 2 * ‖x_1 - x_star‖ ^ 2 - p "h" * ⟪y1_prox, x1_prox - x_star⟫_ℝ -
        R * ‖y1_prox‖ ^ 2 * (p "h" - p "h" ^ 2 / (2 * Cap * R)) := by field_simp; ring
    rw [e1]
    have := mul_nonneg hh hmono
    have := mul_le_mul_of_nonneg_left h1 (show 0 ≤ (R : ℝ) * ‖y1_prox‖ ^ 2 by positivity)
    nlinarith

/-- **C71.** The proximal point circuit with a convex function, discretized by the explicit Euler method (`beta = 1`, that is the relaxed proximal
point method `x - h / (Cap R) (x - prox x)`): building the problem and the nonlinear program of `solve_ipopt` raises no error, and for `h` other
than `Cap R` the program has a feasible point with the parameters `p` if and only if `eta = 0` and `0 ≤ rho ≤ h - h² / (2 Cap R)`. -/
theorem C71_proximalPoint (hC : C.Lawful) {Cap R : ℚ} (hCap : 0 < Cap) (hR : 0 < R) :
    ∃ r h nlp h', runProblem C (ppm 0 none Cap R).prog Heap.empty = .ok (r, h) ∧ solveIpopt C r stdParams [] [] h = .ok (nlp, h') ∧
      ∀ p : Name → ℝ, p "beta" = 1 → 0 < p "h" → p "h" ≠ Cap * R → p "alpha" ≠ 0 →
        ((∃ σ, nlp.state.Sat σ ∧ ∀ n ∈ scalarNames stdParams, nlp.state.value σ n = p n) ↔
          p "eta" = 0 ∧ 0 ≤ p "rho" ∧ p "rho" ≤ p "h" - p "h" ^ 2 / (2 * Cap * R)) := by
  have hr : (0 : ℝ) < R := by exact_mod_cast hR
  have hc : (0 : ℝ) < Cap := by exact_mod_cast hCap
  obtain ⟨r, h, nlp, h', hr', hn, hiff⟩ := C69_ppm hC 0 none Cap R (by simp [defDecl, FnDecl.Ok]) hCap.ne' hR
  refine ⟨r, h, nlp, h', hr', hn, fun p hb hh hne ha => ?_⟩
  rw [hiff p hh.ne' ha (fun h => hne h.1) (fun h => by have := h.2; rw [hb, sub_self, mul_zero] at this; exact (mul_pos hc hr).ne this)]
  constructor
  · rintro ⟨h1, h2, h3, -⟩
    obtain ⟨h4, h5⟩ := (ppm_step hCap hR hb hh.le h2 hne).1 h1
    exact ⟨h4, h3, h5⟩
  · rintro ⟨h2, h3, h4⟩
    exact ⟨(ppm_step hCap hR hb hh.le h2.ge hne).2 ⟨h2, h4⟩, h2.ge, h3, hh.le⟩

/-- **C71**, the best value: at every feasible point with `beta = 1` the decrease `rho` is at most `Cap R / 2`, and every smaller value is reached. -/
theorem C71_best (hC : C.Lawful) {Cap R : ℚ} (hCap : 0 < Cap) (hR : 0 < R) :
    ∃ r h nlp h', runProblem C (ppm 0 none Cap R).prog Heap.empty = .ok (r, h) ∧ solveIpopt C r stdParams [] [] h = .ok (nlp, h') ∧
      (∀ σ, nlp.state.Sat σ → nlp.state.value σ "beta" = 1 → nlp.state.value σ "rho" ≤ Cap * R / 2) ∧
      ∀ t : ℝ, 0 ≤ t → t < Cap * R / 2 → ∃ σ, nlp.state.Sat σ ∧ nlp.state.value σ "beta" = 1 ∧ nlp.state.value σ "rho" = t := by
  have hr : (0 : ℝ) < R := by exact_mod_cast hR
  have hc : (0 : ℝ) < Cap := by exact_mod_cast hCap
  obtain ⟨r, h, nlp, h', hr', hn, hiff⟩ := C71_proximalPoint hC hCap hR
  have hok : ∀ d ∈ decls (ppm 0 none Cap R).prog, d.Ok := by
    calls_simp [ppm]
    simp [decls, defDecl, FnDecl.Ok]
  have hclean : ∀ i ∈ (ppm 0 none Cap R).prog, i.Clean {n | n ∈ stdParams} := by calls_simp [ppm]; simp [Instr.Clean, stdParams]
  refine ⟨r, h, nlp, h', hr', hn, fun σ hσ hb => ?_, fun t ht0 ht => ?_⟩
  · have hg : Guaranteed (ppm 0 none Cap R).prog (nlp.state.value σ) := guaranteed_of_feasible hC hclean (by decide) (by decide) hok ⟨r, h, [], [], nlp, h', σ, hr', hn, hσ, rfl⟩
    rw [guaranteed_ppm _ _ _ _ hR.ne'] at hg
    obtain ⟨sm0, h0, -⟩ := solveIpopt_inv hn
    obtain ⟨sm, -, hsign⟩ := C26_iff hC hr' hclean stdParams_simple (by simp) (solvable_of_ok hC hr' hok h0) hn
    obtain ⟨-, -, -, hs⟩ := (hsign (nlp.state.value σ)).1 ⟨σ, hσ, fun n _ => rfl⟩
    obtain ⟨c0, h0, hcc⟩ := ppm_abs hR hb hg
    have h1 := hcc c0 le_rfl
    have h2 : 0 ≤ nlp.state.value σ "eta" * (c0 * |1 - nlp.state.value σ "h" / (Cap * R)|) :=
      mul_nonneg (hs "eta" (by simp)) (by positivity)
    have h3 : 0 ≤ (Cap : ℝ) / 2 * (1 - nlp.state.value σ "h" / (Cap * R)) ^ 2 := by positivity
    have h4 : nlp.state.value σ "rho" / R ≤ Cap / 2 := by linarith
    rw [div_le_iff₀ hr] at h4
    linarith
  · -- h = Cap R (1 + s) with s² = 1 - 2 t / (Cap R)
    set s := Real.sqrt (1 - 2 * t / (Cap * R)) with hs
    have ht' : 2 * t / (Cap * R) < 1 := by rw [div_lt_one (by positivity)]; linarith
    have hs2 : s ^ 2 = 1 - 2 * t / (Cap * R) := Real.sq_sqrt (by linarith)
    have hs0 : 0 < s := Real.sqrt_pos.2 (by linarith)
    obtain ⟨σ, hσ, hv⟩ := (hiff (fun n => if n = "beta" then 1 else if n = "rho" then t else if n = "eta" then 0 else Cap * R * (1 + s)) (by simp)
      (by simp; positivity) (by have := mul_pos (mul_pos hc hr) hs0; simp; intro h; linarith) (by simp; refine ⟨⟨hCap.ne', hR.ne'⟩, by positivity⟩)).2 ⟨by simp, by simpa using ht0, by
        simp
        have : (Cap : ℝ) * R * (1 + s) - (Cap * R * (1 + s)) ^ 2 / (2 * Cap * R) = Cap * R / 2 * (1 - s ^ 2) := by field_simp; ring
        rw [this, hs2]
        apply le_of_eq
        field_simp; ring⟩
    refine ⟨σ, hσ, ?_, ?_⟩
    all_goals rw [hv _ (by decide)]; simp

/-- **C71** for `solve_ipopt_qcqp`: its lower bound `1e-7` on `eta` excludes the explicit Euler method.  For the proximal point circuit with a
convex function every feasible vector of the QCQP with `beta = 1` has `h = Cap R`, while `solve_ipopt` has feasible points with `beta = 1` and
every other `h` between 0 and `2 Cap R`. -/
theorem C71_qcqp (hC : C.Lawful) {Cap R : ℚ} (hCap : 0 < Cap) (hR : 0 < R) :
    ∃ r h nlp h1, runProblem C (ppm 0 none Cap R).prog Heap.empty = .ok (r, h) ∧ solveIpopt C r stdParams [] [] h = .ok (nlp, h1) ∧
      (∀ extra q h2, solveQcqp C r stdParams [] extra h = .ok (q, h2) → ∀ x i j, q.Sat x → q.tab.names[i]? = some (.str "beta") →
        q.tab.names[j]? = some (.str "h") → x i = 1 → x j = Cap * R) ∧
      ∀ t : ℝ, 0 < t → t < 2 * Cap * R → t ≠ Cap * R → ∃ σ, nlp.state.Sat σ ∧ nlp.state.value σ "beta" = 1 ∧ nlp.state.value σ "h" = t := by
  have hr : (0 : ℝ) < R := by exact_mod_cast hR
  have hc : (0 : ℝ) < Cap := by exact_mod_cast hCap
  obtain ⟨r, h, nlp, h1, hrun, hn, hfeas⟩ := C71_proximalPoint hC hCap hR
  have hok : ∀ d ∈ decls (ppm 0 none Cap R).prog, d.Ok := by
    calls_simp [ppm]
    simp [decls, defDecl, FnDecl.Ok]
  have hclean : ∀ i ∈ (ppm 0 none Cap R).prog, i.Clean {n | n ∈ stdParams} := by calls_simp [ppm]; simp [Instr.Clean, stdParams]
  refine ⟨r, h, nlp, h1, hrun, hn, fun extra q h2 hq x i j hx hi hj hb => ?_, fun t h0 ht hne => ?_⟩
  · obtain ⟨sm0, h0, -⟩ := solveQcqp_inv hq
    obtain ⟨sm, hm, hiff, -⟩ := C27_iff (bounds := []) hC hrun hclean (by decide) (by decide) (solvable_of_ok hC hrun hok h0) hq (by simp)
    obtain ⟨env, mult, P, pk, -, -, hlow⟩ := (hiff x).1 hx
    have hg : Guaranteed (ppm 0 none Cap R).prog env := by
      intro E _ _ fs hf rr ex hch v hv
      exact weak_duality hC hrun (translate_of hC hrun (solvable_of_ok hC hrun hok hm) hm) (qcqp_clean hC hrun hclean hm) hok pk.dual (IsPSD.ppt _ _) hf ex hch hv
    rw [guaranteed_ppm _ _ _ _ hR.ne'] at hg
    have v1 := pk.monos _ _ hi
    have v2 := pk.monos _ _ hj
    rw [show VName.val env (.str "beta") = env "beta" from longEnv_plain (by decide), hb] at v1
    rw [show VName.val env (.str "h") = env "h" from longEnv_plain (by decide)] at v2
    rw [v2]
    by_contra hne
    have e1 := hlow "eta" (by simp)
    have e2 := hlow "h" (by simp)
    have := ((ppm_step hCap hR v1.symm (by linarith) (by linarith) hne).1 hg).1
    rw [this] at e1
    norm_num at e1
  · obtain ⟨σ, hσ, hv⟩ := (hfeas (fun n => if n = "beta" then 1 else if n = "h" then t else if n = "alpha" then 1 else 0) (by simp) (by simpa using h0)
      (by simpa using hne) (by simp)).2 ⟨by simp, by simp, by
        simp
        rw [div_le_iff₀ (by positivity)]
        nlinarith⟩
    refine ⟨σ, hσ, ?_, ?_⟩
    all_goals rw [hv _ (by decide)]; simp

/-- the QCQP of C71 is built without error, and its table has both parameters -/
example : (match runProblem refCAS (ppm 0 none 1 1).prog Heap.empty with
    | .ok (r, h) => (match solveQcqp refCAS r stdParams [] 0 h with
      | .ok (q, _) => q.tab.names.contains (.str "beta") && q.tab.names.contains (.str "h")
      | .error _ => false)
    | .error _ => false) = true := by decide +kernel

end Verif
