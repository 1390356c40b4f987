import Verif.Props.CompleteProxGrad
import Verif.Props.CompleteDual
import Verif.Props.ProximalPoint
import Verif.Proofs.CircuitFeasible

/-!
# C83: the best resistor weight of the proximal gradient circuit, and when its objective is unbounded
-/

namespace Verif
open Build
open scoped InnerProductSpace

variable {C : CAS}

/-- the textbook proximal gradient step `h = Capacitance * R`: the energy decreases by the energy of the resistor -/
theorem proxGradStep_unit {mu L R Cap : ℚ} (hmu : 0 ≤ mu) (hL : mu < L) (hR : 0 < R) (hCap : 0 < Cap) (hLR : L * R ≤ 2) {p : Name → ℝ} (hh : p "h" = Cap * R)
    (hr : p "rho" ≤ Cap * R / 2) (he : p "eta" * (1 / L - R) ≤ 0) : ProxGradientStep mu L R Cap p := by
  intro E _ _ f g hf hg xs ys x21 y21 e1 x11 y11 nab x22 y22 e2 x12 y12 fs gs f21 g11 f22 g12 h1 h2 h3 h4 ⟨h5, k5⟩ h6 h7 h8 h9 _
  have hL0 : 0 < L := lt_of_le_of_lt hmu hL
  have hR' : (0 : ℝ) < R := by exact_mod_cast hR
  have hC' : (0 : ℝ) < Cap := by exact_mod_cast hCap
  have hL' : (0 : ℝ) < L := by exact_mod_cast hL0
  have hLR' : (L : ℝ) * R ≤ 2 := by exact_mod_cast hLR
  have hnab : nab = y11 := by rw [h6, ← k5, add_sub_cancel_left, smul_smul, inv_mul_cancel₀ hR'.ne', one_smul]
  obtain ⟨ε, hε⟩ : ∃ ε, ε = e1 - (xs - (R : ℝ) • ys) := ⟨_, rfl⟩
  obtain ⟨N, hN⟩ : ∃ N, N = nab + ys := ⟨_, rfl⟩
  obtain ⟨H, hH⟩ : ∃ H, H = y22 - ys := ⟨_, rfl⟩
  obtain ⟨b, hb⟩ : ∃ b, b = ε - (R : ℝ) • N := ⟨_, rfl⟩
  have b1 : x11 - xs = b := by
    rw [hb, hε, hN, hnab, ← k5, smul_add]; abel
  have b2 : x22 - xs = b := by
    rw [← b1, h7, hh, mul_div_cancel_left₀ _ hC'.ne', smul_add, h6, smul_smul, mul_inv_cancel₀ hR'.ne', one_smul, h4]; abel
  have b3 : e2 - (xs - (R : ℝ) • ys) = b - (R : ℝ) • H := by
    rw [h9, ← b2, hH, smul_sub]; abel
  have c1 := cocoercive hL0 (smooth_mono hmu hf) h8 h1
  rw [b2, ← hH, div_le_iff₀ hL'] at c1
  have c2 := strongly_monotone le_rfl hg h5 h2
  rw [Rat.cast_zero, zero_mul, b1, sub_neg_eq_add, ← hnab, ← hN] at c2
  rw [b3, ← hε, ← hN]
  have e3 : ‖b - (R : ℝ) • H‖ ^ 2 = ‖b‖ ^ 2 - 2 * R * ⟪H, b⟫_ℝ + R ^ 2 * ‖H‖ ^ 2 := by
    rw [norm_sub_sq_real, inner_smul_right, norm_smul, mul_pow, Real.norm_eq_abs, sq_abs, real_inner_comm]; ring
  have e4 : ‖ε‖ ^ 2 = ‖b‖ ^ 2 + 2 * R * ⟪b, N⟫_ℝ + R ^ 2 * ‖N‖ ^ 2 := by
    rw [show ε = b + (R : ℝ) • N by rw [hb]; abel, norm_add_sq_real, inner_smul_right, norm_smul, mul_pow, Real.norm_eq_abs, sq_abs]; ring
  have k1 : (R : ℝ) ^ 2 * ‖H‖ ^ 2 ≤ 2 * R * ⟪H, b⟫_ℝ := by
    have hb0 : 0 ≤ ⟪H, b⟫_ℝ := nonneg_of_mul_nonneg_left (le_trans (sq_nonneg _) c1) hL'
    calc (R : ℝ) ^ 2 * ‖H‖ ^ 2 ≤ R ^ 2 * (⟪H, b⟫_ℝ * L) := mul_le_mul_of_nonneg_left c1 (sq_nonneg _)
      _ = R * ⟪H, b⟫_ℝ * (L * R) := by ring
      _ ≤ R * ⟪H, b⟫_ℝ * 2 := mul_le_mul_of_nonneg_left hLR' (by positivity)
      _ = _ := by ring
  have k2 : ‖b - (R : ℝ) • H‖ ^ 2 ≤ ‖ε‖ ^ 2 - R ^ 2 * ‖N‖ ^ 2 := by
    have : 0 ≤ 2 * (R : ℝ) * ⟪b, N⟫_ℝ := by positivity
    rw [e3, e4]; linarith
  have k3 := mul_le_mul_of_nonneg_left k2 (by positivity : (0 : ℝ) ≤ Cap / 2)
  have k4 : p "rho" * R * ‖N‖ ^ 2 ≤ Cap * R / 2 * R * ‖N‖ ^ 2 := by gcongr
  have k5' : p "eta" * (1 / L - R) * ‖y21 - ys‖ ^ 2 ≤ 0 := mul_nonpos_of_nonpos_of_nonneg he (sq_nonneg _)
  linarith

/-- the weight of the resistor is bounded by `h - h² / (2 Capacitance R)`: `f = 0` and `g = c |x|` -/
theorem proxGradStep_rho {L R Cap : ℚ} (hL : 0 < L) (hR : 0 < R) (hCap : 0 < Cap) {p : Name → ℝ} (hs : ProxGradientStep 0 L R Cap p) :
    p "rho" ≤ p "h" - p "h" ^ 2 / (2 * Cap * R) := by
  have hR' : (0 : ℝ) < R := by exact_mod_cast hR
  have hC' : (0 : ℝ) < Cap := by exact_mod_cast hCap
  have hF : (defDecl 0 (some L)).Holds (linFun 0) := linFun_holds 0 (defDecl_ok le_rfl hL)
  have hf : ∀ x, (linFun 0).Sample x 0 0 := fun x => by simpa using linFun_sample 0 x
  obtain ⟨m, hm⟩ : ∃ m, m = 1 - p "h" / Cap * (1 / R) := ⟨_, rfl⟩
  obtain ⟨c, hc⟩ : ∃ c, c = max (1 / (R : ℝ)) (|m| / R) := ⟨_, rfl⟩
  have c1 : 1 / (R : ℝ) ≤ c := hc ▸ le_max_left _ _
  have c2 : |m| / (R : ℝ) ≤ c := hc ▸ le_max_right _ _
  have c0 : 0 ≤ c := le_trans (by positivity) c1
  have key := hs ℝ (linFun 0) (absF c) hF (absF_holds c0) 0 0 1 0 1 0 (1 / R) (1 / R) m 0 m 0 (m / R) 0 0 0 0 0 0 (hf _) (absF_zero (by simpa using c0)) (hf _) (by simp)
    ⟨absF_zero (by rw [abs_of_pos (by positivity)]; exact c1), by simp; field_simp⟩ (by simp) (by simp [hm]) (hf _) (by simp)
    ⟨absF_zero (by rw [abs_div, abs_of_pos hR']; exact c2), by simp; field_simp⟩
  simp only [sub_zero, smul_zero, add_zero, Real.norm_eq_abs, sq_abs, sub_self, one_pow, mul_one, abs_zero] at key
  have e : (Cap : ℝ) / 2 * m ^ 2 = Cap / 2 - (p "h" - p "h" ^ 2 / (2 * Cap * R)) / R := by rw [hm]; field_simp; ring
  have e2 : (p "rho" : ℝ) * R * (1 / R) ^ 2 = p "rho" / R := by field_simp
  rw [e, e2] at key
  have : p "rho" / R ≤ (p "h" - p "h" ^ 2 / (2 * Cap * R)) / R := by
    have : (p "eta" : ℝ) * (1 / L - R) * 0 ^ 2 = 0 := by ring
    linarith
  exact (div_le_div_iff_of_pos_right hR').1 this

/-- the weight of the smooth function is bounded for `R < 1 / L`: `f` close to `L / 2 x²` and `g = 0` -/
theorem proxGradStep_eta {mu L R Cap : ℚ} (hmu : 0 ≤ mu) (hL : mu < L) (hCap : 0 < Cap) (hLR : L * R < 1) {p : Name → ℝ} (hs : ProxGradientStep mu L R Cap p) :
    p "eta" ≤ (1 - L * R) * (p "h" - L * p "h" ^ 2 / (2 * Cap)) := by
  have hC' : (0 : ℝ) < Cap := by exact_mod_cast hCap
  have hL' : (0 : ℝ) < L := by exact_mod_cast lt_of_le_of_lt hmu hL
  have hmL : (mu : ℝ) < L := by exact_mod_cast hL
  have hLR' : (0 : ℝ) < 1 - L * R := by
    have : (L : ℝ) * R < 1 := by exact_mod_cast hLR
    linarith
  obtain ⟨F, hF⟩ : ∃ F : ℝ → ℝ, F = fun c => Cap / 2 * (1 - R * c) ^ 2 - Cap / 2 * ((1 - R * c) * (1 - p "h" / Cap * c)) ^ 2 - p "eta" * (1 / L - R) * c ^ 2 := ⟨_, rfl⟩
  have hcl : IsClosed {c | 0 ≤ F c} := isClosed_le continuous_const (by rw [hF]; fun_prop)
  have hsub : Set.Ioo (mu : ℝ) L ⊆ {c | 0 ≤ F c} := by
    rintro c ⟨hc1, hc2⟩
    have hc : Inside mu (some L) c := ⟨hc1, by simpa using hc2⟩
    have hc0 : 0 < c := lt_of_le_of_lt (by exact_mod_cast hmu) hc1
    have hg : ∀ x, (linFun 0).Sample x 0 0 := fun x => by simpa using linFun_sample 0 x
    have hG : (defDecl 0 none).Holds (linFun 0) := linFun_holds 0 (by simp [defDecl, FnDecl.Ok])
    obtain ⟨m, hm⟩ : ∃ m, m = 1 - p "h" / Cap * c := ⟨_, rfl⟩
    have key := hs ℝ (quadF c 0) (linFun 0) (quadF_holds hmu hc 0) hG 0 0 1 (c * 1) (1 - R * c) (1 - R * c) 0 0 m (c * m) (m - R * (c * m)) (m - R * (c * m)) 0 0 0 _ 0 _ 0
      (quadF_smp0 hc0) (by simpa using hg 0) (quadF_smp hc0 _) (by simp) ⟨hg _, by simp⟩ (by simp) (by simp [hm]) (quadF_smp hc0 _) (by simp) ⟨hg _, by simp⟩
    simp only [sub_zero, smul_zero, add_zero, Real.norm_eq_abs, sq_abs, mul_one, abs_zero] at key
    rw [show m - R * (c * m) = (1 - R * c) * (1 - p "h" / Cap * c) by rw [hm]; ring] at key
    change 0 ≤ F c
    rw [hF]
    change 0 ≤ Cap / 2 * (1 - R * c) ^ 2 - Cap / 2 * ((1 - R * c) * (1 - p "h" / Cap * c)) ^ 2 - p "eta" * (1 / L - R) * c ^ 2
    linarith
  have h0 : 0 ≤ F L := closure_minimal hsub hcl (by rw [closure_Ioo hmL.ne]; exact ⟨hmL.le, le_rfl⟩)
  have e : F L = (1 - L * R) * L * ((1 - L * R) * (p "h" - L * p "h" ^ 2 / (2 * Cap)) - p "eta") := by
    rw [hF]
    field_simp
    ring
  rw [e] at h0
  have := nonneg_of_mul_nonneg_right h0 (by positivity)
  linarith

/-- **C83** for `prox_gradient_circuit` (`classical_central_vi.py` 195-235), for all `0 ≤ mu < L`, capacities and resistances `R ≤ 2 / L`: the textbook proximal gradient step `h = Capacitance R`
is certified by `solve_ipopt` with the weight `rho = Capacitance R / 2` of the resistor.  If also `R ≥ 1 / L`, it is certified with every weight `eta ≥ 0`: maximising `eta` is unbounded. -/
theorem C83_proxGradient (hC : C.Lawful) {mu L : ℚ} (R Cap : ℚ) (hmu : 0 ≤ mu) (hL : mu < L) (hCap : 0 < Cap) (hR : 0 < R) (hb : L * R ≤ 2) :
    ∃ r h nlp h', runProblem C (proxGradient mu (some L) R Cap).prog Heap.empty = .ok (r, h) ∧ solveIpopt C r stdParams [] [] h = .ok (nlp, h') ∧
      (∃ σ, nlp.state.Sat σ ∧ nlp.state.value σ "h" = Cap * R ∧ nlp.state.value σ "rho" = Cap * R / 2) ∧
      (1 ≤ L * R → ∀ eta : ℝ, 0 ≤ eta →
        ∃ σ, nlp.state.Sat σ ∧ nlp.state.value σ "h" = Cap * R ∧ nlp.state.value σ "rho" = Cap * R / 2 ∧ nlp.state.value σ "eta" = eta) := by
  have hR' : (0 : ℝ) < R := by exact_mod_cast hR
  have hC' : (0 : ℝ) < Cap := by exact_mod_cast hCap
  have hL' : (0 : ℝ) < L := by exact_mod_cast lt_of_le_of_lt hmu hL
  obtain ⟨r, h, nlp, h', h1, h2, hiff⟩ := C69_proxGradient hC R Cap hmu hL hCap.ne' hR
  have hmain : ∀ eta : ℝ, 0 ≤ eta → eta * (1 / L - R) ≤ 0 →
      ∃ σ, nlp.state.Sat σ ∧ nlp.state.value σ "h" = Cap * R ∧ nlp.state.value σ "rho" = Cap * R / 2 ∧ nlp.state.value σ "eta" = eta := by
    intro eta he0 he
    obtain ⟨σ, hσ, hv⟩ := (hiff fun n => if n = "h" then Cap * R else if n = "rho" then Cap * R / 2 else eta) (by simp; exact ⟨hCap.ne', hR.ne'⟩) |>.2
      ⟨proxGradStep_unit hmu hL hR hCap hb (by simp) (by simp) (by simpa using he), by simpa using he0, by simp; positivity, by simp; positivity⟩
    exact ⟨σ, hσ, by rw [hv _ (by decide)]; simp, by rw [hv _ (by decide)]; simp, by rw [hv _ (by decide)]; simp⟩
  refine ⟨r, h, nlp, h', h1, h2, ?_, fun ha eta he => ?_⟩
  · obtain ⟨σ, hσ, a, b, -⟩ := hmain 0 le_rfl (by simp)
    exact ⟨σ, hσ, a, b⟩
  · refine hmain eta he (mul_nonpos_of_nonneg_of_nonpos he (sub_nonpos.2 ?_))
    have : (1 : ℝ) ≤ L * R := by exact_mod_cast ha
    rw [div_le_iff₀ hL']
    linarith

/-- **C83**, the best weight: for an `L`-smooth convex `f` and all capacities and resistances every feasible point of the nonlinear program has `rho ≤ h - h² / (2 Capacitance R)`, so
`rho ≤ Capacitance R / 2`, the value attained by the textbook step (`C83_proxGradient`). -/
theorem C83_proxGradient_best (hC : C.Lawful) {L : ℚ} (R Cap : ℚ) (hL : 0 < L) (hCap : 0 < Cap) (hR : 0 < R) :
    ∃ r h nlp h', runProblem C (proxGradient 0 (some L) R Cap).prog Heap.empty = .ok (r, h) ∧ solveIpopt C r stdParams [] [] h = .ok (nlp, h') ∧
      (∀ σ, nlp.state.Sat σ → nlp.state.value σ "rho" ≤ nlp.state.value σ "h" - nlp.state.value σ "h" ^ 2 / (2 * Cap * R) ∧ nlp.state.value σ "rho" ≤ Cap * R / 2) ∧
      (L * R ≤ 2 → ∃ σ, nlp.state.Sat σ ∧ nlp.state.value σ "h" = Cap * R ∧ nlp.state.value σ "rho" = Cap * R / 2) := by
  have hR' : (0 : ℝ) < R := by exact_mod_cast hR
  have hC' : (0 : ℝ) < Cap := by exact_mod_cast hCap
  obtain ⟨r, h, nlp, h', h1, h2, -⟩ := C69_proxGradient hC R Cap le_rfl hL hCap.ne' hR
  refine ⟨r, h, nlp, h', h1, h2, fun σ hσ => ?_, fun hb => ?_⟩
  · have hg : Guaranteed (proxGradient 0 (some L) R Cap).prog (nlp.state.value σ) := guaranteed_of_feasible hC (by calls_simp [proxGradient]; simp [Instr.Clean, stdParams])
      (by decide) (by decide) (by
        calls_simp [proxGradient]
        simp [decls, defDecl_ok le_rfl hL]
        simp [defDecl, FnDecl.Ok]) ⟨r, h, [], [], nlp, h', σ, h1, h2, hσ, rfl⟩
    have := proxGradStep_rho hL hR hCap ((guaranteed_proxGradient R Cap le_rfl hL hR.ne').1 hg)
    refine ⟨this, this.trans ?_⟩
    rw [sub_le_iff_le_add, ← sub_le_iff_le_add', le_div_iff₀ (by positivity)]
    nlinarith [sq_nonneg (nlp.state.value σ "h" - Cap * R)]
  · obtain ⟨r', g, nlp', g', k1, k2, k3, -⟩ := C83_proxGradient hC R Cap le_rfl hL hCap hR hb
    rw [h1] at k1
    cases k1
    rw [h2] at k2
    cases k2
    exact k3

/-- **C83**, the weight `eta`: for all `0 ≤ mu < L`, capacities and resistances `R < 1 / L` every feasible point of the nonlinear program has `eta ≤ (1 - L R) (h - L h² / (2 Capacitance))`, so
`eta ≤ (1 - L R) Capacitance / (2 L)`: the objective in `eta` is unbounded only for `R ≥ 1 / L`. -/
theorem C83_proxGradient_eta (hC : C.Lawful) {mu L : ℚ} (R Cap : ℚ) (hmu : 0 ≤ mu) (hL : mu < L) (hCap : 0 < Cap) (hR : 0 < R) (hb : L * R < 1) :
    ∃ r h nlp h', runProblem C (proxGradient mu (some L) R Cap).prog Heap.empty = .ok (r, h) ∧ solveIpopt C r stdParams [] [] h = .ok (nlp, h') ∧
      (∃ σ, nlp.state.Sat σ) ∧
      ∀ σ, nlp.state.Sat σ → nlp.state.value σ "eta" ≤ (1 - L * R) * (nlp.state.value σ "h" - L * nlp.state.value σ "h" ^ 2 / (2 * Cap)) ∧
        nlp.state.value σ "eta" ≤ (1 - L * R) * (Cap / (2 * L)) := by
  have hC' : (0 : ℝ) < Cap := by exact_mod_cast hCap
  have hL' : (0 : ℝ) < L := by exact_mod_cast lt_of_le_of_lt hmu hL
  have hb' : (0 : ℝ) ≤ 1 - L * R := by
    have : (L : ℝ) * R < 1 := by exact_mod_cast hb
    linarith
  obtain ⟨r, h, nlp, h', h1, h2, ⟨σ, hσ, -⟩, -⟩ := C83_proxGradient hC R Cap hmu hL hCap hR (by linarith)
  refine ⟨r, h, nlp, h', h1, h2, ⟨σ, hσ⟩, fun σ hσ => ?_⟩
  have hg : Guaranteed (proxGradient mu (some L) R Cap).prog (nlp.state.value σ) := guaranteed_of_feasible hC (by calls_simp [proxGradient]; simp [Instr.Clean, stdParams])
    (by decide) (by decide) (by
      calls_simp [proxGradient]
      simp [decls, defDecl_ok hmu hL]
      simp [defDecl, FnDecl.Ok]) ⟨r, h, [], [], nlp, h', σ, h1, h2, hσ, rfl⟩
  have := proxGradStep_eta hmu hL hCap hb ((guaranteed_proxGradient R Cap hmu hL hR.ne').1 hg)
  refine ⟨this, this.trans (mul_le_mul_of_nonneg_left ?_ hb')⟩
  have e : (Cap : ℝ) / (2 * L) - (nlp.state.value σ "h" - L * nlp.state.value σ "h" ^ 2 / (2 * Cap)) = (Cap - L * nlp.state.value σ "h") ^ 2 / (2 * L * Cap) := by
    field_simp
    ring
  have : 0 ≤ ((Cap : ℝ) - L * nlp.state.value σ "h") ^ 2 / (2 * L * Cap) := by positivity
  linarith

/-- the notebook `prox_grad.ipynb`: `L = 1`, `R = 0.9`, `Capacitance = 0.05`; no feasible point has `eta > 0.0025` -/
example : ∃ r h nlp h', runProblem refCAS (proxGradient (1 / 10000) (some 1) (9 / 10) (1 / 20)).prog Heap.empty = .ok (r, h) ∧ solveIpopt refCAS r stdParams [] [] h = .ok (nlp, h') ∧
    (∃ σ, nlp.state.Sat σ) ∧ ∀ σ, nlp.state.Sat σ → nlp.state.value σ "eta" ≤ 1 / 400 := by
  obtain ⟨r, h, nlp, h', h1, h2, h3, h4⟩ := C83_proxGradient_eta refCAS_lawful (mu := 1 / 10000) (L := 1) (9 / 10) (1 / 20) (by norm_num) (by norm_num) (by norm_num) (by norm_num) (by norm_num)
  exact ⟨r, h, nlp, h', h1, h2, h3, fun σ hσ => (h4 σ hσ).2.trans (by norm_num)⟩

/-- the hypotheses can be met: `L = Capacitance = R = 1` -/
example : ∃ r h nlp h', runProblem refCAS (proxGradient 0 (some 1) 1 1).prog Heap.empty = .ok (r, h) ∧ solveIpopt refCAS r stdParams [] [] h = .ok (nlp, h') ∧
    ∀ eta : ℝ, 0 ≤ eta → ∃ σ, nlp.state.Sat σ ∧ nlp.state.value σ "eta" = eta := by
  obtain ⟨r, h, nlp, h', h1, h2, -, h3⟩ := C83_proxGradient refCAS_lawful (mu := 0) (L := 1) 1 1 le_rfl (by norm_num) (by norm_num) (by norm_num) (by norm_num)
  exact ⟨r, h, nlp, h', h1, h2, fun eta he => (h3 (by norm_num) eta he).imp fun σ hσ => ⟨hσ.1, hσ.2.2.2⟩⟩

/-- a feasible point of the program of `C83_proxGradient_best`, with resistor weight `1 / 2`; no feasible point has a larger one -/
example : ∃ r h nlp h', runProblem refCAS (proxGradient 0 (some 1) 1 1).prog Heap.empty = .ok (r, h) ∧ solveIpopt refCAS r stdParams [] [] h = .ok (nlp, h') ∧
    (∃ σ, nlp.state.Sat σ ∧ nlp.state.value σ "rho" = 1 / 2) ∧ ∀ σ, nlp.state.Sat σ → nlp.state.value σ "rho" ≤ 1 / 2 := by
  obtain ⟨r, h, nlp, h', h1, h2, h3, h4⟩ := C83_proxGradient_best refCAS_lawful (L := 1) 1 1 (by norm_num) (by norm_num) (by norm_num)
  exact ⟨r, h, nlp, h', h1, h2, (h4 (by norm_num)).imp fun σ hσ => ⟨hσ.1, by simpa using hσ.2.2⟩, fun σ hσ => by simpa using (h3 σ hσ).2⟩

end Verif
