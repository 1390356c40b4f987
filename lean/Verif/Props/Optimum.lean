import Verif.Props.GradientDescent
import Verif.Props.CompleteTuneC
import Verif.Props.CircuitsN

/-!
# C78: the exact optimal values that the example notebooks approximate
-/

namespace Verif
open Build Heap
open scoped InnerProductSpace

variable {C : CAS}

/-- curvatures strictly inside the class come arbitrarily close to `L` -/
theorem le_of_inside {mu L : ℚ} (hL : mu < L) {a b : ℝ} (h : ∀ c, Inside mu (some L) c → a * c ≤ b) : a * L ≤ b := by
  have hl : (mu : ℝ) < L := by exact_mod_cast hL
  have hc : IsClosed {c : ℝ | a * c ≤ b} := isClosed_le (by fun_prop) (by fun_prop)
  have hs : Set.Ioo (mu : ℝ) L ⊆ {c : ℝ | a * c ≤ b} := fun c hc => h c ⟨hc.1, by simpa using hc.2⟩
  have := hc.closure_subset_iff.2 hs
  rw [closure_Ioo hl.ne] at this
  exact this (Set.right_mem_Icc.2 hl.le)

/-- … and to `mu` -/
theorem le_of_inside_mu {mu L : ℚ} (hL : mu < L) {a b : ℝ} (h : ∀ c, Inside mu (some L) c → a ≤ b * c) : a ≤ b * mu := by
  have hl : (mu : ℝ) < L := by exact_mod_cast hL
  have hc : IsClosed {c : ℝ | a ≤ b * c} := isClosed_le (by fun_prop) (by fun_prop)
  have hs : Set.Ioo (mu : ℝ) L ⊆ {c : ℝ | a ≤ b * c} := fun c hc => h c ⟨hc.1, by simpa using hc.2⟩
  have := hc.closure_subset_iff.2 hs
  rw [closure_Ioo hl.ne] at this
  exact this (Set.left_mem_Icc.2 hl.le)

theorem defDecl_ok {mu L : ℚ} (hmu : 0 ≤ mu) (hL : mu < L) : (defDecl mu (some L)).Ok := by
  unfold defDecl
  split <;> simp_all [FnDecl.Ok]

/-- the energy inequality for the quadratic functions of the class -/
theorem flow_quad {mu : ℚ} {L : Option ℚ} {Cap : ℚ} (hmu : 0 ≤ mu) {p : Name → ℝ} (hs : GradientFlowStep mu L Cap p) {c : ℝ} (hc : Inside mu L c) :
    Cap / 2 * (1 - p "beta" * p "h" / Cap * c - (1 - p "beta") * p "h" / Cap * (c * (1 - p "alpha" * p "h" / Cap * c))) ^ 2 ≤ Cap / 2 - p "eta" * (c / 2) := by
  have hc0 : 0 < c := lt_of_le_of_lt (by exact_mod_cast hmu) hc.1
  have := hs ℝ (quadF c 0) (quadF_holds hmu hc 0) 0 1 (c * 1) _ _ _ _ 0 _ _ _ (quadF_smp0 hc0) (quadF_smp hc0 1) rfl (quadF_smp hc0 _) rfl (quadF_smp hc0 _)
  simpa using this

theorem flow_mono {mu L Cap : ℚ} (hmu : 0 ≤ mu) {p : Name → ℝ} (hs : GradientFlowStep 0 (some L) Cap p) : GradientFlowStep mu (some L) Cap p := by
  intro E _ _ f hf
  refine hs E f ?_
  rw [C12_members] at hf ⊢
  exact ⟨hf.1.mono (by exact_mod_cast hmu), hf.2⟩

/-- **C78**, `gradient_flow_circuit`.  For every class with `0 ≤ mu < L` and every capacity: over all feasible points of the nonlinear program,
with any `h`, `alpha`, `beta`, the largest value of `eta` is exactly `Cap / L`. -/
theorem C78_gradientFlow (hC : C.Lawful) {mu L Cap : ℚ} (hmu : 0 ≤ mu) (hL : mu < L) (hCap : 0 < Cap) :
    ∃ r h nlp h', runProblem C (gradientFlow mu (some L) Cap).prog Heap.empty = .ok (r, h) ∧ solveIpopt C r stdParams [] [] h = .ok (nlp, h') ∧
      IsGreatest {e | ∃ σ, nlp.state.Sat σ ∧ nlp.state.value σ "eta" = e} ((Cap : ℝ) / L) := by
  have hL0 : 0 < L := lt_of_le_of_lt hmu hL
  have hl : (0 : ℝ) < L := by exact_mod_cast hL0
  have hc : (0 : ℝ) < Cap := by exact_mod_cast hCap
  have hd := defDecl_ok hmu hL
  obtain ⟨r, h, nlp, h', hr, hn, hiff⟩ := C69_gradientFlow hC mu (some L) Cap hd hCap.ne'
  have hok : ∀ d ∈ decls (gradientFlow mu (some L) Cap).prog, d.Ok := by
    calls_simp [gradientFlow]
    simpa [decls] using hd
  have hclean : ∀ i ∈ (gradientFlow mu (some L) Cap).prog, i.Clean {n | n ∈ stdParams} := by calls_simp [gradientFlow]; simp [Instr.Clean, stdParams]
  refine ⟨r, h, nlp, h', hr, hn, ?_, ?_⟩
  · obtain ⟨σ, hσ, hv⟩ := (hiff (fun n => if n = "beta" then 1 else if n = "alpha" then 1 / 2 else Cap / L) (by simp; exact ⟨hCap.ne', hL0.ne'⟩) (by simp) (by simp)).2
      ⟨flow_mono hmu ((gradientDescent_step hL0 hCap (by simp) (by simp; positivity)).2 ⟨by simp, by simp; field_simp; norm_num⟩),
        by simp; positivity, by simp; positivity, by simp; positivity⟩
    exact ⟨σ, hσ, by rw [hv _ (by decide)]; simp⟩
  · rintro e ⟨σ, hσ, rfl⟩
    have hg : Guaranteed (gradientFlow mu (some L) Cap).prog (nlp.state.value σ) := guaranteed_of_feasible hC hclean (by decide) (by decide) hok ⟨r, h, [], [], nlp, h', σ, hr, hn, hσ, rfl⟩
    rw [guaranteed_gradientFlow] at hg
    rw [le_div_iff₀ hl]
    refine le_of_inside hL fun c hcin => ?_
    have h1 := flow_quad hmu hg hcin
    have h2 : 0 ≤ (Cap : ℝ) / 2 * (1 - nlp.state.value σ "beta" * nlp.state.value σ "h" / Cap * c - (1 - nlp.state.value σ "beta") * nlp.state.value σ "h" / Cap *
      (c * (1 - nlp.state.value σ "alpha" * nlp.state.value σ "h" / Cap * c))) ^ 2 := by positivity
    linarith

/-- **C78**, `gradient_flow_circuit` without smoothness (`L_smooth = np.inf`): every feasible point has `eta = 0` and `h = 0`; nothing but the step
that does not move is certified. -/
theorem C78_nonsmooth (hC : C.Lawful) {mu Cap : ℚ} (hmu : 0 ≤ mu) (hCap : 0 < Cap) :
    ∃ r h nlp h', runProblem C (gradientFlow mu none Cap).prog Heap.empty = .ok (r, h) ∧ solveIpopt C r stdParams [] [] h = .ok (nlp, h') ∧
      ∀ σ, nlp.state.Sat σ → nlp.state.value σ "eta" = 0 ∧ nlp.state.value σ "h" = 0 := by
  have hc : (0 : ℝ) < Cap := by exact_mod_cast hCap
  have hm0 : (0 : ℝ) ≤ mu := by exact_mod_cast hmu
  have hd : (defDecl mu none).Ok := by
    rcases hmu.eq_or_lt with rfl | h
    · simp [defDecl, FnDecl.Ok]
    · simp [defDecl, FnDecl.Ok, h.ne', hmu]
  obtain ⟨r, h, nlp, h', hr, hn, hiff⟩ := C69_gradientFlow hC mu none Cap hd hCap.ne'
  have hok : ∀ d ∈ decls (gradientFlow mu none Cap).prog, d.Ok := by
    calls_simp [gradientFlow]
    simpa [decls] using hd
  have hclean : ∀ i ∈ (gradientFlow mu none Cap).prog, i.Clean {n | n ∈ stdParams} := by calls_simp [gradientFlow]; simp [Instr.Clean, stdParams]
  refine ⟨r, h, nlp, h', hr, hn, fun σ hσ => ?_⟩
  have hg : Guaranteed (gradientFlow mu none Cap).prog (nlp.state.value σ) := guaranteed_of_feasible hC hclean (by decide) (by decide) hok ⟨r, h, [], [], nlp, h', σ, hr, hn, hσ, rfl⟩
  rw [guaranteed_gradientFlow] at hg
  obtain ⟨sm0, h0, -⟩ := solveIpopt_inv hn
  obtain ⟨sm, -, hsign⟩ := C26_iff hC hr hclean stdParams_simple (by simp) (solvable_of_ok hC hr hok h0) hn
  obtain ⟨-, -, -, hs⟩ := (hsign (nlp.state.value σ)).1 ⟨σ, hσ, fun n _ => rfl⟩
  have he := hs "eta" (by simp)
  generalize nlp.state.value σ = p at hg he
  -- the next point of the quadratic with curvature `mu + 1 + t`
  have key : ∀ t : ℝ, 0 ≤ t → Cap / 2 * (1 - p "h" / Cap * (mu + 1 + t) + (1 - p "beta") * p "alpha" * (p "h" / Cap) ^ 2 * (mu + 1 + t) ^ 2) ^ 2 ≤
      Cap / 2 - p "eta" * ((mu + 1 + t) / 2) := by
    intro t ht
    have := flow_quad hmu hg (c := mu + 1 + t) ⟨by linarith, by simp⟩
    convert this using 3
    ring
  have h1 : p "eta" = 0 := by
    by_contra hne
    have hp : 0 < p "eta" := lt_of_le_of_ne he (Ne.symm hne)
    have h1 := key (Cap / p "eta") (by positivity)
    have h2 : p "eta" * ((mu + 1 + Cap / p "eta") / 2) = p "eta" * ((mu + 1) / 2) + Cap / 2 := by field_simp
    have h3 : 0 < p "eta" * (((mu : ℝ) + 1) / 2) := by positivity
    have h4 : 0 ≤ Cap / 2 * (1 - p "h" / Cap * (mu + 1 + Cap / p "eta") + (1 - p "beta") * p "alpha" * (p "h" / Cap) ^ 2 * (mu + 1 + Cap / p "eta") ^ 2) ^ 2 := by positivity
    linarith
  refine ⟨h1, ?_⟩
  rw [h1] at key
  suffices hk : p "h" / Cap = 0 by
    rcases div_eq_zero_iff.1 hk with h2 | h2
    · exact h2
    · exact absurd h2 hc.ne'
  generalize p "h" / Cap = k at *
  generalize (1 - p "beta") * p "alpha" * k ^ 2 = m at *
  have bd : ∀ t : ℝ, 0 ≤ t → |1 - k * (mu + 1 + t) + m * (mu + 1 + t) ^ 2| ≤ 1 := by
    intro t ht
    have h2 := key t ht
    rw [← sq_le_one_iff_abs_le_one]
    have : (Cap : ℝ) / 2 * (1 - k * (mu + 1 + t) + m * (mu + 1 + t) ^ 2) ^ 2 ≤ Cap / 2 * 1 := by linarith
    exact le_of_mul_le_mul_left this (by positivity)
  have hm : m = 0 := by
    by_contra hne
    have ha : 0 < |m| := abs_pos.2 hne
    set t := 1 + 2 / |m| with ht
    have htp : 0 ≤ t := by positivity
    have b0 := abs_le.1 (bd 0 le_rfl)
    have b1 := abs_le.1 (bd t htp)
    have b2 := abs_le.1 (bd (2 * t) (by positivity))
    have h2 : |m| * (2 * t ^ 2) ≤ 4 := by
      rw [← abs_of_nonneg (show (0 : ℝ) ≤ 2 * t ^ 2 by positivity), ← abs_mul, abs_le]
      constructor <;> nlinarith
    have h3 : |m| * (2 * t ^ 2) = 2 * |m| + 8 + 8 / |m| := by rw [ht]; field_simp; ring
    have h4 : 0 < 8 / |m| := by positivity
    linarith
  subst hm
  by_contra hne
  have ha : 0 < |k| := abs_pos.2 hne
  have b0 := abs_le.1 (bd 0 le_rfl)
  have b1 := abs_le.1 (bd (3 / |k|) (by positivity))
  have h2 : |k * (3 / |k|)| ≤ 2 := by
    rw [abs_le]
    constructor <;> nlinarith
  rw [abs_mul, abs_of_pos (show 0 < 3 / |k| by positivity), mul_div_cancel₀ _ ha.ne'] at h2
  norm_num at h2

/-! ### Tuned capacity -/

/-- `complete_of_runs` with bounds on the parameters -/
theorem complete_of_runs_bounds {prog : List Instr} {params : List Name} {bounds : List Bound} (hC : C.Lawful) (hs : SafeProg prog ⟨0, 0, 0⟩ = true)
    (hclean : ∀ i ∈ prog, i.Clean {n | n ∈ params}) (hst : Standard prog = true) (hd : ∀ d ∈ decls prog, d.Ok ∧ d.Default = true) (s : SimpleParams params)
    (hmet : ∃ e, Instr.metric e ∈ prog) (hb : ∀ b ∈ bounds, b.name ∈ scalarNames params) {Gen : (Name → ℝ) → Prop} (hne : ∃ env, Gen env)
    (hw : ∀ env, Gen env → ∃ fs V, StrictRun prog env fs V) :
    ∃ r h nlp h', runProblem C prog Heap.empty = .ok (r, h) ∧ solveIpopt C r params bounds [] h = .ok (nlp, h') ∧
      ∀ env, Gen env → ((∃ σ, nlp.state.Sat σ ∧ ∀ n ∈ scalarNames params, nlp.state.value σ n = env n) ↔
        Guaranteed prog env ∧ InvOk params env ∧ BoundsOk bounds env ∧ ∀ n ∈ ["eta", "rho", "h"], 0 ≤ env n) := by
  obtain ⟨⟨r, h⟩, hr⟩ := (C04_errors hC prog Heap.empty).2 hs
  have hok : ∀ d ∈ decls prog, d.Ok := fun d hm => (hd d hm).1
  obtain ⟨env0, h0⟩ := hne
  obtain ⟨fs0, V0, run0⟩ := hw env0 h0
  obtain ⟨rr0, ex0, hdist0, -⟩ := run0.exec hs
  obtain ⟨nlp, h', hn⟩ := (C63_ipopt (init := []) hC hr hclean s hok hb (by simp)).2 ⟨hmet, nodup_of_calls hC hr hst run0.inst ex0 hdist0⟩
  obtain ⟨sm, hm, hiff⟩ := C68_ipopt hC hr hclean hst hd s hb hn
  refine ⟨r, h, nlp, h', hr, hn, fun env hg => ?_⟩
  obtain ⟨fs, V, run⟩ := hw env hg
  obtain ⟨rr, ex, hdist, hcons⟩ := run.exec hs
  have t := translate_of hC hr (solvable_of_ok hC hr hok hm) hm
  exact hiff env (strict_of_exec hC hr t (qcqp_clean hC hr hclean hm) hst run.inst run.strict ex hdist hcons)

/-- **C78**, `gradient_flow_circuit_tuneC` with the bound `lb ≤ C ≤ ub`: the largest value of `eta` at feasible points is exactly `ub / L`. -/
theorem C78_gradientFlowTuneC (hC : C.Lawful) {mu L ub lb : ℚ} (hmu : 0 ≤ mu) (hL : mu < L) (hub : 1 / 10000000 ≤ ub) (hlb : lb ≤ ub) :
    ∃ r h nlp h', runProblem C (gradientFlowTuneC mu (some L)).prog Heap.empty = .ok (r, h) ∧
      solveIpopt C r tuneCParams [⟨"C", some ub, some lb⟩] [] h = .ok (nlp, h') ∧
      IsGreatest {e | ∃ σ, nlp.state.Sat σ ∧ nlp.state.value σ "eta" = e} ((ub : ℝ) / L) := by
  have hL0 : 0 < L := lt_of_le_of_lt hmu hL
  have hl : (0 : ℝ) < L := by exact_mod_cast hL0
  have hub0 : 0 < ub := lt_of_lt_of_le (by norm_num) hub
  have hc : (0 : ℝ) < ub := by exact_mod_cast hub0
  have hd0 := defDecl_ok hmu hL
  have hd : ∀ d ∈ decls (gradientFlowTuneC mu (some L)).prog, d.Ok := by
    calls_simp [gradientFlowTuneC]
    simpa [decls] using hd0
  have hclean : ∀ i ∈ (gradientFlowTuneC mu (some L)).prog, i.Clean {n | n ∈ tuneCParams} := by calls_simp [gradientFlowTuneC]; simp [Instr.Clean, tuneCParams]
  have hb : ∀ b ∈ [(⟨"C", some ub, some lb⟩ : Bound)], b.name ∈ scalarNames tuneCParams := by
    intro b hb
    rw [List.mem_singleton] at hb
    subst hb
    change "C" ∈ _
    decide
  obtain ⟨r, h, nlp, h', hr, hn, hiff⟩ := complete_of_runs_bounds (prog := (gradientFlowTuneC mu (some L)).prog) (params := tuneCParams)
    (bounds := [⟨"C", some ub, some lb⟩]) (Gen := GenericFlowC) hC
    (by calls_simp [gradientFlowTuneC]; safe_simp []) hclean (standard_gradientFlowTuneC mu (some L)).1
    (fun d hm => ⟨hd d hm, (standard_gradientFlowTuneC mu (some L)).2 d hm⟩) tuneCParams_simple
    (by calls_simp [gradientFlowTuneC]; exact ⟨7, by simp⟩) hb ⟨fun _ => 2, by norm_num, by norm_num, by norm_num, by norm_num⟩
    fun p hg => run_gradientFlowTuneC mu (some L) hd0 hg
  have hlong : ∀ env : Name → ℝ, longEnv env "C" = env "C" := fun env => longEnv_plain (by decide)
  have hinv : ∀ p : Name → ℝ, InvOk tuneCParams p ↔ p "C" * p "invC" = 1 ∧ 1 / 10000000 ≤ p "C" := by
    intro p
    unfold InvOk
    rw [show invParams tuneCParams = ["C"] by decide]
    simp
  refine ⟨r, h, nlp, h', hr, hn, ?_, ?_⟩
  · set p : Name → ℝ := fun n => if n = "beta" then 1 else if n = "alpha" then 1 / 2 else if n = "C" then ub else if n = "invC" then (ub : ℝ)⁻¹ else ub / L with hp
    have hstep : GradientFlowStep mu (some L) ub p :=
      flow_mono hmu ((gradientDescent_step hL0 hub0 (by simp [hp]) (by simp [hp]; positivity)).2 ⟨by simp [hp], by simp [hp]; field_simp; norm_num⟩)
    obtain ⟨σ, hσ, hv⟩ := (hiff p ⟨by simp [hp]; exact ⟨hub0.ne', hL0.ne'⟩, by simp [hp], by simp [hp], by simp [hp]; exact hub0.ne'⟩).2
      ⟨by
        rw [guaranteed_gradientFlowTuneC]
        intro E _ _ f hf x_star x_1 y_1 x_1p5 y_1p5 x_2 y_2 f_star f_1 f_1p5 f_2 h1 h2 h3 h4 h5 h6
        have e1 : p "C" = ub := by simp [hp]
        have e2 : p "invC" = (ub : ℝ)⁻¹ := by simp [hp]
        rw [e1]
        rw [e2] at h3 h5
        exact hstep E f hf x_star x_1 y_1 x_1p5 y_1p5 x_2 y_2 f_star f_1 f_1p5 f_2 h1 h2 (by rw [h3, div_eq_mul_inv]) h4 (by rw [h5, div_eq_mul_inv, div_eq_mul_inv]) h6,
      (hinv p).2 ⟨by simp [hp]; exact mul_inv_cancel₀ hc.ne', by rw [show p "C" = ub by simp [hp]]; have := (Rat.cast_le (K := ℝ)).2 hub; push_cast at this; exact this⟩,
      by
        intro b hb
        rw [List.mem_singleton] at hb
        subst hb
        rw [hlong, show p "C" = ub by simp [hp]]
        refine ⟨fun u hu => ?_, fun l hl => ?_⟩
        · injection hu with hu; subst hu; exact le_rfl
        · injection hl with hl; subst hl; exact_mod_cast hlb,
      by
        have : (0 : ℝ) ≤ ub / L := by positivity
        simpa [hp] using this⟩
    exact ⟨σ, hσ, by rw [hv _ (by decide)]; simp [hp]⟩
  · rintro e ⟨σ, hσ, rfl⟩
    have hg : Guaranteed (gradientFlowTuneC mu (some L)).prog (nlp.state.value σ) := guaranteed_of_feasible hC hclean (by decide) (by decide) hd
      ⟨r, h, _, [], nlp, h', σ, hr, hn, hσ, rfl⟩
    rw [guaranteed_gradientFlowTuneC] at hg
    obtain ⟨sm0, h0, -⟩ := solveIpopt_inv hn
    obtain ⟨sm, -, hsign⟩ := C26_iff hC hr hclean tuneCParams_simple hb (solvable_of_ok hC hr hd h0) hn
    obtain ⟨-, hi, hbo, -⟩ := (hsign (nlp.state.value σ)).1 ⟨σ, hσ, fun n _ => rfl⟩
    have hCb := (hbo _ (List.mem_singleton_self _)).1 ub rfl
    rw [hlong] at hCb
    have hC0 := ((hinv _).1 hi).2
    generalize nlp.state.value σ = p at *
    have hC1 : 0 < p "C" := lt_of_lt_of_le (by norm_num) hC0
    refine le_trans ?_ (div_le_div_of_nonneg_right hCb hl.le)
    rw [le_div_iff₀ hl]
    refine le_of_inside hL fun c hcin => ?_
    have hc0 : 0 < c := lt_of_le_of_lt (by exact_mod_cast hmu) hcin.1
    have := hg ℝ (quadF c 0) (quadF_holds hmu hcin 0) 0 1 (c * 1) _ _ _ _ 0 _ _ _ (quadF_smp0 hc0) (quadF_smp hc0 1) rfl (quadF_smp hc0 _) rfl (quadF_smp hc0 _)
    have h2 := mul_nonneg (half_pos hC1).le (sq_nonneg ‖(1 : ℝ) - (p "beta" * p "h" * p "invC") • (c * 1) - ((1 - p "beta") * p "h" * p "invC") •
      (c * (1 - (p "alpha" * p "h" * p "invC") • (c * 1))) - 0‖)
    have h3 := h2.trans this
    simp at h3
    linarith

/-! ### Decompositions -/

variable {E : Type} [NormedAddCommGroup E] [InnerProductSpace ℝ E]

/-- **C78**, `primal_decomposition` with `n = k + 1` functions: no feasible point has `eta` larger than `Cap / (2 n L)`. -/
theorem C78_primalDecomposition_le (hC : C.Lawful) (k : ℕ) {mu L Cap : ℚ} (hmu : 0 ≤ mu) (hL : mu < L) (hCap : 0 < Cap) {p : Name → ℝ}
    (hp : IpoptFeasible C (primalDecomposition k mu (some L) Cap).prog stdParams p) : p "eta" ≤ Cap / (2 * (k + 1) * L) := by
  have hl : (0 : ℝ) < L := by exact_mod_cast lt_of_le_of_lt hmu hL
  have hc : (0 : ℝ) < Cap := by exact_mod_cast hCap
  have key : ∀ c, Inside mu (some L) c → p "eta" * (2 * (k + 1)) * c ≤ Cap := by
    intro c hcin
    have hc0 : 0 < c := lt_of_le_of_lt (by exact_mod_cast hmu) hcin.1
    have h1 := C34_primalDecomposition (E := ℝ) hC k mu (some L) Cap (defDecl_ok hmu hL) hp (fun _ => quadF c 0) (fun i _ => quadF_holds hmu hcin 0)
      (x_star := 0) (z_1 := 1) (y_star := fun _ => 0) (v_star := fun _ => 0) (y_1 := fun _ => c * 1) (v_1 := fun _ => c / 2 * 1 ^ 2)
      (fun i _ => quadF_smp0 hc0) (by simp) (fun i _ => quadF_smp hc0 1) rfl (fun i _ => quadF_smp hc0 _) rfl
    have h2 := (mul_nonneg (half_pos hc).le (sq_nonneg _)).trans h1
    simp at h2
    linarith
  have := le_of_inside hL key
  rw [le_div_iff₀ (by positivity)]
  linarith

/-- **C78**, `dual_decomposition` with `n = k + 2` functions: no feasible point has `eta` larger than `mu Ind / 2`. -/
theorem C78_dualDecomposition_le (hC : C.Lawful) (k : ℕ) {mu L Ind : ℚ} (hmu : 0 ≤ mu) (hL : mu < L) (hInd : 0 < Ind) {p : Name → ℝ}
    (hp : IpoptFeasible C (dualDecomposition k mu (some L) Ind).prog stdParams p) : p "eta" ≤ mu * Ind / 2 := by
  have hc : (0 : ℝ) < Ind := by exact_mod_cast hInd
  have key : ∀ c, Inside mu (some L) c → p "eta" ≤ Ind / 2 * c := by
    intro c hcin
    have hc0 : 0 < c := lt_of_le_of_lt (by exact_mod_cast hmu) hcin.1
    -- the currents 1, -1, 0, …
    set i1 : ℕ → ℝ := fun i => if i = 0 then 1 else if i = 1 then -1 else 0 with hi1
    have hz : ∀ i, 2 ≤ i → i1 i = 0 := by
      intro i hi
      simp only [hi1]
      rw [if_neg (by omega), if_neg (by omega)]
    have hsum : ∀ g : ℕ → ℝ, (∀ i, 2 ≤ i → g i = 0) → ∑ i ∈ Finset.range (k + 2), g i = g 0 + g 1 := by
      intro g hg
      rw [Finset.sum_range_succ', Finset.sum_range_succ', Finset.sum_eq_zero fun i _ => hg _ (by omega)]
      ring
    have smp : ∀ y : ℝ, (quadF c 0).Sample (y / c) y (c / 2 * (y / c) ^ 2) := by
      intro y
      have := quadF_smp hc0 (y / c)
      rwa [mul_div_cancel₀ _ hc0.ne'] at this
    have h1 := C34_dualDecomposition (E := ℝ) hC k mu (some L) Ind (defDecl_ok hmu hL) hp (fun _ => quadF c 0) (fun i _ => quadF_holds hmu hcin 0)
      (x_star := 0) (y_star := fun _ => 0) (v_star := fun _ => 0) (i_1 := i1) (x_1 := fun i => i1 i / c)
      (fun i _ => quadF_smp0 hc0) (by simp) (by rw [hsum _ fun i hi => by simp [hz i hi]]; simp [hi1]) (fun i _ => smp _) rfl (fun i _ => rfl)
      (fun i _ => smp _) rfl (fun i _ => rfl)
    have h2 := (Finset.sum_nonneg fun i _ => mul_nonneg (half_pos hc).le (sq_nonneg _)).trans h1
    rw [hsum _ fun i hi => by simp [hz i hi], hsum _ fun i hi => by simp [hz i hi]] at h2
    simp [hi1, neg_div] at h2
    have h3 : p "eta" * c⁻¹ ≤ Ind / 2 := by linarith
    rwa [← div_eq_mul_inv, div_le_iff₀ hc0] at h3
  have := le_of_inside_mu hL key
  linarith

end Verif
