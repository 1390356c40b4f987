import Verif.Proofs.SlaterRun
import Verif.Proofs.Robust
import Verif.Props.RealizeCircuits
import Verif.Props.CircuitsCentral
import Verif.Props.CircuitCerts

/-!
# C69: the nonlinear programs of the circuits miss no guarantee
-/

namespace Verif
open Build
open scoped InnerProductSpace

set_option linter.unusedSimpArgs false

variable {C : CAS}

/-- the functions of a circuit are evaluated at different points: parameter values of `gradient_flow_circuit` -/
def GenericFlow (Cap : ℚ) (p : Name → ℝ) : Prop := p "h" ≠ 0 ∧ p "alpha" ≠ 0 ∧ ¬ (p "alpha" = 1 ∧ p "beta" = 1) ∧ Cap ≠ 0

theorem flow_choice {mu : ℚ} {L : Option ℚ} (hok : (defDecl mu L).Ok) {k a b : ℝ} (hk0 : k ≠ 0) (ha : a ≠ 0) (hab : ¬ (a = 1 ∧ b = 1)) :
    ∃ c x1h x2 : ℝ, Inside mu L c ∧ 0 < c ∧ x1h = 1 - a * k * c ∧ x2 = 1 - b * k * c - (1 - b) * k * (c * x1h) ∧
      (¬ 0 = x1h ∧ ¬ 0 = x2) ∧ (¬ 1 = x1h ∧ ¬ 1 = x2) ∧ ¬ x1h = x2 := by
  have hgen := generic [fun c => 1 - a * k * c, fun c => 1 - k * c + (1 - b) * a * k ^ 2 * c ^ 2, fun c => 1 - (1 - b) * a * k * c,
    fun c => a - 1 + (1 - b) * a * k * c] (inside_infinite hok) (by
      simp only [List.forall_mem_cons, List.not_mem_nil, false_implies, implies_true, and_true]
      refine ⟨⟨by is_poly, 0, by simp⟩, ⟨by is_poly, 0, by simp⟩, ⟨by is_poly, 0, by simp⟩, ⟨by is_poly, ?_⟩⟩
      by_cases h1 : a = 1
      · refine ⟨1, ?_⟩
        have : (1 : ℝ) - b ≠ 0 := fun h => hab ⟨h1, by linarith⟩
        rw [h1]
        simpa using ⟨this, hk0⟩
      · exact ⟨0, by simpa [sub_eq_zero] using h1⟩)
  obtain ⟨c, hc, hne⟩ := hgen.nonempty
  simp only [List.forall_mem_cons, List.not_mem_nil, false_implies, implies_true, and_true] at hne
  obtain ⟨n1, n2, n3, n4⟩ := hne
  have hc0 : 0 < c := lt_of_le_of_lt (by exact_mod_cast defDecl_nonneg hok) hc.1
  have hd : ∀ {u v w : ℝ}, w ≠ 0 → v - u = w → ¬ u = v := fun hw e h => hw (by rw [← e, h]; ring)
  exact ⟨c, _, _, hc, hc0, rfl, rfl, ⟨hd n1 (by ring), hd n2 (by ring)⟩, ⟨hd (mul_ne_zero (neg_ne_zero.2 (mul_ne_zero ha hk0)) hc0.ne') (by ring),
    hd (mul_ne_zero (neg_ne_zero.2 (mul_ne_zero hk0 hc0.ne')) n3) (by ring)⟩, hd (mul_ne_zero (mul_ne_zero hk0 hc0.ne') n4) (by ring)⟩

theorem quadF_smp {c : ℝ} (hc : 0 < c) (x : ℝ) : (quadF c 0).Sample x (c * x) (c / 2 * x ^ 2) := quadF_sample hc.le (by ring) (by ring)

theorem quadF_smp0 {c : ℝ} (hc : 0 < c) : (quadF c 0).Sample 0 0 0 := by simpa using quadF_smp hc 0

theorem run_gradientFlow (mu : ℚ) (L : Option ℚ) (Cap : ℚ) (hok : (defDecl mu L).Ok) {p : Name → ℝ} (hg : GenericFlow Cap p) :
    ∃ fs V, StrictRun (gradientFlow mu L Cap).prog p fs V := by
  obtain ⟨hh, ha, hab, hC⟩ := hg
  have hC' : (Cap : ℝ) ≠ 0 := by exact_mod_cast hC
  obtain ⟨c, x1h, x2, hc, hc0, e1, e2, hdist⟩ := flow_choice hok (div_ne_zero hh hC') ha hab
  have hmu := defDecl_nonneg hok
  refine ⟨fun k => [quadF c 0].getD k (quadF c 0), ⟨fun i => [0, 0, 1, c * 1, x1h, c * x1h, x2, c * x2].getD i 0,
    fun i => [0, c / 2 * 1 ^ 2, c / 2 * x1h ^ 2, c / 2 * x2 ^ 2, Cap / 2 * ‖(1 : ℝ) - 0‖ ^ 2, Cap / 2 * ‖x2 - 0‖ ^ 2,
      p "eta" * (c / 2 * 1 ^ 2 - 0), Cap / 2 * ‖x2 - 0‖ ^ 2 - (Cap / 2 * ‖(1 : ℝ) - 0‖ ^ 2 - p "eta" * (c / 2 * 1 ^ 2 - 0))].getD i 0,
    fun i => [Finsupp.single 0 1].getD i 0⟩, ?_, ?_, ?_, ?_, ?_⟩
  all_goals calls_simp [gradientFlow]
  · exact instance_of_list (.cons (quadF_holds hmu hc 0) .nil)
  · rintro (_ | k) d hd
    · injection hd with hd; subst hd; exact quadF_strict hmu hc 0
    · simp [decls] at hd
  · refine ⟨rfl, ⟨smp (quadF_smp0 hc0), rfl⟩, trivial, smp (quadF_smp hc0 1), ?_, smp (quadF_smp hc0 _), ?_, smp (quadF_smp hc0 _), ?_, ?_, ?_,
      rfl, trivial, trivial⟩
    · simp [Instr.Meets, Instr.next]
      rw [e1]; ring
    · simp [Instr.Meets, Instr.next]
      rw [e2, e1]; ring
    all_goals simp [Instr.Meets, Instr.next]
  · simp [consVals]
  · rintro (_ | k) hk
    · simpa [calls, callsFrom, Instr.callsOf, Instr.next, declIndex, Instr.declares] using hdist
    · simp [decls] at hk

/-- the energy inequality of `gradient_flow_circuit` (`classical_central_vi.py` 17-44) for all functions and all steps -/
def GradientFlowStep (mu : ℚ) (L : Option ℚ) (Cap : ℚ) (p : Name → ℝ) : Prop :=
  ∀ (E : Type) [NormedAddCommGroup E] [InnerProductSpace ℝ E] (f : CFun E), (defDecl mu L).Holds f →
    ∀ (x_star x_1 y_1 x_1p5 y_1p5 x_2 y_2 : E) (f_star f_1 f_1p5 f_2 : ℝ),
      f.Sample x_star 0 f_star → f.Sample x_1 y_1 f_1 →
      x_1p5 = x_1 - (p "alpha" * p "h" / Cap) • y_1 → f.Sample x_1p5 y_1p5 f_1p5 →
      x_2 = x_1 - (p "beta" * p "h" / Cap) • y_1 - ((1 - p "beta") * p "h" / Cap) • y_1p5 → f.Sample x_2 y_2 f_2 →
      Cap / 2 * ‖x_2 - x_star‖ ^ 2 ≤ Cap / 2 * ‖x_1 - x_star‖ ^ 2 - p "eta" * (f_1 - f_star)

theorem guaranteed_gradientFlow (mu : ℚ) (L : Option ℚ) (Cap : ℚ) {p : Name → ℝ} :
    Guaranteed (gradientFlow mu L Cap).prog p ↔ GradientFlowStep mu L Cap p := by
  calls_simp [gradientFlow]
  constructor
  · intro hc E _ _ f hf x_star x_1 y_1 x_1p5 y_1p5 x_2 y_2 f_star f_1 f_1p5 f_2 h1 h2 h3 h4 h5 h6
    have key := hc.vals (fs := fun k => [f].getD k f) (e := 7) (by safe_simp []) (instance_of_list (.cons hf .nil))
      ⟨fun i => [x_star, 0, x_1, y_1, x_1p5, y_1p5, x_2, y_2].getD i 0,
        fun i => [f_star, f_1, f_1p5, f_2, Cap / 2 * ‖x_1 - x_star‖ ^ 2, Cap / 2 * ‖x_2 - x_star‖ ^ 2, p "eta" * (f_1 - f_star),
          Cap / 2 * ‖x_2 - x_star‖ ^ 2 - (Cap / 2 * ‖x_1 - x_star‖ ^ 2 - p "eta" * (f_1 - f_star))].getD i 0, fun i => [Finsupp.single 0 1].getD i 0⟩
      ⟨rfl, ⟨smp h1, rfl⟩, trivial, smp h2, by simpa [Instr.Meets, Instr.next] using h3, smp h4, by simpa [Instr.Meets, Instr.next] using h5, smp h6,
        by simp [Instr.Meets, Instr.next], by simp [Instr.Meets, Instr.next], by simp [Instr.Meets, Instr.next], rfl, trivial, trivial⟩
      (by simp [consVals]) rfl
    simp only [List.getD_cons_succ, List.getD_cons_zero] at key
    linarith
  · intro h
    refine guaranteed_of_vals (by safe_simp []) (e := 7) rfl fun {E} _ _ fs hi V hm _ => ?_
    simp [MeetsAll, Instr.Meets, Instr.next] at hm
    obtain ⟨d0, ⟨s1, z1⟩, s2, m3, s4, m5, s6, m7, m8, m9, m10⟩ := hm
    rw [d0] at s1 s2 s4 s6
    rw [z1] at s1
    have := h E (fs 0) (hi 0 _ rfl) _ _ _ _ _ _ _ _ _ _ _ (sample_of_single s1) (sample_of_single s2) m3 (sample_of_single s4) m5 (sample_of_single s6)
    rw [m10, m7, m8, m9]
    linarith

/-- **C69** for `gradient_flow_circuit`, for all class parameters and capacities: at all parameter values with different points the nonlinear
program of `solve_ipopt` has a feasible point with these parameters if and only if the energy inequality holds for all functions of the class
and all steps (and `eta`, `rho`, `h` are not negative). -/
theorem C69_gradientFlow (hC : C.Lawful) (mu : ℚ) (L : Option ℚ) (Cap : ℚ) (hok : (defDecl mu L).Ok) (hCap : Cap ≠ 0) :
    ∃ r h nlp h', runProblem C (gradientFlow mu L Cap).prog Heap.empty = .ok (r, h) ∧ solveIpopt C r stdParams [] [] h = .ok (nlp, h') ∧
      ∀ p : Name → ℝ, p "h" ≠ 0 → p "alpha" ≠ 0 → ¬ (p "alpha" = 1 ∧ p "beta" = 1) →
        ((∃ σ, nlp.state.Sat σ ∧ ∀ n ∈ scalarNames stdParams, nlp.state.value σ n = p n) ↔
          GradientFlowStep mu L Cap p ∧ 0 ≤ p "eta" ∧ 0 ≤ p "rho" ∧ 0 ≤ p "h") := by
  have hd : ∀ d ∈ decls (gradientFlow mu L Cap).prog, d.Ok := by
    calls_simp [gradientFlow]
    simpa [decls] using hok
  obtain ⟨r, h, nlp, h', hr, hn, hiff⟩ := complete_of_runs (prog := (gradientFlow mu L Cap).prog) (params := stdParams) (Gen := GenericFlow Cap) hC
    (by calls_simp [gradientFlow]; safe_simp []) (by calls_simp [gradientFlow]; simp [Instr.Clean, stdParams])
    (standard_gradientFlow mu L Cap).1 (fun d hm => ⟨hd d hm, (standard_gradientFlow mu L Cap).2 d hm⟩) stdParams_simple
    (by calls_simp [gradientFlow]; exact ⟨7, by simp⟩) ⟨fun _ => 2, by norm_num, by norm_num, by norm_num, hCap⟩
    fun p hg => run_gradientFlow mu L Cap hok hg
  refine ⟨r, h, nlp, h', hr, hn, fun p h1 h2 h3 => ?_⟩
  have hinv : InvOk stdParams p := fun v hv => absurd hv (by rw [show invParams stdParams = [] by decide]; simp)
  rw [hiff p ⟨h1, h2, h3, hCap⟩, guaranteed_gradientFlow]
  simp [hinv]

example : (defDecl 0 (some 1)).Ok := by simp [defDecl, FnDecl.Ok]

end Verif
