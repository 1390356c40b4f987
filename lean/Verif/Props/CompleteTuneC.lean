import Verif.Props.CompleteCircuits
import Verif.Proofs.Robust
import Verif.Props.RealizeCircuits
import Verif.Props.CircuitsCentral
import Verif.Props.CircuitCerts

/-!
# C69 for the gradient flow circuit with a tuned capacity
-/

namespace Verif
open Build
open scoped InnerProductSpace

set_option linter.unusedSimpArgs false

variable {C : CAS}

/-- the functions of a circuit are evaluated at different points: parameter values of `gradient_flow_circuit_tuneC` -/
def GenericFlowC (p : Name → ℝ) : Prop := p "h" ≠ 0 ∧ p "alpha" ≠ 0 ∧ ¬ (p "alpha" = 1 ∧ p "beta" = 1) ∧ p "invC" ≠ 0

theorem run_gradientFlowTuneC (mu : ℚ) (L : Option ℚ) (hok : (defDecl mu L).Ok) {p : Name → ℝ} (hg : GenericFlowC p) :
    ∃ fs V, StrictRun (gradientFlowTuneC mu L).prog p fs V := by
  obtain ⟨hh, ha, hab, hC⟩ := hg
  obtain ⟨c, x1h, x2, hc, hc0, e1, e2, hdist⟩ := flow_choice hok (mul_ne_zero hh hC) ha hab
  have hmu := defDecl_nonneg hok
  refine ⟨fun k => [quadF c 0].getD k (quadF c 0), ⟨fun i => [0, 0, 1, c * 1, x1h, c * x1h, x2, c * x2].getD i 0,
    fun i => [0, c / 2 * 1 ^ 2, c / 2 * x1h ^ 2, c / 2 * x2 ^ 2, p "C" / 2 * ‖(1 : ℝ) - 0‖ ^ 2, p "C" / 2 * ‖x2 - 0‖ ^ 2,
      p "eta" * (c / 2 * 1 ^ 2 - 0), p "C" / 2 * ‖x2 - 0‖ ^ 2 - (p "C" / 2 * ‖(1 : ℝ) - 0‖ ^ 2 - p "eta" * (c / 2 * 1 ^ 2 - 0))].getD i 0,
    fun i => [Finsupp.single 0 1].getD i 0⟩, ?_, ?_, ?_, ?_, ?_⟩
  all_goals calls_simp [gradientFlowTuneC]
  · exact instance_of_list (.cons (quadF_holds hmu hc 0) .nil)
  · rintro (_ | k) d hd
    · injection hd with hd; subst hd; exact quadF_strict hmu hc 0
    · simp [decls] at hd
  · refine ⟨rfl, ⟨smp (quadF_smp0 hc0), rfl⟩, trivial, smp (quadF_smp hc0 1), ?_, smp (quadF_smp hc0 _), ?_, smp (quadF_smp hc0 _), ?_, ?_, ?_,
      rfl, trivial, trivial⟩
    · simp [Instr.Meets, Instr.next]
      rw [e1]; ring
    · simp [Instr.Meets, Instr.next]
      rw [e2, e1]; ring
    all_goals simp [Instr.Meets, Instr.next]
  · simp [consVals]
  · rintro (_ | k) hk
    · simpa [calls, callsFrom, Instr.callsOf, Instr.next, declIndex, Instr.declares] using hdist
    · simp [decls] at hk

/-- the energy inequality of `gradient_flow_circuit_tuneC` (`classical_central_vi.py` 47-77) for all functions and all steps -/
def GradientFlowTuneCStep (mu : ℚ) (L : Option ℚ) (p : Name → ℝ) : Prop :=
  ∀ (E : Type) [NormedAddCommGroup E] [InnerProductSpace ℝ E] (f : CFun E), (defDecl mu L).Holds f →
    ∀ (x_star x_1 y_1 x_1p5 y_1p5 x_2 y_2 : E) (f_star f_1 f_1p5 f_2 : ℝ),
      f.Sample x_star 0 f_star → f.Sample x_1 y_1 f_1 →
      x_1p5 = x_1 - (p "alpha" * p "h" * p "invC") • y_1 → f.Sample x_1p5 y_1p5 f_1p5 →
      x_2 = x_1 - (p "beta" * p "h" * p "invC") • y_1 - ((1 - p "beta") * p "h" * p "invC") • y_1p5 → f.Sample x_2 y_2 f_2 →
      p "C" / 2 * ‖x_2 - x_star‖ ^ 2 ≤ p "C" / 2 * ‖x_1 - x_star‖ ^ 2 - p "eta" * (f_1 - f_star)

theorem guaranteed_gradientFlowTuneC (mu : ℚ) (L : Option ℚ) {p : Name → ℝ} :
    Guaranteed (gradientFlowTuneC mu L).prog p ↔ GradientFlowTuneCStep mu L p := by
  calls_simp [gradientFlowTuneC]
  constructor
  · intro hc E _ _ f hf x_star x_1 y_1 x_1p5 y_1p5 x_2 y_2 f_star f_1 f_1p5 f_2 h1 h2 h3 h4 h5 h6
    have key := hc.vals (fs := fun k => [f].getD k f) (e := 7) (by safe_simp []) (instance_of_list (.cons hf .nil))
      ⟨fun i => [x_star, 0, x_1, y_1, x_1p5, y_1p5, x_2, y_2].getD i 0,
        fun i => [f_star, f_1, f_1p5, f_2, p "C" / 2 * ‖x_1 - x_star‖ ^ 2, p "C" / 2 * ‖x_2 - x_star‖ ^ 2, p "eta" * (f_1 - f_star),
          p "C" / 2 * ‖x_2 - x_star‖ ^ 2 - (p "C" / 2 * ‖x_1 - x_star‖ ^ 2 - p "eta" * (f_1 - f_star))].getD i 0, fun i => [Finsupp.single 0 1].getD i 0⟩
      ⟨rfl, ⟨smp h1, rfl⟩, trivial, smp h2, by simpa [Instr.Meets, Instr.next] using h3, smp h4, by simpa [Instr.Meets, Instr.next] using h5, smp h6,
        by simp [Instr.Meets, Instr.next], by simp [Instr.Meets, Instr.next], by simp [Instr.Meets, Instr.next], rfl, trivial, trivial⟩
      (by simp [consVals]) rfl
    simp only [List.getD_cons_succ, List.getD_cons_zero] at key
    linarith
  · intro h
    refine guaranteed_of_vals (by safe_simp []) (e := 7) rfl fun {E} _ _ fs hi V hm _ => ?_
    simp [MeetsAll, Instr.Meets, Instr.next] at hm
    obtain ⟨d0, ⟨s1, z1⟩, s2, m3, s4, m5, s6, m7, m8, m9, m10⟩ := hm
    rw [d0] at s1 s2 s4 s6
    rw [z1] at s1
    have := h E (fs 0) (hi 0 _ rfl) _ _ _ _ _ _ _ _ _ _ _ (sample_of_single s1) (sample_of_single s2) m3 (sample_of_single s4) m5 (sample_of_single s6)
    rw [m10, m7, m8, m9]
    linarith

/-- **C69** for `gradient_flow_circuit_tuneC`, for all class parameters; the capacity is a parameter: at all parameter values with different points the nonlinear
program of `solve_ipopt` has a feasible point with these parameters if and only if the energy inequality holds for all functions of the class
and all steps (and `eta`, `rho`, `h` are not negative, and `C`, `invC` are reciprocal). -/
theorem C69_gradientFlowTuneC (hC : C.Lawful) (mu : ℚ) (L : Option ℚ) (hok : (defDecl mu L).Ok) :
    ∃ r h nlp h', runProblem C (gradientFlowTuneC mu L).prog Heap.empty = .ok (r, h) ∧ solveIpopt C r tuneCParams [] [] h = .ok (nlp, h') ∧
      ∀ p : Name → ℝ, p "h" ≠ 0 → p "alpha" ≠ 0 → ¬ (p "alpha" = 1 ∧ p "beta" = 1) → p "invC" ≠ 0 →
        ((∃ σ, nlp.state.Sat σ ∧ ∀ n ∈ scalarNames tuneCParams, nlp.state.value σ n = p n) ↔
          GradientFlowTuneCStep mu L p ∧ p "C" * p "invC" = 1 ∧ 1 / 10000000 ≤ p "C" ∧ 0 ≤ p "eta" ∧ 0 ≤ p "rho" ∧ 0 ≤ p "h") := by
  have hd : ∀ d ∈ decls (gradientFlowTuneC mu L).prog, d.Ok := by
    calls_simp [gradientFlowTuneC]
    simpa [decls] using hok
  obtain ⟨r, h, nlp, h', hr, hn, hiff⟩ := complete_of_runs (prog := (gradientFlowTuneC mu L).prog) (params := tuneCParams) (Gen := GenericFlowC) hC
    (by calls_simp [gradientFlowTuneC]; safe_simp []) (by calls_simp [gradientFlowTuneC]; simp [Instr.Clean, tuneCParams])
    (standard_gradientFlowTuneC mu L).1 (fun d hm => ⟨hd d hm, (standard_gradientFlowTuneC mu L).2 d hm⟩) tuneCParams_simple
    (by calls_simp [gradientFlowTuneC]; exact ⟨7, by simp⟩) ⟨fun _ => 2, by norm_num, by norm_num, by norm_num, by norm_num⟩
    fun p hg => run_gradientFlowTuneC mu L hok hg
  refine ⟨r, h, nlp, h', hr, hn, fun p h1 h2 h3 h4 => ?_⟩
  have hinv : InvOk tuneCParams p ↔ p "C" * p "invC" = 1 ∧ 1 / 10000000 ≤ p "C" := by
    unfold InvOk
    rw [show invParams tuneCParams = ["C"] by decide]
    simp
  rw [hiff p ⟨h1, h2, h3, h4⟩, guaranteed_gradientFlowTuneC]
  simp [hinv, and_assoc]

end Verif
