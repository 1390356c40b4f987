import Verif.Props.Certificate
import Verif.Proofs.CircuitFeasible

/-!
# C34: one-step guarantees of the circuits of `classical_central_vi.py`

For every builder: let `p` be the parameter values of a feasible point of the nonlinear program that `solve_ipopt` makes of the builder's
problem.  Then for all functions of the classes, in every real inner product space, for every step of the discretized algorithm, written
out below line by line, the energy inequality `E_2 ≤ E_1 - Delta_1` holds.  Every theorem states: the functions are of their classes;
the points and values are samples of the functions; the points follow the updates; the energies are those of the circuit.

Axioms of every theorem: propext, Classical.choice, Quot.sound.
-/

namespace Verif
open Build
open scoped InnerProductSpace

variable {E : Type} [NormedAddCommGroup E] [InnerProductSpace ℝ E] {C : CAS}

/-- **C34** for `gradient_flow_circuit` (`classical_central_vi.py` 17-44`). -/
theorem C34_gradientFlow (hC : C.Lawful) (mu : ℚ) (L : Option ℚ) (Cap : ℚ)  (hok0 : (defDecl mu L).Ok)
    {p : Name → ℝ} (hp : IpoptFeasible C (gradientFlow mu L Cap).prog stdParams p)
    (f : CFun E) (hf_f : (defDecl mu L).Holds f)
    {x_star x_1 y_1 x_1p5 y_1p5 x_2 y_2 : E} {f_star f_1 f_1p5 f_2 E_1 E_2 Delta_1 : ℝ}
    (h1 : f.Sample x_star 0 f_star)
    (h2 : f.Sample x_1 y_1 f_1)
    (h3 : x_1p5 = x_1 - (p "alpha" * p "h" / Cap) • y_1)
    (h4 : f.Sample x_1p5 y_1p5 f_1p5)
    (h5 : x_2 = x_1 - (p "beta" * p "h" / Cap) • y_1 - ((1 - p "beta") * p "h" / Cap) • y_1p5)
    (h6 : f.Sample x_2 y_2 f_2)
    (h7 : E_1 = Cap / 2 * ‖x_1 - x_star‖ ^ 2)
    (h8 : E_2 = Cap / 2 * ‖x_2 - x_star‖ ^ 2)
    (h9 : Delta_1 = p "eta" * (f_1 - f_star)) :
    E_2 ≤ E_1 - Delta_1 := by
  have hc : Guaranteed (gradientFlow mu L Cap).prog p := guaranteed_of_feasible hC (by calls_simp [gradientFlow]; simp [Instr.Clean, stdParams])
    (by decide) (by decide) (by
      calls_simp [gradientFlow]
      intro d hd
      simp only [decls, List.mem_cons, List.not_mem_nil, or_false, or_self] at hd
      rcases hd with rfl <;> assumption) hp
  calls_simp [gradientFlow] at hc
  have key := hc.vals (fs := fun k => [f].getD k f) (e := 7) (by safe_simp [])
    (instance_of_list (.cons hf_f .nil))
    ⟨fun i => [x_star, 0, x_1, y_1, x_1p5, y_1p5, x_2, y_2].getD i 0,
      fun i => [f_star, f_1, f_1p5, f_2, E_1, E_2, Delta_1, E_2 - (E_1 - Delta_1)].getD i 0, fun i => [Finsupp.single 0 1].getD i 0⟩
    ⟨rfl,
      ⟨smp h1, rfl⟩,
      trivial,
      smp h2,
      by simpa [Instr.Meets, Instr.next] using h3,
      smp h4,
      by simpa [Instr.Meets, Instr.next] using h5,
      smp h6,
      by simpa [Instr.Meets, Instr.next] using h7,
      by simpa [Instr.Meets, Instr.next] using h8,
      by simpa [Instr.Meets, Instr.next] using h9,
      rfl,
      trivial,
      trivial⟩
    (by simp [consVals]) rfl
  simp only [List.getD_cons_succ, List.getD_cons_zero] at key
  linarith

/-- **C34** for `gradient_flow_circuit_tuneC` (`classical_central_vi.py` 47-77`). -/
theorem C34_gradientFlowTuneC (hC : C.Lawful) (mu : ℚ) (L : Option ℚ)  (hok0 : (defDecl mu L).Ok)
    {p : Name → ℝ} (hp : IpoptFeasible C (gradientFlowTuneC mu L).prog tuneCParams p)
    (f : CFun E) (hf_f : (defDecl mu L).Holds f)
    {x_star x_1 y_1 x_1p5 y_1p5 x_2 y_2 : E} {f_star f_1 f_1p5 f_2 E_1 E_2 Delta_1 : ℝ}
    (h1 : f.Sample x_star 0 f_star)
    (h2 : f.Sample x_1 y_1 f_1)
    (h3 : x_1p5 = x_1 - (p "alpha" * p "h" * p "invC") • y_1)
    (h4 : f.Sample x_1p5 y_1p5 f_1p5)
    (h5 : x_2 = x_1 - (p "beta" * p "h" * p "invC") • y_1 - ((1 - p "beta") * p "h" * p "invC") • y_1p5)
    (h6 : f.Sample x_2 y_2 f_2)
    (h7 : E_1 = p "C" / 2 * ‖x_1 - x_star‖ ^ 2)
    (h8 : E_2 = p "C" / 2 * ‖x_2 - x_star‖ ^ 2)
    (h9 : Delta_1 = p "eta" * (f_1 - f_star)) :
    E_2 ≤ E_1 - Delta_1 := by
  have hc : Guaranteed (gradientFlowTuneC mu L).prog p := guaranteed_of_feasible hC (by calls_simp [gradientFlowTuneC]; simp [Instr.Clean, tuneCParams])
    (by decide) (by decide) (by
      calls_simp [gradientFlowTuneC]
      intro d hd
      simp only [decls, List.mem_cons, List.not_mem_nil, or_false, or_self] at hd
      rcases hd with rfl <;> assumption) hp
  calls_simp [gradientFlowTuneC] at hc
  have key := hc.vals (fs := fun k => [f].getD k f) (e := 7) (by safe_simp [])
    (instance_of_list (.cons hf_f .nil))
    ⟨fun i => [x_star, 0, x_1, y_1, x_1p5, y_1p5, x_2, y_2].getD i 0,
      fun i => [f_star, f_1, f_1p5, f_2, E_1, E_2, Delta_1, E_2 - (E_1 - Delta_1)].getD i 0, fun i => [Finsupp.single 0 1].getD i 0⟩
    ⟨rfl,
      ⟨smp h1, rfl⟩,
      trivial,
      smp h2,
      by simpa [Instr.Meets, Instr.next] using h3,
      smp h4,
      by simpa [Instr.Meets, Instr.next] using h5,
      smp h6,
      by simpa [Instr.Meets, Instr.next] using h7,
      by simpa [Instr.Meets, Instr.next] using h8,
      by simpa [Instr.Meets, Instr.next] using h9,
      rfl,
      trivial,
      trivial⟩
    (by simp [consVals]) rfl
  simp only [List.getD_cons_succ, List.getD_cons_zero] at key
  linarith

/-- **C34** for `accelerated_gradient_circuit` (`classical_central_vi.py` 80-115`). -/
theorem C34_acceleratedGradient (hC : C.Lawful) (mu : ℚ) (L : Option ℚ) (R Cap Ind : ℚ)  (hok0 : (defDecl mu L).Ok)
    {p : Name → ℝ} (hp : IpoptFeasible C (acceleratedGradient mu L R Cap Ind).prog stdParams p)
    (f : CFun E) (hf_f : (defDecl mu L).Holds f)
    {x_star v_C_1 i_L_1 x_1 y_1 i_L_1p5 v_C_1p5 x_1p5 y_1p5 i_L_2 v_C_2 x_2 y_2 : E} {f_star f_1 f_1p5 f_2 E_1 E_2 Delta_1 : ℝ}
    (h1 : f.Sample x_star 0 f_star)
    (h2 : x_1 = (R : ℝ) • i_L_1 + v_C_1)
    (h3 : f.Sample x_1 y_1 f_1)
    (h4 : i_L_1p5 = i_L_1 + (p "alpha" * p "h" / Ind) • (v_C_1 - (x_1 - (R : ℝ) • y_1)))
    (h5 : v_C_1p5 = v_C_1 - (p "alpha" * p "h" / Cap) • y_1)
    (h6 : x_1p5 = (R : ℝ) • i_L_1p5 + v_C_1p5)
    (h7 : f.Sample x_1p5 y_1p5 f_1p5)
    (h8 : i_L_2 = i_L_1 + (p "beta" * p "h" / Ind) • (v_C_1 - (x_1 - (R : ℝ) • y_1)) + ((1 - p "beta") * p "h" / Ind) • (v_C_1p5 - (x_1p5 - (R : ℝ) • y_1p5)))
    (h9 : v_C_2 = v_C_1 - (p "beta" * p "h" / Cap) • y_1 - ((1 - p "beta") * p "h" / Cap) • y_1p5)
    (h10 : x_2 = (R : ℝ) • i_L_2 + v_C_2)
    (h11 : f.Sample x_2 y_2 f_2)
    (h12 : E_1 = Cap / 2 * ‖v_C_1 - x_star‖ ^ 2 + Ind / 2 * ‖i_L_1‖ ^ 2)
    (h13 : E_2 = Cap / 2 * ‖v_C_2 - x_star‖ ^ 2 + Ind / 2 * ‖i_L_2‖ ^ 2)
    (h14 : Delta_1 = p "rho" * (R : ℝ) * ‖y_1 - i_L_1‖ ^ 2 + p "eta" * (f_1 - f_star)) :
    E_2 ≤ E_1 - Delta_1 := by
  have hc : Guaranteed (acceleratedGradient mu L R Cap Ind).prog p := guaranteed_of_feasible hC (by calls_simp [acceleratedGradient]; simp [Instr.Clean, stdParams])
    (by decide) (by decide) (by
      calls_simp [acceleratedGradient]
      intro d hd
      simp only [decls, List.mem_cons, List.not_mem_nil, or_false, or_self] at hd
      rcases hd with rfl <;> assumption) hp
  calls_simp [acceleratedGradient] at hc
  have key := hc.vals (fs := fun k => [f].getD k f) (e := 7) (by safe_simp [])
    (instance_of_list (.cons hf_f .nil))
    ⟨fun i => [x_star, 0, v_C_1, i_L_1, x_1, y_1, i_L_1p5, v_C_1p5, x_1p5, y_1p5, i_L_2, v_C_2, x_2, y_2].getD i 0,
      fun i => [f_star, f_1, f_1p5, f_2, E_1, E_2, Delta_1, E_2 - (E_1 - Delta_1)].getD i 0, fun i => [Finsupp.single 0 1].getD i 0⟩
    ⟨rfl,
      ⟨smp h1, rfl⟩,
      trivial,
      trivial,
      by simpa [Instr.Meets, Instr.next] using h2,
      smp h3,
      by simpa [Instr.Meets, Instr.next] using h4,
      by simpa [Instr.Meets, Instr.next] using h5,
      by simpa [Instr.Meets, Instr.next] using h6,
      smp h7,
      by simpa [Instr.Meets, Instr.next] using h8,
      by simpa [Instr.Meets, Instr.next] using h9,
      by simpa [Instr.Meets, Instr.next] using h10,
      smp h11,
      by simpa [Instr.Meets, Instr.next] using h12,
      by simpa [Instr.Meets, Instr.next] using h13,
      by simpa [Instr.Meets, Instr.next] using h14,
      rfl,
      trivial,
      trivial⟩
    (by simp [consVals]) rfl
  simp only [List.getD_cons_succ, List.getD_cons_zero] at key
  linarith

/-- **C34** for `accelerated_gradient_circuit_tuneRLC` (`classical_central_vi.py` 118-158`). -/
theorem C34_acceleratedGradientTuneRLC (hC : C.Lawful) (mu : ℚ) (L : Option ℚ)  (hok0 : (defDecl mu L).Ok)
    {p : Name → ℝ} (hp : IpoptFeasible C (acceleratedGradientTuneRLC mu L).prog tuneRLCParams p)
    (f : CFun E) (hf_f : (defDecl mu L).Holds f)
    {x_star v_C_1 i_L_1 x_1 y_1 i_L_1p5 v_C_1p5 x_1p5 y_1p5 i_L_2 v_C_2 x_2 y_2 : E} {f_star f_1 f_1p5 f_2 E_1 E_2 Delta_1 : ℝ}
    (h1 : f.Sample x_star 0 f_star)
    (h2 : x_1 = p "R" • i_L_1 + v_C_1)
    (h3 : f.Sample x_1 y_1 f_1)
    (h4 : i_L_1p5 = i_L_1 + (p "alpha" * p "h" * p "invL") • (v_C_1 - (x_1 - p "R" • y_1)))
    (h5 : v_C_1p5 = v_C_1 - (p "alpha" * p "h" * p "invC") • y_1)
    (h6 : x_1p5 = p "R" • i_L_1p5 + v_C_1p5)
    (h7 : f.Sample x_1p5 y_1p5 f_1p5)
    (h8 : i_L_2 = i_L_1 + (p "beta" * p "h" * p "invL") • (v_C_1 - (x_1 - p "R" • y_1)) + ((1 - p "beta") * p "h" * p "invL") • (v_C_1p5 - (x_1p5 - p "R" • y_1p5)))
    (h9 : v_C_2 = v_C_1 - (p "beta" * p "h" * p "invC") • y_1 - ((1 - p "beta") * p "h" * p "invC") • y_1p5)
    (h10 : x_2 = p "R" • i_L_2 + v_C_2)
    (h11 : f.Sample x_2 y_2 f_2)
    (h12 : E_1 = p "C" / 2 * ‖v_C_1 - x_star‖ ^ 2 + p "L" / 2 * ‖i_L_1‖ ^ 2)
    (h13 : E_2 = p "C" / 2 * ‖v_C_2 - x_star‖ ^ 2 + p "L" / 2 * ‖i_L_2‖ ^ 2)
    (h14 : Delta_1 = p "rho" * p "R" * ‖y_1 - i_L_1‖ ^ 2 + p "eta" * (f_1 - f_star)) :
    E_2 ≤ E_1 - Delta_1 := by
  have hc : Guaranteed (acceleratedGradientTuneRLC mu L).prog p := guaranteed_of_feasible hC (by calls_simp [acceleratedGradientTuneRLC]; simp [Instr.Clean, tuneRLCParams])
    (by decide) (by decide) (by
      calls_simp [acceleratedGradientTuneRLC]
      intro d hd
      simp only [decls, List.mem_cons, List.not_mem_nil, or_false, or_self] at hd
      rcases hd with rfl <;> assumption) hp
  calls_simp [acceleratedGradientTuneRLC] at hc
  have key := hc.vals (fs := fun k => [f].getD k f) (e := 7) (by safe_simp [])
    (instance_of_list (.cons hf_f .nil))
    ⟨fun i => [x_star, 0, v_C_1, i_L_1, x_1, y_1, i_L_1p5, v_C_1p5, x_1p5, y_1p5, i_L_2, v_C_2, x_2, y_2].getD i 0,
      fun i => [f_star, f_1, f_1p5, f_2, E_1, E_2, Delta_1, E_2 - (E_1 - Delta_1)].getD i 0, fun i => [Finsupp.single 0 1].getD i 0⟩
    ⟨rfl,
      ⟨smp h1, rfl⟩,
      trivial,
      trivial,
      by simpa [Instr.Meets, Instr.next] using h2,
      smp h3,
      by simpa [Instr.Meets, Instr.next] using h4,
      by simpa [Instr.Meets, Instr.next] using h5,
      by simpa [Instr.Meets, Instr.next] using h6,
      smp h7,
      by simpa [Instr.Meets, Instr.next] using h8,
      by simpa [Instr.Meets, Instr.next] using h9,
      by simpa [Instr.Meets, Instr.next] using h10,
      smp h11,
      by simpa [Instr.Meets, Instr.next] using h12,
      by simpa [Instr.Meets, Instr.next] using h13,
      by simpa [Instr.Meets, Instr.next] using h14,
      rfl,
      trivial,
      trivial⟩
    (by simp [consVals]) rfl
  simp only [List.getD_cons_succ, List.getD_cons_zero] at key
  linarith

/-- **C34** for `ppm_circuit` (`classical_central_vi.py` 161-192`). -/
theorem C34_ppm (hC : C.Lawful) (mu : ℚ) (L : Option ℚ) (Cap R : ℚ) (hR0 : R ≠ 0) (hok0 : (defDecl mu L).Ok)
    {p : Name → ℝ} (hp : IpoptFeasible C (ppm mu L Cap R).prog stdParams p)
    (f : CFun E) (hf_f : (defDecl mu L).Holds f)
    {x_star x_1 x1_prox y1_prox x_1p5 x1p5_prox y1p5_prox i_R_1 x_2 y_2 : E} {f_star f1_prox f1p5_prox f_2 E_1 E_2 Delta_1 : ℝ}
    (h1 : f.Sample x_star 0 f_star)
    (h2 : f.Prox R (x_1) x1_prox y1_prox f1_prox)
    (h3 : x_1p5 = x_1 - (R : ℝ)⁻¹ • (p "alpha" * p "h" / Cap) • (x_1 - x1_prox))
    (h4 : f.Prox R (x_1p5) x1p5_prox y1p5_prox f1p5_prox)
    (h5 : i_R_1 = (R : ℝ)⁻¹ • (x_1 - x1_prox))
    (h6 : x_2 = x_1 - (R : ℝ)⁻¹ • (p "beta" * p "h" / Cap) • (x_1 - x1_prox) - (R : ℝ)⁻¹ • ((1 - p "beta") * p "h" / Cap) • (x_1p5 - x1p5_prox))
    (h7 : f.Sample x_2 y_2 f_2)
    (h8 : E_1 = Cap / 2 * ‖x_1 - x_star‖ ^ 2)
    (h9 : E_2 = Cap / 2 * ‖x_2 - x_star‖ ^ 2)
    (h10 : Delta_1 = p "eta" * (f_2 - f_star) + p "rho" * R * ‖i_R_1‖ ^ 2) :
    E_2 ≤ E_1 - Delta_1 := by
  have hc : Guaranteed (ppm mu L Cap R).prog p := guaranteed_of_feasible hC (by calls_simp [ppm]; simp [Instr.Clean, stdParams])
    (by decide) (by decide) (by
      calls_simp [ppm]
      intro d hd
      simp only [decls, List.mem_cons, List.not_mem_nil, or_false, or_self] at hd
      rcases hd with rfl <;> assumption) hp
  calls_simp [ppm] at hc
  have key := hc.vals (fs := fun k => [f].getD k f) (e := 7) (by safe_simp [hR0])
    (instance_of_list (.cons hf_f .nil))
    ⟨fun i => [x_star, 0, x_1, x1_prox, y1_prox, x_1p5, x1p5_prox, y1p5_prox, i_R_1, x_2, y_2].getD i 0,
      fun i => [f_star, f1_prox, f1p5_prox, f_2, E_1, E_2, Delta_1, E_2 - (E_1 - Delta_1)].getD i 0, fun i => [Finsupp.single 0 1].getD i 0⟩
    ⟨rfl,
      ⟨smp h1, rfl⟩,
      trivial,
      ⟨smp h2.1, by simpa [Instr.next] using h2.2⟩,
      by simpa [Instr.Meets, Instr.next] using h3,
      ⟨smp h4.1, by simpa [Instr.next] using h4.2⟩,
      by simpa [Instr.Meets, Instr.next] using h5,
      by simpa [Instr.Meets, Instr.next] using h6,
      smp h7,
      by simpa [Instr.Meets, Instr.next] using h8,
      by simpa [Instr.Meets, Instr.next] using h9,
      by simpa [Instr.Meets, Instr.next] using h10,
      rfl,
      trivial,
      trivial⟩
    (by simp [consVals]) rfl
  simp only [List.getD_cons_succ, List.getD_cons_zero] at key
  linarith

/-- **C34** for `prox_gradient_circuit` (`classical_central_vi.py` 195-235`). -/
theorem C34_proxGradient (hC : C.Lawful) (mu : ℚ) (L : Option ℚ) (R Cap : ℚ) (hR0 : R ≠ 0) (hok0 : (defDecl mu L).Ok) (hok1 : (defDecl 0 none).Ok)
    {p : Name → ℝ} (hp : IpoptFeasible C (proxGradient mu L R Cap).prog stdParams p)
    (f : CFun E) (g : CFun E) (hf_f : (defDecl mu L).Holds f) (hf_g : (defDecl 0 none).Holds g)
    {x_star y2_star e_star x2_1 y2_1 e_1 x1_1 y1_1 nabla x2_2 y2_2 e_2 x1_2 y1_2 : E} {f_star g_star f_1 g_1 f_2 g_2 E_1 E_2 Delta_1 : ℝ}
    (h1 : f.Sample x_star y2_star f_star)
    (h2 : g.Sample x_star (-y2_star) g_star)
    (h3 : e_star = x_star - (R : ℝ) • y2_star)
    (h4 : f.Sample x2_1 y2_1 f_1)
    (h5 : e_1 = x2_1 - (R : ℝ) • y2_1)
    (h6 : g.Prox R (e_1) x1_1 y1_1 g_1)
    (h7 : nabla = (R : ℝ)⁻¹ • (e_1 - x1_1))
    (h8 : x2_2 = x2_1 - (p "h" / Cap) • (nabla + y2_1))
    (h9 : f.Sample x2_2 y2_2 f_2)
    (h10 : e_2 = x2_2 - (R : ℝ) • y2_2)
    (h11 : g.Prox R (e_2) x1_2 y1_2 g_2)
    (h12 : E_1 = Cap / 2 * ‖e_1 - e_star‖ ^ 2)
    (h13 : E_2 = Cap / 2 * ‖e_2 - e_star‖ ^ 2)
    (h14 : Delta_1 = p "eta" * (invSmooth L - R) * ‖y2_1 - y2_star‖ ^ 2 + p "rho" * R * ‖nabla + y2_star‖ ^ 2) :
    E_2 ≤ E_1 - Delta_1 := by
  have hc : Guaranteed (proxGradient mu L R Cap).prog p := guaranteed_of_feasible hC (by calls_simp [proxGradient]; simp [Instr.Clean, stdParams])
    (by decide) (by decide) (by
      calls_simp [proxGradient]
      intro d hd
      simp only [decls, List.mem_cons, List.not_mem_nil, or_false, or_self] at hd
      rcases hd with rfl | rfl <;> assumption) hp
  calls_simp [proxGradient] at hc
  have key := hc.vals (fs := fun k => [f, g].getD k f) (e := 9) (by safe_simp [hR0])
    (instance_of_list (.cons hf_f (.cons hf_g .nil)))
    ⟨fun i => [x_star, 0, y2_star, -y2_star, e_star, x2_1, y2_1, e_1, x1_1, y1_1, nabla, x2_2, y2_2, e_2, x1_2, y1_2].getD i 0,
      fun i => [f_star + g_star, f_star, f_1, g_1, f_2, g_2, E_1, E_2, Delta_1, E_2 - (E_1 - Delta_1)].getD i 0, fun i => [Finsupp.single 0 1, Finsupp.single 1 1, Finsupp.single 0 1 + Finsupp.single 1 1].getD i 0⟩
    ⟨rfl,
      rfl,
      rfl,
      ⟨((smp (SR := fun k => ([f, g].getD k f).Sample) (k := 0) h1).addSingle (k := 1) h2 (by simp)).zero (add_neg_cancel _), rfl⟩,
      smp h1,
      by simp [Instr.Meets, Instr.next],
      by simpa [Instr.Meets, Instr.next] using h3,
      trivial,
      smp h4,
      by simpa [Instr.Meets, Instr.next] using h5,
      ⟨smp h6.1, by simpa [Instr.next] using h6.2⟩,
      by simpa [Instr.Meets, Instr.next] using h7,
      by simpa [Instr.Meets, Instr.next] using h8,
      smp h9,
      by simpa [Instr.Meets, Instr.next] using h10,
      ⟨smp h11.1, by simpa [Instr.next] using h11.2⟩,
      by simpa [Instr.Meets, Instr.next] using h12,
      by simpa [Instr.Meets, Instr.next] using h13,
      by simpa [Instr.Meets, Instr.next] using h14,
      rfl,
      trivial,
      trivial⟩
    (by simp [consVals]) rfl
  simp only [List.getD_cons_succ, List.getD_cons_zero] at key
  linarith

/-- **C34** for `douglas_rachford_splitting` (`classical_central_vi.py` 344-390`). -/
theorem C34_douglasRachford (hC : C.Lawful) (mu : ℚ) (L : Option ℚ) (R Ind : ℚ)  (hok0 : (defDecl mu L).Ok)
    {p : Name → ℝ} (hp : IpoptFeasible C (douglasRachford mu L R Ind).prog stdParams p)
    (f1 : CFun E) (f2 : CFun E) (hf_f1 : (defDecl mu L).Holds f1) (hf_f2 : (defDecl mu L).Holds f2)
    {x_star y1_star y2_star i_L_0 x2_0 x1_1 y1_1 x2_1 y2_1 i_L_1 x1_1p5 y1_1p5 x2_1p5 y2_1p5 i_L_1p5 x1_2 y1_2 x2_2 y2_2 i_L_2 : E} {f1_star f2_star f1_1 f2_1 f1_1p5 f2_1p5 f1_2 f2_2 E_1 E_2 Delta_1 : ℝ}
    (h1 : f1.Sample x_star y1_star f1_star)
    (h2 : f2.Sample x_star y2_star f2_star)
    (h3 : y1_star + y2_star = 0)
    (h4 : f1.Prox R (x2_0 + (R : ℝ) • i_L_0) x1_1 y1_1 f1_1)
    (h5 : f2.Prox R (x1_1 - (R : ℝ) • i_L_0) x2_1 y2_1 f2_1)
    (h6 : i_L_1 = i_L_0 + (p "h" / Ind) • (x2_1 - x1_1))
    (h7 : f1.Prox R (x2_1 + (R : ℝ) • i_L_1) x1_1p5 y1_1p5 f1_1p5)
    (h8 : f2.Prox R (x1_1p5 - (R : ℝ) • i_L_1) x2_1p5 y2_1p5 f2_1p5)
    (h9 : i_L_1p5 = i_L_1 + (p "alpha" * p "h" / Ind) • (x2_1 - x1_1))
    (h10 : f1.Prox R (x2_1p5 + (R : ℝ) • i_L_1p5) x1_2 y1_2 f1_2)
    (h11 : f2.Prox R (x1_2 - (R : ℝ) • i_L_1p5) x2_2 y2_2 f2_2)
    (h12 : i_L_2 = i_L_1 + (p "beta" * p "h" / Ind) • (x2_1 - x1_1) + ((1 - p "beta") * p "h" / Ind) • (x2_1p5 - x1_1p5))
    (h13 : E_1 = Ind / 2 * ‖i_L_1 - y1_star‖ ^ 2 + p "gamma" * ‖x2_1 - x_star‖ ^ 2)
    (h14 : E_2 = Ind / 2 * ‖i_L_2 - y1_star‖ ^ 2 + p "gamma" * ‖x2_2 - x_star‖ ^ 2)
    (h15 : Delta_1 = p "rho" * R * ‖y1_1 - i_L_1‖ ^ 2 + p "eta" * (f1_1 + f2_1 - ⟪y1_star, x1_1 - x_star⟫_ℝ - ⟪y2_star, x2_1 - x_star⟫_ℝ - (f1_star + f2_star))) :
    E_2 ≤ E_1 - Delta_1 := by
  have hc : Guaranteed (douglasRachford mu L R Ind).prog p := guaranteed_of_feasible hC (by calls_simp [douglasRachford]; simp [Instr.Clean, stdParams])
    (by decide) (by decide) (by
      calls_simp [douglasRachford]
      intro d hd
      simp only [decls, List.mem_cons, List.not_mem_nil, or_false, or_self] at hd
      rcases hd with rfl <;> assumption) hp
  calls_simp [douglasRachford] at hc
  have key := hc.vals (fs := fun k => [f1, f2].getD k f1) (e := 13) (by safe_simp [])
    (instance_of_list (.cons hf_f1 (.cons hf_f2 .nil)))
    ⟨fun i => [x_star, 0, y1_star, y2_star, i_L_0, x2_0, x2_0 + (R : ℝ) • i_L_0, x1_1, y1_1, x1_1 - (R : ℝ) • i_L_0, x2_1, y2_1, i_L_1, x2_1 + (R : ℝ) • i_L_1, x1_1p5, y1_1p5, x1_1p5 - (R : ℝ) • i_L_1, x2_1p5, y2_1p5, i_L_1p5, x2_1p5 + (R : ℝ) • i_L_1p5, x1_2, y1_2, x1_2 - (R : ℝ) • i_L_1p5, x2_2, y2_2, i_L_2].getD i 0,
      fun i => [f1_star + f2_star, f1_star, f2_star, 0, f1_1, f2_1, f1_1p5, f2_1p5, f1_2, f2_2, E_1, E_2, Delta_1, E_2 - (E_1 - Delta_1)].getD i 0, fun i => [Finsupp.single 0 1, Finsupp.single 1 1, Finsupp.single 0 1 + Finsupp.single 1 1].getD i 0⟩
    ⟨rfl,
      rfl,
      rfl,
      ⟨((smp (SR := fun k => ([f1, f2].getD k f1).Sample) (k := 0) h1).addSingle (k := 1) h2 (by simp)).zero h3, rfl⟩,
      smp h1,
      smp h2,
      by simp [Instr.Meets, Instr.next, h3],
      trivial,
      trivial,
      trivial,
      by simp [Instr.Meets, Instr.next],
      ⟨smp h4.1, by simpa [Instr.next] using h4.2⟩,
      by simp [Instr.Meets, Instr.next],
      ⟨smp h5.1, by simpa [Instr.next] using h5.2⟩,
      by simpa [Instr.Meets, Instr.next] using h6,
      by simp [Instr.Meets, Instr.next],
      ⟨smp h7.1, by simpa [Instr.next] using h7.2⟩,
      by simp [Instr.Meets, Instr.next],
      ⟨smp h8.1, by simpa [Instr.next] using h8.2⟩,
      by simpa [Instr.Meets, Instr.next] using h9,
      by simp [Instr.Meets, Instr.next],
      ⟨smp h10.1, by simpa [Instr.next] using h10.2⟩,
      by simp [Instr.Meets, Instr.next],
      ⟨smp h11.1, by simpa [Instr.next] using h11.2⟩,
      by simpa [Instr.Meets, Instr.next] using h12,
      by simpa [Instr.Meets, Instr.next] using h13,
      by simpa [Instr.Meets, Instr.next] using h14,
      by simpa [Instr.Meets, Instr.next] using h15,
      rfl,
      trivial,
      trivial⟩
    (by simp [consVals]) rfl
  simp only [List.getD_cons_succ, List.getD_cons_zero] at key
  linarith

/-- **C34** for `davis_yin_splitting` (`classical_central_vi.py` 393-451`). -/
theorem C34_davisYin (hC : C.Lawful) (mu : ℚ) (L : Option ℚ) (R Ind : ℚ)  (hok0 : (defDecl mu L).Ok)
    {p : Name → ℝ} (hp : IpoptFeasible C (davisYin mu L R Ind).prog stdParams p)
    (f1 : CFun E) (f2 : CFun E) (f3 : CFun E) (hf_f1 : (defDecl mu L).Holds f1) (hf_f2 : (defDecl mu L).Holds f2) (hf_f3 : (defDecl mu L).Holds f3)
    {x_star y1_star y2_star y3_star i_L_0 x2_0 y3_0 e_0 x1_1 y1_1 x2_1 y2_1 i_L_1 y3_1 e_1 x1_1p5 y1_1p5 x2_1p5 y2_1p5 i_L_1p5 y3_1p5 e_1p5 x1_2 y1_2 x2_2 y2_2 i_L_2 y3_2 e_2 e_star : E} {f1_star f2_star f3_star f3_0 f1_1 f2_1 f3_1 f1_1p5 f2_1p5 f3_1p5 f1_2 f2_2 f3_2 E_1 E_2 Delta_1 : ℝ}
    (h1 : f1.Sample x_star y1_star f1_star)
    (h2 : f2.Sample x_star y2_star f2_star)
    (h3 : f3.Sample x_star y3_star f3_star)
    (h4 : y1_star + y2_star + y3_star = 0)
    (h5 : f3.Sample x2_0 y3_0 f3_0)
    (h6 : e_0 = x2_0 - (R : ℝ) • i_L_0 - (R : ℝ) • y3_0)
    (h7 : f1.Prox R ((2 : ℝ) • x2_0 - e_0 - (R : ℝ) • y3_0) x1_1 y1_1 f1_1)
    (h8 : f2.Prox R (x1_1 + e_0 - x2_0) x2_1 y2_1 f2_1)
    (h9 : i_L_1 = i_L_0 + (p "h" / Ind) • (x2_1 - x1_1))
    (h10 : f3.Sample x2_1 y3_1 f3_1)
    (h11 : e_1 = x2_1 - (R : ℝ) • y3_1 - (R : ℝ) • i_L_1)
    (h12 : f1.Prox R ((2 : ℝ) • x2_1 - e_1 - (R : ℝ) • y3_1) x1_1p5 y1_1p5 f1_1p5)
    (h13 : f2.Prox R (x1_1p5 + e_1 - x2_1) x2_1p5 y2_1p5 f2_1p5)
    (h14 : i_L_1p5 = i_L_1 + (p "alpha" * p "h" / Ind) • (x2_1p5 - x1_1p5))
    (h15 : f3.Sample x2_1p5 y3_1p5 f3_1p5)
    (h16 : e_1p5 = x2_1p5 - (R : ℝ) • y3_1p5 - (R : ℝ) • i_L_1p5)
    (h17 : f1.Prox R ((2 : ℝ) • x2_1p5 - e_1p5 - (R : ℝ) • y3_1p5) x1_2 y1_2 f1_2)
    (h18 : f2.Prox R (x1_2 + e_1p5 - x2_1p5) x2_2 y2_2 f2_2)
    (h19 : i_L_2 = i_L_1 + (p "beta" * p "h" / Ind) • (x2_1 - x1_1) + ((1 - p "beta") * p "h" / Ind) • (x2_1p5 - x1_1p5))
    (h20 : f3.Sample x2_2 y3_2 f3_2)
    (h21 : e_2 = x2_2 - (R : ℝ) • y3_2 - (R : ℝ) • i_L_2)
    (h22 : e_star = x_star - (R : ℝ) • y1_star - (R : ℝ) • y3_star)
    (h23 : E_1 = Ind / 2 * ‖i_L_1 - y1_star‖ ^ 2 + p "gamma" * ‖e_1 - e_star‖ ^ 2)
    (h24 : E_2 = Ind / 2 * ‖i_L_2 - y1_star‖ ^ 2 + p "gamma" * ‖e_2 - e_star‖ ^ 2)
    (h25 : Delta_1 = p "rho" * (1 / R) * ‖x1_1 - x2_1‖ ^ 2 + p "eta" * (f1_1 + f2_1 + f3_1 - ⟪y1_star, x1_1 - x_star⟫_ℝ - ⟪y2_star, x2_1 - x_star⟫_ℝ - ⟪y3_star, x2_1 - x_star⟫_ℝ - (f1_star + f2_star + f3_star))) :
    E_2 ≤ E_1 - Delta_1 := by
  have hc : Guaranteed (davisYin mu L R Ind).prog p := guaranteed_of_feasible hC (by calls_simp [davisYin]; simp [Instr.Clean, stdParams])
    (by decide) (by decide) (by
      calls_simp [davisYin]
      intro d hd
      simp only [decls, List.mem_cons, List.not_mem_nil, or_false, or_self] at hd
      rcases hd with rfl <;> assumption) hp
  calls_simp [davisYin] at hc
  have key := hc.vals (fs := fun k => [f1, f2, f3].getD k f1) (e := 18) (by safe_simp [])
    (instance_of_list (.cons hf_f1 (.cons hf_f2 (.cons hf_f3 .nil))))
    ⟨fun i => [x_star, 0, y1_star, y2_star, y3_star, i_L_0, x2_0, y3_0, e_0, (2 : ℝ) • x2_0 - e_0 - (R : ℝ) • y3_0, x1_1, y1_1, x1_1 + e_0 - x2_0, x2_1, y2_1, i_L_1, y3_1, e_1, (2 : ℝ) • x2_1 - e_1 - (R : ℝ) • y3_1, x1_1p5, y1_1p5, x1_1p5 + e_1 - x2_1, x2_1p5, y2_1p5, i_L_1p5, y3_1p5, e_1p5, (2 : ℝ) • x2_1p5 - e_1p5 - (R : ℝ) • y3_1p5, x1_2, y1_2, x1_2 + e_1p5 - x2_1p5, x2_2, y2_2, i_L_2, y3_2, e_2, e_star].getD i 0,
      fun i => [f1_star + f2_star + f3_star, f1_star, f2_star, f3_star, 0, f3_0, f1_1, f2_1, f3_1, f1_1p5, f2_1p5, f3_1p5, f1_2, f2_2, f3_2, E_1, E_2, Delta_1, E_2 - (E_1 - Delta_1)].getD i 0, fun i => [Finsupp.single 0 1, Finsupp.single 1 1, Finsupp.single 2 1, Finsupp.single 0 1 + Finsupp.single 1 1 + Finsupp.single 2 1].getD i 0⟩
    ⟨rfl,
      rfl,
      rfl,
      rfl,
      ⟨(((smp (SR := fun k => ([f1, f2, f3].getD k f1).Sample) (k := 0) h1).addSingle (k := 1) h2 (by simp)).addSingle (k := 2) h3 (by simp)).zero h4, rfl⟩,
      smp h1,
      smp h2,
      smp h3,
      by simp [Instr.Meets, Instr.next, h4],
      trivial,
      trivial,
      trivial,
      smp h5,
      by simpa [Instr.Meets, Instr.next] using h6,
      by simp [Instr.Meets, Instr.next],
      ⟨smp h7.1, by simpa [Instr.next] using h7.2⟩,
      by simp [Instr.Meets, Instr.next],
      ⟨smp h8.1, by simpa [Instr.next] using h8.2⟩,
      by simpa [Instr.Meets, Instr.next] using h9,
      smp h10,
      by simpa [Instr.Meets, Instr.next] using h11,
      by simp [Instr.Meets, Instr.next],
      ⟨smp h12.1, by simpa [Instr.next] using h12.2⟩,
      by simp [Instr.Meets, Instr.next],
      ⟨smp h13.1, by simpa [Instr.next] using h13.2⟩,
      by simpa [Instr.Meets, Instr.next] using h14,
      smp h15,
      by simpa [Instr.Meets, Instr.next] using h16,
      by simp [Instr.Meets, Instr.next],
      ⟨smp h17.1, by simpa [Instr.next] using h17.2⟩,
      by simp [Instr.Meets, Instr.next],
      ⟨smp h18.1, by simpa [Instr.next] using h18.2⟩,
      by simpa [Instr.Meets, Instr.next] using h19,
      smp h20,
      by simpa [Instr.Meets, Instr.next] using h21,
      by simpa [Instr.Meets, Instr.next] using h22,
      by simpa [Instr.Meets, Instr.next] using h23,
      by simpa [Instr.Meets, Instr.next] using h24,
      by simpa [Instr.Meets, Instr.next] using h25,
      rfl,
      trivial,
      trivial⟩
    (by simp [consVals]) rfl
  simp only [List.getD_cons_succ, List.getD_cons_zero] at key
  linarith

/-- **C34** for `admm_consensus_proof` (`classical_central_vi.py` 591-627`). -/
theorem C34_admmConsensusProof (hC : C.Lawful) (mu : ℚ) (L : Option ℚ) (R : ℚ)  (hok0 : (defDecl mu L).Ok)
    {p : Name → ℝ} (hp : IpoptFeasible C (admmConsensusProof mu L R).prog stdParams p)
    (f : CFun E) (g : CFun E) (hf_f : (defDecl mu L).Holds f) (hf_g : (defDecl mu L).Holds g)
    {x_star y1_star z1 y1_1 x1_2 g1_2 x2_2 g2_2 z2 y1_2 y2_2 : E} {f_star g_star f_2 g_2 E_1 E_2 Delta_1 : ℝ}
    (h1 : f.Sample x_star y1_star f_star)
    (h2 : g.Sample x_star (-y1_star) g_star)
    (h3 : f.Prox R (z1 - (R : ℝ) • y1_1) x1_2 g1_2 f_2)
    (h4 : g.Prox R (z1 + (R : ℝ) • y1_1) x2_2 g2_2 g_2)
    (h5 : z2 = (2 : ℝ)⁻¹ • (x1_2 + x2_2))
    (h6 : y1_2 = y1_1 - (p "h" * (1 / R)) • (z2 - x1_2))
    (h7 : y2_2 = -y1_1 - (p "h" * (1 / R)) • (z2 - x2_2))
    (h8 : E_1 = R * ‖y1_1 + y1_star‖ ^ 2 + R * ‖-y1_1 + -y1_star‖ ^ 2 + 2 * (1 / R) * ‖z1 - x_star‖ ^ 2)
    (h9 : E_2 = R * ‖y1_2 + y1_star‖ ^ 2 + R * ‖y2_2 + -y1_star‖ ^ 2 + 2 * (1 / R) * ‖z2 - x_star‖ ^ 2)
    (h10 : Delta_1 = p "eta" * (1 / R * ‖x1_2 - z2‖ ^ 2 + 1 / R * ‖x2_2 - z2‖ ^ 2) + 1 / R * (1 / R) * ‖z1 - z2‖ ^ 2) :
    E_2 ≤ E_1 - Delta_1 := by
  have hc : Guaranteed (admmConsensusProof mu L R).prog p := guaranteed_of_feasible hC (by calls_simp [admmConsensusProof]; simp [Instr.Clean, stdParams])
    (by decide) (by decide) (by
      calls_simp [admmConsensusProof]
      intro d hd
      simp only [decls, List.mem_cons, List.not_mem_nil, or_false, or_self] at hd
      rcases hd with rfl <;> assumption) hp
  calls_simp [admmConsensusProof] at hc
  have key := hc.vals (fs := fun k => [f, g].getD k f) (e := 7) (by safe_simp [])
    (instance_of_list (.cons hf_f (.cons hf_g .nil)))
    ⟨fun i => [x_star, 0, y1_star, -y1_star, z1, y1_1, -y1_1, z1 - (R : ℝ) • y1_1, x1_2, g1_2, z1 + (R : ℝ) • y1_1, x2_2, g2_2, z2, y1_2, y2_2].getD i 0,
      fun i => [f_star + g_star, f_star, f_2, g_2, E_1, E_2, Delta_1, E_2 - (E_1 - Delta_1)].getD i 0, fun i => [Finsupp.single 0 1, Finsupp.single 1 1, Finsupp.single 0 1 + Finsupp.single 1 1].getD i 0⟩
    ⟨rfl,
      rfl,
      rfl,
      ⟨((smp (SR := fun k => ([f, g].getD k f).Sample) (k := 0) h1).addSingle (k := 1) h2 (by simp)).zero (add_neg_cancel _), rfl⟩,
      smp h1,
      by simp [Instr.Meets, Instr.next],
      trivial,
      trivial,
      by simp [Instr.Meets, Instr.next],
      by simp [Instr.Meets, Instr.next],
      ⟨smp h3.1, by simpa [Instr.next] using h3.2⟩,
      by simp [Instr.Meets, Instr.next],
      ⟨smp h4.1, by simpa [Instr.next] using h4.2⟩,
      by simpa [Instr.Meets, Instr.next] using h5,
      by simpa [Instr.Meets, Instr.next] using h6,
      by simpa [Instr.Meets, Instr.next] using h7,
      by simpa [Instr.Meets, Instr.next] using h8,
      by simpa [Instr.Meets, Instr.next] using h9,
      by simpa [Instr.Meets, Instr.next] using h10,
      rfl,
      trivial,
      trivial⟩
    (by simp [consVals]) rfl
  simp only [List.getD_cons_succ, List.getD_cons_zero] at key
  linarith

end Verif
