import Verif.Model.CircuitsDec
import Verif.Props.Certificate
import Verif.Proofs.CircuitFeasible

/-!
# C34: one-step guarantees of the circuits of `classical_decentral_vi.py` and `new_algorithms_vi.py`

As in `Props/CircuitsCentral`.

Axioms of every theorem: propext, Classical.choice, Quot.sound.
-/

namespace Verif
open Build
open scoped InnerProductSpace

variable {E : Type} [NormedAddCommGroup E] [InnerProductSpace ℝ E] {C : CAS}

/-- **C34** for `decentralized_gradient_descent_line3` (`classical_decentral_vi.py` 14-63`). -/
theorem C34_dgdLine3 (hC : C.Lawful) (mu : ℚ) (L : Option ℚ) (R Cap : ℚ) (hR0 : R ≠ 0) (hok0 : (defDecl mu L).Ok)
    {p : Name → ℝ} (hp : IpoptFeasible C (dgdLine3 mu L R Cap).prog stdParams p)
    (f1 : CFun E) (f2 : CFun E) (f3 : CFun E) (hf_f1 : (defDecl mu L).Holds f1) (hf_f2 : (defDecl mu L).Holds f2) (hf_f3 : (defDecl mu L).Holds f3)
    {x2_star y2_star x1_star y1_star x3_star y3_star y2_star_v2 x1_1 y1_1 x2_1 y2_1 x3_1 y3_1 x1_2 y1_2 x2_2 y2_2 x3_2 y3_2 : E} {f2_star f1_star f3_star f2_star_v2 f1_1 f2_1 f3_1 f1_2 f2_2 f3_2 E_1 E_2 Delta_2 : ℝ}
    (h1 : f2.Sample x2_star y2_star f2_star)
    (h2 : f1.Prox R (x2_star) x1_star y1_star f1_star)
    (h3 : f3.Prox R (x2_star) x3_star y3_star f3_star)
    (h4 : f2.Prox (R / 2) ((2 : ℝ)⁻¹ • (x1_star + x3_star)) x2_star y2_star_v2 f2_star_v2)
    (h5 : f1.Sample x1_1 y1_1 f1_1)
    (h6 : f2.Sample x2_1 y2_1 f2_1)
    (h7 : f3.Sample x3_1 y3_1 f3_1)
    (h8 : x1_2 = x1_1 - (p "h" / Cap) • (y1_1 + (R : ℝ)⁻¹ • (x1_1 - x2_1)))
    (h9 : f1.Sample x1_2 y1_2 f1_2)
    (h10 : x2_2 = x2_1 - (p "h" / Cap) • (y2_1 + (R : ℝ)⁻¹ • (x2_1 - x1_1 + x2_1 - x3_1)))
    (h11 : f2.Sample x2_2 y2_2 f2_2)
    (h12 : x3_2 = x3_1 - (p "h" / Cap) • (y3_1 + (R : ℝ)⁻¹ • (x3_1 - x2_1)))
    (h13 : f3.Sample x3_2 y3_2 f3_2)
    (h14 : E_1 = Cap / 2 * (‖x1_1 - x1_star‖ ^ 2 + ‖x2_1 - x2_star‖ ^ 2 + ‖x3_1 - x3_star‖ ^ 2))
    (h15 : E_2 = Cap / 2 * (‖x1_2 - x1_star‖ ^ 2 + ‖x2_2 - x2_star‖ ^ 2 + ‖x3_2 - x3_star‖ ^ 2))
    (h16 : Delta_2 = p "rho" * (1 / R) * (‖x1_2 - x2_2 - (x1_star - x2_star)‖ ^ 2 + ‖x3_2 - x2_2 - (x3_star - x2_star)‖ ^ 2) +
      p "eta" * (⟪x1_2 - x1_star, y1_2 - y1_star⟫_ℝ + ⟪x2_2 - x2_star, y2_2 - y2_star⟫_ℝ + ⟪x3_2 - x3_star, y3_2 - y3_star⟫_ℝ)) :
    E_2 ≤ E_1 - Delta_2 := by
  have hc : Guaranteed (dgdLine3 mu L R Cap).prog p := guaranteed_of_feasible hC (by calls_simp [dgdLine3]; simp [Instr.Clean, stdParams])
    (by decide) (by decide) (by
      calls_simp [dgdLine3]
      intro d hd
      simp only [decls, List.mem_cons, List.not_mem_nil, or_false, or_self] at hd
      rcases hd with rfl <;> assumption) hp
  calls_simp [dgdLine3] at hc
  have key := hc.vals (fs := fun k => [f1, f2, f3].getD k f1) (e := 14) (by safe_simp [hR0])
    (instance_of_list (.cons hf_f1 (.cons hf_f2 (.cons hf_f3 .nil))))
    ⟨fun i => [x2_star, y2_star, x1_star, y1_star, x3_star, y3_star, (2 : ℝ)⁻¹ • (x1_star + x3_star), x2_star, y2_star_v2, x1_1, y1_1, x2_1, y2_1, x3_1, y3_1, x1_2, y1_2, x2_2, y2_2, x3_2, y3_2].getD i 0,
      fun i => [f2_star, f1_star, f3_star, f2_star_v2, 0, f1_1, f2_1, f3_1, f1_2, f2_2, f3_2, E_1, E_2, Delta_2, E_2 - (E_1 - Delta_2)].getD i 0, fun i => [Finsupp.single 0 1, Finsupp.single 1 1, Finsupp.single 2 1].getD i 0⟩
    ⟨rfl,
      rfl,
      rfl,
      trivial,
      smp h1,
      ⟨smp h2.1, by simpa [Instr.next] using h2.2⟩,
      ⟨smp h3.1, by simpa [Instr.next] using h3.2⟩,
      by simp [Instr.Meets, Instr.next],
      ⟨smp h4.1, by simpa [Instr.next] using h4.2⟩,
      by simp [Instr.Meets, Instr.next],
      trivial,
      trivial,
      smp h5,
      trivial,
      smp h6,
      trivial,
      smp h7,
      by simpa [Instr.Meets, Instr.next] using h8,
      smp h9,
      by simpa [Instr.Meets, Instr.next] using h10,
      smp h11,
      by simpa [Instr.Meets, Instr.next] using h12,
      smp h13,
      by simpa [Instr.Meets, Instr.next] using h14,
      by simpa [Instr.Meets, Instr.next] using h15,
      by simpa [Instr.Meets, Instr.next] using h16,
      rfl,
      trivial,
      trivial⟩
    (by simp [consVals]) rfl
  simp only [List.getD_cons_succ, List.getD_cons_zero] at key
  linarith

/-- **C34** for `diffusion_line3` (`classical_decentral_vi.py` 66-131`).  The three equations `q` say that the currents at the nodes balance at the equilibrium. -/
theorem C34_diffusionLine3 (hC : C.Lawful) (mu : ℚ) (L : Option ℚ) (R Cap : ℚ) (hR0 : R ≠ 0) (hok0 : (defDecl mu L).Ok)
    {p : Name → ℝ} (hp : IpoptFeasible C (diffusionLine3 mu L R Cap).prog stdParams p)
    (f1 : CFun E) (f2 : CFun E) (f3 : CFun E) (hf_f1 : (defDecl mu L).Holds f1) (hf_f2 : (defDecl mu L).Holds f2) (hf_f3 : (defDecl mu L).Holds f3)
    {x1_star x2_star x3_star y1_star y2_star y3_star e1_star e2_star e3_star x1_1 y1_1 x2_1 y2_1 x3_1 y3_1 e1_1 e2_1 e3_1 x1_2 y1_2 x2_2 y2_2 x3_2 y3_2 e1_2 e2_2 e3_2 : E} {f1_star f2_star f3_star f1_1 f2_1 f3_1 f1_2 f2_2 f3_2 E_1 E_2 Delta_1 : ℝ}
    (h1 : f1.Sample x1_star y1_star f1_star)
    (h2 : f2.Sample x2_star y2_star f2_star)
    (h3 : f3.Sample x3_star y3_star f3_star)
    (h4 : e1_star = x1_star - (R : ℝ) • y1_star)
    (h5 : e2_star = x2_star - (R : ℝ) • y2_star)
    (h6 : e3_star = x3_star - (R : ℝ) • y3_star)
    (q7 : y2_star = (3 * (R : ℝ))⁻¹ • (e1_star - (2 : ℝ) • e2_star + e3_star))
    (q8 : y1_star = (3 * (R : ℝ))⁻¹ • (e2_star - e1_star))
    (q9 : y3_star = (3 * (R : ℝ))⁻¹ • (e2_star - e3_star))
    (h10 : f1.Sample x1_1 y1_1 f1_1)
    (h11 : f2.Sample x2_1 y2_1 f2_1)
    (h12 : f3.Sample x3_1 y3_1 f3_1)
    (h13 : e1_1 = x1_1 - (R : ℝ) • y1_1)
    (h14 : e2_1 = x2_1 - (R : ℝ) • y2_1)
    (h15 : e3_1 = x3_1 - (R : ℝ) • y3_1)
    (h16 : x1_2 = x1_1 - (p "h" / Cap) • (y1_1 + (1 / (3 * (R : ℝ))) • (x1_1 - (R : ℝ) • y1_1 - (x2_1 - (R : ℝ) • y2_1))))
    (h17 : f1.Sample x1_2 y1_2 f1_2)
    (h18 : x2_2 = x2_1 - (p "h" / Cap) • (y2_1 + (1 / (3 * (R : ℝ))) •
      ((2 : ℝ) • (x2_1 - (R : ℝ) • y2_1) - (x1_1 - (R : ℝ) • y1_1) - (x3_1 - (R : ℝ) • y3_1))))
    (h19 : f2.Sample x2_2 y2_2 f2_2)
    (h20 : x3_2 = x3_1 - (p "h" / Cap) • (y3_1 + (1 / (3 * (R : ℝ))) • (x3_1 - (R : ℝ) • y3_1 - (x2_1 - (R : ℝ) • y2_1))))
    (h21 : f3.Sample x3_2 y3_2 f3_2)
    (h22 : e1_2 = x1_2 - (R : ℝ) • y1_2)
    (h23 : e2_2 = x2_2 - (R : ℝ) • y2_2)
    (h24 : e3_2 = x3_2 - (R : ℝ) • y3_2)
    (h25 : E_1 = Cap / 2 * (‖e1_1 - e1_star‖ ^ 2 + ‖e2_1 - e2_star‖ ^ 2 + ‖e3_1 - e3_star‖ ^ 2))
    (h26 : E_2 = Cap / 2 * (‖e1_2 - e1_star‖ ^ 2 + ‖e2_2 - e2_star‖ ^ 2 + ‖e3_2 - e3_star‖ ^ 2))
    (h27 : Delta_1 = p "rho" * (1 / (3 * R)) * (‖e1_1 - e2_1 - (e1_star - e2_star)‖ ^ 2 + ‖e3_1 - e2_1 - (e3_star - e2_star)‖ ^ 2) +
      p "eta" * (invSmooth L - R) * (‖y1_1 - y1_star‖ ^ 2 + ‖y2_1 - y2_star‖ ^ 2 + ‖y3_1 - y3_star‖ ^ 2)) :
    E_2 ≤ E_1 - Delta_1 := by
  have hc : Guaranteed (diffusionLine3 mu L R Cap).prog p := guaranteed_of_feasible hC (by calls_simp [diffusionLine3]; simp [Instr.Clean, stdParams])
    (by decide) (by decide) (by
      calls_simp [diffusionLine3]
      intro d hd
      simp only [decls, List.mem_cons, List.not_mem_nil, or_false, or_self] at hd
      rcases hd with rfl <;> assumption) hp
  calls_simp [diffusionLine3] at hc
  have key := hc.vals (fs := fun k => [f1, f2, f3].getD k f1) (e := 15) (by safe_simp [hR0])
    (instance_of_list (.cons hf_f1 (.cons hf_f2 (.cons hf_f3 .nil))))
    ⟨fun i => [x1_star, x2_star, x3_star, y1_star, y2_star, y3_star, e1_star, e2_star, e3_star, x1_1, y1_1, x2_1, y2_1, x3_1, y3_1, e1_1, e2_1, e3_1, x1_2, y1_2, x2_2, y2_2, x3_2, y3_2, e1_2, e2_2, e3_2].getD i 0,
      fun i => [f1_star, f2_star, f3_star, 0, 0, 0, f1_1, f2_1, f3_1, f1_2, f2_2, f3_2, E_1, E_2, Delta_1, E_2 - (E_1 - Delta_1)].getD i 0, fun i => [Finsupp.single 0 1, Finsupp.single 1 1, Finsupp.single 2 1].getD i 0⟩
    ⟨rfl,
      rfl,
      rfl,
      trivial,
      trivial,
      trivial,
      smp h1,
      smp h2,
      smp h3,
      by simpa [Instr.Meets, Instr.next] using h4,
      by simpa [Instr.Meets, Instr.next] using h5,
      by simpa [Instr.Meets, Instr.next] using h6,
      meets_zero (by simpa using q7),
      trivial,
      meets_zero (by simpa using q8),
      trivial,
      meets_zero (by simpa using q9),
      trivial,
      trivial,
      smp h10,
      trivial,
      smp h11,
      trivial,
      smp h12,
      by simpa [Instr.Meets, Instr.next] using h13,
      by simpa [Instr.Meets, Instr.next] using h14,
      by simpa [Instr.Meets, Instr.next] using h15,
      by simpa [Instr.Meets, Instr.next] using h16,
      smp h17,
      by simpa [Instr.Meets, Instr.next] using h18,
      smp h19,
      by simpa [Instr.Meets, Instr.next] using h20,
      smp h21,
      by simpa [Instr.Meets, Instr.next] using h22,
      by simpa [Instr.Meets, Instr.next] using h23,
      by simpa [Instr.Meets, Instr.next] using h24,
      by simpa [Instr.Meets, Instr.next] using h25,
      by simpa [Instr.Meets, Instr.next] using h26,
      by simpa [Instr.Meets, Instr.next] using h27,
      rfl,
      trivial,
      trivial⟩
    (by simp [consVals]) rfl
  simp only [List.getD_cons_succ, List.getD_cons_zero] at key
  linarith

/-- **C34** for `pg_extra_l3` (`classical_decentral_vi.py` 134-216`). -/
theorem C34_pgExtraLine3 (hC : C.Lawful) (mu : ℚ) (Lh Lf : Option ℚ) (R : ℚ) (W : ℕ → ℕ → ℚ)  (hok0 : (defDecl mu Lf).Ok) (hok1 : (defDecl mu Lh).Ok)
    {p : Name → ℝ} (hp : IpoptFeasible C (pgExtraLine3 mu Lh Lf R W).prog stdParams p)
    (f1 : CFun E) (f2 : CFun E) (f3 : CFun E) (k1 : CFun E) (k2 : CFun E) (k3 : CFun E) (hf_f1 : (defDecl mu Lf).Holds f1) (hf_f2 : (defDecl mu Lf).Holds f2) (hf_f3 : (defDecl mu Lf).Holds f3) (hf_k1 : (defDecl mu Lh).Holds k1) (hf_k2 : (defDecl mu Lh).Holds k2) (hf_k3 : (defDecl mu Lh).Holds k3)
    {x_star y_f1_star y_f2_star y_f3_star y_k1_star y_k2_star y_k3_star i_L_12_star i_L_23_star x1_1 x2_1 x3_1 y_f1_1 y_f2_1 y_f3_1 y_k1_1 y_k2_1 y_k3_1 i_L_12_1 i_L_23_1 e1_1 e2_1 e3_1 x1_2 y_f1_2 x2_2 y_f2_2 x3_2 y_f3_2 i_L_12_2 i_L_23_2 i_L_12_3 i_L_23_3 : E} {v_f1_star v_f2_star v_f3_star v_k1_star v_k2_star v_k3_star v_f1_1 v_f2_1 v_f3_1 v_k1_1 v_k2_1 v_k3_1 v_f1_2 v_f2_2 v_f3_2 E_1 E_2 Delta_2 : ℝ}
    (h1 : f1.Sample x_star y_f1_star v_f1_star)
    (h2 : f2.Sample x_star y_f2_star v_f2_star)
    (h3 : f3.Sample x_star y_f3_star v_f3_star)
    (h4 : k1.Sample x_star y_k1_star v_k1_star)
    (h5 : k2.Sample x_star y_k2_star v_k2_star)
    (h6 : k3.Sample x_star y_k3_star v_k3_star)
    (h7 : y_f1_star + y_f2_star + y_f3_star + y_k1_star + y_k2_star + y_k3_star = 0)
    (h8 : i_L_12_star = -y_f1_star - y_k1_star)
    (h9 : i_L_23_star = y_f3_star + y_k3_star)
    (h10 : f1.Sample x1_1 y_f1_1 v_f1_1)
    (h11 : f2.Sample x2_1 y_f2_1 v_f2_1)
    (h12 : f3.Sample x3_1 y_f3_1 v_f3_1)
    (h13 : k1.Sample x1_1 y_k1_1 v_k1_1)
    (h14 : k2.Sample x2_1 y_k2_1 v_k2_1)
    (h15 : k3.Sample x3_1 y_k3_1 v_k3_1)
    (h16 : e1_1 = (W 0 0 : ℝ) • x1_1 + (W 0 1 : ℝ) • x2_1 + (W 0 2 : ℝ) • x3_1 - (R : ℝ) • y_k1_1 - (R : ℝ) • i_L_12_1)
    (h17 : e2_1 = (W 1 0 : ℝ) • x1_1 + (W 1 1 : ℝ) • x2_1 + (W 1 2 : ℝ) • x3_1 - (R : ℝ) • y_k2_1 + (R : ℝ) • i_L_12_1 - (R : ℝ) • i_L_23_1)
    (h18 : e3_1 = (W 2 0 : ℝ) • x1_1 + (W 2 1 : ℝ) • x2_1 + (W 2 2 : ℝ) • x3_1 - (R : ℝ) • y_k3_1 + (R : ℝ) • i_L_23_1)
    (h19 : f1.Prox R (e1_1) x1_2 y_f1_2 v_f1_2)
    (h20 : f2.Prox R (e2_1) x2_2 y_f2_2 v_f2_2)
    (h21 : f3.Prox R (e3_1) x3_2 y_f3_2 v_f3_2)
    (h22 : i_L_12_2 = i_L_12_1 + (p "h" / (R / W 0 1)) • (x1_1 - x2_1))
    (h23 : i_L_23_2 = i_L_23_1 + (p "h" / (R / W 1 2)) • (x2_1 - x3_1))
    (h24 : i_L_12_3 = i_L_12_2 + (p "h" / (R / W 0 1)) • (x1_2 - x2_2))
    (h25 : i_L_23_3 = i_L_23_2 + (p "h" / (R / W 1 2)) • (x2_2 - x3_2))
    (h26 : E_1 = p "gamma" * (‖x1_1 - x_star‖ ^ 2 + ‖x2_1 - x_star‖ ^ 2 + ‖x3_1 - x_star‖ ^ 2) +
      R / W 0 1 / 2 * ‖i_L_12_2 - i_L_12_star‖ ^ 2 + R / W 1 2 / 2 * ‖i_L_23_2 - i_L_23_star‖ ^ 2)
    (h27 : E_2 = p "gamma" * (‖x1_2 - x_star‖ ^ 2 + ‖x2_2 - x_star‖ ^ 2 + ‖x3_2 - x_star‖ ^ 2) +
      R / W 0 1 / 2 * ‖i_L_12_3 - i_L_12_star‖ ^ 2 + R / W 1 2 / 2 * ‖i_L_23_3 - i_L_23_star‖ ^ 2)
    (h28 : Delta_2 = p "eta" * (⟪y_f1_2 - y_f1_star, x1_2 - x_star⟫_ℝ + ⟪y_f2_2 - y_f2_star, x2_2 - x_star⟫_ℝ + ⟪y_f3_2 - y_f3_star, x3_2 - x_star⟫_ℝ) +
      p "rho" * (⟪y_k1_1 - y_k1_star, x1_1 - x_star⟫_ℝ + ⟪y_k2_1 - y_k2_star, x2_1 - x_star⟫_ℝ + ⟪y_k3_1 - y_k3_star, x3_1 - x_star⟫_ℝ)) :
    E_2 ≤ E_1 - Delta_2 := by
  have hc : Guaranteed (pgExtraLine3 mu Lh Lf R W).prog p := guaranteed_of_feasible hC (by calls_simp [pgExtraLine3]; simp [Instr.Clean, stdParams])
    (by decide) (by decide) (by
      calls_simp [pgExtraLine3]
      intro d hd
      simp only [decls, List.mem_cons, List.not_mem_nil, or_false, or_self] at hd
      rcases hd with rfl | rfl | rfl | rfl <;> assumption) hp
  calls_simp [pgExtraLine3] at hc
  have key := hc.vals (fs := fun k => [f1, f2, f3, k1, k2, k3].getD k f1) (e := 20) (by safe_simp [])
    (instance_of_list (.cons hf_f1 (.cons hf_f2 (.cons hf_f3 (.cons hf_k1 (.cons hf_k2 (.cons hf_k3 .nil)))))))
    ⟨fun i => [x_star, 0, y_f1_star, y_f2_star, y_f3_star, y_k1_star, y_k2_star, y_k3_star, i_L_12_star, i_L_23_star, x1_1, x2_1, x3_1, y_f1_1, y_f2_1, y_f3_1, y_k1_1, y_k2_1, y_k3_1, i_L_12_1, i_L_23_1, e1_1, e2_1, e3_1, x1_2, y_f1_2, x2_2, y_f2_2, x3_2, y_f3_2, i_L_12_2, i_L_23_2, i_L_12_3, i_L_23_3].getD i 0,
      fun i => [v_f1_star + v_f2_star + v_f3_star + v_k1_star + v_k2_star + v_k3_star, v_f1_star, v_f2_star, v_f3_star, v_k1_star, v_k2_star, v_k3_star, 0, v_f1_1, v_f2_1, v_f3_1, v_k1_1, v_k2_1, v_k3_1, v_f1_2, v_f2_2, v_f3_2, E_1, E_2, Delta_2, E_2 - (E_1 - Delta_2)].getD i 0, fun i => [Finsupp.single 0 1, Finsupp.single 1 1, Finsupp.single 2 1, Finsupp.single 3 1, Finsupp.single 4 1, Finsupp.single 5 1, Finsupp.single 0 1 + Finsupp.single 1 1 + Finsupp.single 2 1 + Finsupp.single 3 1 + Finsupp.single 4 1 + Finsupp.single 5 1].getD i 0⟩
    ⟨rfl,
      rfl,
      rfl,
      rfl,
      rfl,
      rfl,
      rfl,
      ⟨((((((smp (SR := fun k => ([f1, f2, f3, k1, k2, k3].getD k f1).Sample) (k := 0) h1).addSingle (k := 1) h2 (by simp)).addSingle (k := 2) h3 (by simp)).addSingle (k := 3) h4 (by simp)).addSingle (k := 4) h5 (by simp)).addSingle (k := 5) h6 (by simp)).zero h7, rfl⟩,
      smp h1,
      smp h2,
      smp h3,
      smp h4,
      smp h5,
      smp h6,
      by simpa [Instr.Meets, Instr.next] using h8,
      by simpa [Instr.Meets, Instr.next] using h9,
      by simp [Instr.Meets, Instr.next, h7],
      trivial,
      trivial,
      trivial,
      trivial,
      smp h10,
      smp h11,
      smp h12,
      smp h13,
      smp h14,
      smp h15,
      trivial,
      trivial,
      by simpa [Instr.Meets, Instr.next] using h16,
      by simpa [Instr.Meets, Instr.next] using h17,
      by simpa [Instr.Meets, Instr.next] using h18,
      ⟨smp h19.1, by simpa [Instr.next] using h19.2⟩,
      ⟨smp h20.1, by simpa [Instr.next] using h20.2⟩,
      ⟨smp h21.1, by simpa [Instr.next] using h21.2⟩,
      by simpa [Instr.Meets, Instr.next] using h22,
      by simpa [Instr.Meets, Instr.next] using h23,
      by simpa [Instr.Meets, Instr.next] using h24,
      by simpa [Instr.Meets, Instr.next] using h25,
      by simpa [Instr.Meets, Instr.next] using h26,
      by simpa [Instr.Meets, Instr.next] using h27,
      by simpa [Instr.Meets, Instr.next] using h28,
      rfl,
      trivial,
      trivial⟩
    (by simp [consVals]) rfl
  simp only [List.getD_cons_succ, List.getD_cons_zero] at key
  linarith

/-- **C34** for `decentralized_admm_consensus_l3` (`classical_decentral_vi.py` 219-299`).  The currents on the nets at the equilibrium are determined by the subgradients at the solution. -/
theorem C34_dadmmLine3 (hC : C.Lawful) (mu : ℚ) (L : Option ℚ) (R Ind : ℚ)  (hok0 : (defDecl mu L).Ok)
    {p : Name → ℝ} (hp : IpoptFeasible C (dadmmLine3 mu L R Ind).prog stdParams p)
    (f1 : CFun E) (f2 : CFun E) (f3 : CFun E) (hf_f1 : (defDecl mu L).Holds f1) (hf_f2 : (defDecl mu L).Holds f2) (hf_f3 : (defDecl mu L).Holds f3)
    {x_star y_f1_star y_f2_star y_f3_star e_12_1 e_23_1 i_L_12_1 i_L_23_1 x1_1p5 y1_1p5 x2_1p5 y2_1p5 x3_1p5 y3_1p5 e_12_1p5 e_23_1p5 i_L_12_1p5 i_L_23_1p5 x1_2 y1_2 x2_2 y2_2 x3_2 y3_2 e_12_2 e_23_2 i_L_12_2 i_L_23_2 : E} {v_f1_star v_f2_star v_f3_star v_f1_1p5 v_f2_1p5 v_f3_1p5 v_f1_2 v_f2_2 v_f3_2 E_1 E_2 Delta_2 : ℝ}
    (h1 : f1.Sample x_star y_f1_star v_f1_star)
    (h2 : f2.Sample x_star y_f2_star v_f2_star)
    (h3 : f3.Sample x_star y_f3_star v_f3_star)
    (h4 : y_f1_star + y_f2_star + y_f3_star = 0)
    (h5 : f1.Prox R ((R : ℝ) • i_L_12_1 + e_12_1) x1_1p5 y1_1p5 v_f1_1p5)
    (h6 : f2.Prox (R / 2) ((2 : ℝ)⁻¹ • ((-(R : ℝ)) • i_L_12_1 + e_12_1 + ((R : ℝ) • i_L_23_1 + e_23_1))) x2_1p5 y2_1p5 v_f2_1p5)
    (h7 : f3.Prox R ((-(R : ℝ)) • i_L_23_1 + e_23_1) x3_1p5 y3_1p5 v_f3_1p5)
    (h8 : e_12_1p5 = (2 : ℝ)⁻¹ • (x1_1p5 + x2_1p5))
    (h9 : e_23_1p5 = (2 : ℝ)⁻¹ • (x2_1p5 + x3_1p5))
    (h10 : i_L_12_1p5 = i_L_12_1 + (p "alpha" * p "h" / Ind) • (e_12_1p5 - x1_1p5))
    (h11 : i_L_23_1p5 = i_L_23_1 + (p "alpha" * p "h" / Ind) • (e_23_1p5 - x2_1p5))
    (h12 : f1.Prox R ((R : ℝ) • i_L_12_1p5 + e_12_1p5) x1_2 y1_2 v_f1_2)
    (h13 : f2.Prox (R / 2) ((2 : ℝ)⁻¹ • ((-(R : ℝ)) • i_L_12_1p5 + e_12_1p5 + ((R : ℝ) • i_L_23_1p5 + e_23_1p5))) x2_2 y2_2 v_f2_2)
    (h14 : f3.Prox R ((-(R : ℝ)) • i_L_23_1p5 + e_23_1p5) x3_2 y3_2 v_f3_2)
    (h15 : e_12_2 = (2 : ℝ)⁻¹ • (x1_2 + x2_2))
    (h16 : e_23_2 = (2 : ℝ)⁻¹ • (x2_2 + x3_2))
    (h17 : i_L_12_2 = i_L_12_1 + (p "beta" * p "h" / Ind) • (e_12_1p5 - x1_1p5) + ((1 - p "beta") * p "h" / Ind) • (e_12_2 - x1_2))
    (h18 : i_L_23_2 = i_L_23_1 + (p "beta" * p "h" / Ind) • (e_23_1p5 - x2_1p5) + ((1 - p "beta") * p "h" / Ind) • (e_23_2 - x2_2))
    (h19 : E_1 = p "gamma" * ‖e_12_1 - x_star‖ ^ 2 + p "gamma" * ‖e_23_1 - x_star‖ ^ 2 + Ind / 2 * ‖i_L_12_1 - y_f1_star‖ ^ 2 +
      Ind / 2 * ‖-i_L_12_1 - -y_f1_star‖ ^ 2 + Ind / 2 * ‖i_L_23_1 - (y_f2_star + y_f1_star)‖ ^ 2 + Ind / 2 * ‖-i_L_23_1 - y_f3_star‖ ^ 2)
    (h20 : E_2 = p "gamma" * ‖e_12_2 - x_star‖ ^ 2 + p "gamma" * ‖e_23_2 - x_star‖ ^ 2 + Ind / 2 * ‖i_L_12_2 - y_f1_star‖ ^ 2 +
      Ind / 2 * ‖-i_L_12_2 - -y_f1_star‖ ^ 2 + Ind / 2 * ‖i_L_23_2 - (y_f2_star + y_f1_star)‖ ^ 2 + Ind / 2 * ‖-i_L_23_2 - y_f3_star‖ ^ 2)
    (h21 : Delta_2 = p "rho" * (1 / R) * (‖e_12_2 - x1_2‖ ^ 2 + ‖e_12_2 - x2_2‖ ^ 2 + ‖e_23_2 - x2_2‖ ^ 2 + ‖e_23_2 - x3_2‖ ^ 2) +
      p "eta" * (v_f1_2 - v_f1_star - ⟪y_f1_star, x1_2 - x_star⟫_ℝ + v_f2_2 - v_f2_star - ⟪y_f2_star, x2_2 - x_star⟫_ℝ + v_f3_2 - v_f3_star - ⟪y_f3_star, x3_2 - x_star⟫_ℝ)) :
    E_2 ≤ E_1 - Delta_2 := by
  have hc : Guaranteed (dadmmLine3 mu L R Ind).prog p := guaranteed_of_feasible hC (by calls_simp [dadmmLine3]; simp [Instr.Clean, stdParams])
    (by decide) (by decide) (by
      calls_simp [dadmmLine3]
      intro d hd
      simp only [decls, List.mem_cons, List.not_mem_nil, or_false, or_self] at hd
      rcases hd with rfl <;> assumption) hp
  calls_simp [dadmmLine3] at hc
  have key := hc.vals (fs := fun k => [f1, f2, f3].getD k f1) (e := 16) (by safe_simp [])
    (instance_of_list (.cons hf_f1 (.cons hf_f2 (.cons hf_f3 .nil))))
    ⟨fun i => [x_star, 0, y_f1_star, y_f2_star, y_f3_star, -y_f1_star, y_f2_star + y_f1_star, e_12_1, e_23_1, i_L_12_1, i_L_23_1, (R : ℝ) • i_L_12_1 + e_12_1, x1_1p5, y1_1p5, (2 : ℝ)⁻¹ • ((-(R : ℝ)) • i_L_12_1 + e_12_1 + ((R : ℝ) • i_L_23_1 + e_23_1)), x2_1p5, y2_1p5, (-(R : ℝ)) • i_L_23_1 + e_23_1, x3_1p5, y3_1p5, e_12_1p5, e_23_1p5, i_L_12_1p5, i_L_23_1p5, (R : ℝ) • i_L_12_1p5 + e_12_1p5, x1_2, y1_2, (2 : ℝ)⁻¹ • ((-(R : ℝ)) • i_L_12_1p5 + e_12_1p5 + ((R : ℝ) • i_L_23_1p5 + e_23_1p5)), x2_2, y2_2, (-(R : ℝ)) • i_L_23_1p5 + e_23_1p5, x3_2, y3_2, e_12_2, e_23_2, i_L_12_2, i_L_23_2].getD i 0,
      fun i => [v_f1_star + v_f2_star + v_f3_star, v_f1_star, v_f2_star, v_f3_star, 0, 0, 0, v_f1_1p5, v_f2_1p5, v_f3_1p5, v_f1_2, v_f2_2, v_f3_2, E_1, E_2, Delta_2, E_2 - (E_1 - Delta_2)].getD i 0, fun i => [Finsupp.single 0 1, Finsupp.single 1 1, Finsupp.single 2 1, Finsupp.single 0 1 + Finsupp.single 1 1 + Finsupp.single 2 1].getD i 0⟩
    ⟨rfl,
      rfl,
      rfl,
      rfl,
      ⟨(((smp (SR := fun k => ([f1, f2, f3].getD k f1).Sample) (k := 0) h1).addSingle (k := 1) h2 (by simp)).addSingle (k := 2) h3 (by simp)).zero h4, rfl⟩,
      smp h1,
      smp h2,
      smp h3,
      by simp [Instr.Meets, Instr.next],
      by simp [Instr.Meets, Instr.next],
      by simp [Instr.Meets, Instr.next, h4],
      trivial,
      by simp [Instr.Meets, Instr.next],
      trivial,
      by simp [Instr.Meets, Instr.next, add_comm y_f2_star, h4],
      trivial,
      trivial,
      trivial,
      trivial,
      trivial,
      by simp [Instr.Meets, Instr.next],
      ⟨smp h5.1, by simpa [Instr.next] using h5.2⟩,
      by simp [Instr.Meets, Instr.next],
      ⟨smp h6.1, by simpa [Instr.next] using h6.2⟩,
      by simp [Instr.Meets, Instr.next],
      ⟨smp h7.1, by simpa [Instr.next] using h7.2⟩,
      by simpa [Instr.Meets, Instr.next] using h8,
      by simpa [Instr.Meets, Instr.next] using h9,
      by simpa [Instr.Meets, Instr.next] using h10,
      by simpa [Instr.Meets, Instr.next] using h11,
      by simp [Instr.Meets, Instr.next],
      ⟨smp h12.1, by simpa [Instr.next] using h12.2⟩,
      by simp [Instr.Meets, Instr.next],
      ⟨smp h13.1, by simpa [Instr.next] using h13.2⟩,
      by simp [Instr.Meets, Instr.next],
      ⟨smp h14.1, by simpa [Instr.next] using h14.2⟩,
      by simpa [Instr.Meets, Instr.next] using h15,
      by simpa [Instr.Meets, Instr.next] using h16,
      by simpa [Instr.Meets, Instr.next] using h17,
      by simpa [Instr.Meets, Instr.next] using h18,
      by simpa [Instr.Meets, Instr.next] using h19,
      by simpa [Instr.Meets, Instr.next] using h20,
      by simpa [Instr.Meets, Instr.next] using h21,
      rfl,
      trivial,
      trivial⟩
    (by simp [consVals]) rfl
  simp only [List.getD_cons_succ, List.getD_cons_zero] at key
  linarith

set_option maxRecDepth 8000 in
set_option maxHeartbeats 4000000 in
/-- **C34** for `decentralized_admm_cycle4` (`classical_decentral_vi.py` 302-386`).  `y_12` is any current on the net of the edge (1,2) at the equilibrium; it determines the others. -/
theorem C34_dadmmCycle4 (hC : C.Lawful) (mu : ℚ) (L : Option ℚ) (R Ind : ℚ)  (hok0 : (defDecl mu L).Ok)
    {p : Name → ℝ} (hp : IpoptFeasible C (dadmmCycle4 mu L R Ind).prog stdParams p)
    (f1 : CFun E) (f2 : CFun E) (f3 : CFun E) (f4 : CFun E) (hf_f1 : (defDecl mu L).Holds f1) (hf_f2 : (defDecl mu L).Holds f2) (hf_f3 : (defDecl mu L).Holds f3) (hf_f4 : (defDecl mu L).Holds f4)
    {x_star y_f1_star y_f2_star y_f3_star y_f4_star y_12 y_14 y_23 y_34 e_12_1 e_23_1 e_34_1 e_41_1 i_L_12_1 i_L_23_1 i_L_34_1 i_L_41_1 x1_2 y1_2 x2_2 y2_2 x3_2 y3_2 x4_2 y4_2 e_12_2 e_23_2 e_34_2 e_41_2 i_L_12_2 i_L_23_2 i_L_34_2 i_L_41_2 : E} {v_f1_star v_f2_star v_f3_star v_f4_star v_f1_2 v_f2_2 v_f3_2 v_f4_2 E_1 E_2 Delta_2 : ℝ}
    (h1 : f1.Sample x_star y_f1_star v_f1_star)
    (h2 : f2.Sample x_star y_f2_star v_f2_star)
    (h3 : f3.Sample x_star y_f3_star v_f3_star)
    (h4 : f4.Sample x_star y_f4_star v_f4_star)
    (h5 : y_f1_star + y_f2_star + y_f3_star + y_f4_star = 0)
    (h6 : y_14 = y_f1_star - y_12)
    (h7 : y_23 = y_f2_star + y_12)
    (h8 : y_34 = y_f3_star + y_23)
    (h9 : f1.Prox (R / 2) ((1 / 2 : ℝ) • ((R : ℝ) • i_L_12_1 + e_12_1 + ((-(R : ℝ)) • i_L_41_1 + e_41_1))) x1_2 y1_2 v_f1_2)
    (h10 : f2.Prox (R / 2) ((1 / 2 : ℝ) • ((-(R : ℝ)) • i_L_12_1 + e_12_1 + ((R : ℝ) • i_L_23_1 + e_23_1))) x2_2 y2_2 v_f2_2)
    (h11 : f3.Prox (R / 2) ((1 / 2 : ℝ) • ((-(R : ℝ)) • i_L_23_1 + e_23_1 + ((R : ℝ) • i_L_34_1 + e_34_1))) x3_2 y3_2 v_f3_2)
    (h12 : f4.Prox (R / 2) ((1 / 2 : ℝ) • ((R : ℝ) • i_L_41_1 + e_41_1 + ((-(R : ℝ)) • i_L_34_1 + e_34_1))) x4_2 y4_2 v_f4_2)
    (h13 : e_12_2 = (2 : ℝ)⁻¹ • (x1_2 + x2_2))
    (h14 : e_23_2 = (2 : ℝ)⁻¹ • (x2_2 + x3_2))
    (h15 : e_34_2 = (2 : ℝ)⁻¹ • (x3_2 + x4_2))
    (h16 : e_41_2 = (2 : ℝ)⁻¹ • (x4_2 + x1_2))
    (h17 : i_L_12_2 = i_L_12_1 + (p "h" / Ind) • (e_12_2 - x1_2))
    (h18 : i_L_23_2 = i_L_23_1 + (p "h" / Ind) • (e_23_2 - x2_2))
    (h19 : i_L_34_2 = i_L_34_1 + (p "h" / Ind) • (e_34_2 - x3_2))
    (h20 : i_L_41_2 = i_L_41_1 + (p "h" / Ind) • (e_41_2 - x4_2))
    (h21 : E_1 = p "gamma" * (‖e_12_1 - x_star‖ ^ 2 + ‖e_23_1 - x_star‖ ^ 2 + ‖e_34_1 - x_star‖ ^ 2 + ‖e_41_1 - x_star‖ ^ 2) +
      Ind * ‖i_L_12_1 - y_12‖ ^ 2 + Ind * ‖i_L_23_1 - y_23‖ ^ 2 + Ind * ‖i_L_34_1 - y_34‖ ^ 2 + Ind * ‖i_L_41_1 + y_14‖ ^ 2)
    (h22 : E_2 = p "gamma" * (‖e_12_2 - x_star‖ ^ 2 + ‖e_23_2 - x_star‖ ^ 2 + ‖e_34_2 - x_star‖ ^ 2 + ‖e_41_2 - x_star‖ ^ 2) +
      Ind * ‖i_L_12_2 - y_12‖ ^ 2 + Ind * ‖i_L_23_2 - y_23‖ ^ 2 + Ind * ‖i_L_34_2 - y_34‖ ^ 2 + Ind * ‖i_L_41_2 + y_14‖ ^ 2)
    (h23 : Delta_2 = p "rho" * (2 / R) * (‖e_12_2 - x1_2‖ ^ 2 + ‖e_23_2 - x2_2‖ ^ 2 + ‖e_34_2 - x4_2‖ ^ 2 + ‖e_41_2 - x1_2‖ ^ 2) +
      p "eta" * (v_f1_2 - v_f1_star - ⟪y_f1_star, x1_2 - x_star⟫_ℝ + v_f2_2 - v_f2_star - ⟪y_f2_star, x2_2 - x_star⟫_ℝ + v_f3_2 - v_f3_star - ⟪y_f3_star, x3_2 - x_star⟫_ℝ + v_f4_2 - v_f4_star - ⟪y_f4_star, x4_2 - x_star⟫_ℝ)) :
    E_2 ≤ E_1 - Delta_2 := by
  have hc : Guaranteed (dadmmCycle4 mu L R Ind).prog p := guaranteed_of_feasible hC (by calls_simp [dadmmCycle4]; simp [Instr.Clean, stdParams])
    (by decide) (by decide) (by
      calls_simp [dadmmCycle4]
      intro d hd
      simp only [decls, List.mem_cons, List.not_mem_nil, or_false, or_self] at hd
      rcases hd with rfl <;> assumption) hp
  calls_simp [dadmmCycle4] at hc
  have key := hc.vals (fs := fun k => [f1, f2, f3, f4].getD k f1) (e := 14) (by safe_simp [])
    (instance_of_list (.cons hf_f1 (.cons hf_f2 (.cons hf_f3 (.cons hf_f4 .nil)))))
    ⟨fun i => [x_star, 0, y_f1_star, y_f2_star, y_f3_star, y_f4_star, y_12, y_14, y_23, y_34, e_12_1, e_23_1, e_34_1, e_41_1, i_L_12_1, i_L_23_1, i_L_34_1, i_L_41_1, (1 / 2 : ℝ) • ((R : ℝ) • i_L_12_1 + e_12_1 + ((-(R : ℝ)) • i_L_41_1 + e_41_1)), x1_2, y1_2, (1 / 2 : ℝ) • ((-(R : ℝ)) • i_L_12_1 + e_12_1 + ((R : ℝ) • i_L_23_1 + e_23_1)), x2_2, y2_2, (1 / 2 : ℝ) • ((-(R : ℝ)) • i_L_23_1 + e_23_1 + ((R : ℝ) • i_L_34_1 + e_34_1)), x3_2, y3_2, (1 / 2 : ℝ) • ((R : ℝ) • i_L_41_1 + e_41_1 + ((-(R : ℝ)) • i_L_34_1 + e_34_1)), x4_2, y4_2, e_12_2, e_23_2, e_34_2, e_41_2, i_L_12_2, i_L_23_2, i_L_34_2, i_L_41_2].getD i 0,
      fun i => [v_f1_star + v_f2_star + v_f3_star + v_f4_star, v_f1_star, v_f2_star, v_f3_star, v_f4_star, 0, 0, v_f1_2, v_f2_2, v_f3_2, v_f4_2, E_1, E_2, Delta_2, E_2 - (E_1 - Delta_2)].getD i 0, fun i => [Finsupp.single 0 1, Finsupp.single 1 1, Finsupp.single 2 1, Finsupp.single 3 1, Finsupp.single 0 1 + Finsupp.single 1 1 + Finsupp.single 2 1 + Finsupp.single 3 1].getD i 0⟩
    ⟨rfl,
      rfl,
      rfl,
      rfl,
      rfl,
      ⟨((((smp (SR := fun k => ([f1, f2, f3, f4].getD k f1).Sample) (k := 0) h1).addSingle (k := 1) h2 (by simp)).addSingle (k := 2) h3 (by simp)).addSingle (k := 3) h4 (by simp)).zero h5, rfl⟩,
      smp h1,
      smp h2,
      smp h3,
      smp h4,
      by simp [Instr.Meets, Instr.next, h5],
      trivial,
      trivial,
      by simpa [Instr.Meets, Instr.next] using h6,
      by simpa [Instr.Meets, Instr.next] using h7,
      by simpa [Instr.Meets, Instr.next] using h8,
      meets_norm (by simp only [List.getD_cons_succ, List.getD_cons_zero, PE.val_add', PE.val_reg']; subst_vars; rw [← h5]; abel),
      trivial,
      trivial,
      trivial,
      trivial,
      trivial,
      trivial,
      trivial,
      trivial,
      trivial,
      by simp [Instr.Meets, Instr.next],
      ⟨smp h9.1, by simpa [Instr.next] using h9.2⟩,
      by simp [Instr.Meets, Instr.next],
      ⟨smp h10.1, by simpa [Instr.next] using h10.2⟩,
      by simp [Instr.Meets, Instr.next],
      ⟨smp h11.1, by simpa [Instr.next] using h11.2⟩,
      by simp [Instr.Meets, Instr.next],
      ⟨smp h12.1, by simpa [Instr.next] using h12.2⟩,
      by simpa [Instr.Meets, Instr.next] using h13,
      by simpa [Instr.Meets, Instr.next] using h14,
      by simpa [Instr.Meets, Instr.next] using h15,
      by simpa [Instr.Meets, Instr.next] using h16,
      by simpa [Instr.Meets, Instr.next] using h17,
      by simpa [Instr.Meets, Instr.next] using h18,
      by simpa [Instr.Meets, Instr.next] using h19,
      by simpa [Instr.Meets, Instr.next] using h20,
      by simpa [Instr.Meets, Instr.next] using h21,
      by simpa [Instr.Meets, Instr.next] using h22,
      by simpa [Instr.Meets, Instr.next] using h23,
      rfl,
      trivial,
      trivial⟩
    (by simp [consVals]) rfl
  simp only [List.getD_cons_succ, List.getD_cons_zero] at key
  linarith

set_option maxRecDepth 8000 in
set_option maxHeartbeats 4000000 in
/-- **C34** for `decentralized_admm_graph6` (`classical_decentral_vi.py` 389-501`).  `y_12`, `y_23` are any currents on these nets at the equilibrium; they determine the others. -/
theorem C34_dadmmGraph6 (hC : C.Lawful) (mu : ℚ) (L : Option ℚ) (R Ind : ℚ)  (hok0 : (defDecl mu L).Ok)
    {p : Name → ℝ} (hp : IpoptFeasible C (dadmmGraph6 mu L R Ind).prog stdParams p)
    (f1 : CFun E) (f2 : CFun E) (f3 : CFun E) (f4 : CFun E) (f5 : CFun E) (f6 : CFun E) (hf_f1 : (defDecl mu L).Holds f1) (hf_f2 : (defDecl mu L).Holds f2) (hf_f3 : (defDecl mu L).Holds f3) (hf_f4 : (defDecl mu L).Holds f4) (hf_f5 : (defDecl mu L).Holds f5) (hf_f6 : (defDecl mu L).Holds f6)
    {x_star y_f1_star y_f2_star y_f3_star y_f4_star y_f5_star y_f6_star y_12 y_13 y_23 y_24 y_34 e_12_1 e_13_1 e_23_1 e_24_1 e_34_1 e_45_1 e_46_1 i_L_12_1 i_L_13_1 i_L_23_1 i_L_24_1 i_L_34_1 i_L_45_1 i_L_46_1 x1_2 y1_2 x2_2 y2_2 x3_2 y3_2 x4_2 y4_2 x5_2 y5_2 x6_2 y6_2 e_12_2 e_13_2 e_23_2 e_24_2 e_34_2 e_45_2 e_46_2 i_L_12_2 i_L_13_2 i_L_23_2 i_L_24_2 i_L_34_2 i_L_45_2 i_L_46_2 : E} {v_f1_star v_f2_star v_f3_star v_f4_star v_f5_star v_f6_star v_f1_2 v_f2_2 v_f3_2 v_f4_2 v_f5_2 v_f6_2 E_1 E_2 Delta_2 : ℝ}
    (h1 : f1.Sample x_star y_f1_star v_f1_star)
    (h2 : f2.Sample x_star y_f2_star v_f2_star)
    (h3 : f3.Sample x_star y_f3_star v_f3_star)
    (h4 : f4.Sample x_star y_f4_star v_f4_star)
    (h5 : f5.Sample x_star y_f5_star v_f5_star)
    (h6 : f6.Sample x_star y_f6_star v_f6_star)
    (h7 : y_f1_star + y_f2_star + y_f3_star + y_f4_star + y_f5_star + y_f6_star = 0)
    (h8 : y_13 = y_f1_star - y_12)
    (h9 : y_24 = y_f2_star + y_12 - y_23)
    (h10 : y_34 = y_f3_star + y_13 + y_23)
    (h11 : f1.Prox (R / 2) ((1 / 2 : ℝ) • (((R : ℝ) • i_L_12_1 + e_12_1) + ((R : ℝ) • i_L_13_1 + e_13_1))) x1_2 y1_2 v_f1_2)
    (h12 : f2.Prox (R / 3) ((1 / 3 : ℝ) • (((-(R : ℝ)) • i_L_12_1 + e_12_1) + ((R : ℝ) • i_L_23_1 + e_23_1) + ((R : ℝ) • i_L_24_1 + e_24_1))) x2_2 y2_2 v_f2_2)
    (h13 : f3.Prox (R / 3) ((1 / 3 : ℝ) • (((-(R : ℝ)) • i_L_13_1 + e_13_1) + ((-(R : ℝ)) • i_L_23_1 + e_23_1) + ((R : ℝ) • i_L_34_1 + e_34_1))) x3_2 y3_2 v_f3_2)
    (h14 : f4.Prox (R / 4) ((1 / 4 : ℝ) • (((-(R : ℝ)) • i_L_24_1 + e_24_1) + ((-(R : ℝ)) • i_L_34_1 + e_34_1) + ((R : ℝ) • i_L_45_1 + e_45_1) + ((R : ℝ) • i_L_46_1 + e_46_1))) x4_2 y4_2 v_f4_2)
    (h15 : f5.Prox R ((-(R : ℝ)) • i_L_45_1 + e_45_1) x5_2 y5_2 v_f5_2)
    (h16 : f6.Prox R ((-(R : ℝ)) • i_L_46_1 + e_46_1) x6_2 y6_2 v_f6_2)
    (h17 : e_12_2 = (2 : ℝ)⁻¹ • (x1_2 + x2_2))
    (h18 : e_13_2 = (2 : ℝ)⁻¹ • (x1_2 + x3_2))
    (h19 : e_23_2 = (2 : ℝ)⁻¹ • (x2_2 + x3_2))
    (h20 : e_24_2 = (2 : ℝ)⁻¹ • (x2_2 + x4_2))
    (h21 : e_34_2 = (2 : ℝ)⁻¹ • (x3_2 + x4_2))
    (h22 : e_45_2 = (2 : ℝ)⁻¹ • (x4_2 + x5_2))
    (h23 : e_46_2 = (2 : ℝ)⁻¹ • (x4_2 + x6_2))
    (h24 : i_L_12_2 = i_L_12_1 + (p "h" / Ind) • (e_12_2 - x1_2))
    (h25 : i_L_13_2 = i_L_13_1 + (p "h" / Ind) • (e_13_2 - x1_2))
    (h26 : i_L_23_2 = i_L_23_1 + (p "h" / Ind) • (e_23_2 - x2_2))
    (h27 : i_L_24_2 = i_L_24_1 + (p "h" / Ind) • (e_24_2 - x2_2))
    (h28 : i_L_34_2 = i_L_34_1 + (p "h" / Ind) • (e_34_2 - x3_2))
    (h29 : i_L_45_2 = i_L_45_1 + (p "h" / Ind) • (e_45_2 - x4_2))
    (h30 : i_L_46_2 = i_L_46_1 + (p "h" / Ind) • (e_46_2 - x4_2))
    (h31 : E_1 = p "gamma" * (‖e_12_1 - x_star‖ ^ 2 + ‖e_13_1 - x_star‖ ^ 2 + ‖e_23_1 - x_star‖ ^ 2 + ‖e_24_1 - x_star‖ ^ 2 + ‖e_34_1 - x_star‖ ^ 2 + ‖e_45_1 - x_star‖ ^ 2 + ‖e_46_1 - x_star‖ ^ 2) +
      Ind * ‖i_L_12_1 - y_12‖ ^ 2 + Ind * ‖i_L_13_1 - y_13‖ ^ 2 + Ind * ‖i_L_23_1 - y_23‖ ^ 2 + Ind * ‖i_L_24_1 - y_24‖ ^ 2 + Ind * ‖i_L_34_1 - y_34‖ ^ 2 + Ind * ‖i_L_45_1 + y_f5_star‖ ^ 2 + Ind * ‖i_L_46_1 + y_f6_star‖ ^ 2)
    (h32 : E_2 = p "gamma" * (‖e_12_2 - x_star‖ ^ 2 + ‖e_13_2 - x_star‖ ^ 2 + ‖e_23_2 - x_star‖ ^ 2 + ‖e_24_2 - x_star‖ ^ 2 + ‖e_34_2 - x_star‖ ^ 2 + ‖e_45_2 - x_star‖ ^ 2 + ‖e_46_2 - x_star‖ ^ 2) +
      Ind * ‖i_L_12_2 - y_12‖ ^ 2 + Ind * ‖i_L_13_2 - y_13‖ ^ 2 + Ind * ‖i_L_23_2 - y_23‖ ^ 2 + Ind * ‖i_L_24_2 - y_24‖ ^ 2 + Ind * ‖i_L_34_2 - y_34‖ ^ 2 + Ind * ‖i_L_45_2 + y_f5_star‖ ^ 2 + Ind * ‖i_L_46_2 + y_f6_star‖ ^ 2)
    (h33 : Delta_2 = p "rho" * (2 / R) * (‖e_12_2 - x1_2‖ ^ 2 + ‖e_13_2 - x3_2‖ ^ 2 + ‖e_23_2 - x2_2‖ ^ 2 + ‖e_24_2 - x2_2‖ ^ 2 + ‖e_34_2 - x4_2‖ ^ 2 +
      ‖e_45_2 - x5_2‖ ^ 2 + ‖e_46_2 - x6_2‖ ^ 2) +
      p "eta" * (v_f1_2 - v_f1_star - ⟪y_f1_star, x1_2 - x_star⟫_ℝ + v_f2_2 - v_f2_star - ⟪y_f2_star, x2_2 - x_star⟫_ℝ + v_f3_2 - v_f3_star - ⟪y_f3_star, x3_2 - x_star⟫_ℝ + v_f4_2 - v_f4_star - ⟪y_f4_star, x4_2 - x_star⟫_ℝ + v_f5_2 - v_f5_star - ⟪y_f5_star, x5_2 - x_star⟫_ℝ + v_f6_2 - v_f6_star - ⟪y_f6_star, x6_2 - x_star⟫_ℝ)) :
    E_2 ≤ E_1 - Delta_2 := by
  have hc : Guaranteed (dadmmGraph6 mu L R Ind).prog p := guaranteed_of_feasible hC (by calls_simp [dadmmGraph6]; simp [Instr.Clean, stdParams])
    (by decide) (by decide) (by
      calls_simp [dadmmGraph6]
      intro d hd
      simp only [decls, List.mem_cons, List.not_mem_nil, or_false, or_self] at hd
      rcases hd with rfl <;> assumption) hp
  calls_simp [dadmmGraph6] at hc
  have key := hc.vals (fs := fun k => [f1, f2, f3, f4, f5, f6].getD k f1) (e := 18) (by safe_simp [])
    (instance_of_list (.cons hf_f1 (.cons hf_f2 (.cons hf_f3 (.cons hf_f4 (.cons hf_f5 (.cons hf_f6 .nil)))))))
    ⟨fun i => [x_star, 0, y_f1_star, y_f2_star, y_f3_star, y_f4_star, y_f5_star, y_f6_star, y_12, y_13, y_23, y_24, y_34, e_12_1, e_13_1, e_23_1, e_24_1, e_34_1, e_45_1, e_46_1, i_L_12_1, i_L_13_1, i_L_23_1, i_L_24_1, i_L_34_1, i_L_45_1, i_L_46_1, (1 / 2 : ℝ) • (((R : ℝ) • i_L_12_1 + e_12_1) + ((R : ℝ) • i_L_13_1 + e_13_1)), x1_2, y1_2, (1 / 3 : ℝ) • (((-(R : ℝ)) • i_L_12_1 + e_12_1) + ((R : ℝ) • i_L_23_1 + e_23_1) + ((R : ℝ) • i_L_24_1 + e_24_1)), x2_2, y2_2, (1 / 3 : ℝ) • (((-(R : ℝ)) • i_L_13_1 + e_13_1) + ((-(R : ℝ)) • i_L_23_1 + e_23_1) + ((R : ℝ) • i_L_34_1 + e_34_1)), x3_2, y3_2, (1 / 4 : ℝ) • (((-(R : ℝ)) • i_L_24_1 + e_24_1) + ((-(R : ℝ)) • i_L_34_1 + e_34_1) + ((R : ℝ) • i_L_45_1 + e_45_1) + ((R : ℝ) • i_L_46_1 + e_46_1)), x4_2, y4_2, (-(R : ℝ)) • i_L_45_1 + e_45_1, x5_2, y5_2, (-(R : ℝ)) • i_L_46_1 + e_46_1, x6_2, y6_2, e_12_2, e_13_2, e_23_2, e_24_2, e_34_2, e_45_2, e_46_2, i_L_12_2, i_L_13_2, i_L_23_2, i_L_24_2, i_L_34_2, i_L_45_2, i_L_46_2].getD i 0,
      fun i => [v_f1_star + v_f2_star + v_f3_star + v_f4_star + v_f5_star + v_f6_star, v_f1_star, v_f2_star, v_f3_star, v_f4_star, v_f5_star, v_f6_star, 0, 0, v_f1_2, v_f2_2, v_f3_2, v_f4_2, v_f5_2, v_f6_2, E_1, E_2, Delta_2, E_2 - (E_1 - Delta_2)].getD i 0, fun i => [Finsupp.single 0 1, Finsupp.single 1 1, Finsupp.single 2 1, Finsupp.single 3 1, Finsupp.single 4 1, Finsupp.single 5 1, Finsupp.single 0 1 + Finsupp.single 1 1 + Finsupp.single 2 1 + Finsupp.single 3 1 + Finsupp.single 4 1 + Finsupp.single 5 1].getD i 0⟩
    ⟨rfl,
      rfl,
      rfl,
      rfl,
      rfl,
      rfl,
      rfl,
      ⟨((((((smp (SR := fun k => ([f1, f2, f3, f4, f5, f6].getD k f1).Sample) (k := 0) h1).addSingle (k := 1) h2 (by simp)).addSingle (k := 2) h3 (by simp)).addSingle (k := 3) h4 (by simp)).addSingle (k := 4) h5 (by simp)).addSingle (k := 5) h6 (by simp)).zero h7, rfl⟩,
      smp h1,
      smp h2,
      smp h3,
      smp h4,
      smp h5,
      smp h6,
      by simp [Instr.Meets, Instr.next, h7],
      trivial,
      trivial,
      by simpa [Instr.Meets, Instr.next] using h8,
      trivial,
      by simpa [Instr.Meets, Instr.next] using h9,
      by simpa [Instr.Meets, Instr.next] using h10,
      meets_norm (by simp only [List.getD_cons_succ, List.getD_cons_zero, PE.val_add', PE.val_reg']; subst_vars; rw [← h7]; abel),
      trivial,
      trivial,
      trivial,
      trivial,
      trivial,
      trivial,
      trivial,
      trivial,
      trivial,
      trivial,
      trivial,
      trivial,
      trivial,
      trivial,
      trivial,
      by simp [Instr.Meets, Instr.next],
      ⟨smp h11.1, by simpa [Instr.next] using h11.2⟩,
      by simp [Instr.Meets, Instr.next],
      ⟨smp h12.1, by simpa [Instr.next] using h12.2⟩,
      by simp [Instr.Meets, Instr.next],
      ⟨smp h13.1, by simpa [Instr.next] using h13.2⟩,
      by simp [Instr.Meets, Instr.next],
      ⟨smp h14.1, by simpa [Instr.next] using h14.2⟩,
      by simp [Instr.Meets, Instr.next],
      ⟨smp h15.1, by simpa [Instr.next] using h15.2⟩,
      by simp [Instr.Meets, Instr.next],
      ⟨smp h16.1, by simpa [Instr.next] using h16.2⟩,
      by simpa [Instr.Meets, Instr.next] using h17,
      by simpa [Instr.Meets, Instr.next] using h18,
      by simpa [Instr.Meets, Instr.next] using h19,
      by simpa [Instr.Meets, Instr.next] using h20,
      by simpa [Instr.Meets, Instr.next] using h21,
      by simpa [Instr.Meets, Instr.next] using h22,
      by simpa [Instr.Meets, Instr.next] using h23,
      by simpa [Instr.Meets, Instr.next] using h24,
      by simpa [Instr.Meets, Instr.next] using h25,
      by simpa [Instr.Meets, Instr.next] using h26,
      by simpa [Instr.Meets, Instr.next] using h27,
      by simpa [Instr.Meets, Instr.next] using h28,
      by simpa [Instr.Meets, Instr.next] using h29,
      by simpa [Instr.Meets, Instr.next] using h30,
      by simpa [Instr.Meets, Instr.next] using h31,
      by simpa [Instr.Meets, Instr.next] using h32,
      by simpa [Instr.Meets, Instr.next] using h33,
      rfl,
      trivial,
      trivial⟩
    (by simp [consVals]) rfl
  simp only [List.getD_cons_succ, List.getD_cons_zero] at key
  linarith

set_option maxRecDepth 8000 in
set_option maxHeartbeats 4000000 in
/-- **C34** for `dadmm_C_graph6` (`new_algorithms_vi.py` 16-138`).  `y_12`, `y_23` are any currents on these nets at the equilibrium; they determine the others. -/
theorem C34_dadmmCGraph6 (hC : C.Lawful) (mu0 mu1 : ℚ) (L0 L1 : Option ℚ) (R Cap Ind : ℚ) (hR0 : R ≠ 0) (hok0 : (defDecl mu0 L0).Ok) (hok1 : (defDecl mu1 L1).Ok)
    {p : Name → ℝ} (hp : IpoptFeasible C (dadmmCGraph6 mu0 mu1 L0 L1 R Cap Ind).prog stdParams p)
    (f1 : CFun E) (f2 : CFun E) (f3 : CFun E) (f4 : CFun E) (f5 : CFun E) (f6 : CFun E) (hf_f1 : (defDecl mu0 L0).Holds f1) (hf_f2 : (defDecl mu0 L0).Holds f2) (hf_f3 : (defDecl mu0 L0).Holds f3) (hf_f4 : (defDecl mu1 L1).Holds f4) (hf_f5 : (defDecl mu1 L1).Holds f5) (hf_f6 : (defDecl mu0 L0).Holds f6)
    {x_star y_f1_star y_f2_star y_f3_star y_f4_star y_f5_star y_f6_star y_12 y_13 y_23 y_24 y_34 e_12_1 e_13_1 e_23_1 e_24_1 e_34_1 e_45_1 e_46_1 i_L_12_1 i_L_13_1 i_L_23_1 i_L_24_1 i_L_34_1 i_L_45_1 i_L_54_1 i_L_46_1 x1_2 y1_2 x2_2 y2_2 x3_2 y3_2 x4_2 y4_2 x5_2 y5_2 x6_2 y6_2 e_12_2 e_13_2 e_23_2 e_24_2 e_34_2 e_45_2 e_46_2 i_L_12_2 i_L_13_2 i_L_23_2 i_L_24_2 i_L_34_2 i_L_45_2 i_L_54_2 i_L_46_2 : E} {v_f1_star v_f2_star v_f3_star v_f4_star v_f5_star v_f6_star v_f1_2 v_f2_2 v_f3_2 v_f4_2 v_f5_2 v_f6_2 E_1 E_2 Delta_2 : ℝ}
    (h1 : f1.Sample x_star y_f1_star v_f1_star)
    (h2 : f2.Sample x_star y_f2_star v_f2_star)
    (h3 : f3.Sample x_star y_f3_star v_f3_star)
    (h4 : f4.Sample x_star y_f4_star v_f4_star)
    (h5 : f5.Sample x_star y_f5_star v_f5_star)
    (h6 : f6.Sample x_star y_f6_star v_f6_star)
    (h7 : y_f1_star + y_f2_star + y_f3_star + y_f4_star + y_f5_star + y_f6_star = 0)
    (h8 : y_13 = y_f1_star - y_12)
    (h9 : y_24 = y_f2_star + y_12 - y_23)
    (h10 : y_34 = y_f3_star + y_13 + y_23)
    (h11 : f1.Prox (R / 2) ((1 / 2 : ℝ) • (((R : ℝ) • i_L_12_1 + e_12_1) + ((R : ℝ) • i_L_13_1 + e_13_1))) x1_2 y1_2 v_f1_2)
    (h12 : f2.Prox (R / 3) ((1 / 3 : ℝ) • (((-(R : ℝ)) • i_L_12_1 + e_12_1) + ((R : ℝ) • i_L_23_1 + e_23_1) + ((R : ℝ) • i_L_24_1 + e_24_1))) x2_2 y2_2 v_f2_2)
    (h13 : f3.Prox (R / 3) ((1 / 3 : ℝ) • (((-(R : ℝ)) • i_L_13_1 + e_13_1) + ((-(R : ℝ)) • i_L_23_1 + e_23_1) + ((R : ℝ) • i_L_34_1 + e_34_1))) x3_2 y3_2 v_f3_2)
    (h14 : f4.Prox (R / 4) ((1 / 4 : ℝ) • (((-(R : ℝ)) • i_L_24_1 + e_24_1) + ((-(R : ℝ)) • i_L_34_1 + e_34_1) + ((R : ℝ) • i_L_45_1 + e_45_1) + ((R : ℝ) • i_L_46_1 + e_46_1))) x4_2 y4_2 v_f4_2)
    (h15 : f5.Prox R ((R : ℝ) • i_L_54_1 + e_45_1) x5_2 y5_2 v_f5_2)
    (h16 : f6.Prox R ((-(R : ℝ)) • i_L_46_1 + e_46_1) x6_2 y6_2 v_f6_2)
    (h17 : e_12_2 = (2 : ℝ)⁻¹ • (x1_2 + x2_2))
    (h18 : e_13_2 = (2 : ℝ)⁻¹ • (x1_2 + x3_2))
    (h19 : e_23_2 = (2 : ℝ)⁻¹ • (x2_2 + x3_2))
    (h20 : e_24_2 = (2 : ℝ)⁻¹ • (x2_2 + x4_2))
    (h21 : e_34_2 = (2 : ℝ)⁻¹ • (x3_2 + x4_2))
    (h22 : e_45_2 = e_45_1 - (p "h" / Cap) • (i_L_45_1 + i_L_54_1 + (R : ℝ)⁻¹ • ((2 : ℝ) • e_45_1 - x4_2 - x5_2)))
    (h23 : e_46_2 = (2 : ℝ)⁻¹ • (x4_2 + x6_2))
    (h24 : i_L_12_2 = i_L_12_1 + (p "h" / Ind) • (e_12_2 - x1_2))
    (h25 : i_L_13_2 = i_L_13_1 + (p "h" / Ind) • (e_13_2 - x1_2))
    (h26 : i_L_23_2 = i_L_23_1 + (p "h" / Ind) • (e_23_2 - x2_2))
    (h27 : i_L_24_2 = i_L_24_1 + (p "h" / Ind) • (e_24_2 - x2_2))
    (h28 : i_L_34_2 = i_L_34_1 + (p "h" / Ind) • (e_34_2 - x3_2))
    (h29 : i_L_45_2 = i_L_45_1 + (p "h" / Ind) • (e_45_2 - x4_2))
    (h30 : i_L_54_2 = i_L_54_1 + (p "h" / Ind) • (e_45_2 - x5_2))
    (h31 : i_L_46_2 = i_L_46_1 + (p "h" / Ind) • (e_46_2 - x4_2))
    (h32 : E_1 = p "gamma" * (‖e_12_1 - x_star‖ ^ 2 + ‖e_13_1 - x_star‖ ^ 2 + ‖e_23_1 - x_star‖ ^ 2 + ‖e_24_1 - x_star‖ ^ 2 + ‖e_34_1 - x_star‖ ^ 2 + ‖e_46_1 - x_star‖ ^ 2) +
      Ind * ‖i_L_12_1 - y_12‖ ^ 2 + Ind * ‖i_L_13_1 - y_13‖ ^ 2 + Ind * ‖i_L_23_1 - y_23‖ ^ 2 + Ind * ‖i_L_24_1 - y_24‖ ^ 2 + Ind * ‖i_L_34_1 - y_34‖ ^ 2 +
      Ind / 2 * ‖i_L_45_1 + y_f5_star‖ ^ 2 + Ind / 2 * ‖i_L_54_1 - y_f5_star‖ ^ 2 + Ind * ‖i_L_46_1 + y_f6_star‖ ^ 2 + Cap / 2 * ‖e_45_1 - x_star‖ ^ 2)
    (h33 : E_2 = p "gamma" * (‖e_12_2 - x_star‖ ^ 2 + ‖e_13_2 - x_star‖ ^ 2 + ‖e_23_2 - x_star‖ ^ 2 + ‖e_24_2 - x_star‖ ^ 2 + ‖e_34_2 - x_star‖ ^ 2 + ‖e_46_2 - x_star‖ ^ 2) +
      Ind * ‖i_L_12_2 - y_12‖ ^ 2 + Ind * ‖i_L_13_2 - y_13‖ ^ 2 + Ind * ‖i_L_23_2 - y_23‖ ^ 2 + Ind * ‖i_L_24_2 - y_24‖ ^ 2 + Ind * ‖i_L_34_2 - y_34‖ ^ 2 +
      Ind / 2 * ‖i_L_45_2 + y_f5_star‖ ^ 2 + Ind / 2 * ‖i_L_54_2 - y_f5_star‖ ^ 2 + Ind * ‖i_L_46_2 + y_f6_star‖ ^ 2 + Cap / 2 * ‖e_45_2 - x_star‖ ^ 2)
    (h34 : Delta_2 = p "rho" * (2 / R * (‖e_12_2 - x1_2‖ ^ 2 + ‖e_13_2 - x3_2‖ ^ 2 + ‖e_23_2 - x2_2‖ ^ 2 + ‖e_24_2 - x2_2‖ ^ 2 + ‖e_34_2 - x4_2‖ ^ 2 +
      ‖e_46_2 - x6_2‖ ^ 2) + 1 / R * (‖e_45_2 - x5_2‖ ^ 2 + ‖e_45_2 - x4_2‖ ^ 2)) +
      p "eta" * (v_f1_2 - v_f1_star - ⟪y_f1_star, x1_2 - x_star⟫_ℝ + v_f2_2 - v_f2_star - ⟪y_f2_star, x2_2 - x_star⟫_ℝ + v_f3_2 - v_f3_star - ⟪y_f3_star, x3_2 - x_star⟫_ℝ + v_f4_2 - v_f4_star - ⟪y_f4_star, x4_2 - x_star⟫_ℝ + v_f5_2 - v_f5_star - ⟪y_f5_star, x5_2 - x_star⟫_ℝ + v_f6_2 - v_f6_star - ⟪y_f6_star, x6_2 - x_star⟫_ℝ)) :
    E_2 ≤ E_1 - Delta_2 := by
  have hc : Guaranteed (dadmmCGraph6 mu0 mu1 L0 L1 R Cap Ind).prog p := guaranteed_of_feasible hC (by calls_simp [dadmmCGraph6]; simp [Instr.Clean, stdParams])
    (by decide) (by decide) (by
      calls_simp [dadmmCGraph6]
      intro d hd
      simp only [decls, List.mem_cons, List.not_mem_nil, or_false, or_self] at hd
      rcases hd with rfl | rfl | rfl | rfl | rfl | rfl <;> assumption) hp
  calls_simp [dadmmCGraph6] at hc
  have key := hc.vals (fs := fun k => [f1, f2, f3, f4, f5, f6].getD k f1) (e := 18) (by safe_simp [hR0])
    (instance_of_list (.cons hf_f1 (.cons hf_f2 (.cons hf_f3 (.cons hf_f4 (.cons hf_f5 (.cons hf_f6 .nil)))))))
    ⟨fun i => [x_star, 0, y_f1_star, y_f2_star, y_f3_star, y_f4_star, y_f5_star, y_f6_star, y_12, y_13, y_23, y_24, y_34, e_12_1, e_13_1, e_23_1, e_24_1, e_34_1, e_45_1, e_46_1, i_L_12_1, i_L_13_1, i_L_23_1, i_L_24_1, i_L_34_1, i_L_45_1, i_L_54_1, i_L_46_1, (1 / 2 : ℝ) • (((R : ℝ) • i_L_12_1 + e_12_1) + ((R : ℝ) • i_L_13_1 + e_13_1)), x1_2, y1_2, (1 / 3 : ℝ) • (((-(R : ℝ)) • i_L_12_1 + e_12_1) + ((R : ℝ) • i_L_23_1 + e_23_1) + ((R : ℝ) • i_L_24_1 + e_24_1)), x2_2, y2_2, (1 / 3 : ℝ) • (((-(R : ℝ)) • i_L_13_1 + e_13_1) + ((-(R : ℝ)) • i_L_23_1 + e_23_1) + ((R : ℝ) • i_L_34_1 + e_34_1)), x3_2, y3_2, (1 / 4 : ℝ) • (((-(R : ℝ)) • i_L_24_1 + e_24_1) + ((-(R : ℝ)) • i_L_34_1 + e_34_1) + ((R : ℝ) • i_L_45_1 + e_45_1) + ((R : ℝ) • i_L_46_1 + e_46_1)), x4_2, y4_2, (R : ℝ) • i_L_54_1 + e_45_1, x5_2, y5_2, (-(R : ℝ)) • i_L_46_1 + e_46_1, x6_2, y6_2, e_12_2, e_13_2, e_23_2, e_24_2, e_34_2, e_45_2, e_46_2, i_L_12_2, i_L_13_2, i_L_23_2, i_L_24_2, i_L_34_2, i_L_45_2, i_L_54_2, i_L_46_2].getD i 0,
      fun i => [v_f1_star + v_f2_star + v_f3_star + v_f4_star + v_f5_star + v_f6_star, v_f1_star, v_f2_star, v_f3_star, v_f4_star, v_f5_star, v_f6_star, 0, 0, v_f1_2, v_f2_2, v_f3_2, v_f4_2, v_f5_2, v_f6_2, E_1, E_2, Delta_2, E_2 - (E_1 - Delta_2)].getD i 0, fun i => [Finsupp.single 0 1, Finsupp.single 1 1, Finsupp.single 2 1, Finsupp.single 3 1, Finsupp.single 4 1, Finsupp.single 5 1, Finsupp.single 0 1 + Finsupp.single 1 1 + Finsupp.single 2 1 + Finsupp.single 3 1 + Finsupp.single 4 1 + Finsupp.single 5 1].getD i 0⟩
    ⟨rfl,
      rfl,
      rfl,
      rfl,
      rfl,
      rfl,
      rfl,
      ⟨((((((smp (SR := fun k => ([f1, f2, f3, f4, f5, f6].getD k f1).Sample) (k := 0) h1).addSingle (k := 1) h2 (by simp)).addSingle (k := 2) h3 (by simp)).addSingle (k := 3) h4 (by simp)).addSingle (k := 4) h5 (by simp)).addSingle (k := 5) h6 (by simp)).zero h7, rfl⟩,
      smp h1,
      smp h2,
      smp h3,
      smp h4,
      smp h5,
      smp h6,
      by simp [Instr.Meets, Instr.next, h7],
      trivial,
      trivial,
      by simpa [Instr.Meets, Instr.next] using h8,
      trivial,
      by simpa [Instr.Meets, Instr.next] using h9,
      by simpa [Instr.Meets, Instr.next] using h10,
      meets_norm (by simp only [List.getD_cons_succ, List.getD_cons_zero, PE.val_add', PE.val_reg']; subst_vars; rw [← h7]; abel),
      trivial,
      trivial,
      trivial,
      trivial,
      trivial,
      trivial,
      trivial,
      trivial,
      trivial,
      trivial,
      trivial,
      trivial,
      trivial,
      trivial,
      trivial,
      trivial,
      by simp [Instr.Meets, Instr.next],
      ⟨smp h11.1, by simpa [Instr.next] using h11.2⟩,
      by simp [Instr.Meets, Instr.next],
      ⟨smp h12.1, by simpa [Instr.next] using h12.2⟩,
      by simp [Instr.Meets, Instr.next],
      ⟨smp h13.1, by simpa [Instr.next] using h13.2⟩,
      by simp [Instr.Meets, Instr.next],
      ⟨smp h14.1, by simpa [Instr.next] using h14.2⟩,
      by simp [Instr.Meets, Instr.next],
      ⟨smp h15.1, by simpa [Instr.next] using h15.2⟩,
      by simp [Instr.Meets, Instr.next],
      ⟨smp h16.1, by simpa [Instr.next] using h16.2⟩,
      by simpa [Instr.Meets, Instr.next] using h17,
      by simpa [Instr.Meets, Instr.next] using h18,
      by simpa [Instr.Meets, Instr.next] using h19,
      by simpa [Instr.Meets, Instr.next] using h20,
      by simpa [Instr.Meets, Instr.next] using h21,
      by simpa [Instr.Meets, Instr.next] using h22,
      by simpa [Instr.Meets, Instr.next] using h23,
      by simpa [Instr.Meets, Instr.next] using h24,
      by simpa [Instr.Meets, Instr.next] using h25,
      by simpa [Instr.Meets, Instr.next] using h26,
      by simpa [Instr.Meets, Instr.next] using h27,
      by simpa [Instr.Meets, Instr.next] using h28,
      by simpa [Instr.Meets, Instr.next] using h29,
      by simpa [Instr.Meets, Instr.next] using h30,
      by simpa [Instr.Meets, Instr.next] using h31,
      by simpa [Instr.Meets, Instr.next] using h32,
      by simpa [Instr.Meets, Instr.next] using h33,
      by simpa [Instr.Meets, Instr.next] using h34,
      rfl,
      trivial,
      trivial⟩
    (by simp [consVals]) rfl
  simp only [List.getD_cons_succ, List.getD_cons_zero] at key
  linarith

/-- **C34** for `example_fC3RC_circuit` (`new_algorithms_vi.py` 144-188`). -/
theorem C34_exampleFC3RC (hC : C.Lawful) (mu : ℚ) (L : Option ℚ) (Cap R : ℚ)  (hok0 : (defDecl mu L).Ok)
    {p : Name → ℝ} (hp : IpoptFeasible C (exampleFC3RC mu L Cap R).prog stdParams p)
    (f : CFun E) (hf_f : (defDecl mu L).Holds f)
    {x_star z_1 e2_1 x_1 g_1 y_1 e2_1p5 z_1p5 x_1p5 g_1p5 y_1p5 e2_2 z_2 x_2 g_2 y_2 v_C1_1 v_C1_2 e1_1 : E} {f_star f_1 f_1p5 f_2 E_1 E_2 Delta_1 : ℝ}
    (h1 : f.Sample x_star 0 f_star)
    (h2 : f.Prox (R / 2) (z_1) x_1 g_1 f_1)
    (h3 : y_1 = (2 / (R : ℝ)) • (z_1 - x_1))
    (h4 : e2_1p5 = e2_1 - (p "alpha" * p "h" / (2 * R * Cap)) • ((R : ℝ) • y_1 + (3 : ℝ) • e2_1))
    (h5 : z_1p5 = z_1 - (p "alpha" * p "h" / (4 * R * Cap)) • ((5 * (R : ℝ)) • y_1 + (3 : ℝ) • e2_1))
    (h6 : f.Prox (R / 2) (z_1p5) x_1p5 g_1p5 f_1p5)
    (h7 : y_1p5 = (2 / (R : ℝ)) • (z_1p5 - x_1p5))
    (h8 : e2_2 = e2_1 - (p "beta" * p "h" / (2 * R * Cap)) • ((R : ℝ) • y_1 + (3 : ℝ) • e2_1) - ((1 - p "beta") * p "h" / (2 * R * Cap)) • ((R : ℝ) • y_1p5 + (3 : ℝ) • e2_1p5))
    (h9 : z_2 = z_1 - (p "beta" * p "h" / (4 * R * Cap)) • ((5 * (R : ℝ)) • y_1 + (3 : ℝ) • e2_1) -
      ((1 - p "beta") * p "h" / (4 * R * Cap)) • ((5 * (R : ℝ)) • y_1p5 + (3 : ℝ) • e2_1p5))
    (h10 : f.Prox (R / 2) (z_2) x_2 g_2 f_2)
    (h11 : y_2 = (2 / (R : ℝ)) • (z_2 - x_2))
    (h12 : v_C1_1 = (2 : ℝ)⁻¹ • e2_1 - z_1)
    (h13 : v_C1_2 = (2 : ℝ)⁻¹ • e2_2 - z_2)
    (h14 : e1_1 = (2 : ℝ)⁻¹ • (e2_1 - (R : ℝ) • y_1))
    (h15 : E_1 = Cap / 2 * ‖v_C1_1 + x_star‖ ^ 2 + Cap / 2 * ‖e2_1‖ ^ 2)
    (h16 : E_2 = Cap / 2 * ‖v_C1_2 + x_star‖ ^ 2 + Cap / 2 * ‖e2_2‖ ^ 2)
    (h17 : Delta_1 = ⟪p "eta" • (x_1 - x_star), y_1⟫_ℝ + p "rho" * (1 / R) * (‖e1_1‖ ^ 2 + ‖e1_1 - e2_1‖ ^ 2 + ‖e2_1‖ ^ 2)) :
    E_2 ≤ E_1 - Delta_1 := by
  have hc : Guaranteed (exampleFC3RC mu L Cap R).prog p := guaranteed_of_feasible hC (by calls_simp [exampleFC3RC]; simp [Instr.Clean, stdParams])
    (by decide) (by decide) (by
      calls_simp [exampleFC3RC]
      intro d hd
      simp only [decls, List.mem_cons, List.not_mem_nil, or_false, or_self] at hd
      rcases hd with rfl <;> assumption) hp
  calls_simp [exampleFC3RC] at hc
  have key := hc.vals (fs := fun k => [f].getD k f) (e := 7) (by safe_simp [])
    (instance_of_list (.cons hf_f .nil))
    ⟨fun i => [x_star, 0, z_1, e2_1, x_1, g_1, y_1, e2_1p5, z_1p5, x_1p5, g_1p5, y_1p5, e2_2, z_2, x_2, g_2, y_2, v_C1_1, v_C1_2, e1_1].getD i 0,
      fun i => [f_star, f_1, f_1p5, f_2, E_1, E_2, Delta_1, E_2 - (E_1 - Delta_1)].getD i 0, fun i => [Finsupp.single 0 1].getD i 0⟩
    ⟨rfl,
      ⟨smp h1, rfl⟩,
      trivial,
      trivial,
      ⟨smp h2.1, by simpa [Instr.next] using h2.2⟩,
      by simpa [Instr.Meets, Instr.next] using h3,
      by simpa [Instr.Meets, Instr.next] using h4,
      by simpa [Instr.Meets, Instr.next] using h5,
      ⟨smp h6.1, by simpa [Instr.next] using h6.2⟩,
      by simpa [Instr.Meets, Instr.next] using h7,
      by simpa [Instr.Meets, Instr.next] using h8,
      by simpa [Instr.Meets, Instr.next] using h9,
      ⟨smp h10.1, by simpa [Instr.next] using h10.2⟩,
      by simpa [Instr.Meets, Instr.next] using h11,
      by simpa [Instr.Meets, Instr.next] using h12,
      by simpa [Instr.Meets, Instr.next] using h13,
      by simpa [Instr.Meets, Instr.next] using h14,
      by simpa [Instr.Meets, Instr.next] using h15,
      by simpa [Instr.Meets, Instr.next] using h16,
      by simpa [Instr.Meets, Instr.next] using h17,
      rfl,
      trivial,
      trivial⟩
    (by simp [consVals]) rfl
  simp only [List.getD_cons_succ, List.getD_cons_zero] at key
  linarith

end Verif
