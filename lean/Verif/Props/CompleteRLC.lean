import Verif.Props.CompleteAccel

/-!
# C69 for the accelerated gradient circuit with tuned elements
-/

namespace Verif
open Build
open scoped InnerProductSpace

set_option linter.unusedSimpArgs false

variable {C : CAS}

/-- the energy inequality of `accelerated_gradient_circuit_tuneRLC` (`classical_central_vi.py` 118-158) for all functions and all steps -/
def AcceleratedGradientTuneRLCStep (mu : ℚ) (L : Option ℚ) (p : Name → ℝ) : Prop :=
  ∀ (E : Type) [NormedAddCommGroup E] [InnerProductSpace ℝ E] (f : CFun E), (defDecl mu L).Holds f →
    ∀ (x_star v_C_1 i_L_1 x_1 y_1 i_L_1p5 v_C_1p5 x_1p5 y_1p5 i_L_2 v_C_2 x_2 y_2 : E) (f_star f_1 f_1p5 f_2 : ℝ),
      f.Sample x_star 0 f_star → x_1 = p "R" • i_L_1 + v_C_1 → f.Sample x_1 y_1 f_1 →
      i_L_1p5 = i_L_1 + (p "alpha" * p "h" * p "invL") • (v_C_1 - (x_1 - p "R" • y_1)) →
      v_C_1p5 = v_C_1 - (p "alpha" * p "h" * p "invC") • y_1 → x_1p5 = p "R" • i_L_1p5 + v_C_1p5 → f.Sample x_1p5 y_1p5 f_1p5 →
      i_L_2 = i_L_1 + (p "beta" * p "h" * p "invL") • (v_C_1 - (x_1 - p "R" • y_1)) +
        ((1 - p "beta") * p "h" * p "invL") • (v_C_1p5 - (x_1p5 - p "R" • y_1p5)) →
      v_C_2 = v_C_1 - (p "beta" * p "h" * p "invC") • y_1 - ((1 - p "beta") * p "h" * p "invC") • y_1p5 → x_2 = p "R" • i_L_2 + v_C_2 → f.Sample x_2 y_2 f_2 →
      p "C" / 2 * ‖v_C_2 - x_star‖ ^ 2 + p "L" / 2 * ‖i_L_2‖ ^ 2 ≤ p "C" / 2 * ‖v_C_1 - x_star‖ ^ 2 + p "L" / 2 * ‖i_L_1‖ ^ 2 -
        (p "rho" * p "R" * ‖y_1 - i_L_1‖ ^ 2 + p "eta" * (f_1 - f_star))

theorem guaranteed_acceleratedGradientTuneRLC (mu : ℚ) (L : Option ℚ) {p : Name → ℝ} :
    Guaranteed (acceleratedGradientTuneRLC mu L).prog p ↔ AcceleratedGradientTuneRLCStep mu L p := by
  calls_simp [acceleratedGradientTuneRLC]
  constructor
  · intro hc E _ _ f hf x_star v_C_1 i_L_1 x_1 y_1 i_L_1p5 v_C_1p5 x_1p5 y_1p5 i_L_2 v_C_2 x_2 y_2 f_star f_1 f_1p5 f_2 h1 h2 h3 h4 h5 h6 h7 h8 h9 h10 h11
    obtain ⟨E_1, h12⟩ : ∃ E_1, E_1 = p "C" / 2 * ‖v_C_1 - x_star‖ ^ 2 + p "L" / 2 * ‖i_L_1‖ ^ 2 := ⟨_, rfl⟩
    obtain ⟨E_2, h13⟩ : ∃ E_2, E_2 = p "C" / 2 * ‖v_C_2 - x_star‖ ^ 2 + p "L" / 2 * ‖i_L_2‖ ^ 2 := ⟨_, rfl⟩
    obtain ⟨Delta_1, h14⟩ : ∃ D, D = p "rho" * p "R" * ‖y_1 - i_L_1‖ ^ 2 + p "eta" * (f_1 - f_star) := ⟨_, rfl⟩
    have key := hc.vals (fs := fun k => [f].getD k f) (e := 7) (by safe_simp []) (instance_of_list (.cons hf .nil))
      ⟨fun i => [x_star, 0, v_C_1, i_L_1, x_1, y_1, i_L_1p5, v_C_1p5, x_1p5, y_1p5, i_L_2, v_C_2, x_2, y_2].getD i 0,
        fun i => [f_star, f_1, f_1p5, f_2, E_1, E_2, Delta_1, E_2 - (E_1 - Delta_1)].getD i 0, fun i => [Finsupp.single 0 1].getD i 0⟩
      ⟨rfl, ⟨smp h1, rfl⟩, trivial, trivial, by simpa [Instr.Meets, Instr.next] using h2, smp h3, by simpa [Instr.Meets, Instr.next] using h4,
        by simpa [Instr.Meets, Instr.next] using h5, by simpa [Instr.Meets, Instr.next] using h6, smp h7, by simpa [Instr.Meets, Instr.next] using h8,
        by simpa [Instr.Meets, Instr.next] using h9, by simpa [Instr.Meets, Instr.next] using h10, smp h11,
        by simpa [Instr.Meets, Instr.next] using h12, by simpa [Instr.Meets, Instr.next] using h13, by simpa [Instr.Meets, Instr.next] using h14,
        rfl, trivial, trivial⟩
      (by simp [consVals]) rfl
    simp only [List.getD_cons_succ, List.getD_cons_zero] at key
    linarith
  · intro h
    refine guaranteed_of_vals (by safe_simp []) (e := 7) rfl fun {E} _ _ fs hi V hm _ => ?_
    simp [MeetsAll, Instr.Meets, Instr.next] at hm
    obtain ⟨d0, ⟨s1, z1⟩, m2, s3, m4, m5, m6, s7, m8, m9, m10, s11, m12, m13, m14, m15⟩ := hm
    rw [d0] at s1 s3 s7 s11
    rw [z1] at s1
    have := h E (fs 0) (hi 0 _ rfl) _ _ _ _ _ _ _ _ _ _ _ _ _ _ _ _ _ (sample_of_single s1) m2 (sample_of_single s3) m4 m5 m6 (sample_of_single s7)
      m8 m9 m10 (sample_of_single s11)
    rw [z1, sub_zero] at m12 m13
    rw [m15, m12, m13, m14]
    linarith

/-- parameter values of `accelerated_gradient_circuit_tuneRLC` (`classical_central_vi.py` 118-158) at which the functions are evaluated at different points -/
def GenericAccelRLC (p : Name → ℝ) : Prop :=
  p "h" ≠ 0 ∧ p "alpha" ≠ 0 ∧ ¬ (p "alpha" = 1 ∧ p "beta" = 1) ∧ p "invC" ≠ 0 ∧ p "invL" ≠ 0

theorem run_acceleratedGradientTuneRLC (mu : ℚ) (L : Option ℚ) (hok : (defDecl mu L).Ok) {p : Name → ℝ} (hg : GenericAccelRLC p) :
    ∃ fs V, StrictRun (acceleratedGradientTuneRLC mu L).prog p fs V := by
  obtain ⟨hh, ha, hab, hC, hL⟩ := hg
  have hC' : p "invC" ≠ 0 := by exact_mod_cast hC
  have hL' : p "invL" ≠ 0 := by exact_mod_cast hL
  obtain ⟨c, t, x1, i1h, v1h, x1h, i2, v2, x2, hc, hc0, e1, e2, e3, e4, e5, e6, e7, hdist⟩ :=
    accel_choice (R := p "R") hok (mul_ne_zero hh hL') (mul_ne_zero hh hC') ha hab
  have hmu := defDecl_nonneg hok
  obtain ⟨E_1, h12⟩ : ∃ E_1, E_1 = p "C" / 2 * ‖(1 : ℝ)‖ ^ 2 + p "L" / 2 * ‖t‖ ^ 2 := ⟨_, rfl⟩
  obtain ⟨E_2, h13⟩ : ∃ E_2, E_2 = p "C" / 2 * ‖v2‖ ^ 2 + p "L" / 2 * ‖i2‖ ^ 2 := ⟨_, rfl⟩
  obtain ⟨Delta_1, h14⟩ : ∃ D, D = p "rho" * p "R" * ‖c * x1 - t‖ ^ 2 + p "eta" * (c / 2 * x1 ^ 2) := ⟨_, rfl⟩
  refine ⟨fun k => [quadF c 0].getD k (quadF c 0), ⟨fun i => [0, 0, 1, t, x1, c * x1, i1h, v1h, x1h, c * x1h, i2, v2, x2, c * x2].getD i 0,
    fun i => [0, c / 2 * x1 ^ 2, c / 2 * x1h ^ 2, c / 2 * x2 ^ 2, E_1, E_2, Delta_1, E_2 - (E_1 - Delta_1)].getD i 0,
    fun i => [Finsupp.single 0 1].getD i 0⟩, ?_, ?_, ?_, ?_, ?_⟩
  all_goals calls_simp [acceleratedGradientTuneRLC]
  · exact instance_of_list (.cons (quadF_holds hmu hc 0) .nil)
  · rintro (_ | k) d hd
    · injection hd with hd; subst hd; exact quadF_strict hmu hc 0
    · simp [decls] at hd
  · refine ⟨rfl, ⟨smp (quadF_smp0 hc0), rfl⟩, trivial, trivial, ?_, smp (quadF_smp hc0 _), ?_, ?_, ?_, smp (quadF_smp hc0 _), ?_, ?_, ?_,
      smp (quadF_smp hc0 _), ?_, ?_, ?_, rfl, trivial, trivial⟩
    · simpa [Instr.Meets, Instr.next] using e1
    · simp [Instr.Meets, Instr.next]; rw [e2]; ring
    · simp [Instr.Meets, Instr.next]; rw [e3]; ring
    · simpa [Instr.Meets, Instr.next] using e4
    · simp [Instr.Meets, Instr.next]; rw [e5]; ring
    · simp [Instr.Meets, Instr.next]; rw [e6]; ring
    · simpa [Instr.Meets, Instr.next] using e7
    · simpa [Instr.Meets, Instr.next] using h12
    · simpa [Instr.Meets, Instr.next] using h13
    · simpa [Instr.Meets, Instr.next] using h14
  · simp [consVals]
  · rintro (_ | k) hk
    · simpa [calls, callsFrom, Instr.callsOf, Instr.next, declIndex, Instr.declares] using hdist
    · simp [decls] at hk

/-- **C69** for `accelerated_gradient_circuit_tuneRLC` (`classical_central_vi.py` 118-158), for all class parameters: at all parameter values with different points the nonlinear
program of `solve_ipopt` has a feasible point with these parameters if and only if the energy inequality holds for all functions of the class
and all steps (and `eta`, `rho`, `h` are not negative, and `C`, `invC` and `L`, `invL` are reciprocal). -/
theorem C69_acceleratedGradientTuneRLC (hC : C.Lawful) (mu : ℚ) (L : Option ℚ) (hok : (defDecl mu L).Ok) :
    ∃ r h nlp h', runProblem C (acceleratedGradientTuneRLC mu L).prog Heap.empty = .ok (r, h) ∧ solveIpopt C r tuneRLCParams [] [] h = .ok (nlp, h') ∧
      ∀ p : Name → ℝ, p "h" ≠ 0 → p "alpha" ≠ 0 → ¬ (p "alpha" = 1 ∧ p "beta" = 1) → p "invC" ≠ 0 → p "invL" ≠ 0 →
        ((∃ σ, nlp.state.Sat σ ∧ ∀ n ∈ scalarNames tuneRLCParams, nlp.state.value σ n = p n) ↔
          AcceleratedGradientTuneRLCStep mu L p ∧ (p "C" * p "invC" = 1 ∧ 1 / 10000000 ≤ p "C") ∧ (p "L" * p "invL" = 1 ∧ 1 / 10000000 ≤ p "L") ∧
            0 ≤ p "eta" ∧ 0 ≤ p "rho" ∧ 0 ≤ p "h") := by
  have hd : ∀ d ∈ decls (acceleratedGradientTuneRLC mu L).prog, d.Ok := by
    calls_simp [acceleratedGradientTuneRLC]
    simpa [decls] using hok
  obtain ⟨r, h, nlp, h', hr, hn, hiff⟩ := complete_of_runs (prog := (acceleratedGradientTuneRLC mu L).prog) (params := tuneRLCParams) (Gen := GenericAccelRLC) hC
    (by calls_simp [acceleratedGradientTuneRLC]; safe_simp []) (by calls_simp [acceleratedGradientTuneRLC]; simp [Instr.Clean, tuneRLCParams])
    (standard_acceleratedGradientTuneRLC mu L).1 (fun d hm => ⟨hd d hm, (standard_acceleratedGradientTuneRLC mu L).2 d hm⟩) tuneRLCParams_simple
    (by calls_simp [acceleratedGradientTuneRLC]; exact ⟨7, by simp⟩) ⟨fun _ => 2, by norm_num, by norm_num, by norm_num, by norm_num, by norm_num⟩
    fun p hg => run_acceleratedGradientTuneRLC mu L hok hg
  refine ⟨r, h, nlp, h', hr, hn, fun p h1 h2 h3 h4 h5 => ?_⟩
  have hinv : InvOk tuneRLCParams p ↔ (p "C" * p "invC" = 1 ∧ 1 / 10000000 ≤ p "C") ∧ (p "L" * p "invL" = 1 ∧ 1 / 10000000 ≤ p "L") := by
    unfold InvOk
    rw [show invParams tuneRLCParams = ["C", "L"] by decide]
    simp
  rw [hiff p ⟨h1, h2, h3, h4, h5⟩, guaranteed_acceleratedGradientTuneRLC]
  simp [hinv, and_assoc]

end Verif
