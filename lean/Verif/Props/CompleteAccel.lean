import Verif.Props.CompleteCircuits

/-!
# C69 for the accelerated gradient circuit
-/

namespace Verif
open Build
open scoped InnerProductSpace

set_option linter.unusedSimpArgs false

variable {C : CAS}

theorem accel_choice {mu : ℚ} {L : Option ℚ} (hok : (defDecl mu L).Ok) {k m a b R : ℝ} (hk : k ≠ 0) (hm : m ≠ 0) (ha : a ≠ 0)
    (hab : ¬ (a = 1 ∧ b = 1)) :
    ∃ c t x1 i1h v1h x1h i2 v2 x2 : ℝ, Inside mu L c ∧ 0 < c ∧ x1 = R * t + 1 ∧ i1h = t + a * k * (1 - (x1 - R * (c * x1))) ∧
      v1h = 1 - a * m * (c * x1) ∧ x1h = R * i1h + v1h ∧
      i2 = t + b * k * (1 - (x1 - R * (c * x1))) + (1 - b) * k * (v1h - (x1h - R * (c * x1h))) ∧
      v2 = 1 - b * m * (c * x1) - (1 - b) * m * (c * x1h) ∧ x2 = R * i2 + v2 ∧
      (¬ 0 = x1 ∧ ¬ 0 = x1h ∧ ¬ 0 = x2) ∧ (¬ x1 = x1h ∧ ¬ x1 = x2) ∧ ¬ x1h = x2 := by
  let X1 : ℝ → ℝ → ℝ := fun t _ => R * t + 1
  let I1 : ℝ → ℝ → ℝ := fun t c => t + a * k * (1 - (X1 t c - R * (c * X1 t c)))
  let V1 : ℝ → ℝ → ℝ := fun t c => 1 - a * m * (c * X1 t c)
  let X1h : ℝ → ℝ → ℝ := fun t c => R * I1 t c + V1 t c
  let I2 : ℝ → ℝ → ℝ := fun t c => t + b * k * (1 - (X1 t c - R * (c * X1 t c))) + (1 - b) * k * (V1 t c - (X1h t c - R * (c * X1h t c)))
  let V2 : ℝ → ℝ → ℝ := fun t c => 1 - b * m * (c * X1 t c) - (1 - b) * m * (c * X1h t c)
  let X2 : ℝ → ℝ → ℝ := fun t c => R * I2 t c + V2 t c
  obtain ⟨t, -, c, hc, hne⟩ := generic2 (l := [fun t c => X1 t c - 0, fun t c => X1h t c - 0, fun t c => X2 t c - 0, fun t c => X1h t c - X1 t c,
    fun t c => X2 t c - X1 t c, fun t c => X2 t c - X1h t c]) (inside_infinite hok) (Set.infinite_univ (α := ℝ)) (by
      simp only [List.forall_mem_cons, List.not_mem_nil, false_implies, implies_true, and_true]
      refine ⟨⟨fun c => by is_poly, fun t => by is_poly, ?_⟩, ⟨fun c => by is_poly, fun t => by is_poly, ?_⟩, ⟨fun c => by is_poly, fun t => by is_poly, ?_⟩,
        ⟨fun c => by is_poly, fun t => by is_poly, ?_⟩, ⟨fun c => by is_poly, fun t => by is_poly, ?_⟩, ⟨fun c => by is_poly, fun t => by is_poly, ?_⟩⟩
      · exact ⟨0, 0, by simp [X1]⟩
      · exact ⟨0, 0, by simp [X1, I1, V1, X1h]⟩
      · exact ⟨0, 0, by simp [X1, I1, V1, X1h, I2, V2, X2]⟩
      · by_contra hcon
        push Not at hcon
        have h1 := hcon 1 0
        have h2 := hcon 0 1
        simp only [X1, I1, V1, X1h] at h1 h2
        have h3 : R ^ 2 * (a * k) = 0 := by linarith
        have hR : R = 0 := by simpa [ha, hk] using h3
        subst hR
        have : a * m = 0 := by linarith
        simp [ha, hm] at this
      · by_contra hcon
        push Not at hcon
        have h1 := hcon 1 0
        have h2 := hcon 0 1
        have h3 := hcon 0 (-1)
        simp only [X1, I1, V1, X1h, I2, V2, X2] at h1 h2 h3
        have e1 : R ^ 2 * k * (1 - (1 - b) * a * k * R) = 0 := by linear_combination -h1
        have : m = 0 := by linear_combination e1 - (h2 - h3) / 2
        exact hm this
      · by_contra hcon
        push Not at hcon
        have h1 := hcon 1 0
        have h2 := hcon 0 1
        have h3 := hcon 0 (-1)
        simp only [X1, I1, V1, X1h, I2, V2, X2] at h1 h2 h3
        have e1 : R ^ 2 * k * (1 - a - (1 - b) * a * k * R) = 0 := by linear_combination -h1
        have e2 : m * (1 - a) = 0 := by linear_combination e1 - (h2 - h3) / 2
        have ha1 : a = 1 := by
          rcases mul_eq_zero.1 e2 with h | h
          · exact absurd h hm
          · linarith
        subst ha1
        have hb : 1 - b ≠ 0 := fun h => hab ⟨rfl, by linarith⟩
        have e3 : R ^ 3 * ((1 - b) * k ^ 2) = 0 := by linear_combination -e1
        have hR : R = 0 := by simpa [hb, hk] using e3
        subst hR
        have : (1 - b) * m ^ 2 = 0 := by linear_combination h2
        simp [hb, hm] at this)
  simp only [List.forall_mem_cons, List.not_mem_nil, false_implies, implies_true, and_true] at hne
  obtain ⟨n1, n2, n3, n4, n5, n6⟩ := hne
  have hc0 : 0 < c := lt_of_le_of_lt (by exact_mod_cast defDecl_nonneg hok) hc.1
  have hd : ∀ {u v : ℝ}, v - u ≠ 0 → ¬ u = v := fun hw h => hw (by rw [h]; ring)
  exact ⟨c, t, X1 t c, I1 t c, V1 t c, X1h t c, I2 t c, V2 t c, X2 t c, hc, hc0, rfl, rfl, rfl, rfl, rfl, rfl, rfl,
    ⟨hd n1, hd n2, hd n3⟩, ⟨hd n4, hd n5⟩, hd n6⟩


/-- the energy inequality of `accelerated_gradient_circuit` (`classical_central_vi.py` 80-115) for all functions and all steps -/
def AcceleratedGradientStep (mu : ℚ) (L : Option ℚ) (R Cap Ind : ℚ) (p : Name → ℝ) : Prop :=
  ∀ (E : Type) [NormedAddCommGroup E] [InnerProductSpace ℝ E] (f : CFun E), (defDecl mu L).Holds f →
    ∀ (x_star v_C_1 i_L_1 x_1 y_1 i_L_1p5 v_C_1p5 x_1p5 y_1p5 i_L_2 v_C_2 x_2 y_2 : E) (f_star f_1 f_1p5 f_2 : ℝ),
      f.Sample x_star 0 f_star → x_1 = (R : ℝ) • i_L_1 + v_C_1 → f.Sample x_1 y_1 f_1 →
      i_L_1p5 = i_L_1 + (p "alpha" * p "h" / Ind) • (v_C_1 - (x_1 - (R : ℝ) • y_1)) →
      v_C_1p5 = v_C_1 - (p "alpha" * p "h" / Cap) • y_1 → x_1p5 = (R : ℝ) • i_L_1p5 + v_C_1p5 → f.Sample x_1p5 y_1p5 f_1p5 →
      i_L_2 = i_L_1 + (p "beta" * p "h" / Ind) • (v_C_1 - (x_1 - (R : ℝ) • y_1)) +
        ((1 - p "beta") * p "h" / Ind) • (v_C_1p5 - (x_1p5 - (R : ℝ) • y_1p5)) →
      v_C_2 = v_C_1 - (p "beta" * p "h" / Cap) • y_1 - ((1 - p "beta") * p "h" / Cap) • y_1p5 → x_2 = (R : ℝ) • i_L_2 + v_C_2 → f.Sample x_2 y_2 f_2 →
      Cap / 2 * ‖v_C_2 - x_star‖ ^ 2 + Ind / 2 * ‖i_L_2‖ ^ 2 ≤ Cap / 2 * ‖v_C_1 - x_star‖ ^ 2 + Ind / 2 * ‖i_L_1‖ ^ 2 -
        (p "rho" * (R : ℝ) * ‖y_1 - i_L_1‖ ^ 2 + p "eta" * (f_1 - f_star))

theorem guaranteed_acceleratedGradient (mu : ℚ) (L : Option ℚ) (R Cap Ind : ℚ) {p : Name → ℝ} :
    Guaranteed (acceleratedGradient mu L R Cap Ind).prog p ↔ AcceleratedGradientStep mu L R Cap Ind p := by
  calls_simp [acceleratedGradient]
  constructor
  · intro hc E _ _ f hf x_star v_C_1 i_L_1 x_1 y_1 i_L_1p5 v_C_1p5 x_1p5 y_1p5 i_L_2 v_C_2 x_2 y_2 f_star f_1 f_1p5 f_2 h1 h2 h3 h4 h5 h6 h7 h8 h9 h10 h11
    obtain ⟨E_1, h12⟩ : ∃ E_1, E_1 = Cap / 2 * ‖v_C_1 - x_star‖ ^ 2 + Ind / 2 * ‖i_L_1‖ ^ 2 := ⟨_, rfl⟩
    obtain ⟨E_2, h13⟩ : ∃ E_2, E_2 = Cap / 2 * ‖v_C_2 - x_star‖ ^ 2 + Ind / 2 * ‖i_L_2‖ ^ 2 := ⟨_, rfl⟩
    obtain ⟨Delta_1, h14⟩ : ∃ D, D = p "rho" * (R : ℝ) * ‖y_1 - i_L_1‖ ^ 2 + p "eta" * (f_1 - f_star) := ⟨_, rfl⟩
    have key := hc.vals (fs := fun k => [f].getD k f) (e := 7) (by safe_simp []) (instance_of_list (.cons hf .nil))
      ⟨fun i => [x_star, 0, v_C_1, i_L_1, x_1, y_1, i_L_1p5, v_C_1p5, x_1p5, y_1p5, i_L_2, v_C_2, x_2, y_2].getD i 0,
        fun i => [f_star, f_1, f_1p5, f_2, E_1, E_2, Delta_1, E_2 - (E_1 - Delta_1)].getD i 0, fun i => [Finsupp.single 0 1].getD i 0⟩
      ⟨rfl, ⟨smp h1, rfl⟩, trivial, trivial, by simpa [Instr.Meets, Instr.next] using h2, smp h3, by simpa [Instr.Meets, Instr.next] using h4,
        by simpa [Instr.Meets, Instr.next] using h5, by simpa [Instr.Meets, Instr.next] using h6, smp h7, by simpa [Instr.Meets, Instr.next] using h8,
        by simpa [Instr.Meets, Instr.next] using h9, by simpa [Instr.Meets, Instr.next] using h10, smp h11,
        by simpa [Instr.Meets, Instr.next] using h12, by simpa [Instr.Meets, Instr.next] using h13, by simpa [Instr.Meets, Instr.next] using h14,
        rfl, trivial, trivial⟩
      (by simp [consVals]) rfl
    simp only [List.getD_cons_succ, List.getD_cons_zero] at key
    linarith
  · intro h
    refine guaranteed_of_vals (by safe_simp []) (e := 7) rfl fun {E} _ _ fs hi V hm _ => ?_
    simp [MeetsAll, Instr.Meets, Instr.next] at hm
    obtain ⟨d0, ⟨s1, z1⟩, m2, s3, m4, m5, m6, s7, m8, m9, m10, s11, m12, m13, m14, m15⟩ := hm
    rw [d0] at s1 s3 s7 s11
    rw [z1] at s1
    have := h E (fs 0) (hi 0 _ rfl) _ _ _ _ _ _ _ _ _ _ _ _ _ _ _ _ _ (sample_of_single s1) m2 (sample_of_single s3) m4 m5 m6 (sample_of_single s7)
      m8 m9 m10 (sample_of_single s11)
    rw [z1, sub_zero] at m12 m13
    rw [m15, m12, m13, m14]
    linarith

/-- parameter values of `accelerated_gradient_circuit` (`classical_central_vi.py` 80-115) at which the functions are evaluated at different points -/
def GenericAccel (_R Cap Ind : ℚ) (p : Name → ℝ) : Prop :=
  p "h" ≠ 0 ∧ p "alpha" ≠ 0 ∧ ¬ (p "alpha" = 1 ∧ p "beta" = 1) ∧ Cap ≠ 0 ∧ Ind ≠ 0

theorem run_acceleratedGradient (mu : ℚ) (L : Option ℚ) (R Cap Ind : ℚ) (hok : (defDecl mu L).Ok) {p : Name → ℝ} (hg : GenericAccel R Cap Ind p) :
    ∃ fs V, StrictRun (acceleratedGradient mu L R Cap Ind).prog p fs V := by
  obtain ⟨hh, ha, hab, hC, hL⟩ := hg
  have hC' : (Cap : ℝ) ≠ 0 := by exact_mod_cast hC
  have hL' : (Ind : ℝ) ≠ 0 := by exact_mod_cast hL
  obtain ⟨c, t, x1, i1h, v1h, x1h, i2, v2, x2, hc, hc0, e1, e2, e3, e4, e5, e6, e7, hdist⟩ :=
    accel_choice (R := (R : ℝ)) hok (div_ne_zero hh hL') (div_ne_zero hh hC') ha hab
  have hmu := defDecl_nonneg hok
  obtain ⟨E_1, h12⟩ : ∃ E_1, E_1 = Cap / 2 * ‖(1 : ℝ)‖ ^ 2 + Ind / 2 * ‖t‖ ^ 2 := ⟨_, rfl⟩
  obtain ⟨E_2, h13⟩ : ∃ E_2, E_2 = Cap / 2 * ‖v2‖ ^ 2 + Ind / 2 * ‖i2‖ ^ 2 := ⟨_, rfl⟩
  obtain ⟨Delta_1, h14⟩ : ∃ D, D = p "rho" * (R : ℝ) * ‖c * x1 - t‖ ^ 2 + p "eta" * (c / 2 * x1 ^ 2) := ⟨_, rfl⟩
  refine ⟨fun k => [quadF c 0].getD k (quadF c 0), ⟨fun i => [0, 0, 1, t, x1, c * x1, i1h, v1h, x1h, c * x1h, i2, v2, x2, c * x2].getD i 0,
    fun i => [0, c / 2 * x1 ^ 2, c / 2 * x1h ^ 2, c / 2 * x2 ^ 2, E_1, E_2, Delta_1, E_2 - (E_1 - Delta_1)].getD i 0,
    fun i => [Finsupp.single 0 1].getD i 0⟩, ?_, ?_, ?_, ?_, ?_⟩
  all_goals calls_simp [acceleratedGradient]
  · exact instance_of_list (.cons (quadF_holds hmu hc 0) .nil)
  · rintro (_ | k) d hd
    · injection hd with hd; subst hd; exact quadF_strict hmu hc 0
    · simp [decls] at hd
  · refine ⟨rfl, ⟨smp (quadF_smp0 hc0), rfl⟩, trivial, trivial, ?_, smp (quadF_smp hc0 _), ?_, ?_, ?_, smp (quadF_smp hc0 _), ?_, ?_, ?_,
      smp (quadF_smp hc0 _), ?_, ?_, ?_, rfl, trivial, trivial⟩
    · simpa [Instr.Meets, Instr.next] using e1
    · simp [Instr.Meets, Instr.next]; rw [e2]; ring
    · simp [Instr.Meets, Instr.next]; rw [e3]; ring
    · simpa [Instr.Meets, Instr.next] using e4
    · simp [Instr.Meets, Instr.next]; rw [e5]; ring
    · simp [Instr.Meets, Instr.next]; rw [e6]; ring
    · simpa [Instr.Meets, Instr.next] using e7
    · simpa [Instr.Meets, Instr.next] using h12
    · simpa [Instr.Meets, Instr.next] using h13
    · simpa [Instr.Meets, Instr.next] using h14
  · simp [consVals]
  · rintro (_ | k) hk
    · simpa [calls, callsFrom, Instr.callsOf, Instr.next, declIndex, Instr.declares] using hdist
    · simp [decls] at hk

/-- **C69** for `accelerated_gradient_circuit` (`classical_central_vi.py` 80-115), for all class parameters, resistances, capacities and inductances: at all parameter values with different points the nonlinear
program of `solve_ipopt` has a feasible point with these parameters if and only if the energy inequality holds for all functions of the class
and all steps (and `eta`, `rho`, `h` are not negative). -/
theorem C69_acceleratedGradient (hC : C.Lawful) (mu : ℚ) (L : Option ℚ) (R Cap Ind : ℚ) (hok : (defDecl mu L).Ok) (hCap : Cap ≠ 0) (hInd : Ind ≠ 0) :
    ∃ r h nlp h', runProblem C (acceleratedGradient mu L R Cap Ind).prog Heap.empty = .ok (r, h) ∧ solveIpopt C r stdParams [] [] h = .ok (nlp, h') ∧
      ∀ p : Name → ℝ, p "h" ≠ 0 → p "alpha" ≠ 0 → ¬ (p "alpha" = 1 ∧ p "beta" = 1) →
        ((∃ σ, nlp.state.Sat σ ∧ ∀ n ∈ scalarNames stdParams, nlp.state.value σ n = p n) ↔
          AcceleratedGradientStep mu L R Cap Ind p ∧ 0 ≤ p "eta" ∧ 0 ≤ p "rho" ∧ 0 ≤ p "h") := by
  have hd : ∀ d ∈ decls (acceleratedGradient mu L R Cap Ind).prog, d.Ok := by
    calls_simp [acceleratedGradient]
    simpa [decls] using hok
  obtain ⟨r, h, nlp, h', hr, hn, hiff⟩ := complete_of_runs (prog := (acceleratedGradient mu L R Cap Ind).prog) (params := stdParams) (Gen := GenericAccel R Cap Ind) hC
    (by calls_simp [acceleratedGradient]; safe_simp []) (by calls_simp [acceleratedGradient]; simp [Instr.Clean, stdParams])
    (standard_acceleratedGradient mu L R Cap Ind).1 (fun d hm => ⟨hd d hm, (standard_acceleratedGradient mu L R Cap Ind).2 d hm⟩) stdParams_simple
    (by calls_simp [acceleratedGradient]; exact ⟨7, by simp⟩) ⟨fun _ => 2, by norm_num, by norm_num, by norm_num, hCap, hInd⟩
    fun p hg => run_acceleratedGradient mu L R Cap Ind hok hg
  refine ⟨r, h, nlp, h', hr, hn, fun p h1 h2 h3 => ?_⟩
  have hinv : InvOk stdParams p := fun v hv => absurd hv (by rw [show invParams stdParams = [] by decide]; simp)
  rw [hiff p ⟨h1, h2, h3, hCap, hInd⟩, guaranteed_acceleratedGradient]
  simp [hinv, and_assoc]

end Verif
