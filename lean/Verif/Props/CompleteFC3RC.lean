import Verif.Props.CompleteCircuits

/-!
# C69 for the circuit with three capacitors
-/

namespace Verif
open Build
open scoped InnerProductSpace

set_option linter.unusedSimpArgs false

variable {C : CAS}

theorem fc3rc_choice {mu : ℚ} {L : Option ℚ} (hok : (defDecl mu L).Ok) {R k a b : ℝ} (hR : 0 < R) (hk : k ≠ 0) (ha : a ≠ 0) (hab : ¬ (a = 1 ∧ b = 1)) :
    ∃ c u t w z1h e1h z2 e2 : ℝ, Inside mu L c ∧ 0 < c ∧ u + R / 2 * (c * u) = 1 ∧ w = c * u ∧
      e1h = t - a * (2 * k) * (R * w + 3 * t) ∧ z1h = 1 - a * k * (5 * R * w + 3 * t) ∧
      e2 = t - b * (2 * k) * (R * w + 3 * t) - (1 - b) * (2 * k) * (R * (w * z1h) + 3 * e1h) ∧
      z2 = 1 - b * k * (5 * R * w + 3 * t) - (1 - b) * k * (5 * R * (w * z1h) + 3 * e1h) ∧
      (¬ 0 = u ∧ ¬ 0 = u * z1h ∧ ¬ 0 = u * z2) ∧ (¬ u = u * z1h ∧ ¬ u = u * z2) ∧ ¬ u * z1h = u * z2 := by
  have hmu : (0 : ℝ) ≤ mu := by exact_mod_cast defDecl_nonneg hok
  have hS : ((fun c : ℝ => c * (1 / (1 + R / 2 * c))) '' {c : ℝ | Inside mu L c}).Infinite := by
    refine (inside_infinite hok).image fun c hc d hd e => ?_
    have hc0 : 0 < 1 + R / 2 * c := by have := mul_pos (half_pos hR) (hmu.trans_lt hc.1); linarith
    have hd0 : 0 < 1 + R / 2 * d := by have := mul_pos (half_pos hR) (hmu.trans_lt hd.1); linarith
    have e1 : c * (1 / (1 + R / 2 * c)) = d * (1 / (1 + R / 2 * d)) := e
    rw [mul_one_div, mul_one_div, div_eq_div_iff hc0.ne' hd0.ne'] at e1
    linarith
  let Z1 : ℝ → ℝ → ℝ := fun t w => 1 - a * k * (5 * R * w + 3 * t)
  let E1 : ℝ → ℝ → ℝ := fun t w => t - a * (2 * k) * (R * w + 3 * t)
  let Z2 : ℝ → ℝ → ℝ := fun t w => 1 - b * k * (5 * R * w + 3 * t) - (1 - b) * k * (5 * R * (w * Z1 t w) + 3 * E1 t w)
  obtain ⟨t, -, w, hw, hne⟩ := generic2 (l := [fun t w => Z1 t w, fun t w => Z2 t w, fun t w => Z1 t w - 1, fun t w => Z2 t w - 1,
    fun t w => Z2 t w - Z1 t w]) hS (Set.infinite_univ (α := ℝ)) (by
      simp only [List.forall_mem_cons, List.not_mem_nil, false_implies, implies_true, and_true]
      refine ⟨⟨fun c => by is_poly, fun t => by is_poly, ?_⟩, ⟨fun c => by is_poly, fun t => by is_poly, ?_⟩, ⟨fun c => by is_poly, fun t => by is_poly, ?_⟩,
        ⟨fun c => by is_poly, fun t => by is_poly, ?_⟩, ⟨fun c => by is_poly, fun t => by is_poly, ?_⟩⟩
      · exact ⟨0, 0, by simp [Z1]⟩
      · exact ⟨0, 0, by simp [Z1, E1, Z2]⟩
      · refine ⟨0, 1, ?_⟩
        simp [Z1, ha, hk, hR.ne']
      · by_contra hcon
        push Not at hcon
        have h1 := hcon 1 0
        have h2 := hcon 0 1
        have h3 := hcon 0 (-1)
        simp only [Z1, E1, Z2] at h1 h2 h3
        have e1 : k * (1 - 6 * ((1 - b) * a * k)) = 0 := by linear_combination -h1 / 3
        have e2 : k * R * (5 - 6 * ((1 - b) * a * k)) = 0 := by linear_combination -(h2 - h3) / 2
        have e3 : 4 * (k * R) = 0 := by linear_combination e2 - R * e1
        simp [hk, hR.ne'] at e3
      · by_contra hcon
        push Not at hcon
        have h1 := hcon 1 0
        have h2 := hcon 0 1
        have h3 := hcon 0 (-1)
        simp only [Z1, E1, Z2] at h1 h2 h3
        have e1 : k * (1 - a - 6 * ((1 - b) * a * k)) = 0 := by linear_combination -h1 / 3
        have e2 : k * R * (5 - 5 * a - 6 * ((1 - b) * a * k)) = 0 := by linear_combination -(h2 - h3) / 2
        have e3 : k * R * (1 - a) = 0 := by linear_combination (e2 - R * e1) / 4
        have ha1 : a = 1 := by
          rcases mul_eq_zero.1 e3 with h | h
          · exact absurd h (mul_ne_zero hk hR.ne')
          · linarith
        subst ha1
        have e4 : (1 - b) * k ^ 2 = 0 := by linear_combination -e1 / 6
        rcases mul_eq_zero.1 e4 with h | h
        · exact hab ⟨rfl, by linarith⟩
        · exact hk (by simpa using h))
  obtain ⟨c, hc, hcw⟩ := hw
  simp only [List.forall_mem_cons, List.not_mem_nil, false_implies, implies_true, and_true] at hne
  obtain ⟨n1, n2, n3, n4, n5⟩ := hne
  have hc0 : 0 < c := hmu.trans_lt hc.1
  have hw : 0 < 1 + R / 2 * c := by have := mul_pos (half_pos hR) hc0; linarith
  obtain ⟨u, hu⟩ : ∃ u, u = 1 / (1 + R / 2 * c) := ⟨_, rfl⟩
  have hu0 : u ≠ 0 := by rw [hu]; positivity
  have hd : ∀ {u v w : ℝ}, w ≠ 0 → v - u = w → ¬ u = v := fun hw e h => hw (by rw [← e, h]; ring)
  refine ⟨c, u, t, w, Z1 t w, E1 t w, Z2 t w, _, hc, hc0, ?_, ?_, rfl, rfl, rfl, rfl, ⟨hd hu0 (by ring), hd (mul_ne_zero hu0 n1) (by ring),
    hd (mul_ne_zero hu0 n2) (by ring)⟩, ⟨hd (mul_ne_zero hu0 n3) (by ring), hd (mul_ne_zero hu0 n4) (by ring)⟩, hd (mul_ne_zero hu0 n5) (by ring)⟩
  · rw [hu]; field_simp
  · rw [← hcw, hu]

/-- the energy inequality of `example_fC3RC_circuit` (`new_algorithms_vi.py` 144-188) for all functions and all steps -/
def ExampleFC3RCStep (mu : ℚ) (L : Option ℚ) (Cap R : ℚ) (p : Name → ℝ) : Prop :=
  ∀ (E : Type) [NormedAddCommGroup E] [InnerProductSpace ℝ E] (f : CFun E), (defDecl mu L).Holds f →
    ∀ (x_star z_1 e2_1 x_1 g_1 y_1 e2_1p5 z_1p5 x_1p5 g_1p5 y_1p5 e2_2 z_2 x_2 g_2 v_C1_1 v_C1_2 e1_1 : E) (f_star f_1 f_1p5 f_2 : ℝ),
      f.Sample x_star 0 f_star → f.Prox (R / 2) z_1 x_1 g_1 f_1 → y_1 = (2 / (R : ℝ)) • (z_1 - x_1) →
      e2_1p5 = e2_1 - (p "alpha" * p "h" / (2 * R * Cap)) • ((R : ℝ) • y_1 + (3 : ℝ) • e2_1) →
      z_1p5 = z_1 - (p "alpha" * p "h" / (4 * R * Cap)) • ((5 * (R : ℝ)) • y_1 + (3 : ℝ) • e2_1) →
      f.Prox (R / 2) z_1p5 x_1p5 g_1p5 f_1p5 → y_1p5 = (2 / (R : ℝ)) • (z_1p5 - x_1p5) →
      e2_2 = e2_1 - (p "beta" * p "h" / (2 * R * Cap)) • ((R : ℝ) • y_1 + (3 : ℝ) • e2_1) -
        ((1 - p "beta") * p "h" / (2 * R * Cap)) • ((R : ℝ) • y_1p5 + (3 : ℝ) • e2_1p5) →
      z_2 = z_1 - (p "beta" * p "h" / (4 * R * Cap)) • ((5 * (R : ℝ)) • y_1 + (3 : ℝ) • e2_1) -
        ((1 - p "beta") * p "h" / (4 * R * Cap)) • ((5 * (R : ℝ)) • y_1p5 + (3 : ℝ) • e2_1p5) →
      f.Prox (R / 2) z_2 x_2 g_2 f_2 →
      v_C1_1 = (2 : ℝ)⁻¹ • e2_1 - z_1 → v_C1_2 = (2 : ℝ)⁻¹ • e2_2 - z_2 → e1_1 = (2 : ℝ)⁻¹ • (e2_1 - (R : ℝ) • y_1) →
      Cap / 2 * ‖v_C1_2 + x_star‖ ^ 2 + Cap / 2 * ‖e2_2‖ ^ 2 ≤ Cap / 2 * ‖v_C1_1 + x_star‖ ^ 2 + Cap / 2 * ‖e2_1‖ ^ 2 -
        (p "eta" * ⟪x_1 - x_star, y_1⟫_ℝ + p "rho" * (1 / R) * (‖e1_1‖ ^ 2 + ‖e1_1 - e2_1‖ ^ 2 + ‖e2_1‖ ^ 2))

theorem guaranteed_exampleFC3RC (mu : ℚ) (L : Option ℚ) (Cap R : ℚ) {p : Name → ℝ} :
    Guaranteed (exampleFC3RC mu L Cap R).prog p ↔ ExampleFC3RCStep mu L Cap R p := by
  calls_simp [exampleFC3RC]
  constructor
  · intro hc E _ _ f hf x_star z_1 e2_1 x_1 g_1 y_1 e2_1p5 z_1p5 x_1p5 g_1p5 y_1p5 e2_2 z_2 x_2 g_2 v_C1_1 v_C1_2 e1_1 f_star f_1 f_1p5 f_2
      h1 h2 h3 h4 h5 h6 h7 h8 h9 h10 h12 h13 h14
    obtain ⟨E_1, h15⟩ : ∃ E_1, E_1 = Cap / 2 * ‖v_C1_1 + x_star‖ ^ 2 + Cap / 2 * ‖e2_1‖ ^ 2 := ⟨_, rfl⟩
    obtain ⟨E_2, h16⟩ : ∃ E_2, E_2 = Cap / 2 * ‖v_C1_2 + x_star‖ ^ 2 + Cap / 2 * ‖e2_2‖ ^ 2 := ⟨_, rfl⟩
    obtain ⟨Delta_1, h17⟩ : ∃ D, D = ⟪p "eta" • (x_1 - x_star), y_1⟫_ℝ + p "rho" * (1 / R) * (‖e1_1‖ ^ 2 + ‖e1_1 - e2_1‖ ^ 2 + ‖e2_1‖ ^ 2) := ⟨_, rfl⟩
    have key := hc.vals (fs := fun k => [f].getD k f) (e := 7) (by safe_simp []) (instance_of_list (.cons hf .nil))
      ⟨fun i => [x_star, 0, z_1, e2_1, x_1, g_1, y_1, e2_1p5, z_1p5, x_1p5, g_1p5, y_1p5, e2_2, z_2, x_2, g_2, (2 / (R : ℝ)) • (z_2 - x_2), v_C1_1, v_C1_2,
          e1_1].getD i 0,
        fun i => [f_star, f_1, f_1p5, f_2, E_1, E_2, Delta_1, E_2 - (E_1 - Delta_1)].getD i 0, fun i => [Finsupp.single 0 1].getD i 0⟩
      ⟨rfl, ⟨smp h1, rfl⟩, trivial, trivial, ⟨smp h2.1, by simpa [Instr.next] using h2.2⟩, by simpa [Instr.Meets, Instr.next] using h3,
        by simpa [Instr.Meets, Instr.next] using h4, by simpa [Instr.Meets, Instr.next] using h5, ⟨smp h6.1, by simpa [Instr.next] using h6.2⟩,
        by simpa [Instr.Meets, Instr.next] using h7, by simpa [Instr.Meets, Instr.next] using h8, by simpa [Instr.Meets, Instr.next] using h9,
        ⟨smp h10.1, by simpa [Instr.next] using h10.2⟩, by simp [Instr.Meets, Instr.next], by simpa [Instr.Meets, Instr.next] using h12,
        by simpa [Instr.Meets, Instr.next] using h13, by simpa [Instr.Meets, Instr.next] using h14, by simpa [Instr.Meets, Instr.next] using h15,
        by simpa [Instr.Meets, Instr.next] using h16, by simpa [Instr.Meets, Instr.next] using h17, rfl, trivial, trivial⟩
      (by simp [consVals]) rfl
    simp only [List.getD_cons_succ, List.getD_cons_zero] at key
    rw [real_inner_smul_left] at h17
    linarith
  · intro h
    refine guaranteed_of_vals (by safe_simp []) (e := 7) rfl fun {E} _ _ fs hi V hm _ => ?_
    simp [MeetsAll, Instr.Meets, Instr.next] at hm
    obtain ⟨d0, ⟨s1, z1⟩, ⟨s2, m2⟩, m3, m4, m5, ⟨s6, m6⟩, m7, m8, m9, ⟨s10, m10⟩, m11, m12, m13, m14, m15, m16, m17, m18⟩ := hm
    rw [d0] at s1 s2 s6 s10
    rw [z1] at s1
    have := h E (fs 0) (hi 0 _ rfl) (V.pt 0) (V.pt 2) (V.pt 3) (V.pt 4) (V.pt 5) (V.pt 6) (V.pt 7) (V.pt 8) (V.pt 9) (V.pt 10) (V.pt 11) (V.pt 12)
      (V.pt 13) (V.pt 14) (V.pt 15) (V.pt 17) (V.pt 18) (V.pt 19) (V.ex 0) (V.ex 1) (V.ex 2) (V.ex 3) (sample_of_single s1)
      ⟨sample_of_single s2, by simpa using m2⟩ (by simpa using m3) (by simpa using m4) (by simpa using m5) ⟨sample_of_single s6, by simpa using m6⟩
      (by simpa using m7) (by simpa using m8) (by simpa using m9) ⟨sample_of_single s10, by simpa using m10⟩ (by simpa using m12) (by simpa using m13)
      (by simpa using m14)
    rw [m18, m15, m16, m17, z1]
    simp only [sub_zero, real_inner_smul_left, one_div] at this ⊢
    linarith

/-- parameter values of `example_fC3RC_circuit` at which the functions are evaluated at different points -/
def GenericFC3RC (p : Name → ℝ) : Prop := p "h" ≠ 0 ∧ p "alpha" ≠ 0 ∧ ¬ (p "alpha" = 1 ∧ p "beta" = 1)

theorem run_exampleFC3RC (mu : ℚ) (L : Option ℚ) (Cap R : ℚ) (hok : (defDecl mu L).Ok) (hCap : Cap ≠ 0) (hR : 0 < R) {p : Name → ℝ}
    (hg : GenericFC3RC p) : ∃ fs V, StrictRun (exampleFC3RC mu L Cap R).prog p fs V := by
  obtain ⟨hh, ha, hab⟩ := hg
  have hC' : (Cap : ℝ) ≠ 0 := by exact_mod_cast hCap
  have hR' : (0 : ℝ) < R := by exact_mod_cast hR
  obtain ⟨c, u, t, w, z1h, e1h, z2, e2, hc, hc0, e0, ew, h1, h2, h3, h4, hdist⟩ := fc3rc_choice hok (k := p "h" / (4 * R * Cap)) (a := p "alpha")
    (b := p "beta") hR' (by positivity) ha hab
  have hmu := defDecl_nonneg hok
  have hx : ∀ z : ℝ, z * w = 2 / R * (z - u * z) := by
    intro z
    have : (1 - u) = R / 2 * w := by rw [ew]; linarith
    rw [show z - u * z = z * (1 - u) by ring, this]; field_simp
  obtain ⟨v1, hv1⟩ : ∃ v, v = (2 : ℝ)⁻¹ * t - 1 := ⟨_, rfl⟩
  obtain ⟨v2, hv2⟩ : ∃ v, v = (2 : ℝ)⁻¹ * e2 - z2 := ⟨_, rfl⟩
  obtain ⟨e11, he11⟩ : ∃ v, v = (2 : ℝ)⁻¹ * (t - R * (1 * w)) := ⟨_, rfl⟩
  obtain ⟨E_1, h15⟩ : ∃ E_1, E_1 = Cap / 2 * ‖v1‖ ^ 2 + Cap / 2 * ‖t‖ ^ 2 := ⟨_, rfl⟩
  obtain ⟨E_2, h16⟩ : ∃ E_2, E_2 = Cap / 2 * ‖v2‖ ^ 2 + Cap / 2 * ‖e2‖ ^ 2 := ⟨_, rfl⟩
  obtain ⟨Delta_1, h17⟩ : ∃ D, D = ⟪p "eta" • (u * 1 - 0), 1 * w - 0⟫_ℝ + p "rho" * (1 / R) * (‖e11‖ ^ 2 + ‖e11 - t‖ ^ 2 + ‖t‖ ^ 2) := ⟨_, rfl⟩
  refine ⟨fun k => [quadF c 0].getD k (quadF c 0), ⟨fun n => [0, 0, 1, t, u * 1, c * (u * 1), 1 * w, e1h, z1h, u * z1h, c * (u * z1h), z1h * w, e2, z2, u * z2,
      c * (u * z2), z2 * w, v1, v2, e11].getD n 0,
    fun i => [0, c / 2 * (u * 1) ^ 2, c / 2 * (u * z1h) ^ 2, c / 2 * (u * z2) ^ 2, E_1, E_2, Delta_1, E_2 - (E_1 - Delta_1)].getD i 0,
    fun i => [Finsupp.single 0 1].getD i 0⟩, ?_, ?_, ?_, ?_, ?_⟩
  all_goals calls_simp [exampleFC3RC]
  · exact instance_of_list (.cons (quadF_holds hmu hc 0) .nil)
  · rintro (_ | k) d hd
    · injection hd with hd; subst hd; exact quadF_strict hmu hc 0
    · simp [decls] at hd
  · refine ⟨rfl, ⟨smp (quadF_smp0 hc0), rfl⟩, trivial, trivial, ⟨smp (quadF_smp hc0 _), ?_⟩, ?_, ?_, ?_, ⟨smp (quadF_smp hc0 _), ?_⟩, ?_, ?_, ?_,
      ⟨smp (quadF_smp hc0 _), ?_⟩, ?_, ?_, ?_, ?_, ?_, ?_, ?_, rfl, trivial, trivial⟩
    · simp [Instr.next]; linarith
    · have := hx 1
      simpa [Instr.Meets, Instr.next] using this
    · simp [Instr.Meets, Instr.next]; rw [h1]; field_simp; ring
    · simp [Instr.Meets, Instr.next]; rw [h2]; field_simp
    · simp [Instr.next]; linear_combination z1h * e0
    · have := hx z1h
      simpa [Instr.Meets, Instr.next] using this
    · simp [Instr.Meets, Instr.next]; rw [h3]; field_simp; ring
    · simp [Instr.Meets, Instr.next]; rw [h4]; field_simp
    · simp [Instr.next]; linear_combination z2 * e0
    · have := hx z2
      simpa [Instr.Meets, Instr.next] using this
    · simpa [Instr.Meets, Instr.next] using hv1
    · simpa [Instr.Meets, Instr.next] using hv2
    · simpa [Instr.Meets, Instr.next] using he11
    · simpa [Instr.Meets, Instr.next] using h15
    · simpa [Instr.Meets, Instr.next] using h16
    · simpa [Instr.Meets, Instr.next] using h17
  · simp [consVals]
  · rintro (_ | k) hk
    · simpa [calls, callsFrom, Instr.callsOf, Instr.next, declIndex, Instr.declares] using hdist
    · simp [decls] at hk

/-- **C69** for `example_fC3RC_circuit` (`new_algorithms_vi.py` 144-188), for all class parameters, capacities and resistances: at all parameter
values with different points the nonlinear program of `solve_ipopt` has a feasible point with these parameters if and only if the energy
inequality holds for all functions of the class and all steps (and `eta`, `rho`, `h` are not negative). -/
theorem C69_exampleFC3RC (hC : C.Lawful) (mu : ℚ) (L : Option ℚ) (Cap R : ℚ) (hok : (defDecl mu L).Ok) (hCap : Cap ≠ 0) (hR : 0 < R) :
    ∃ r h nlp h', runProblem C (exampleFC3RC mu L Cap R).prog Heap.empty = .ok (r, h) ∧ solveIpopt C r stdParams [] [] h = .ok (nlp, h') ∧
      ∀ p : Name → ℝ, p "h" ≠ 0 → p "alpha" ≠ 0 → ¬ (p "alpha" = 1 ∧ p "beta" = 1) →
        ((∃ σ, nlp.state.Sat σ ∧ ∀ n ∈ scalarNames stdParams, nlp.state.value σ n = p n) ↔
          ExampleFC3RCStep mu L Cap R p ∧ 0 ≤ p "eta" ∧ 0 ≤ p "rho" ∧ 0 ≤ p "h") := by
  have hd : ∀ d ∈ decls (exampleFC3RC mu L Cap R).prog, d.Ok := by
    calls_simp [exampleFC3RC]
    simpa [decls] using hok
  obtain ⟨r, h, nlp, h', hr, hn, hiff⟩ := complete_of_runs (prog := (exampleFC3RC mu L Cap R).prog) (params := stdParams) (Gen := GenericFC3RC) hC
    (by calls_simp [exampleFC3RC]; safe_simp []) (by calls_simp [exampleFC3RC]; simp [Instr.Clean, stdParams])
    (standard_exampleFC3RC mu L Cap R).1 (fun d hm => ⟨hd d hm, (standard_exampleFC3RC mu L Cap R).2 d hm⟩) stdParams_simple
    (by calls_simp [exampleFC3RC]; exact ⟨7, by simp⟩) ⟨fun _ => 2, by norm_num, by norm_num, by norm_num⟩
    fun p hg => run_exampleFC3RC mu L Cap R hok hCap hR hg
  refine ⟨r, h, nlp, h', hr, hn, fun p h1 h2 h3 => ?_⟩
  have hinv : InvOk stdParams p := fun v hv => absurd hv (by rw [show invParams stdParams = [] by decide]; simp)
  rw [hiff p ⟨h1, h2, h3⟩, guaranteed_exampleFC3RC]
  simp [hinv]

end Verif
