import Verif.Props.CompleteCircuits

/-!
# C69 for the proximal point circuit
-/

namespace Verif
open Build
open scoped InnerProductSpace

set_option linter.unusedSimpArgs false

variable {C : CAS}

theorem ppm_choice {mu : ℚ} {L : Option ℚ} (hok : (defDecl mu L).Ok) {R q a b : ℝ} (hR : 0 < R) (hq : q ≠ 0) (ha : a ≠ 0) (h1 : ¬ (q = 1 ∧ b = 1))
    (h2 : ¬ (q * (1 - a) = 1 ∧ q * (1 - b) = 1)) :
    ∃ c u x1h x2 : ℝ, Inside mu L c ∧ 0 < c ∧ u + R * (c * u) = 1 ∧ x1h = 1 - a * q * (1 - u) ∧
      x2 = 1 - b * q * (1 - u) - (1 - b) * q * (x1h - u * x1h) ∧
      (¬ 0 = u ∧ ¬ 0 = u * x1h ∧ ¬ 0 = x2) ∧ (¬ u = u * x1h ∧ ¬ u = x2) ∧ ¬ u * x1h = x2 := by
  have hmu : (0 : ℝ) ≤ mu := by exact_mod_cast defDecl_nonneg hok
  have hS : ((fun c : ℝ => 1 - 1 / (1 + R * c)) '' {c : ℝ | Inside mu L c}).Infinite := by
    refine (inside_infinite hok).image fun c hc d hd e => ?_
    have hc0 : 0 < 1 + R * c := by have := mul_pos hR (hmu.trans_lt hc.1); linarith
    have hd0 : 0 < 1 + R * d := by have := mul_pos hR (hmu.trans_lt hd.1); linarith
    have e1 : 1 / (1 + R * c) = 1 / (1 + R * d) := by simpa using e
    have e2 : 1 + R * c = 1 + R * d := by simpa [div_left_inj', hc0.ne', hd0.ne'] using e1
    exact mul_left_cancel₀ hR.ne' (by linarith)
  have hgen := generic [fun s => 1 - a * q * s, fun s => 1 - b * q * s - (1 - b) * q * s * (1 - a * q * s), fun s => 1 - q + (1 - b) * a * q ^ 2 * s,
    fun s => 1 - q + a * q + s * (a * q) * ((1 - b) * q - 1)] hS (by
      simp only [List.forall_mem_cons, List.not_mem_nil, false_implies, implies_true, and_true]
      refine ⟨⟨by is_poly, 0, by simp⟩, ⟨by is_poly, 0, by simp⟩, ⟨by is_poly, ?_⟩, ⟨by is_poly, ?_⟩⟩
      · by_contra hcon
        push Not at hcon
        have e0 := hcon 0
        have e1 := hcon 1
        have hq1 : q = 1 := by linarith
        subst hq1
        have : (1 - b) * a = 0 := by linarith
        rcases mul_eq_zero.1 this with h | h
        · exact h1 ⟨rfl, by linarith⟩
        · exact ha h
      · by_contra hcon
        push Not at hcon
        have e0 := hcon 0
        have e1 := hcon 1
        have : a * q * ((1 - b) * q - 1) = 0 := by linarith
        rcases mul_eq_zero.1 this with h | h
        · exact mul_ne_zero ha hq h
        · exact h2 ⟨by linarith, by linarith⟩)
  obtain ⟨s, ⟨c, hc, rfl⟩, hne⟩ := hgen.nonempty
  simp only [List.forall_mem_cons, List.not_mem_nil, false_implies, implies_true, and_true] at hne
  have hc0 : 0 < c := hmu.trans_lt hc.1
  have hw : 0 < 1 + R * c := by have := mul_pos hR hc0; linarith
  obtain ⟨u, hu⟩ : ∃ u, u = 1 / (1 + R * c) := ⟨_, rfl⟩
  rw [← hu] at hne
  have hu0 : u ≠ 0 := by rw [hu]; positivity
  have hs0 : 1 - u ≠ 0 := by
    intro h
    have : u = 1 := by linarith
    rw [hu, div_eq_one_iff_eq hw.ne'] at this
    have := mul_pos hR hc0; linarith
  obtain ⟨n1, n2, n3, n4⟩ := hne
  have hd : ∀ {u v w : ℝ}, w ≠ 0 → v - u = w → ¬ u = v := fun hw e h => hw (by rw [← e, h]; ring)
  refine ⟨c, u, _, _, hc, hc0, ?_, rfl, rfl, ⟨hd hu0 (by ring), hd (mul_ne_zero hu0 n1) (by ring), hd n2 (by ring)⟩,
    ⟨hd (mul_ne_zero (mul_ne_zero hu0 (mul_ne_zero (neg_ne_zero.2 ha) hq)) hs0) (by ring), hd (mul_ne_zero hs0 n3) (by ring)⟩,
    hd (mul_ne_zero hs0 n4) (by ring)⟩
  rw [hu]; field_simp

/-- the energy inequality of `ppm_circuit` (`classical_central_vi.py` 161-192) for all functions and all steps -/
def PpmStep (mu : ℚ) (L : Option ℚ) (Cap R : ℚ) (p : Name → ℝ) : Prop :=
  ∀ (E : Type) [NormedAddCommGroup E] [InnerProductSpace ℝ E] (f : CFun E), (defDecl mu L).Holds f →
    ∀ (x_star x_1 x1_prox y1_prox x_1p5 x1p5_prox y1p5_prox i_R_1 x_2 y_2 : E) (f_star f1_prox f1p5_prox f_2 : ℝ),
      f.Sample x_star 0 f_star → f.Prox R x_1 x1_prox y1_prox f1_prox →
      x_1p5 = x_1 - (R : ℝ)⁻¹ • (p "alpha" * p "h" / Cap) • (x_1 - x1_prox) → f.Prox R x_1p5 x1p5_prox y1p5_prox f1p5_prox →
      i_R_1 = (R : ℝ)⁻¹ • (x_1 - x1_prox) →
      x_2 = x_1 - (R : ℝ)⁻¹ • (p "beta" * p "h" / Cap) • (x_1 - x1_prox) - (R : ℝ)⁻¹ • ((1 - p "beta") * p "h" / Cap) • (x_1p5 - x1p5_prox) →
      f.Sample x_2 y_2 f_2 →
      Cap / 2 * ‖x_2 - x_star‖ ^ 2 ≤ Cap / 2 * ‖x_1 - x_star‖ ^ 2 - (p "eta" * (f_2 - f_star) + p "rho" * R * ‖i_R_1‖ ^ 2)

theorem guaranteed_ppm (mu : ℚ) (L : Option ℚ) (Cap R : ℚ) (hR0 : R ≠ 0) {p : Name → ℝ} : Guaranteed (ppm mu L Cap R).prog p ↔ PpmStep mu L Cap R p := by
  calls_simp [ppm]
  constructor
  · intro hc E _ _ f hf x_star x_1 x1_prox y1_prox x_1p5 x1p5_prox y1p5_prox i_R_1 x_2 y_2 f_star f1_prox f1p5_prox f_2 h1 h2 h3 h4 h5 h6 h7
    obtain ⟨E_1, h8⟩ : ∃ E_1, E_1 = Cap / 2 * ‖x_1 - x_star‖ ^ 2 := ⟨_, rfl⟩
    obtain ⟨E_2, h9⟩ : ∃ E_2, E_2 = Cap / 2 * ‖x_2 - x_star‖ ^ 2 := ⟨_, rfl⟩
    obtain ⟨Delta_1, h10⟩ : ∃ D, D = p "eta" * (f_2 - f_star) + p "rho" * R * ‖i_R_1‖ ^ 2 := ⟨_, rfl⟩
    have key := hc.vals (fs := fun k => [f].getD k f) (e := 7) (by safe_simp [hR0]) (instance_of_list (.cons hf .nil))
      ⟨fun i => [x_star, 0, x_1, x1_prox, y1_prox, x_1p5, x1p5_prox, y1p5_prox, i_R_1, x_2, y_2].getD i 0,
        fun i => [f_star, f1_prox, f1p5_prox, f_2, E_1, E_2, Delta_1, E_2 - (E_1 - Delta_1)].getD i 0, fun i => [Finsupp.single 0 1].getD i 0⟩
      ⟨rfl, ⟨smp h1, rfl⟩, trivial, ⟨smp h2.1, by simpa [Instr.next] using h2.2⟩, by simpa [Instr.Meets, Instr.next] using h3,
        ⟨smp h4.1, by simpa [Instr.next] using h4.2⟩, by simpa [Instr.Meets, Instr.next] using h5, by simpa [Instr.Meets, Instr.next] using h6,
        smp h7, by simpa [Instr.Meets, Instr.next] using h8, by simpa [Instr.Meets, Instr.next] using h9, by simpa [Instr.Meets, Instr.next] using h10,
        rfl, trivial, trivial⟩
      (by simp [consVals]) rfl
    simp only [List.getD_cons_succ, List.getD_cons_zero] at key
    linarith
  · intro h
    refine guaranteed_of_vals (by safe_simp [hR0]) (e := 7) rfl fun {E} _ _ fs hi V hm _ => ?_
    simp [MeetsAll, Instr.Meets, Instr.next] at hm
    obtain ⟨d0, ⟨s1, z1⟩, ⟨s2, m2⟩, m3, ⟨s4, m4⟩, m5, m6, s7, m8, m9, m10, m11⟩ := hm
    rw [d0] at s1 s2 s4 s7
    rw [z1] at s1
    have := h E (fs 0) (hi 0 _ rfl) _ _ _ _ _ _ _ _ _ _ _ _ _ _ (sample_of_single s1) ⟨sample_of_single s2, m2⟩ m3 ⟨sample_of_single s4, m4⟩ m5 m6
      (sample_of_single s7)
    rw [z1, sub_zero] at m10
    rw [m11, m8, m9, m10]
    linarith

/-- parameter values of `ppm_circuit` at which the functions are evaluated at different points -/
def GenericPpm (Cap R : ℚ) (p : Name → ℝ) : Prop :=
  p "h" ≠ 0 ∧ p "alpha" ≠ 0 ∧ ¬ (p "h" = Cap * R ∧ p "beta" = 1) ∧ ¬ (p "h" * (1 - p "alpha") = Cap * R ∧ p "h" * (1 - p "beta") = Cap * R)

theorem run_ppm (mu : ℚ) (L : Option ℚ) (Cap R : ℚ) (hok : (defDecl mu L).Ok) (hCap : Cap ≠ 0) (hR : 0 < R) {p : Name → ℝ} (hg : GenericPpm Cap R p) :
    ∃ fs V, StrictRun (ppm mu L Cap R).prog p fs V := by
  obtain ⟨hh, ha, g1, g2⟩ := hg
  have hC' : (Cap : ℝ) ≠ 0 := by exact_mod_cast hCap
  have hR' : (0 : ℝ) < R := by exact_mod_cast hR
  obtain ⟨c, u, x1h, x2, hc, hc0, e0, e1, e2, hdist⟩ := ppm_choice hok (q := p "h" / (Cap * R)) (a := p "alpha") (b := p "beta") hR' (by positivity) ha
    (fun h => g1 ⟨by have := h.1; field_simp at this; exact this, h.2⟩)
    (fun h => g2 ⟨by have := h.1; field_simp at this; linarith, by have := h.2; field_simp at this; linarith⟩)
  have hmu := defDecl_nonneg hok
  obtain ⟨E_1, h8⟩ : ∃ E_1, E_1 = Cap / 2 * ‖(1 : ℝ)‖ ^ 2 := ⟨_, rfl⟩
  obtain ⟨E_2, h9⟩ : ∃ E_2, E_2 = Cap / 2 * ‖x2‖ ^ 2 := ⟨_, rfl⟩
  obtain ⟨i, hi⟩ : ∃ i, i = (R : ℝ)⁻¹ * (1 - u) := ⟨_, rfl⟩
  obtain ⟨Delta_1, h10⟩ : ∃ D, D = p "eta" * (c / 2 * x2 ^ 2) + p "rho" * R * ‖i‖ ^ 2 := ⟨_, rfl⟩
  refine ⟨fun k => [quadF c 0].getD k (quadF c 0), ⟨fun n => [0, 0, 1, u, c * u, x1h, u * x1h, c * (u * x1h), i, x2, c * x2].getD n 0,
    fun i => [0, c / 2 * u ^ 2, c / 2 * (u * x1h) ^ 2, c / 2 * x2 ^ 2, E_1, E_2, Delta_1, E_2 - (E_1 - Delta_1)].getD i 0,
    fun i => [Finsupp.single 0 1].getD i 0⟩, ?_, ?_, ?_, ?_, ?_⟩
  all_goals calls_simp [ppm]
  · exact instance_of_list (.cons (quadF_holds hmu hc 0) .nil)
  · rintro (_ | k) d hd
    · injection hd with hd; subst hd; exact quadF_strict hmu hc 0
    · simp [decls] at hd
  · refine ⟨rfl, ⟨smp (quadF_smp0 hc0), rfl⟩, trivial, ⟨smp (quadF_smp hc0 _), ?_⟩, ?_, ⟨smp (quadF_smp hc0 _), ?_⟩, ?_, ?_,
      smp (quadF_smp hc0 _), ?_, ?_, ?_, rfl, trivial, trivial⟩
    · simp [Instr.next]; linarith
    · simp [Instr.Meets, Instr.next]; rw [e1]; field_simp
    · simp [Instr.next]; linear_combination x1h * e0
    · simpa [Instr.Meets, Instr.next] using hi
    · simp [Instr.Meets, Instr.next]; rw [e2]; field_simp
    · simpa [Instr.Meets, Instr.next] using h8
    · simpa [Instr.Meets, Instr.next] using h9
    · simpa [Instr.Meets, Instr.next] using h10
  · simp [consVals]
  · rintro (_ | k) hk
    · simpa [calls, callsFrom, Instr.callsOf, Instr.next, declIndex, Instr.declares] using hdist
    · simp [decls] at hk

/-- **C69** for `ppm_circuit` (`classical_central_vi.py` 161-192), for all class parameters, capacities and resistances: at all parameter values
with different points the nonlinear program of `solve_ipopt` has a feasible point with these parameters if and only if the energy inequality
holds for all functions of the class and all steps (and `eta`, `rho`, `h` are not negative). -/
theorem C69_ppm (hC : C.Lawful) (mu : ℚ) (L : Option ℚ) (Cap R : ℚ) (hok : (defDecl mu L).Ok) (hCap : Cap ≠ 0) (hR : 0 < R) :
    ∃ r h nlp h', runProblem C (ppm mu L Cap R).prog Heap.empty = .ok (r, h) ∧ solveIpopt C r stdParams [] [] h = .ok (nlp, h') ∧
      ∀ p : Name → ℝ, p "h" ≠ 0 → p "alpha" ≠ 0 → ¬ (p "h" = Cap * R ∧ p "beta" = 1) →
        ¬ (p "h" * (1 - p "alpha") = Cap * R ∧ p "h" * (1 - p "beta") = Cap * R) →
        ((∃ σ, nlp.state.Sat σ ∧ ∀ n ∈ scalarNames stdParams, nlp.state.value σ n = p n) ↔
          PpmStep mu L Cap R p ∧ 0 ≤ p "eta" ∧ 0 ≤ p "rho" ∧ 0 ≤ p "h") := by
  have hd : ∀ d ∈ decls (ppm mu L Cap R).prog, d.Ok := by
    calls_simp [ppm]
    simpa [decls] using hok
  have hne : ∃ p, GenericPpm Cap R p := by
    refine ⟨fun n => if n = "h" then 1 else if n = "alpha" then 1 else 2, by simp, by simp, by simp, ?_⟩
    have hC' : (Cap : ℝ) ≠ 0 := by exact_mod_cast hCap
    have hR' : (0 : ℝ) < R := by exact_mod_cast hR
    rintro ⟨h1, -⟩
    have : (Cap : ℝ) * R ≠ 0 := mul_ne_zero hC' hR'.ne'
    simp at h1
    exact h1.elim hCap (fun h => hR.ne' h)
  obtain ⟨r, h, nlp, h', hr, hn, hiff⟩ := complete_of_runs (prog := (ppm mu L Cap R).prog) (params := stdParams) (Gen := GenericPpm Cap R) hC
    (by calls_simp [ppm]; safe_simp [hR.ne']) (by calls_simp [ppm]; simp [Instr.Clean, stdParams])
    (standard_ppm mu L Cap R).1 (fun d hm => ⟨hd d hm, (standard_ppm mu L Cap R).2 d hm⟩) stdParams_simple
    (by calls_simp [ppm]; exact ⟨7, by simp⟩) hne fun p hg => run_ppm mu L Cap R hok hCap hR hg
  refine ⟨r, h, nlp, h', hr, hn, fun p h1 h2 h3 h4 => ?_⟩
  have hinv : InvOk stdParams p := fun v hv => absurd hv (by rw [show invParams stdParams = [] by decide]; simp)
  rw [hiff p ⟨h1, h2, h3, h4⟩, guaranteed_ppm _ _ _ _ hR.ne']
  simp [hinv]

end Verif
