import Verif.Model.HelloWorld
import Verif.Props.ProximalPoint
import Verif.Proofs.Converge

/-!
# C74: the first program of the documentation
-/

namespace Verif
open Build
open scoped InnerProductSpace

set_option linter.unusedSimpArgs false

variable {C : CAS}

/-- the energy inequality of the program of `README.md` 80-128 for all functions and all steps: from `z_1`, `e2_1` the program goes to `z_2`, `e2_2`,
and the energy of the two capacitors decreases by `eta` times the product of `x_1 - x_star` and `y_1` -/
def HelloStep (mu : ℚ) (M : Option ℚ) (R Cap : ℚ) (p : Name → ℝ) : Prop :=
  ∀ (E : Type) [NormedAddCommGroup E] [InnerProductSpace ℝ E] (f : CFun E), (defDecl mu M).Holds f →
    ∀ (x_star z_1 e2_1 x_1 y_1 e2_2 z_2 x_2 y_2 : E) (f_star f_1 f_2 : ℝ),
      f.Sample x_star 0 f_star → f.Prox (R / 2) z_1 x_1 y_1 f_1 →
      e2_2 = e2_1 - (p "h" / (2 * R * Cap)) • ((R : ℝ) • y_1 + (3 : ℝ) • e2_1) →
      z_2 = z_1 - (p "h" / (4 * R * Cap)) • ((5 * R : ℝ) • y_1 + (3 : ℝ) • e2_1) →
      f.Prox (R / 2) z_2 x_2 y_2 f_2 →
      Cap / 2 * ‖(2 : ℝ)⁻¹ • e2_2 - z_2 + x_star‖ ^ 2 + Cap / 2 * ‖e2_2‖ ^ 2 ≤
        Cap / 2 * ‖(2 : ℝ)⁻¹ • e2_1 - z_1 + x_star‖ ^ 2 + Cap / 2 * ‖e2_1‖ ^ 2 - p "eta" * ⟪x_1 - x_star, y_1⟫_ℝ

theorem guaranteed_helloWorld (mu : ℚ) (M : Option ℚ) (R Cap : ℚ) (hR0 : R ≠ 0) {p : Name → ℝ} :
    Guaranteed (helloWorld mu M R Cap).prog p ↔ HelloStep mu M R Cap p := by
  have hR' : (R : ℝ) ≠ 0 := by exact_mod_cast hR0
  have hy : ∀ {E : Type} [NormedAddCommGroup E] [InnerProductSpace ℝ E] {z x g : E}, x + (R / 2 : ℝ) • g = z → (2 / R : ℝ) • (z - x) = g := by
    intro E _ _ z x g h
    rw [← h, add_sub_cancel_left, smul_smul, show (2 / R : ℝ) * (R / 2) = 1 by field_simp, one_smul]
  calls_simp [helloWorld, Build.defFunction]
  constructor
  · intro hc E _ _ f hf x_star z_1 e2_1 x_1 y_1 e2_2 z_2 x_2 y_2 f_star f_1 f_2 h1 h2 h3 h4 h5
    obtain ⟨E_1, h8⟩ : ∃ E_1, E_1 = Cap / 2 * ‖(2 : ℝ)⁻¹ • e2_1 - z_1 + x_star‖ ^ 2 + Cap / 2 * ‖e2_1‖ ^ 2 := ⟨_, rfl⟩
    obtain ⟨E_2, h9⟩ : ∃ E_2, E_2 = Cap / 2 * ‖(2 : ℝ)⁻¹ • e2_2 - z_2 + x_star‖ ^ 2 + Cap / 2 * ‖e2_2‖ ^ 2 := ⟨_, rfl⟩
    obtain ⟨Delta_1, h10⟩ : ∃ D, D = p "eta" * ⟪x_1 - x_star, y_1⟫_ℝ := ⟨_, rfl⟩
    have key := hc.vals (fs := fun k => [f].getD k f) (e := 6) (by safe_simp [hR0]) (instance_of_list (.cons hf .nil))
      ⟨fun i => [x_star, 0, z_1, e2_1, x_1, y_1, y_1, (2 : ℝ)⁻¹ • (e2_1 - (R : ℝ) • y_1), (2 : ℝ)⁻¹ • e2_1 - z_1, e2_2, z_2, x_2, y_2, y_2,
          (2 : ℝ)⁻¹ • e2_2 - z_2].getD i 0,
        fun i => [f_star, f_1, f_2, E_1, E_2, Delta_1, E_2 - (E_1 - Delta_1)].getD i 0, fun i => [Finsupp.single 0 1].getD i 0⟩
      ⟨rfl, ⟨smp h1, rfl⟩, trivial, trivial, ⟨smp h2.1, by simpa [Instr.next] using h2.2⟩, by simpa [Instr.Meets, Instr.next] using (hy h2.2).symm,
        by simp [Instr.Meets, Instr.next], by simp [Instr.Meets, Instr.next], by simpa [Instr.Meets, Instr.next] using h3,
        by simpa [Instr.Meets, Instr.next] using h4, ⟨smp h5.1, by simpa [Instr.next] using h5.2⟩,
        by simpa [Instr.Meets, Instr.next] using (hy h5.2).symm, by simp [Instr.Meets, Instr.next],
        by simpa [Instr.Meets, Instr.next] using h8, by simpa [Instr.Meets, Instr.next] using h9,
        by simpa [Instr.Meets, Instr.next, real_inner_smul_left] using h10, rfl, trivial, trivial⟩
      (by simp [consVals]) rfl
    simp only [List.getD_cons_succ, List.getD_cons_zero] at key
    linarith
  · intro h
    refine guaranteed_of_vals (by safe_simp [hR0]) (e := 6) rfl fun {E} _ _ fs hi V hm _ => ?_
    simp [MeetsAll, Instr.Meets, Instr.next] at hm
    obtain ⟨d0, ⟨s1, z1⟩, ⟨s2, m2⟩, m3, m4, m5, m6, m7, ⟨s8, m8⟩, m9, m10, m11, m12, m13, m14⟩ := hm
    rw [d0] at s1 s2 s8
    rw [z1] at s1
    rw [hy m2] at m3
    rw [m3] at m6 m7 m13
    have := h E (fs 0) (hi 0 _ rfl) (V.pt 0) (V.pt 2) (V.pt 3) (V.pt 4) (V.pt 5) (V.pt 9) (V.pt 10) (V.pt 11) (V.pt 12) _ _ _ (sample_of_single s1)
      ⟨sample_of_single s2, m2⟩ (by rw [smul_add]; exact m6) (by rw [smul_add]; exact m7) ⟨sample_of_single s8, m8⟩
    rw [z1, sub_zero, real_inner_smul_left] at m13
    rw [m14, m11, m12, m13, m5, m10]
    linarith
theorem standard_helloWorld (mu : ℚ) (M : Option ℚ) (R Cap : ℚ) : (helloWorld mu M R Cap).IsStandard := by
  unfold Build.IsStandard
  calls_simp [helloWorld, Build.defFunction]
  simp [Standard, standardFrom, Instr.Standard, Instr.declares, FE.Positive, decls, defDecl_default]

theorem run_helloWorld (mu : ℚ) (M : Option ℚ) (R Cap : ℚ) (hok : (defDecl mu M).Ok) (hR : 0 < R) (hCap : Cap ≠ 0) {p : Name → ℝ} (hh : p "h" ≠ 0) :
    ∃ fs V, StrictRun (helloWorld mu M R Cap).prog p fs V := by
  have hC' : (Cap : ℝ) ≠ 0 := by exact_mod_cast hCap
  have hR' : (0 : ℝ) < R := by exact_mod_cast hR
  have hmu := defDecl_nonneg hok
  obtain ⟨c, hc⟩ := (inside_infinite hok).nonempty
  have hc0 : 0 < c := lt_of_le_of_lt (by exact_mod_cast hmu) hc.1
  obtain ⟨u, hu⟩ : ∃ u : ℝ, u = 1 / (1 + R / 2 * c) := ⟨_, rfl⟩
  have hu0 : 0 < u := by rw [hu]; positivity
  have e0 : u + R / 2 * (c * u) = 1 := by rw [hu]; field_simp
  -- the voltage for which `z_2 = 2`
  obtain ⟨w, hw⟩ : ∃ w : ℝ, w = (-(4 * R * Cap / p "h") - 5 * R * (c * u)) / 3 := ⟨_, rfl⟩
  obtain ⟨w2, hw2⟩ : ∃ w2 : ℝ, w2 = w - p "h" / (2 * R * Cap) * (R * (c * u) + 3 * w) := ⟨_, rfl⟩
  have hz : (2 : ℝ) = 1 - p "h" / (4 * R * Cap) * (5 * R * (c * u) + 3 * w) := by
    rw [hw]; field_simp; ring
  obtain ⟨E_1, h8⟩ : ∃ E_1, E_1 = Cap / 2 * ‖(2 : ℝ)⁻¹ * w - 1 + 0‖ ^ 2 + Cap / 2 * ‖w‖ ^ 2 := ⟨_, rfl⟩
  obtain ⟨E_2, h9⟩ : ∃ E_2, E_2 = Cap / 2 * ‖(2 : ℝ)⁻¹ * w2 - 2 + 0‖ ^ 2 + Cap / 2 * ‖w2‖ ^ 2 := ⟨_, rfl⟩
  obtain ⟨Delta_1, h10⟩ : ∃ D, D = c * u * (p "eta" * u) := ⟨_, rfl⟩
  refine ⟨fun k => [quadF c 0].getD k (quadF c 0), ⟨fun n => [0, 0, 1, w, u, c * u, c * u, (2 : ℝ)⁻¹ * (w - R * (c * u)), (2 : ℝ)⁻¹ * w - 1, w2, 2,
      2 * u, c * (2 * u), c * (2 * u), (2 : ℝ)⁻¹ * w2 - 2].getD n 0,
    fun i => [0, c / 2 * u ^ 2, c / 2 * (2 * u) ^ 2, E_1, E_2, Delta_1, E_2 - (E_1 - Delta_1)].getD i 0,
    fun i => [Finsupp.single 0 1].getD i 0⟩, ?_, ?_, ?_, ?_, ?_⟩
  all_goals calls_simp [helloWorld, Build.defFunction]
  · exact instance_of_list (.cons (quadF_holds hmu hc 0) .nil)
  · rintro (_ | k) d hd
    · injection hd with hd; subst hd; exact quadF_strict hmu hc 0
    · simp [decls] at hd
  · refine ⟨rfl, ⟨smp (quadF_smp0 hc0), rfl⟩, trivial, trivial, ⟨smp (quadF_smp hc0 _), ?_⟩, ?_, ?_, ?_, ?_, ?_, ⟨smp (quadF_smp hc0 _), ?_⟩, ?_, ?_,
      ?_, ?_, ?_, rfl, trivial, trivial⟩
    · simp [Instr.next]; linarith
    · simp [Instr.Meets, Instr.next]; field_simp; linarith
    · simp [Instr.Meets, Instr.next]
    · simp [Instr.Meets, Instr.next]
    · simp [Instr.Meets, Instr.next]; linarith
    · simp [Instr.Meets, Instr.next]; linarith
    · simp [Instr.next]; linarith
    · simp [Instr.Meets, Instr.next]; field_simp; linarith
    · simp [Instr.Meets, Instr.next]
    · simpa [Instr.Meets, Instr.next] using h8
    · simpa [Instr.Meets, Instr.next] using h9
    · simpa [Instr.Meets, Instr.next] using h10
  · simp [consVals]
  · rintro (_ | k) hk
    · simp [calls, callsFrom, Instr.callsOf, Instr.next, declIndex, Instr.declares]
      exact ⟨⟨hu0.ne, hu0.ne'⟩, by intro h; linarith⟩
    · simp [decls] at hk

/-- the nonlinear program of the first program of the documentation: at all parameter values with `h ≠ 0` it has a feasible point if and only if the
energy inequality holds for all functions and all steps -/
theorem C74_complete (hC : C.Lawful) (mu : ℚ) (M : Option ℚ) (R Cap : ℚ) (hok : (defDecl mu M).Ok) (hR : 0 < R) (hCap : Cap ≠ 0) :
    ∃ r h nlp h', runProblem C (helloWorld mu M R Cap).prog Heap.empty = .ok (r, h) ∧ solveIpopt C r stdParams [] [] h = .ok (nlp, h') ∧
      ∀ p : Name → ℝ, p "h" ≠ 0 →
        ((∃ σ, nlp.state.Sat σ ∧ ∀ n ∈ scalarNames stdParams, nlp.state.value σ n = p n) ↔
          HelloStep mu M R Cap p ∧ 0 ≤ p "eta" ∧ 0 ≤ p "rho" ∧ 0 ≤ p "h") := by
  have hd : ∀ d ∈ decls (helloWorld mu M R Cap).prog, d.Ok := by
    calls_simp [helloWorld, Build.defFunction]
    simpa [decls] using hok
  obtain ⟨r, h, nlp, h', hr, hn, hiff⟩ := complete_of_runs (prog := (helloWorld mu M R Cap).prog) (params := stdParams) (Gen := fun p => p "h" ≠ 0) hC
    (by calls_simp [helloWorld, Build.defFunction]; safe_simp [hR.ne', hCap])
    (by calls_simp [helloWorld, Build.defFunction]; simp [Instr.Clean, stdParams])
    (standard_helloWorld mu M R Cap).1 (fun d hm => ⟨hd d hm, (standard_helloWorld mu M R Cap).2 d hm⟩) stdParams_simple
    (by calls_simp [helloWorld, Build.defFunction]; exact ⟨6, by simp⟩) ⟨fun _ => 1, by simp⟩ fun p hg => run_helloWorld mu M R Cap hok hR hCap hg
  refine ⟨r, h, nlp, h', hr, hn, fun p h1 => ?_⟩
  have hinv : InvOk stdParams p := fun v hv => absurd hv (by rw [show invParams stdParams = [] by decide]; simp)
  rw [hiff p h1, guaranteed_helloWorld _ _ _ _ hR.ne']
  simp [hinv]

section energy
variable {E : Type} [NormedAddCommGroup E] [InnerProductSpace ℝ E]

/-- the energy balance of one step -/
theorem hello_energy {R Cap h : ℝ} (hR : R ≠ 0) (hCap : Cap ≠ 0) {x_star z_1 e2_1 x_1 y_1 e2_2 z_2 : E} (h1 : x_1 + (R / 2) • y_1 = z_1)
    (h2 : e2_2 = e2_1 - (h / (2 * R * Cap)) • (R • y_1 + (3 : ℝ) • e2_1)) (h3 : z_2 = z_1 - (h / (4 * R * Cap)) • ((5 * R) • y_1 + (3 : ℝ) • e2_1)) :
    Cap / 2 * ‖(2 : ℝ)⁻¹ • e2_2 - z_2 + x_star‖ ^ 2 + Cap / 2 * ‖e2_2‖ ^ 2 =
      Cap / 2 * ‖(2 : ℝ)⁻¹ • e2_1 - z_1 + x_star‖ ^ 2 + Cap / 2 * ‖e2_1‖ ^ 2 - h * ⟪x_1 - x_star, y_1⟫_ℝ -
        h / (2 * R) * ((1 - 3 * h / (2 * R * Cap)) * (R ^ 2 * ‖y_1‖ ^ 2 + 3 * ‖e2_1‖ ^ 2) + h / (4 * R * Cap) * ‖R • y_1 - (3 : ℝ) • e2_1‖ ^ 2) := by
  obtain ⟨a, ha⟩ : ∃ a, a = x_1 - x_star := ⟨_, rfl⟩
  have e1 : (2 : ℝ)⁻¹ • e2_1 - z_1 + x_star = (1 / 2 : ℝ) • e2_1 - a - (R / 2) • y_1 := by
    rw [ha, ← h1]; match_scalars <;> ring
  have e2 : (2 : ℝ)⁻¹ • e2_2 - z_2 + x_star = (1 / 2 : ℝ) • e2_1 - a + (h / Cap - R / 2) • y_1 := by
    rw [h2, h3, ha, ← h1]; match_scalars <;> field_simp <;> ring
  have e3 : e2_2 = (1 - 3 * h / (2 * R * Cap)) • e2_1 - (h / (2 * Cap)) • y_1 := by
    rw [h2]; match_scalars <;> field_simp
  rw [e1, e2, e3, ← ha]
  simp only [← real_inner_self_eq_norm_sq, inner_add_left, inner_add_right, inner_sub_left, inner_sub_right, real_inner_smul_left, real_inner_smul_right]
  rw [real_inner_comm a e2_1, real_inner_comm a y_1, real_inner_comm y_1 e2_1]
  field_simp
  ring

end energy

theorem absF_pos {c : ℝ} (hc : 0 ≤ c) {x : ℝ} (hx : 0 ≤ x) : (absF c).Sample x c (c * x) := by
  refine ⟨trivial, by simp [absF, abs_of_nonneg hx], fun y _ => ?_⟩
  change c * x + (y - x) * c ≤ c * |y|
  nlinarith [mul_le_mul_of_nonneg_left (le_abs_self y) hc]

/-- the energy inequality for convex functions in closed form -/
theorem hello_step {R Cap : ℚ} (hR : 0 < R) (hCap : 0 < Cap) {p : Name → ℝ} (hh : 0 < p "h") :
    HelloStep 0 none R Cap p ↔ p "eta" ≤ p "h" ∧ p "h" ≤ 2 * R * Cap / 3 := by
  have hr : (0 : ℝ) < R := by exact_mod_cast hR
  have hc : (0 : ℝ) < Cap := by exact_mod_cast hCap
  constructor
  · intro hs
    constructor
    · -- |x| far away from the solution
      by_contra hcon
      push Not at hcon
      set K := p "h" / (2 * R) * ((1 - 3 * p "h" / (2 * R * Cap)) * (R ^ 2 * ‖(1 : ℝ)‖ ^ 2 + 3 * ‖(0 : ℝ)‖ ^ 2) +
        p "h" / (4 * R * Cap) * ‖(R : ℝ) • (1 : ℝ) - (3 : ℝ) • (0 : ℝ)‖ ^ 2) with hK
      obtain ⟨t, ht⟩ : ∃ t : ℝ, t = 5 * p "h" / (4 * Cap) + (|K| + 1) / (p "eta" - p "h") := ⟨_, rfl⟩
      have hd : 0 < p "eta" - p "h" := by linarith
      have ht1 : 5 * p "h" / (4 * Cap) ≤ t := by
        have : 0 ≤ (|K| + 1) / (p "eta" - p "h") := by positivity
        rw [ht]
        linarith
      have ht0 : 0 ≤ t := le_trans (by positivity) ht1
      have hz : t + (R / 2 : ℝ) - 5 * p "h" / (4 * Cap) = t + (R / 2 : ℝ) - p "h" / (4 * R * Cap) * (5 * R * 1 + 3 * 0) := by field_simp; ring
      have s1 : (absF 1).Prox (R / 2) (t + (R / 2 : ℝ)) t 1 (1 * t) := ⟨absF_pos zero_le_one ht0, by simp⟩
      have s2 : (absF 1).Prox (R / 2) (t + (R / 2 : ℝ) - 5 * p "h" / (4 * Cap)) (t - 5 * p "h" / (4 * Cap)) 1 (1 * (t - 5 * p "h" / (4 * Cap))) :=
        ⟨absF_pos zero_le_one (by linarith), by simp; ring⟩
      have := hs ℝ (absF 1) (absF_holds zero_le_one) 0 (t + (R / 2 : ℝ)) 0 t 1 _ _ _ 1 0 _ _ (absF_zero (by simp)) s1 rfl
        (by simpa only [smul_eq_mul] using hz) s2
      rw [hello_energy hr.ne' hc.ne' s1.2 rfl (by simpa only [smul_eq_mul] using hz), ← hK] at this
      have hi : ⟪t - 0, (1 : ℝ)⟫_ℝ = t := by simp
      rw [hi] at this
      have e : (p "eta" - p "h") * t = (p "eta" - p "h") * (5 * p "h" / (4 * Cap)) + (|K| + 1) := by rw [ht]; field_simp
      have h0 : 0 ≤ (p "eta" - p "h") * (5 * p "h" / (4 * Cap)) := by positivity
      have := neg_abs_le K
      have := le_abs_self K
      nlinarith
    · -- `x_1 = x_star = 0` with the subgradient `3 / R`
      obtain ⟨z2, hz2⟩ : ∃ z2 : ℝ, z2 = (R / 2 : ℝ) * (3 / R) - p "h" / (4 * R * Cap) * (5 * R * (3 / R) + 3 * 1) := ⟨_, rfl⟩
      set c := max (3 / (R : ℝ)) |2 / R * z2| with hcdef
      have hc1 : 3 / (R : ℝ) ≤ c := le_max_left _ _
      have hc0 : 0 ≤ c := le_trans (by positivity) hc1
      have s1 : (absF c).Prox (R / 2) ((R / 2 : ℝ) * (3 / R)) 0 (3 / R : ℝ) 0 := ⟨absF_zero (by rw [abs_of_pos (by positivity)]; exact hc1), by simp⟩
      have s2 : (absF c).Prox (R / 2) z2 0 (2 / R * z2 : ℝ) 0 := ⟨absF_zero (le_max_right _ _), by simp; field_simp⟩
      have := hs ℝ (absF c) (absF_holds hc0) 0 _ 1 0 _ _ _ 0 _ 0 0 0 (absF_zero (by simpa using hc0)) s1 rfl
        (by simpa only [smul_eq_mul] using hz2) s2
      rw [hello_energy hr.ne' hc.ne' s1.2 rfl (by simpa only [smul_eq_mul] using hz2)] at this
      have e : (R : ℝ) • (3 / R : ℝ) - (3 : ℝ) • (1 : ℝ) = 0 := by simp only [smul_eq_mul]; field_simp; ring
      rw [e] at this
      have e2 : (R : ℝ) ^ 2 * ‖(3 / R : ℝ)‖ ^ 2 + 3 * ‖(1 : ℝ)‖ ^ 2 = 12 := by
        rw [Real.norm_eq_abs, sq_abs, norm_one]; field_simp; norm_num
      rw [e2] at this
      simp only [sub_self, inner_zero_left, mul_zero, norm_zero, ne_eq, OfNat.ofNat_ne_zero, not_false_eq_true, zero_pow, add_zero, sub_zero] at this
      have h1 : 0 ≤ p "h" / (2 * R) * ((1 - 3 * p "h" / (2 * R * Cap)) * 12) := by linarith
      have h2 : 0 ≤ (1 - 3 * p "h" / (2 * R * Cap)) * 12 := nonneg_of_mul_nonneg_right h1 (by positivity)
      have h3 : 3 * p "h" / (2 * R * Cap) ≤ 1 := by linarith
      rw [div_le_one (by positivity)] at h3
      linarith
  · rintro ⟨h1, h2⟩ E _ _ f hf x_star z_1 e2_1 x_1 y_1 e2_2 z_2 x_2 y_2 f_star f_1 f_2 s0 s1 h3 h4 -
    rw [hello_energy hr.ne' hc.ne' s1.2 h3 h4]
    have hm : 0 ≤ ⟪x_1 - x_star, y_1⟫_ℝ := by simpa using sample_mono_nonneg s1.1 s0
    have hq : 3 * p "h" / (2 * R * Cap) ≤ 1 := by rw [div_le_one (by positivity)]; linarith
    have : 0 ≤ p "h" / (2 * R) * ((1 - 3 * p "h" / (2 * R * Cap)) * (R ^ 2 * ‖y_1‖ ^ 2 + 3 * ‖e2_1‖ ^ 2) +
        p "h" / (4 * R * Cap) * ‖(R : ℝ) • y_1 - (3 : ℝ) • e2_1‖ ^ 2) := by
      have : 0 ≤ 1 - 3 * p "h" / (2 * R * Cap) := by linarith
      positivity
    have := mul_le_mul_of_nonneg_right h1 hm
    linarith

/-- **C74.** The first program of the documentation, for all resistances and capacities: the program runs without error, the nonlinear program of
`solve_ipopt` is built without error, and for `h > 0` it has a feasible point with the parameters `p` if and only if `0 ≤ eta ≤ h ≤ 2 R C / 3` and
`0 ≤ rho`. -/
theorem C74_helloWorld (hC : C.Lawful) {R Cap : ℚ} (hR : 0 < R) (hCap : 0 < Cap) :
    ∃ r h nlp h', runProblem C (helloWorld 0 none R Cap).prog Heap.empty = .ok (r, h) ∧ solveIpopt C r stdParams [] [] h = .ok (nlp, h') ∧
      ∀ p : Name → ℝ, 0 < p "h" →
        ((∃ σ, nlp.state.Sat σ ∧ ∀ n ∈ scalarNames stdParams, nlp.state.value σ n = p n) ↔
          0 ≤ p "eta" ∧ p "eta" ≤ p "h" ∧ p "h" ≤ 2 * R * Cap / 3 ∧ 0 ≤ p "rho") := by
  obtain ⟨r, h, nlp, h', hr, hn, hiff⟩ := C74_complete hC 0 none R Cap (by simp [defDecl, FnDecl.Ok]) hR hCap.ne'
  refine ⟨r, h, nlp, h', hr, hn, fun p hh => ?_⟩
  rw [hiff p hh.ne', hello_step hR hCap hh]
  constructor
  · rintro ⟨⟨h1, h2⟩, h3, h4, -⟩; exact ⟨h3, h1, h2, h4⟩
  · rintro ⟨h3, h1, h2, h4⟩; exact ⟨⟨h1, h2⟩, h3, h4, hh.le⟩

/-- without a step nothing decreases -/
theorem hello_zero {mu : ℚ} {M : Option ℚ} {R Cap : ℚ} (hf : (defDecl mu M).Holds (absF 1)) {p : Name → ℝ} (hh : p "h" = 0)
    (hs : HelloStep mu M R Cap p) : p "eta" ≤ 0 := by
  have s1 : (absF 1).Prox (R / 2) (1 + (R / 2 : ℝ)) 1 1 (1 * 1) := ⟨absF_pos zero_le_one zero_le_one, by simp⟩
  have := hs ℝ (absF 1) hf 0 (1 + (R / 2 : ℝ)) 0 1 1 0 (1 + (R / 2 : ℝ)) 1 1 0 _ _ (absF_zero (by simp)) s1 (by simp [hh]) (by simp [hh]) s1
  simp at this
  exact this

/-- **C74**, the answer of the program of `README.md`, with `R = 1`, `C = 10`: over the feasible points the objective `eta` is at most `20/3`; the value
`20/3` is attained, and then `h = 20/3` too.  (The run recorded in `examples/hello_world.ipynb` printed `eta = 6.666666667638714`, `h = 6.6666666636820855`.) -/
theorem C74_answer (hC : C.Lawful) :
    ∃ r h nlp h', runProblem C (helloWorld 0 none 1 10).prog Heap.empty = .ok (r, h) ∧ solveIpopt C r stdParams [] [] h = .ok (nlp, h') ∧
      (∀ σ, nlp.state.Sat σ → nlp.state.value σ "eta" ≤ 20 / 3 ∧ (nlp.state.value σ "eta" = 20 / 3 → nlp.state.value σ "h" = 20 / 3)) ∧
      (∃ σ, nlp.state.Sat σ ∧ nlp.state.value σ "eta" = 20 / 3 ∧ nlp.state.value σ "h" = 20 / 3) ∧
      ¬ ∃ σ, nlp.state.Sat σ ∧ nlp.state.value σ "eta" = 6666666667638714 / 10 ^ 15 ∧ nlp.state.value σ "h" = 66666666636820855 / 10 ^ 16 := by
  obtain ⟨r, h, nlp, h', hr, hn, hiff⟩ := C74_helloWorld hC one_pos (show (0 : ℚ) < 10 by norm_num)
  have hok : ∀ d ∈ decls (helloWorld 0 none 1 10).prog, d.Ok := by
    calls_simp [helloWorld, Build.defFunction]
    simp [decls, defDecl, FnDecl.Ok]
  have hclean : ∀ i ∈ (helloWorld 0 none 1 10).prog, i.Clean {n | n ∈ stdParams} := by
    calls_simp [helloWorld, Build.defFunction]; simp [Instr.Clean, stdParams]
  refine ⟨r, h, nlp, h', hr, hn, fun σ hσ => ?_, ?_, ?_⟩
  · have hg : Guaranteed (helloWorld 0 none 1 10).prog (nlp.state.value σ) := guaranteed_of_feasible hC hclean (by decide) (by decide) hok ⟨r, h, [], [], nlp, h', σ, hr, hn, hσ, rfl⟩
    rw [guaranteed_helloWorld _ _ _ _ one_ne_zero] at hg
    obtain ⟨sm0, h0, -⟩ := solveIpopt_inv hn
    obtain ⟨sm, -, hsign⟩ := C26_iff hC hr hclean stdParams_simple (by simp) (solvable_of_ok hC hr hok h0) hn
    obtain ⟨-, -, -, hs⟩ := (hsign (nlp.state.value σ)).1 ⟨σ, hσ, fun n _ => rfl⟩
    rcases (hs "h" (by simp)).eq_or_lt with hh | hh
    · have := hello_zero (absF_holds zero_le_one) hh.symm hg
      exact ⟨by linarith, fun h => by linarith⟩
    · obtain ⟨h1, h2, h3, h4⟩ := (hiff _ hh).1 ⟨σ, hσ, fun _ _ => rfl⟩
      norm_num at h3
      exact ⟨by linarith, fun h => by linarith⟩
  · obtain ⟨σ, hσ, hv⟩ := (hiff (fun n => if n = "rho" then 0 else 20 / 3) (by simp)).2 ⟨by simp; norm_num, by simp, by simp; norm_num, by simp⟩
    refine ⟨σ, hσ, ?_, ?_⟩
    all_goals rw [hv _ (by decide)]; simp
  · rintro ⟨σ, hσ, h1, h2⟩
    obtain ⟨-, h3, -⟩ := (hiff (nlp.state.value σ) (by rw [h2]; norm_num)).1 ⟨σ, hσ, fun _ _ => rfl⟩
    rw [h1, h2] at h3
    norm_num at h3

end Verif
