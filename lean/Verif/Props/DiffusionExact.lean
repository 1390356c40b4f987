import Verif.Props.DgdExact
import Verif.Props.CircuitsDecentral

/-!
# C85: the diffusion circuit with the textbook step
-/

namespace Verif
open Build
open scoped InnerProductSpace

set_option linter.unusedSimpArgs false

/-- the energy inequality of `diffusion_line3` (`classical_decentral_vi.py` 66-131) is true of every run if the parameters are guaranteed -/
theorem diffusionLine3_of_guaranteed {E : Type} [NormedAddCommGroup E] [InnerProductSpace ℝ E] (mu : ℚ) (L : Option ℚ) (R Cap : ℚ) (hR0 : R ≠ 0)
    {p : Name → ℝ} (hc : Guaranteed (diffusionLine3 mu L R Cap).prog p)
    (f1 : CFun E) (f2 : CFun E) (f3 : CFun E) (hf_f1 : (defDecl mu L).Holds f1) (hf_f2 : (defDecl mu L).Holds f2) (hf_f3 : (defDecl mu L).Holds f3)
    {x1_star x2_star x3_star y1_star y2_star y3_star e1_star e2_star e3_star x1_1 y1_1 x2_1 y2_1 x3_1 y3_1 e1_1 e2_1 e3_1 x1_2 y1_2 x2_2 y2_2 x3_2 y3_2 e1_2 e2_2 e3_2 : E} {f1_star f2_star f3_star f1_1 f2_1 f3_1 f1_2 f2_2 f3_2 E_1 E_2 Delta_1 : ℝ}
    (h1 : f1.Sample x1_star y1_star f1_star)
    (h2 : f2.Sample x2_star y2_star f2_star)
    (h3 : f3.Sample x3_star y3_star f3_star)
    (h4 : e1_star = x1_star - (R : ℝ) • y1_star)
    (h5 : e2_star = x2_star - (R : ℝ) • y2_star)
    (h6 : e3_star = x3_star - (R : ℝ) • y3_star)
    (q7 : y2_star = (3 * (R : ℝ))⁻¹ • (e1_star - (2 : ℝ) • e2_star + e3_star))
    (q8 : y1_star = (3 * (R : ℝ))⁻¹ • (e2_star - e1_star))
    (q9 : y3_star = (3 * (R : ℝ))⁻¹ • (e2_star - e3_star))
    (h10 : f1.Sample x1_1 y1_1 f1_1)
    (h11 : f2.Sample x2_1 y2_1 f2_1)
    (h12 : f3.Sample x3_1 y3_1 f3_1)
    (h13 : e1_1 = x1_1 - (R : ℝ) • y1_1)
    (h14 : e2_1 = x2_1 - (R : ℝ) • y2_1)
    (h15 : e3_1 = x3_1 - (R : ℝ) • y3_1)
    (h16 : x1_2 = x1_1 - (p "h" / Cap) • (y1_1 + (1 / (3 * (R : ℝ))) • (x1_1 - (R : ℝ) • y1_1 - (x2_1 - (R : ℝ) • y2_1))))
    (h17 : f1.Sample x1_2 y1_2 f1_2)
    (h18 : x2_2 = x2_1 - (p "h" / Cap) • (y2_1 + (1 / (3 * (R : ℝ))) •
      ((2 : ℝ) • (x2_1 - (R : ℝ) • y2_1) - (x1_1 - (R : ℝ) • y1_1) - (x3_1 - (R : ℝ) • y3_1))))
    (h19 : f2.Sample x2_2 y2_2 f2_2)
    (h20 : x3_2 = x3_1 - (p "h" / Cap) • (y3_1 + (1 / (3 * (R : ℝ))) • (x3_1 - (R : ℝ) • y3_1 - (x2_1 - (R : ℝ) • y2_1))))
    (h21 : f3.Sample x3_2 y3_2 f3_2)
    (h22 : e1_2 = x1_2 - (R : ℝ) • y1_2)
    (h23 : e2_2 = x2_2 - (R : ℝ) • y2_2)
    (h24 : e3_2 = x3_2 - (R : ℝ) • y3_2)
    (h25 : E_1 = Cap / 2 * (‖e1_1 - e1_star‖ ^ 2 + ‖e2_1 - e2_star‖ ^ 2 + ‖e3_1 - e3_star‖ ^ 2))
    (h26 : E_2 = Cap / 2 * (‖e1_2 - e1_star‖ ^ 2 + ‖e2_2 - e2_star‖ ^ 2 + ‖e3_2 - e3_star‖ ^ 2))
    (h27 : Delta_1 = p "rho" * (1 / (3 * R)) * (‖e1_1 - e2_1 - (e1_star - e2_star)‖ ^ 2 + ‖e3_1 - e2_1 - (e3_star - e2_star)‖ ^ 2) +
      p "eta" * (invSmooth L - R) * (‖y1_1 - y1_star‖ ^ 2 + ‖y2_1 - y2_star‖ ^ 2 + ‖y3_1 - y3_star‖ ^ 2)) :
    E_2 ≤ E_1 - Delta_1 := by
  calls_simp [diffusionLine3] at hc
  have key := hc.vals (fs := fun k => [f1, f2, f3].getD k f1) (e := 15) (by safe_simp [hR0])
    (instance_of_list (.cons hf_f1 (.cons hf_f2 (.cons hf_f3 .nil))))
    ⟨fun i => [x1_star, x2_star, x3_star, y1_star, y2_star, y3_star, e1_star, e2_star, e3_star, x1_1, y1_1, x2_1, y2_1, x3_1, y3_1, e1_1, e2_1, e3_1, x1_2, y1_2, x2_2, y2_2, x3_2, y3_2, e1_2, e2_2, e3_2].getD i 0,
      fun i => [f1_star, f2_star, f3_star, 0, 0, 0, f1_1, f2_1, f3_1, f1_2, f2_2, f3_2, E_1, E_2, Delta_1, E_2 - (E_1 - Delta_1)].getD i 0, fun i => [Finsupp.single 0 1, Finsupp.single 1 1, Finsupp.single 2 1].getD i 0⟩
    ⟨rfl,
      rfl,
      rfl,
      trivial,
      trivial,
      trivial,
      smp h1,
      smp h2,
      smp h3,
      by simpa [Instr.Meets, Instr.next] using h4,
      by simpa [Instr.Meets, Instr.next] using h5,
      by simpa [Instr.Meets, Instr.next] using h6,
      meets_zero (by simpa using q7),
      trivial,
      meets_zero (by simpa using q8),
      trivial,
      meets_zero (by simpa using q9),
      trivial,
      trivial,
      smp h10,
      trivial,
      smp h11,
      trivial,
      smp h12,
      by simpa [Instr.Meets, Instr.next] using h13,
      by simpa [Instr.Meets, Instr.next] using h14,
      by simpa [Instr.Meets, Instr.next] using h15,
      by simpa [Instr.Meets, Instr.next] using h16,
      smp h17,
      by simpa [Instr.Meets, Instr.next] using h18,
      smp h19,
      by simpa [Instr.Meets, Instr.next] using h20,
      smp h21,
      by simpa [Instr.Meets, Instr.next] using h22,
      by simpa [Instr.Meets, Instr.next] using h23,
      by simpa [Instr.Meets, Instr.next] using h24,
      by simpa [Instr.Meets, Instr.next] using h25,
      by simpa [Instr.Meets, Instr.next] using h26,
      by simpa [Instr.Meets, Instr.next] using h27,
      rfl,
      trivial,
      trivial⟩
    (by simp [consVals]) rfl
  simp only [List.getD_cons_succ, List.getD_cons_zero] at key
  linarith

section
variable {E : Type} [NormedAddCommGroup E] [InnerProductSpace ℝ E]

/-- averaging with the mixing matrix of the line: the decrease of the energy is at least a third of the differences along the edges -/
theorem mixing_line3 (d1 d2 d3 : E) :
    ‖d1 - (3 : ℝ)⁻¹ • (d1 - d2)‖ ^ 2 + ‖d2 - (3 : ℝ)⁻¹ • ((2 : ℝ) • d2 - d1 - d3)‖ ^ 2 + ‖d3 - (3 : ℝ)⁻¹ • (d3 - d2)‖ ^ 2
      ≤ ‖d1‖ ^ 2 + ‖d2‖ ^ 2 + ‖d3‖ ^ 2 - 1 / 3 * (‖d1 - d2‖ ^ 2 + ‖d3 - d2‖ ^ 2) := by
  have h := sq_nonneg ‖d1 - d3‖
  have c1 := real_inner_comm d1 d2
  have c2 := real_inner_comm d1 d3
  have c3 := real_inner_comm d2 d3
  simp only [← real_inner_self_eq_norm_sq, inner_sub_left, inner_sub_right, inner_smul_left, inner_smul_right, RCLike.conj_to_real] at h ⊢
  linarith

/-- a gradient step from a point does not increase the distance if `R ≤ 2 / L` -/
theorem step_le {L R : ℝ} (hL : 0 < L) (hR : 0 < R) (hb : L * R ≤ 2) {w g : E} (hc : ‖g‖ ^ 2 / L ≤ ⟪g, w⟫_ℝ) : ‖w - R • g‖ ^ 2 ≤ ‖w‖ ^ 2 := by
  rw [div_le_iff₀ hL] at hc
  rw [norm_sub_sq_real, inner_smul_right, norm_smul, mul_pow, Real.norm_eq_abs, sq_abs, real_inner_comm]
  have h0 : 0 ≤ ⟪g, w⟫_ℝ := nonneg_of_mul_nonneg_left (le_trans (sq_nonneg _) hc) hL
  have : R ^ 2 * ‖g‖ ^ 2 ≤ 2 * (R * ⟪g, w⟫_ℝ) :=
    calc R ^ 2 * ‖g‖ ^ 2 ≤ R ^ 2 * (⟪g, w⟫_ℝ * L) := mul_le_mul_of_nonneg_left hc (sq_nonneg _)
      _ = R * ⟪g, w⟫_ℝ * (L * R) := by ring
      _ ≤ R * ⟪g, w⟫_ℝ * 2 := mul_le_mul_of_nonneg_left hb (by positivity)
      _ = _ := by ring
  linarith
end

/-- the textbook diffusion step `h = Capacitance R` -/
theorem diffusionLine3_unit {mu L R Cap : ℚ} (hmu : 0 ≤ mu) (hL : mu < L) (hR : 0 < R) (hCap : 0 < Cap) (hb : L * R ≤ 2) {p : Name → ℝ} (hh : p "h" = Cap * R)
    (hr : p "rho" ≤ Cap * R / 2) (he : p "eta" * (1 / L - R) ≤ 0) : Guaranteed (diffusionLine3 mu (some L) R Cap).prog p := by
  calls_simp [diffusionLine3]
  refine guaranteed_of_vals (e := 15) (by safe_simp [hR.ne']) rfl ?_
  intro E _ _ fs hi V hm hcons
  obtain ⟨f0, f1, f2, -, -, -, m1, m2, m3, e1, e2, e3, q2, -, q1, -, q3, -, -, m4, -, m5, -, m6, e4, e5, e6, n1, m7, n2, m8, n3, m9, e7, e8, e9, E1, E2, D1, M, -, -⟩ := hm
  simp only [Instr.Meets, Instr.next, Instr.nextDecl, Nat.reduceAdd, zero_add] at f0 f1 f2 m1 m2 m3 e1 e2 e3 q1 q2 q3 m4 m5 m6 e4 e5 e6 n1 m7 n2 m8 n3 m9 e7 e8 e9 E1 E2 D1 M
  have c1 : V.ex 3 = 0 := hcons _ (by simp [consVals])
  have c2 : V.ex 4 = 0 := hcons _ (by simp [consVals])
  have c3 : V.ex 5 = 0 := hcons _ (by simp [consVals])
  rw [f0] at m1 m4 m7
  rw [f1] at m2 m5 m8
  rw [f2] at m3 m6 m9
  have hL0 : 0 < L := lt_of_le_of_lt hmu hL
  have hC' : (0 : ℝ) < Cap := by exact_mod_cast hCap
  have hR' : (0 : ℝ) < R := by exact_mod_cast hR
  have hL' : (0 : ℝ) < L := by exact_mod_cast hL0
  have hb' : (L : ℝ) * R ≤ 2 := by exact_mod_cast hb
  have hF : ∀ k < 3, (defDecl mu (some L)).Holds (fs k) := by
    intro k hk
    apply hi k
    interval_cases k <;> simp [decls]
  rw [q2] at c1
  rw [q1] at c2
  rw [q3] at c3
  simp [sub_eq_zero] at c1 c2 c3
  simp at e1 e2 e3 e4 e5 e6 e7 e8 e9
  simp [pH, hh] at n1 n2 n3
  have k1 := cocoercive hL0 (smooth_mono hmu (hF 0 (by norm_num))) (sample_of_single m7) (sample_of_single m1)
  have k2 := cocoercive hL0 (smooth_mono hmu (hF 1 (by norm_num))) (sample_of_single m8) (sample_of_single m2)
  have k3 := cocoercive hL0 (smooth_mono hmu (hF 2 (by norm_num))) (sample_of_single m9) (sample_of_single m3)
  have s1 : (Cap : ℝ) * R / Cap = R := by field_simp
  have s2 : (R : ℝ) * ((R : ℝ)⁻¹ * 3⁻¹) = 3⁻¹ := by field_simp
  rw [s1, smul_smul, s2, ← e4, ← e5] at n1
  rw [s1, smul_smul, s2, ← e4, ← e5, ← e6] at n2
  rw [s1, smul_smul, s2, ← e6, ← e5] at n3
  have x1 : V.pt 0 = V.pt 6 + (3 : ℝ)⁻¹ • (V.pt 7 - V.pt 6) := by rw [← s2, ← smul_smul, c2, e1]; abel
  have x3 : V.pt 2 = V.pt 8 + (3 : ℝ)⁻¹ • (V.pt 7 - V.pt 8) := by rw [← s2, ← smul_smul, c3, e3]; abel
  have x2 : V.pt 1 = V.pt 7 + (3 : ℝ)⁻¹ • (V.pt 6 - (2 : ℝ) • V.pt 7 + V.pt 8) := by rw [← s2, ← smul_smul, smul_add ((R : ℝ)⁻¹ * 3⁻¹), c1, e2]; abel
  have w1 : V.pt 18 - V.pt 0 = (V.pt 15 - V.pt 6) - (3 : ℝ)⁻¹ • ((V.pt 15 - V.pt 6) - (V.pt 16 - V.pt 7)) := by
    rw [n1, x1, show V.pt 9 = V.pt 15 + (R : ℝ) • V.pt 10 by rw [e4]; abel]; module
  have w2 : V.pt 20 - V.pt 1 = (V.pt 16 - V.pt 7) - (3 : ℝ)⁻¹ • ((2 : ℝ) • (V.pt 16 - V.pt 7) - (V.pt 15 - V.pt 6) - (V.pt 17 - V.pt 8)) := by
    rw [n2, x2, show V.pt 11 = V.pt 16 + (R : ℝ) • V.pt 12 by rw [e5]; abel]; module
  have w3 : V.pt 22 - V.pt 2 = (V.pt 17 - V.pt 8) - (3 : ℝ)⁻¹ • ((V.pt 17 - V.pt 8) - (V.pt 16 - V.pt 7)) := by
    rw [n3, x3, show V.pt 13 = V.pt 17 + (R : ℝ) • V.pt 14 by rw [e6]; abel]; module
  have z1 : V.pt 24 - V.pt 6 = (V.pt 18 - V.pt 0) - (R : ℝ) • (V.pt 19 - V.pt 3) := by rw [e7, e1, smul_sub]; abel
  have z2 : V.pt 25 - V.pt 7 = (V.pt 20 - V.pt 1) - (R : ℝ) • (V.pt 21 - V.pt 4) := by rw [e8, e2, smul_sub]; abel
  have z3 : V.pt 26 - V.pt 8 = (V.pt 22 - V.pt 2) - (R : ℝ) • (V.pt 23 - V.pt 5) := by rw [e9, e3, smul_sub]; abel
  have b1 := step_le hL' hR' hb' k1
  have b2 := step_le hL' hR' hb' k2
  have b3 := step_le hL' hR' hb' k3
  rw [← z1, w1] at b1
  rw [← z2, w2] at b2
  rw [← z3, w3] at b3
  have key := mixing_line3 (V.pt 15 - V.pt 6) (V.pt 16 - V.pt 7) (V.pt 17 - V.pt 8)
  rw [M]
  simp only [EE.val_sub', EE.val_reg', E1, E2, D1]
  simp [pRho, pEta, invSmooth]
  rw [sub_sub_sub_comm (V.pt 15), sub_sub_sub_comm (V.pt 17)]
  obtain ⟨S, hS⟩ : ∃ S, S = ‖V.pt 15 - V.pt 6 - (V.pt 16 - V.pt 7)‖ ^ 2 + ‖V.pt 17 - V.pt 8 - (V.pt 16 - V.pt 7)‖ ^ 2 := ⟨_, rfl⟩
  have hS0 : 0 ≤ S := by rw [hS]; positivity
  rw [← hS] at key ⊢
  have t1 := mul_le_mul_of_nonneg_left ((add_le_add (add_le_add b1 b2) b3).trans key) (by positivity : (0 : ℝ) ≤ Cap / 2)
  have t2 : p "rho" * ((R : ℝ)⁻¹ * 3⁻¹) * S ≤ Cap / 2 * (1 / 3 * S) := by
    calc p "rho" * ((R : ℝ)⁻¹ * 3⁻¹) * S ≤ Cap * R / 2 * ((R : ℝ)⁻¹ * 3⁻¹) * S := by gcongr
      _ = _ := by field_simp
  have t3 : p "eta" * ((L : ℝ)⁻¹ - R) * (‖V.pt 10 - V.pt 3‖ ^ 2 + ‖V.pt 12 - V.pt 4‖ ^ 2 + ‖V.pt 14 - V.pt 5‖ ^ 2) ≤ 0 :=
    mul_nonpos_of_nonpos_of_nonneg (by simpa using he) (by positivity)
  linarith

/-- equal quadratics with curvature near `L` and equal nodes bound the weight `eta` -/
theorem diffusionLine3_eta {mu L R Cap : ℚ} (hmu : 0 ≤ mu) (hL : mu < L) (hR : 0 < R) (hCap : 0 < Cap) (hLR : L * R < 1) {p : Name → ℝ} (hg : Guaranteed (diffusionLine3 mu (some L) R Cap).prog p) :
    p "eta" ≤ (1 - L * R) * (p "h" - L * p "h" ^ 2 / (2 * Cap)) := by
  have hC' : (0 : ℝ) < Cap := by exact_mod_cast hCap
  have hL' : (0 : ℝ) < L := by exact_mod_cast lt_of_le_of_lt hmu hL
  have hmL : (mu : ℝ) < L := by exact_mod_cast hL
  have hLR' : (0 : ℝ) < 1 - L * R := by
    have : (L : ℝ) * R < 1 := by exact_mod_cast hLR
    linarith
  obtain ⟨F, hF⟩ : ∃ F : ℝ → ℝ, F = fun c => Cap / 2 * (1 - R * c) ^ 2 - Cap / 2 * ((1 - R * c) * (1 - p "h" / Cap * c)) ^ 2 - p "eta" * (1 / L - R) * c ^ 2 := ⟨_, rfl⟩
  have hcl : IsClosed {c | 0 ≤ F c} := isClosed_le continuous_const (by rw [hF]; fun_prop)
  have hsub : Set.Ioo (mu : ℝ) L ⊆ {c | 0 ≤ F c} := by
    rintro c ⟨hc1, hc2⟩
    have hc : Inside mu (some L) c := ⟨hc1, by simpa using hc2⟩
    have hc0 : 0 < c := lt_of_le_of_lt (by exact_mod_cast hmu) hc1
    have hq := quadF_holds hmu hc 0
    obtain ⟨m, hm⟩ : ∃ m, m = 1 - p "h" / Cap * c := ⟨_, rfl⟩
    have key := diffusionLine3_of_guaranteed mu (some L) R Cap hR.ne' hg (quadF c 0) (quadF c 0) (quadF c 0) hq hq hq
      (x1_star := 0) (x2_star := 0) (x3_star := 0) (y1_star := 0) (y2_star := 0) (y3_star := 0) (x1_1 := 1) (x2_1 := 1) (x3_1 := 1) (y1_1 := c * 1) (y2_1 := c * 1) (y3_1 := c * 1)
      (x1_2 := m) (x2_2 := m) (x3_2 := m) (y1_2 := c * m) (y2_2 := c * m) (y3_2 := c * m)
      (quadF_smp0 hc0) (quadF_smp0 hc0) (quadF_smp0 hc0) rfl rfl rfl (by simp) (by simp) (by simp) (quadF_smp hc0 _) (quadF_smp hc0 _) (quadF_smp hc0 _) rfl rfl rfl
      (by rw [hm]; simp) (quadF_smp hc0 _) (by rw [hm]; simp only [smul_eq_mul]; ring) (quadF_smp hc0 _) (by rw [hm]; simp) (quadF_smp hc0 _) rfl rfl rfl rfl rfl rfl
    simp only [sub_zero, smul_zero, smul_eq_mul, Real.norm_eq_abs, sq_abs, mul_one, sub_self, abs_zero, invSmooth] at key
    rw [show m - R * (c * m) = (1 - R * c) * (1 - p "h" / Cap * c) by rw [hm]; ring] at key
    change 0 ≤ F c
    rw [hF]
    change 0 ≤ Cap / 2 * (1 - R * c) ^ 2 - Cap / 2 * ((1 - R * c) * (1 - p "h" / Cap * c)) ^ 2 - p "eta" * (1 / L - R) * c ^ 2
    push_cast at key
    linarith
  have h0 : 0 ≤ F L := closure_minimal hsub hcl (by rw [closure_Ioo hmL.ne]; exact ⟨hmL.le, le_rfl⟩)
  have e : F L = (1 - L * R) * L * ((1 - L * R) * (p "h" - L * p "h" ^ 2 / (2 * Cap)) - p "eta") := by
    rw [hF]
    field_simp
    ring
  rw [e] at h0
  have := nonneg_of_mul_nonneg_right h0 (by positivity)
  linarith

/-- functions that vanish and the mode `(1, -2, 1)` bound the weight `rho` -/
theorem diffusionLine3_rho {L R Cap : ℚ} (hL : 0 < L) (hR : 0 < R) (hCap : 0 < Cap) {p : Name → ℝ} (hg : Guaranteed (diffusionLine3 0 (some L) R Cap).prog p) :
    p "rho" ≤ p "h" - p "h" ^ 2 / (2 * Cap * R) := by
  have hR' : (0 : ℝ) < R := by exact_mod_cast hR
  have hC' : (0 : ℝ) < Cap := by exact_mod_cast hCap
  have hF : (defDecl 0 (some L)).Holds (linFun 0) := linFun_holds 0 (defDecl_ok le_rfl hL)
  have hf : ∀ x, (linFun 0).Sample x 0 0 := fun x => by simpa using linFun_sample 0 x
  obtain ⟨m, hm⟩ : ∃ m, m = 1 - p "h" / Cap * (1 / R) := ⟨_, rfl⟩
  have key := diffusionLine3_of_guaranteed 0 (some L) R Cap hR.ne' hg (linFun 0) (linFun 0) (linFun 0) hF hF hF
    (x1_star := 0) (x2_star := 0) (x3_star := 0) (y1_star := 0) (y2_star := 0) (y3_star := 0) (x1_1 := 1) (x2_1 := -2) (x3_1 := 1) (y1_1 := 0) (y2_1 := 0) (y3_1 := 0)
    (x1_2 := m) (x2_2 := -2 * m) (x3_2 := m) (y1_2 := 0) (y2_2 := 0) (y3_2 := 0)
    (hf _) (hf _) (hf _) rfl rfl rfl (by simp) (by simp) (by simp) (hf _) (hf _) (hf _) rfl rfl rfl
    (by rw [hm]; simp; field_simp; norm_num) (hf _) (by rw [hm]; simp; field_simp; ring) (hf _) (by rw [hm]; simp; field_simp; norm_num) (hf _) rfl rfl rfl rfl rfl rfl
  simp only [sub_zero, smul_zero, Real.norm_eq_abs, sq_abs, sub_self, abs_zero] at key
  have e : p "rho" * (1 / (3 * R)) * ((1 - -2) ^ 2 + (1 - -2) ^ 2) = 6 * (p "rho" / R) := by field_simp; ring
  have e2 : (Cap : ℝ) / 2 * (m ^ 2 + (-2 * m) ^ 2 + m ^ 2) = 3 * Cap - 6 * ((p "h" - p "h" ^ 2 / (2 * Cap * R)) / R) := by rw [hm]; field_simp; ring
  rw [e, e2] at key
  have : p "rho" / R ≤ (p "h" - p "h" ^ 2 / (2 * Cap * R)) / R := by linarith
  exact (div_le_div_iff_of_pos_right hR').1 this

theorem worst_diffusionLine3 {mu L R Cap : ℚ} (hmu : 0 ≤ mu) (hL : mu < L) {res : Dict Name ℝ} {P : PepProblem} (hP : (Circuit.diffusionLine3 mu (some L) R Cap).verify res = .ok P) :
    P.worstCase = 0 ↔ Guaranteed (diffusionLine3 mu (some L) R Cap).prog P.value := by
  have hok := defDecl_ok hmu hL
  rcases C73_worst_case hP (by
    change ∀ d ∈ decls (diffusionLine3 mu (some L) R Cap).prog, d.Ok
    calls_simp [diffusionLine3]
    simp [decls, hok]) with ⟨h1, h2⟩ | ⟨h1, h2⟩
  · exact ⟨fun _ => h2, fun _ => h1⟩
  · exact ⟨fun h0 => absurd (h0.symm.trans h1) (by decide), fun h => (h2 h).elim⟩

/-- **C85** for `diffusion_line3` (`classical_decentral_vi.py` 66-131) in verification mode, for all class parameters, resistances, capacities and dictionaries: the textbook diffusion step
`h = Capacitance R` is accepted for `R ≤ 2 / L`, `rho ≤ Capacitance R / 2` and `eta (1 / L - R) ≤ 0`.  For `R < 1 / L` every accepted dictionary has `eta ≤ (1 - L R) (h - L h² / (2 Capacitance))`. -/
theorem C85_diffusionLine3 {mu L R Cap : ℚ} (hmu : 0 ≤ mu) (hL : mu < L) (hR : 0 < R) (hCap : 0 < Cap) {res : Dict Name ℝ} {P : PepProblem}
    (hP : (Circuit.diffusionLine3 mu (some L) R Cap).verify res = .ok P) :
    (L * R ≤ 2 → P.value "h" = Cap * R → P.value "rho" ≤ Cap * R / 2 → P.value "eta" * (1 / L - R) ≤ 0 → P.worstCase = 0) ∧
      (L * R < 1 → P.worstCase = 0 → P.value "eta" ≤ (1 - L * R) * (P.value "h" - L * P.value "h" ^ 2 / (2 * Cap))) := by
  rw [worst_diffusionLine3 hmu hL hP]
  exact ⟨fun h1 h2 h3 h4 => diffusionLine3_unit hmu hL hR hCap h1 h2 h3 h4, fun h1 h2 => diffusionLine3_eta hmu hL hR hCap h1 h2⟩

/-- **C85.** With convex functions (`mu = 0`) every accepted dictionary has `rho ≤ h - h² / (2 Capacitance R)`, so `rho ≤ Capacitance R / 2`, the value of the textbook step.  For
`1 / L ≤ R ≤ 2 / L` the textbook step with any `eta ≥ 0` is accepted exactly if `rho ≤ Capacitance R / 2`. -/
theorem C85_diffusionLine3_best {L R Cap : ℚ} (hL : 0 < L) (hR : 0 < R) (hCap : 0 < Cap) {res : Dict Name ℝ} {P : PepProblem}
    (hP : (Circuit.diffusionLine3 0 (some L) R Cap).verify res = .ok P) :
    (P.worstCase = 0 → P.value "rho" ≤ P.value "h" - P.value "h" ^ 2 / (2 * Cap * R) ∧ P.value "rho" ≤ Cap * R / 2) ∧
      (1 ≤ L * R → L * R ≤ 2 → P.value "h" = Cap * R → 0 ≤ P.value "eta" → (P.worstCase = 0 ↔ P.value "rho" ≤ Cap * R / 2)) := by
  have hR' : (0 : ℝ) < R := by exact_mod_cast hR
  have hC' : (0 : ℝ) < Cap := by exact_mod_cast hCap
  have hL' : (0 : ℝ) < L := by exact_mod_cast hL
  have h1 : P.worstCase = 0 → P.value "rho" ≤ P.value "h" - P.value "h" ^ 2 / (2 * Cap * R) ∧ P.value "rho" ≤ Cap * R / 2 := by
    intro h0
    have := diffusionLine3_rho hL hR hCap ((worst_diffusionLine3 le_rfl hL hP).1 h0)
    refine ⟨this, this.trans ?_⟩
    rw [sub_le_iff_le_add, ← sub_le_iff_le_add', le_div_iff₀ (by positivity)]
    nlinarith [sq_nonneg (P.value "h" - Cap * R)]
  refine ⟨h1, fun ha hb hh he => ⟨fun h0 => (h1 h0).2, fun hr => (C85_diffusionLine3 le_rfl hL hR hCap hP).1 hb hh hr (mul_nonpos_of_nonneg_of_nonpos he (sub_nonpos.2 ?_))⟩⟩
  have : (1 : ℝ) ≤ L * R := by exact_mod_cast ha
  rw [div_le_iff₀ hL']
  linarith

/-- **C85.** The bound on `eta` holds at every feasible point of the nonlinear program of `solve_ipopt` -/
theorem C85_diffusionLine3_feasible {C : CAS} (hC : C.Lawful) {mu L R Cap : ℚ} (hmu : 0 ≤ mu) (hL : mu < L) (hR : 0 < R) (hCap : 0 < Cap) (hLR : L * R < 1) {p : Name → ℝ}
    (hp : IpoptFeasible C (diffusionLine3 mu (some L) R Cap).prog stdParams p) : p "eta" ≤ (1 - L * R) * (p "h" - L * p "h" ^ 2 / (2 * Cap)) :=
  diffusionLine3_eta hmu hL hR hCap hLR (guaranteed_of_feasible hC (by calls_simp [diffusionLine3]; simp [Instr.Clean, stdParams])
    (by decide) (by decide) (by
      calls_simp [diffusionLine3]
      simp [decls, defDecl_ok hmu hL]) hp)

/-- a feasible point for `mu = R = 1 / 2`, `L = Capacitance = 1` -/
example : ∃ p, IpoptFeasible refCAS (diffusionLine3 (1/2) (some 1) (1/2) 1).prog stdParams p ∧ p "eta" ≤ 1 / 2 * (p "h" - p "h" ^ 2 / 2) := by
  obtain ⟨p, hp, -⟩ := C34_diffusionLine3_feasible
  refine ⟨p, hp, (C85_diffusionLine3_feasible refCAS_lawful (by norm_num) (by norm_num) (by norm_num) (by norm_num) (by norm_num) hp).trans_eq ?_⟩
  norm_num

/-- a dictionary that is accepted, with a large `eta`: `L = R = Capacitance = 1` -/
example : ∃ P, (Circuit.diffusionLine3 0 (some 1) 1 1).verify [("h", 1), ("alpha", 0), ("beta", 0), ("eta", 1000), ("rho", 1 / 2)] = .ok P ∧ P.worstCase = 0 := by
  obtain ⟨⟨r, h⟩, hr⟩ := (C04_errors refCAS_lawful (Circuit.diffusionLine3 0 (some 1) 1 1).prog Heap.empty).2
    (by change SafeProg (diffusionLine3 0 (some 1) 1 1).prog _ = true; calls_simp [diffusionLine3]; safe_simp [])
  obtain ⟨P, hP, -, hv⟩ := C73_builds (c := .diffusionLine3 0 (some 1) 1 1) (params := [("h", 1), ("alpha", 0), ("beta", 0), ("eta", 1000), ("rho", 1 / 2)]) hr (by simp [Circuit.IsDual])
    (by simp [Circuit.keys, Dict.get?])
  simp [Circuit.keys, Dict.get?] at hv
  refine ⟨P, hP, ((C85_diffusionLine3_best one_pos one_pos one_pos hP).2 (by norm_num) (by norm_num) (by rw [← hv.1]; norm_num) (by rw [← hv.2.2.2.1]; norm_num)).2 ?_⟩
  rw [← hv.2.2.2.2]
  norm_num

end Verif
