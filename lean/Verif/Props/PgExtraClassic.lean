import Verif.Props.CompleteDual
import Verif.Props.CompleteCircuits
import Verif.Proofs.SlaterQuad
import Verif.Props.CircuitsDecentral
import Verif.Props.Verification
import Verif.Props.CircuitCertsDec
import Verif.Proofs.Converge

/-!
# C86: the circuit of PG-EXTRA accepts the classical method
-/

namespace Verif
open Build
open scoped InnerProductSpace

set_option linter.unusedSimpArgs false

section
variable {E : Type} [NormedAddCommGroup E] [InnerProductSpace ℝ E]

/-- the change of the energy of one inductor, `c = 1 / (4 R)` -/
theorem pg_inductor {c a : ℝ} (hc : 0 < c) (ha : 0 < a) (I U : E) :
    1 / (8 * c * a) * ‖I + (2 * c * a) • U‖ ^ 2 - 1 / (8 * c * a) * ‖I‖ ^ 2 = 1 / 2 * ⟪I, U⟫_ℝ + c * a / 2 * ‖U‖ ^ 2 := by
  rw [norm_add_sq_real, inner_smul_right, norm_smul, mul_pow, Real.norm_eq_abs, sq_abs]
  field_simp
  ring

/-- the Laplacian terms of one edge -/
theorem pg_edge {c a : ℝ} (hc : 0 < c) (ha : 0 < a) (x y p q : E) :
    c * a / 2 * ‖p - q‖ ^ 2 - c * a * ⟪p - q, x - y⟫_ℝ ≤ c * a * (‖p - x‖ ^ 2 + ‖q - y‖ ^ 2) := by
  have h1 : ‖(p - q) - (x - y)‖ ^ 2 = ‖p - q‖ ^ 2 - 2 * ⟪p - q, x - y⟫_ℝ + ‖x - y‖ ^ 2 := norm_sub_sq_real _ _
  have h2 := parallelogram_law_with_norm ℝ (p - x) (q - y)
  rw [show p - x - (q - y) = (p - q) - (x - y) by abel] at h2
  have h3 : 0 ≤ c * a / 2 * (2 * (‖p - x‖ ^ 2 + ‖q - y‖ ^ 2) - (‖p - q‖ ^ 2 - 2 * ⟪p - q, x - y⟫_ℝ)) := by
    apply mul_nonneg (by positivity)
    nlinarith [sq_nonneg ‖p - x + (q - y)‖, sq_nonneg ‖x - y‖]
  linarith

/-- one node: the step, the resistor and the smooth function -/
theorem pg_node {c w k : ℝ} (hc : 0 < c) (hw : 0 < w) {x p g f J l : E} (hJ : J = (4 * c) • (x - p) - (2 * c) • l - (g + f))
    (hk : ‖g‖ ^ 2 ≤ 16 * c * w * k * ⟪g, x⟫_ℝ) :
    c * ‖p‖ ^ 2 - c * ‖x‖ ^ 2 + 1 / 2 * ⟪J, p⟫_ℝ + c * ⟪l, p⟫_ℝ + c * (1 - w) * ‖p - x‖ ^ 2 ≤ - (1 / 2 * ⟪f, p⟫_ℝ) - (1 / 2 - k) * ⟪g, x⟫_ℝ := by
  have h1 : ⟪J, p⟫_ℝ = 4 * c * (⟪x, p⟫_ℝ - ‖p‖ ^ 2) - 2 * c * ⟪l, p⟫_ℝ - (⟪g, p⟫_ℝ + ⟪f, p⟫_ℝ) := by
    rw [hJ, inner_sub_left, inner_sub_left, inner_add_left, real_inner_smul_left, real_inner_smul_left, inner_sub_left, real_inner_self_eq_norm_sq]
  have h2 : ‖p - x‖ ^ 2 = ‖p‖ ^ 2 - 2 * ⟪x, p⟫_ℝ + ‖x‖ ^ 2 := by rw [norm_sub_sq_real, real_inner_comm]
  have h3 : ⟪g, p⟫_ℝ = ⟪g, x⟫_ℝ + ⟪g, p - x⟫_ℝ := by rw [inner_sub_right]; ring
  have h4 : 0 ≤ ‖(4 * c * w) • (p - x) + g‖ ^ 2 := sq_nonneg _
  rw [norm_add_sq_real, real_inner_smul_left, norm_smul, mul_pow, Real.norm_eq_abs, sq_abs, real_inner_comm] at h4
  have h5 : - (1 / 2 * ⟪g, p - x⟫_ℝ) ≤ c * w * ‖p - x‖ ^ 2 + k * ⟪g, x⟫_ℝ := by
    have : 0 ≤ (16 * c * w) * (c * w * ‖p - x‖ ^ 2 + k * ⟪g, x⟫_ℝ + 1 / 2 * ⟪g, p - x⟫_ℝ) := by nlinarith
    have := nonneg_of_mul_nonneg_right this (by positivity : 0 < 16 * c * w)
    linarith
  rw [h1, h3]
  have h6 : c * ‖p - x‖ ^ 2 = c * (‖p‖ ^ 2 - 2 * ⟪x, p⟫_ℝ + ‖x‖ ^ 2) := by rw [h2]
  linarith

/-- one iteration of PG-EXTRA on the line with three nodes, measured from a solution: `c = 1 / (4 R)`, edge weights `a`, `b` and `w = 1 - a - b` -/
theorem pg_contract {c a b k : ℝ} (hc : 0 < c) (ha : 0 < a) (hb : 0 < b) (hab : a + b < 1) {x1 x2 x3 p1 p2 p3 g1 g2 g3 f1 f2 f3 I J : E}
    (h1 : I = (4 * c) • (x1 - p1) - (2 * c) • (a • (x1 - x2)) - (g1 + f1))
    (h2 : J - I = (4 * c) • (x2 - p2) - (2 * c) • (a • (x2 - x1) + b • (x2 - x3)) - (g2 + f2))
    (h3 : -J = (4 * c) • (x3 - p3) - (2 * c) • (b • (x3 - x2)) - (g3 + f3))
    (k1 : ‖g1‖ ^ 2 ≤ 16 * c * (1 - a - b) * k * ⟪g1, x1⟫_ℝ) (k2 : ‖g2‖ ^ 2 ≤ 16 * c * (1 - a - b) * k * ⟪g2, x2⟫_ℝ)
    (k3 : ‖g3‖ ^ 2 ≤ 16 * c * (1 - a - b) * k * ⟪g3, x3⟫_ℝ) :
    c * (‖p1‖ ^ 2 + ‖p2‖ ^ 2 + ‖p3‖ ^ 2) + 1 / (8 * c * a) * ‖I + (2 * c * a) • (p1 - p2)‖ ^ 2 + 1 / (8 * c * b) * ‖J + (2 * c * b) • (p2 - p3)‖ ^ 2 ≤
      c * (‖x1‖ ^ 2 + ‖x2‖ ^ 2 + ‖x3‖ ^ 2) + 1 / (8 * c * a) * ‖I‖ ^ 2 + 1 / (8 * c * b) * ‖J‖ ^ 2
        - (1 / 2 * (⟪f1, p1⟫_ℝ + ⟪f2, p2⟫_ℝ + ⟪f3, p3⟫_ℝ) + (1 / 2 - k) * (⟪g1, x1⟫_ℝ + ⟪g2, x2⟫_ℝ + ⟪g3, x3⟫_ℝ)) := by
  have hw : 0 < 1 - a - b := by linarith
  have n1 := pg_node hc hw h1 k1
  have n2 := pg_node hc hw h2 k2
  have n3 := pg_node hc hw h3 k3
  have i1 := pg_inductor hc ha I (p1 - p2)
  have i2 := pg_inductor hc hb J (p2 - p3)
  have e1 := pg_edge hc ha x1 x2 p1 p2
  have e2 := pg_edge hc hb x2 x3 p2 p3
  have s1 : ⟪I, p1⟫_ℝ + ⟪J - I, p2⟫_ℝ + ⟪-J, p3⟫_ℝ = ⟪I, p1 - p2⟫_ℝ + ⟪J, p2 - p3⟫_ℝ := by
    simp only [inner_sub_left, inner_sub_right, inner_neg_left]; ring
  have s2 : c * (⟪a • (x1 - x2), p1⟫_ℝ + ⟪a • (x2 - x1) + b • (x2 - x3), p2⟫_ℝ + ⟪b • (x3 - x2), p3⟫_ℝ) = c * a * ⟪p1 - p2, x1 - x2⟫_ℝ + c * b * ⟪p2 - p3, x2 - x3⟫_ℝ := by
    simp only [inner_add_left, real_inner_smul_left, inner_sub_left, inner_sub_right]
    rw [real_inner_comm x1 p1, real_inner_comm x2 p1, real_inner_comm x1 p2, real_inner_comm x2 p2, real_inner_comm x3 p2, real_inner_comm x2 p3, real_inner_comm x3 p3]
    ring
  have r1 : 0 ≤ c * b * ‖p1 - x1‖ ^ 2 := by positivity
  have r3 : 0 ≤ c * a * ‖p3 - x3‖ ^ 2 := by positivity
  linarith

end

/-- the classical step `h = 1 / 2` with `gamma = 1 / (4 R)` -/
theorem pgExtraLine3_half {mu Lh R : ℚ} {Lf : Option ℚ} {W : ℕ → ℕ → ℚ} (hmu : 0 ≤ mu) (hLh : mu < Lh) (hR : 0 < R) (hsym : ∀ i < 3, ∀ j < 3, W i j = W j i)
    (hrow : ∀ i < 3, W i 0 + W i 1 + W i 2 = 1) (h02 : W 0 2 = 0) (ha : 0 < W 0 1) (hb : 0 < W 1 2) (hw : 0 < W 1 1) {p : Name → ℝ} (hh : p "h" = 1 / 2)
    (hg : p "gamma" = 1 / (4 * R)) (he : p "eta" ≤ 1 / 2) (hr : p "rho" ≤ 1 / 2 - R * Lh / (4 * W 1 1)) : Guaranteed (pgExtraLine3 mu (some Lh) Lf R W).prog p := by
  calls_simp [pgExtraLine3]
  refine guaranteed_of_vals (e := 20) (by safe_simp [hR.ne', ha.ne', hb.ne']) rfl ?_
  intro E _ _ fs hi V hm hcons
  obtain ⟨f0, f1, f2, f3, f4, f5, f6, st, m0, m1, m2, m3, m4, m5, i1, i2, q, -, -, -, -, -, -, -, a1, a2, a3, -, -, e1, e2, e3, p1, p2, p3, j1, j2, j3, j4, E1, E2, D, M, -, -⟩ := hm
  simp only [Instr.Meets, Instr.next, Instr.nextDecl, Nat.reduceAdd, zero_add] at f0 f1 f2 f3 f4 f5 st m0 m1 m2 m3 m4 m5 i1 i2 q a1 a2 a3 e1 e2 e3 p1 p2 p3 j1 j2 j3 j4 E1 E2 D M
  have c1 : V.ex 7 = 0 := hcons _ (by simp [consVals])
  obtain ⟨p1, o1⟩ := p1
  obtain ⟨p2, o2⟩ := p2
  obtain ⟨p3, o3⟩ := p3
  rw [f0] at m0 p1
  rw [f1] at m1 p2
  rw [f2] at m2 p3
  rw [f3] at m3 a1
  rw [f4] at m4 a2
  rw [f5] at m5 a3
  have hL0 : 0 < Lh := lt_of_le_of_lt hmu hLh
  have hL' : (0 : ℝ) < Lh := by exact_mod_cast hL0
  have hR' : (0 : ℝ) < R := by exact_mod_cast hR
  have hF : ∀ k < 6, 3 ≤ k → (defDecl mu (some Lh)).Holds (fs k) := by
    intro k hk hk'
    apply hi k
    interval_cases k <;> simp [decls]
  have w00 : W 0 0 = 1 - W 0 1 := by have := hrow 0 (by norm_num); linarith
  have w10 : W 1 0 = W 0 1 := hsym 1 (by norm_num) 0 (by norm_num)
  have w11 : W 1 1 = 1 - W 0 1 - W 1 2 := by have := hrow 1 (by norm_num); linarith
  have w20 : W 2 0 = 0 := (hsym 2 (by norm_num) 0 (by norm_num)).trans h02
  have w21 : W 2 1 = W 1 2 := hsym 2 (by norm_num) 1 (by norm_num)
  have w22 : W 2 2 = 1 - W 1 2 := by have := hrow 2 (by norm_num); linarith
  obtain ⟨a, hA⟩ : ∃ a : ℝ, a = W 0 1 := ⟨_, rfl⟩
  obtain ⟨b, hB⟩ : ∃ b : ℝ, b = W 1 2 := ⟨_, rfl⟩
  have ha' : 0 < a := by rw [hA]; exact_mod_cast ha
  have hb' : 0 < b := by rw [hB]; exact_mod_cast hb
  have hw' : 0 < 1 - a - b := by rw [hA, hB]; rw [w11] at hw; exact_mod_cast hw
  rw [q] at c1
  simp [st.2, sub_eq_zero] at c1
  simp [w00, w10, w11, w20, w21, w22, h02, ← hA, ← hB] at i1 i2 e1 e2 e3 o1 o2 o3
  simp [pH, hh, ← hA, ← hB] at j1 j2 j3 j4
  have k1 := cocoercive hL0 (smooth_mono hmu (hF 3 (by norm_num) (by norm_num))) (sample_of_single a1) (sample_of_single m3)
  have k2 := cocoercive hL0 (smooth_mono hmu (hF 4 (by norm_num) (by norm_num))) (sample_of_single a2) (sample_of_single m4)
  have k3 := cocoercive hL0 (smooth_mono hmu (hF 5 (by norm_num) (by norm_num))) (sample_of_single a3) (sample_of_single m5)
  have t1 := sample_mono_nonneg (sample_of_single p1) (sample_of_single m0)
  have t2 := sample_mono_nonneg (sample_of_single p2) (sample_of_single m1)
  have t3 := sample_mono_nonneg (sample_of_single p3) (sample_of_single m2)
  rw [real_inner_comm] at t1 t2 t3
  rw [w11] at hr
  push_cast at hr
  rw [← hA, ← hB] at hr
  rw [div_le_iff₀ hL'] at k1 k2 k3
  obtain ⟨c, hcR⟩ : ∃ c : ℝ, c = (R : ℝ)⁻¹ / 4 := ⟨_, rfl⟩
  have hc : 0 < c := by rw [hcR]; positivity
  have hRc : (R : ℝ) * (4 * c) = 1 := by rw [hcR]; field_simp
  have solve : ∀ z y : E, (R : ℝ) • z = y → z = (4 * c) • y := fun z y h => by rw [← h, smul_smul, mul_comm, hRc, one_smul]
  have d1 : V.pt 19 = (4 * c) • ((1 - a) • V.pt 10 + a • V.pt 11 - V.pt 24) - V.pt 25 - V.pt 16 := by
    rw [← solve (V.pt 19 + V.pt 25 + V.pt 16) _ (by rw [eq_sub_of_add_eq o1, e1]; module)]; abel
  have d2 : V.pt 20 - V.pt 19 = (4 * c) • (a • V.pt 10 + (1 - a - b) • V.pt 11 + b • V.pt 12 - V.pt 26) - V.pt 27 - V.pt 17 := by
    rw [← solve (V.pt 20 - V.pt 19 + V.pt 27 + V.pt 17) _ (by rw [eq_sub_of_add_eq o2, e2]; module)]; abel
  have d3 : -V.pt 20 = (4 * c) • (b • V.pt 11 + (1 - b) • V.pt 12 - V.pt 28) - V.pt 29 - V.pt 18 := by
    rw [← solve (-V.pt 20 + V.pt 29 + V.pt 18) _ (by rw [eq_sub_of_add_eq o3, e3]; module)]; abel
  have ca : (2 : ℝ)⁻¹ / ((R : ℝ) / a) = 2 * c * a := by rw [hcR]; field_simp; norm_num
  have cb : (2 : ℝ)⁻¹ / ((R : ℝ) / b) = 2 * c * b := by rw [hcR]; field_simp; norm_num
  rw [ca] at j1 j3
  rw [cb] at j2 j4
  have y3 : V.pt 3 + V.pt 6 = -V.pt 2 - V.pt 5 - V.pt 4 - V.pt 7 := by
    rw [← sub_eq_zero, ← c1]; abel
  have h1 : V.pt 30 - V.pt 8 = (4 * c) • ((V.pt 10 - V.pt 0) - (V.pt 24 - V.pt 0)) - (2 * c) • (a • ((V.pt 10 - V.pt 0) - (V.pt 11 - V.pt 0)))
      - ((V.pt 16 - V.pt 5) + (V.pt 25 - V.pt 2)) := by
    rw [j1, i1, d1]; module
  have h3 : -(V.pt 31 - V.pt 9) = (4 * c) • ((V.pt 12 - V.pt 0) - (V.pt 28 - V.pt 0)) - (2 * c) • (b • ((V.pt 12 - V.pt 0) - (V.pt 11 - V.pt 0)))
      - ((V.pt 18 - V.pt 7) + (V.pt 29 - V.pt 4)) := by
    rw [j2, i2, neg_eq_iff_eq_neg.1 d3]; module
  have h2 : (V.pt 31 - V.pt 9) - (V.pt 30 - V.pt 8) = (4 * c) • ((V.pt 11 - V.pt 0) - (V.pt 26 - V.pt 0))
      - (2 * c) • (a • ((V.pt 11 - V.pt 0) - (V.pt 10 - V.pt 0)) + b • ((V.pt 11 - V.pt 0) - (V.pt 12 - V.pt 0))) - ((V.pt 17 - V.pt 6) + (V.pt 27 - V.pt 3)) := by
    have : (V.pt 31 - V.pt 9) - (V.pt 30 - V.pt 8) = (V.pt 20 - V.pt 19) + (2 * c * b) • (V.pt 11 - V.pt 12) - (2 * c * a) • (V.pt 10 - V.pt 11) + (V.pt 3 + V.pt 6) := by
      rw [j1, j2, i1, i2, y3]; abel
    rw [this, d2]; module
  have hk : 16 * c * (1 - a - b) * (R * Lh / (4 * (1 - a - b))) = Lh := by rw [hcR]; field_simp; norm_num
  have key := pg_contract (k := R * Lh / (4 * (1 - a - b))) hc ha' hb' (by linarith) h1 h2 h3 (by rw [hk]; linarith) (by rw [hk]; linarith) (by rw [hk]; linarith)
  have z1 : V.pt 32 - V.pt 8 = V.pt 30 - V.pt 8 + (2 * c * a) • ((V.pt 24 - V.pt 0) - (V.pt 26 - V.pt 0)) := by rw [j3]; module
  have z2 : V.pt 33 - V.pt 9 = V.pt 31 - V.pt 9 + (2 * c * b) • ((V.pt 26 - V.pt 0) - (V.pt 28 - V.pt 0)) := by rw [j4]; module
  rw [← z1, ← z2] at key
  have ga : (R : ℝ) / a / 2 = 1 / (8 * c * a) := by rw [hcR]; field_simp; norm_num
  have gb : (R : ℝ) / b / 2 = 1 / (8 * c * b) := by rw [hcR]; field_simp; norm_num
  have gg : p "gamma" = c := by rw [hg, hcR]; field_simp
  have g1 : 0 ≤ ⟪V.pt 16 - V.pt 5, V.pt 10 - V.pt 0⟫_ℝ := nonneg_of_mul_nonneg_left (le_trans (sq_nonneg _) k1) hL'
  have g2 : 0 ≤ ⟪V.pt 17 - V.pt 6, V.pt 11 - V.pt 0⟫_ℝ := nonneg_of_mul_nonneg_left (le_trans (sq_nonneg _) k2) hL'
  have g3 : 0 ≤ ⟪V.pt 18 - V.pt 7, V.pt 12 - V.pt 0⟫_ℝ := nonneg_of_mul_nonneg_left (le_trans (sq_nonneg _) k3) hL'
  have u1 := mul_le_mul_of_nonneg_right he (add_nonneg (add_nonneg t1 t2) t3)
  have u2 := mul_le_mul_of_nonneg_right hr (add_nonneg (add_nonneg g1 g2) g3)
  rw [M]
  simp only [EE.val_sub', EE.val_reg', E1, E2, D]
  simp [pRho, pEta, pGamma, ← hA, ← hB]
  rw [ga, gb, gg]
  linarith

section
variable {E : Type} [NormedAddCommGroup E] [InnerProductSpace ℝ E]

/-- the energy inequality of `pg_extra_l3` (`classical_decentral_vi.py` 134-216) is true of every run if the parameters are guaranteed -/
theorem pgExtraLine3_of_guaranteed (mu : ℚ) (Lh Lf : Option ℚ) (R : ℚ) (W : ℕ → ℕ → ℚ)
    {p : Name → ℝ} (hc : Guaranteed (pgExtraLine3 mu Lh Lf R W).prog p)
    (f1 : CFun E) (f2 : CFun E) (f3 : CFun E) (k1 : CFun E) (k2 : CFun E) (k3 : CFun E) (hf_f1 : (defDecl mu Lf).Holds f1) (hf_f2 : (defDecl mu Lf).Holds f2) (hf_f3 : (defDecl mu Lf).Holds f3) (hf_k1 : (defDecl mu Lh).Holds k1) (hf_k2 : (defDecl mu Lh).Holds k2) (hf_k3 : (defDecl mu Lh).Holds k3)
    {x_star y_f1_star y_f2_star y_f3_star y_k1_star y_k2_star y_k3_star i_L_12_star i_L_23_star x1_1 x2_1 x3_1 y_f1_1 y_f2_1 y_f3_1 y_k1_1 y_k2_1 y_k3_1 i_L_12_1 i_L_23_1 e1_1 e2_1 e3_1 x1_2 y_f1_2 x2_2 y_f2_2 x3_2 y_f3_2 i_L_12_2 i_L_23_2 i_L_12_3 i_L_23_3 : E} {v_f1_star v_f2_star v_f3_star v_k1_star v_k2_star v_k3_star v_f1_1 v_f2_1 v_f3_1 v_k1_1 v_k2_1 v_k3_1 v_f1_2 v_f2_2 v_f3_2 E_1 E_2 Delta_2 : ℝ}
    (h1 : f1.Sample x_star y_f1_star v_f1_star)
    (h2 : f2.Sample x_star y_f2_star v_f2_star)
    (h3 : f3.Sample x_star y_f3_star v_f3_star)
    (h4 : k1.Sample x_star y_k1_star v_k1_star)
    (h5 : k2.Sample x_star y_k2_star v_k2_star)
    (h6 : k3.Sample x_star y_k3_star v_k3_star)
    (h7 : y_f1_star + y_f2_star + y_f3_star + y_k1_star + y_k2_star + y_k3_star = 0)
    (h8 : i_L_12_star = -y_f1_star - y_k1_star)
    (h9 : i_L_23_star = y_f3_star + y_k3_star)
    (h10 : f1.Sample x1_1 y_f1_1 v_f1_1)
    (h11 : f2.Sample x2_1 y_f2_1 v_f2_1)
    (h12 : f3.Sample x3_1 y_f3_1 v_f3_1)
    (h13 : k1.Sample x1_1 y_k1_1 v_k1_1)
    (h14 : k2.Sample x2_1 y_k2_1 v_k2_1)
    (h15 : k3.Sample x3_1 y_k3_1 v_k3_1)
    (h16 : e1_1 = (W 0 0 : ℝ) • x1_1 + (W 0 1 : ℝ) • x2_1 + (W 0 2 : ℝ) • x3_1 - (R : ℝ) • y_k1_1 - (R : ℝ) • i_L_12_1)
    (h17 : e2_1 = (W 1 0 : ℝ) • x1_1 + (W 1 1 : ℝ) • x2_1 + (W 1 2 : ℝ) • x3_1 - (R : ℝ) • y_k2_1 + (R : ℝ) • i_L_12_1 - (R : ℝ) • i_L_23_1)
    (h18 : e3_1 = (W 2 0 : ℝ) • x1_1 + (W 2 1 : ℝ) • x2_1 + (W 2 2 : ℝ) • x3_1 - (R : ℝ) • y_k3_1 + (R : ℝ) • i_L_23_1)
    (h19 : f1.Prox R (e1_1) x1_2 y_f1_2 v_f1_2)
    (h20 : f2.Prox R (e2_1) x2_2 y_f2_2 v_f2_2)
    (h21 : f3.Prox R (e3_1) x3_2 y_f3_2 v_f3_2)
    (h22 : i_L_12_2 = i_L_12_1 + (p "h" / (R / W 0 1)) • (x1_1 - x2_1))
    (h23 : i_L_23_2 = i_L_23_1 + (p "h" / (R / W 1 2)) • (x2_1 - x3_1))
    (h24 : i_L_12_3 = i_L_12_2 + (p "h" / (R / W 0 1)) • (x1_2 - x2_2))
    (h25 : i_L_23_3 = i_L_23_2 + (p "h" / (R / W 1 2)) • (x2_2 - x3_2))
    (h26 : E_1 = p "gamma" * (‖x1_1 - x_star‖ ^ 2 + ‖x2_1 - x_star‖ ^ 2 + ‖x3_1 - x_star‖ ^ 2) +
      R / W 0 1 / 2 * ‖i_L_12_2 - i_L_12_star‖ ^ 2 + R / W 1 2 / 2 * ‖i_L_23_2 - i_L_23_star‖ ^ 2)
    (h27 : E_2 = p "gamma" * (‖x1_2 - x_star‖ ^ 2 + ‖x2_2 - x_star‖ ^ 2 + ‖x3_2 - x_star‖ ^ 2) +
      R / W 0 1 / 2 * ‖i_L_12_3 - i_L_12_star‖ ^ 2 + R / W 1 2 / 2 * ‖i_L_23_3 - i_L_23_star‖ ^ 2)
    (h28 : Delta_2 = p "eta" * (⟪y_f1_2 - y_f1_star, x1_2 - x_star⟫_ℝ + ⟪y_f2_2 - y_f2_star, x2_2 - x_star⟫_ℝ + ⟪y_f3_2 - y_f3_star, x3_2 - x_star⟫_ℝ) +
      p "rho" * (⟪y_k1_1 - y_k1_star, x1_1 - x_star⟫_ℝ + ⟪y_k2_1 - y_k2_star, x2_1 - x_star⟫_ℝ + ⟪y_k3_1 - y_k3_star, x3_1 - x_star⟫_ℝ)) :
    E_2 ≤ E_1 - Delta_2 := by
  calls_simp [pgExtraLine3] at hc
  have key := hc.vals (fs := fun k => [f1, f2, f3, k1, k2, k3].getD k f1) (e := 20) (by safe_simp [])
    (instance_of_list (.cons hf_f1 (.cons hf_f2 (.cons hf_f3 (.cons hf_k1 (.cons hf_k2 (.cons hf_k3 .nil)))))))
    ⟨fun i => [x_star, 0, y_f1_star, y_f2_star, y_f3_star, y_k1_star, y_k2_star, y_k3_star, i_L_12_star, i_L_23_star, x1_1, x2_1, x3_1, y_f1_1, y_f2_1, y_f3_1, y_k1_1, y_k2_1, y_k3_1, i_L_12_1, i_L_23_1, e1_1, e2_1, e3_1, x1_2, y_f1_2, x2_2, y_f2_2, x3_2, y_f3_2, i_L_12_2, i_L_23_2, i_L_12_3, i_L_23_3].getD i 0,
      fun i => [v_f1_star + v_f2_star + v_f3_star + v_k1_star + v_k2_star + v_k3_star, v_f1_star, v_f2_star, v_f3_star, v_k1_star, v_k2_star, v_k3_star, 0, v_f1_1, v_f2_1, v_f3_1, v_k1_1, v_k2_1, v_k3_1, v_f1_2, v_f2_2, v_f3_2, E_1, E_2, Delta_2, E_2 - (E_1 - Delta_2)].getD i 0, fun i => [Finsupp.single 0 1, Finsupp.single 1 1, Finsupp.single 2 1, Finsupp.single 3 1, Finsupp.single 4 1, Finsupp.single 5 1, Finsupp.single 0 1 + Finsupp.single 1 1 + Finsupp.single 2 1 + Finsupp.single 3 1 + Finsupp.single 4 1 + Finsupp.single 5 1].getD i 0⟩
    ⟨rfl,
      rfl,
      rfl,
      rfl,
      rfl,
      rfl,
      rfl,
      ⟨((((((smp (SR := fun k => ([f1, f2, f3, k1, k2, k3].getD k f1).Sample) (k := 0) h1).addSingle (k := 1) h2 (by simp)).addSingle (k := 2) h3 (by simp)).addSingle (k := 3) h4 (by simp)).addSingle (k := 4) h5 (by simp)).addSingle (k := 5) h6 (by simp)).zero h7, rfl⟩,
      smp h1,
      smp h2,
      smp h3,
      smp h4,
      smp h5,
      smp h6,
      by simpa [Instr.Meets, Instr.next] using h8,
      by simpa [Instr.Meets, Instr.next] using h9,
      by simp [Instr.Meets, Instr.next, h7],
      trivial,
      trivial,
      trivial,
      trivial,
      smp h10,
      smp h11,
      smp h12,
      smp h13,
      smp h14,
      smp h15,
      trivial,
      trivial,
      by simpa [Instr.Meets, Instr.next] using h16,
      by simpa [Instr.Meets, Instr.next] using h17,
      by simpa [Instr.Meets, Instr.next] using h18,
      ⟨smp h19.1, by simpa [Instr.next] using h19.2⟩,
      ⟨smp h20.1, by simpa [Instr.next] using h20.2⟩,
      ⟨smp h21.1, by simpa [Instr.next] using h21.2⟩,
      by simpa [Instr.Meets, Instr.next] using h22,
      by simpa [Instr.Meets, Instr.next] using h23,
      by simpa [Instr.Meets, Instr.next] using h24,
      by simpa [Instr.Meets, Instr.next] using h25,
      by simpa [Instr.Meets, Instr.next] using h26,
      by simpa [Instr.Meets, Instr.next] using h27,
      by simpa [Instr.Meets, Instr.next] using h28,
      rfl,
      trivial,
      trivial⟩
    (by simp [consVals]) rfl
  simp only [List.getD_cons_succ, List.getD_cons_zero] at key
  linarith

end

/-- equal quadratics with small curvature and equal nodes bound the weight `eta` -/
theorem pgExtraLine3_eta {R : ℚ} {Lh Lf : Option ℚ} {W : ℕ → ℕ → ℚ} (hLh : (defDecl 0 Lh).Ok) (hLf : ∀ l, Lf = some l → 0 < l) (hR : 0 < R)
    (hrow : ∀ i < 3, W i 0 + W i 1 + W i 2 = 1) {p : Name → ℝ} (hg : Guaranteed (pgExtraLine3 0 Lh Lf R W).prog p) : p "eta" ≤ 2 * R * p "gamma" := by
  have hR' : (0 : ℝ) < R := by exact_mod_cast hR
  have hrow' : ∀ i < 3, (W i 0 : ℝ) + W i 1 + W i 2 = 1 := fun i hi => by exact_mod_cast hrow i hi
  obtain ⟨u, hu0, hu⟩ : ∃ u : ℝ, 0 < u ∧ ∀ c, 0 < c → c < u → Inside 0 Lf c := by
    cases Lf with
    | none => exact ⟨1, one_pos, fun c h _ => ⟨by simpa using h, by simp⟩⟩
    | some l => exact ⟨l, by exact_mod_cast hLf l rfl, fun c h h' => ⟨by simpa using h, by rintro l' ⟨⟩; exact h'⟩⟩
  have hZ : (defDecl 0 Lh).Holds (linFun 0) := linFun_holds 0 hLh
  have hz : ∀ x, (linFun 0).Sample x 0 0 := fun x => by simpa using linFun_sample 0 x
  have hcl : IsClosed {c : ℝ | p "eta" ≤ p "gamma" * (2 * R + R ^ 2 * c)} := isClosed_le continuous_const (by fun_prop)
  have hsub : Set.Ioo (0 : ℝ) u ⊆ {c : ℝ | p "eta" ≤ p "gamma" * (2 * R + R ^ 2 * c)} := by
    rintro c ⟨hc0, hc1⟩
    have hq := quadF_holds le_rfl (hu c hc0 hc1) 0
    obtain ⟨m, hm⟩ : ∃ m, m = (1 + R * c)⁻¹ := ⟨_, rfl⟩
    have hm1 : m + R * (c * m) = 1 := by rw [hm]; field_simp
    have hm0 : 0 < m := by rw [hm]; positivity
    have key := pgExtraLine3_of_guaranteed (E := ℝ) 0 Lh Lf R W hg (quadF c 0) (quadF c 0) (quadF c 0) (linFun 0) (linFun 0) (linFun 0) hq hq hq hZ hZ hZ
      (x_star := 0) (y_f1_star := 0) (y_f2_star := 0) (y_f3_star := 0) (y_k1_star := 0) (y_k2_star := 0) (y_k3_star := 0) (i_L_12_star := 0) (i_L_23_star := 0)
      (x1_1 := 1) (x2_1 := 1) (x3_1 := 1) (y_f1_1 := c * 1) (y_f2_1 := c * 1) (y_f3_1 := c * 1) (y_k1_1 := 0) (y_k2_1 := 0) (y_k3_1 := 0) (i_L_12_1 := 0) (i_L_23_1 := 0)
      (e1_1 := 1) (e2_1 := 1) (e3_1 := 1) (x1_2 := m) (y_f1_2 := c * m) (x2_2 := m) (y_f2_2 := c * m) (x3_2 := m) (y_f3_2 := c * m)
      (i_L_12_2 := 0) (i_L_23_2 := 0) (i_L_12_3 := 0) (i_L_23_3 := 0)
      (quadF_smp0 hc0) (quadF_smp0 hc0) (quadF_smp0 hc0) (hz _) (hz _) (hz _) (by simp) (by simp) (by simp)
      (quadF_smp hc0 _) (quadF_smp hc0 _) (quadF_smp hc0 _) (hz _) (hz _) (hz _)
      (by simp [hrow' 0]) (by simp [hrow' 1]) (by simp [hrow' 2]) ⟨quadF_smp hc0 _, by simpa using hm1⟩ ⟨quadF_smp hc0 _, by simpa using hm1⟩ ⟨quadF_smp hc0 _, by simpa using hm1⟩
      (by simp) (by simp) (by simp) (by simp) rfl rfl rfl
    simp only [sub_zero, RCLike.inner_apply, conj_trivial, star_trivial, Real.norm_eq_abs, sq_abs, abs_zero, mul_zero, zero_mul, inner_zero_left, add_zero, one_pow, ne_eq, OfNat.ofNat_ne_zero, not_false_eq_true, zero_pow] at key
    change p "eta" ≤ p "gamma" * (2 * R + R ^ 2 * c)
    have h2 : (c * m ^ 2) * (p "gamma" * (2 * R + R ^ 2 * c) - p "eta") = p "gamma" * (1 - m ^ 2) - p "eta" * (c * m ^ 2) := by
      rw [show 1 - m ^ 2 = (m + R * (c * m)) ^ 2 - m ^ 2 by rw [hm1]; ring]; ring
    have h3 : 0 ≤ (c * m ^ 2) * (p "gamma" * (2 * R + R ^ 2 * c) - p "eta") := by rw [h2]; linarith
    linarith [nonneg_of_mul_nonneg_right h3 (by positivity)]
  have h0 := closure_minimal hsub hcl (by rw [closure_Ioo hu0.ne]; exact ⟨le_rfl, hu0.le⟩ : (0 : ℝ) ∈ closure (Set.Ioo (0 : ℝ) u))
  have h0 : p "eta" ≤ p "gamma" * (2 * R + R ^ 2 * 0) := h0
  linarith

/-- equal quadratics with curvature near the smoothness constant and equal nodes bound the weight `rho` -/
theorem pgExtraLine3_rho {R Lh : ℚ} {Lf : Option ℚ} {W : ℕ → ℕ → ℚ} (hLh : 0 < Lh) (hLf : (defDecl 0 Lf).Ok)
    (hrow : ∀ i < 3, W i 0 + W i 1 + W i 2 = 1) {p : Name → ℝ} (hg : Guaranteed (pgExtraLine3 0 (some Lh) Lf R W).prog p) : p "rho" ≤ R * (2 - R * Lh) * p "gamma" := by
  have hL' : (0 : ℝ) < Lh := by exact_mod_cast hLh
  have hrow' : ∀ i < 3, (W i 0 : ℝ) + W i 1 + W i 2 = 1 := fun i hi => by exact_mod_cast hrow i hi
  have hZ : (defDecl 0 Lf).Holds (linFun 0) := linFun_holds 0 hLf
  have hz : ∀ x, (linFun 0).Sample x 0 0 := fun x => by simpa using linFun_sample 0 x
  have hcl : IsClosed {c : ℝ | p "rho" ≤ p "gamma" * (2 * R - R ^ 2 * c)} := isClosed_le continuous_const (by fun_prop)
  have hsub : Set.Ioo (0 : ℝ) Lh ⊆ {c : ℝ | p "rho" ≤ p "gamma" * (2 * R - R ^ 2 * c)} := by
    rintro c ⟨hc0, hc1⟩
    have hq := quadF_holds (mu := 0) (L := some Lh) (c := c) le_rfl ⟨by simpa using hc0, by rintro l' ⟨⟩; exact hc1⟩ 0
    obtain ⟨m, hm⟩ : ∃ m : ℝ, m = 1 - R * (c * 1) := ⟨_, rfl⟩
    have key := pgExtraLine3_of_guaranteed (E := ℝ) 0 (some Lh) Lf R W hg (linFun 0) (linFun 0) (linFun 0) (quadF c 0) (quadF c 0) (quadF c 0) hZ hZ hZ hq hq hq
      (x_star := 0) (y_f1_star := 0) (y_f2_star := 0) (y_f3_star := 0) (y_k1_star := 0) (y_k2_star := 0) (y_k3_star := 0) (i_L_12_star := 0) (i_L_23_star := 0)
      (x1_1 := 1) (x2_1 := 1) (x3_1 := 1) (y_f1_1 := 0) (y_f2_1 := 0) (y_f3_1 := 0) (y_k1_1 := c * 1) (y_k2_1 := c * 1) (y_k3_1 := c * 1) (i_L_12_1 := 0) (i_L_23_1 := 0)
      (e1_1 := m) (e2_1 := m) (e3_1 := m) (x1_2 := m) (y_f1_2 := 0) (x2_2 := m) (y_f2_2 := 0) (x3_2 := m) (y_f3_2 := 0)
      (i_L_12_2 := 0) (i_L_23_2 := 0) (i_L_12_3 := 0) (i_L_23_3 := 0)
      (hz _) (hz _) (hz _) (quadF_smp0 hc0) (quadF_smp0 hc0) (quadF_smp0 hc0) (by simp) (by simp) (by simp)
      (hz _) (hz _) (hz _) (quadF_smp hc0 _) (quadF_smp hc0 _) (quadF_smp hc0 _)
      (by simp [hrow' 0, hm]) (by simp [hrow' 1, hm]) (by simp [hrow' 2, hm]) ⟨hz _, by simp⟩ ⟨hz _, by simp⟩ ⟨hz _, by simp⟩
      (by simp) (by simp) (by simp) (by simp) rfl rfl rfl
    simp only [sub_zero, RCLike.inner_apply, conj_trivial, star_trivial, Real.norm_eq_abs, sq_abs, abs_zero, mul_zero, zero_mul, inner_zero_left, add_zero, one_pow, ne_eq, OfNat.ofNat_ne_zero, not_false_eq_true, zero_pow] at key
    change p "rho" ≤ p "gamma" * (2 * R - R ^ 2 * c)
    have h2 : c * (p "gamma" * (2 * R - R ^ 2 * c) - p "rho") = p "gamma" * (1 - m ^ 2) - p "rho" * c := by rw [hm]; ring
    have h3 : 0 ≤ c * (p "gamma" * (2 * R - R ^ 2 * c) - p "rho") := by rw [h2]; linarith
    linarith [nonneg_of_mul_nonneg_right h3 hc0]
  have h0 := closure_minimal hsub hcl (by rw [closure_Ioo hL'.ne]; exact ⟨hL'.le, le_rfl⟩ : (Lh : ℝ) ∈ closure (Set.Ioo (0 : ℝ) Lh))
  have h0 : p "rho" ≤ p "gamma" * (2 * R - R ^ 2 * Lh) := h0
  linarith

/-- the class of `define_function` is well formed, with or without a smoothness constant -/
theorem pg_ok {mu : ℚ} {L : Option ℚ} (hmu : 0 ≤ mu) (hL : ∀ l, L = some l → mu < l) : (defDecl mu L).Ok := by
  cases L with
  | none => by_cases h : mu = 0 <;> simp [defDecl, h, FnDecl.Ok, hmu]
  | some l => exact defDecl_ok hmu (hL l rfl)

theorem worst_pgExtraLine3 {mu Lh R : ℚ} {Lf : Option ℚ} {W : ℕ → ℕ → ℚ} (hmu : 0 ≤ mu) (hLh : mu < Lh) (hLf : ∀ l, Lf = some l → mu < l) {res : Dict Name ℝ} {P : PepProblem}
    (hP : (Circuit.pgExtraLine3 mu (some Lh) Lf R W).verify res = .ok P) : P.worstCase = 0 ↔ Guaranteed (pgExtraLine3 mu (some Lh) Lf R W).prog P.value := by
  have hok := defDecl_ok hmu hLh
  have hok' := pg_ok hmu hLf
  rcases C73_worst_case hP (by
    change ∀ d ∈ decls (pgExtraLine3 mu (some Lh) Lf R W).prog, d.Ok
    calls_simp [pgExtraLine3]
    simp [decls, hok, hok']) with ⟨h1, h2⟩ | ⟨h1, h2⟩
  · exact ⟨fun _ => h2, fun _ => h1⟩
  · exact ⟨fun h0 => absurd (h0.symm.trans h1) (by decide), fun h => (h2 h).elim⟩

/-- **C86** for `pg_extra_l3` (`classical_decentral_vi.py` 134-216) in verification mode.  For all classes of functions, all resistances and all symmetric mixing matrices of the line with rows that
sum to 1, positive weights on the edges and a positive weight `W 1 1`: the classical step `h = 1 / 2` with `gamma = 1 / (4 R)` is accepted for `eta ≤ 1 / 2` and `rho ≤ 1 / 2 - R L_h / (4 W 1 1)`. -/
theorem C86_pgExtraLine3 {mu Lh R : ℚ} {Lf : Option ℚ} {W : ℕ → ℕ → ℚ} (hmu : 0 ≤ mu) (hLh : mu < Lh) (hLf : ∀ l, Lf = some l → mu < l) (hR : 0 < R)
    (hsym : ∀ i < 3, ∀ j < 3, W i j = W j i) (hrow : ∀ i < 3, W i 0 + W i 1 + W i 2 = 1) (h02 : W 0 2 = 0) (ha : 0 < W 0 1) (hb : 0 < W 1 2) (hw : 0 < W 1 1)
    {res : Dict Name ℝ} {P : PepProblem} (hP : (Circuit.pgExtraLine3 mu (some Lh) Lf R W).verify res = .ok P) (hh : P.value "h" = 1 / 2) (hg : P.value "gamma" = 1 / (4 * R))
    (he : P.value "eta" ≤ 1 / 2) (hr : P.value "rho" ≤ 1 / 2 - R * Lh / (4 * W 1 1)) : P.worstCase = 0 :=
  (worst_pgExtraLine3 hmu hLh hLf hP).2 (pgExtraLine3_half hmu hLh hR hsym hrow h02 ha hb hw hh hg he hr)

/-- **C86.** With convex functions (`mu = 0`) and rows of the mixing matrix that sum to 1, every accepted dictionary has `eta ≤ 2 R gamma` and `rho ≤ R (2 - R L_h) gamma`.  So at the classical step
with such a `rho` the dictionary is accepted exactly if `eta ≤ 1 / 2`, and `rho` is within `R L_h (1 / W 1 1 - 1) / 4` of the best. -/
theorem C86_pgExtraLine3_best {Lh R : ℚ} {Lf : Option ℚ} {W : ℕ → ℕ → ℚ} (hLh : 0 < Lh) (hLf : ∀ l, Lf = some l → 0 < l) (hR : 0 < R)
    (hrow : ∀ i < 3, W i 0 + W i 1 + W i 2 = 1) {res : Dict Name ℝ} {P : PepProblem} (hP : (Circuit.pgExtraLine3 0 (some Lh) Lf R W).verify res = .ok P) :
    (P.worstCase = 0 → P.value "eta" ≤ 2 * R * P.value "gamma" ∧ P.value "rho" ≤ R * (2 - R * Lh) * P.value "gamma") ∧
      ((∀ i < 3, ∀ j < 3, W i j = W j i) → W 0 2 = 0 → 0 < W 0 1 → 0 < W 1 2 → 0 < W 1 1 → P.value "h" = 1 / 2 → P.value "gamma" = 1 / (4 * R) →
        P.value "rho" ≤ 1 / 2 - R * Lh / (4 * W 1 1) → (P.worstCase = 0 ↔ P.value "eta" ≤ 1 / 2)) := by
  have h1 : P.worstCase = 0 → P.value "eta" ≤ 2 * R * P.value "gamma" ∧ P.value "rho" ≤ R * (2 - R * Lh) * P.value "gamma" := fun h0 => by
    have hg : Guaranteed (pgExtraLine3 0 (some Lh) Lf R W).prog P.value := (worst_pgExtraLine3 le_rfl hLh hLf hP).1 h0
    exact ⟨pgExtraLine3_eta (defDecl_ok le_rfl hLh) hLf hR hrow hg, pgExtraLine3_rho hLh (pg_ok le_rfl hLf) hrow hg⟩
  refine ⟨h1, fun hsym h02 ha hb hw hh hg hr => ⟨fun h0 => ?_, fun he => C86_pgExtraLine3 le_rfl hLh hLf hR hsym hrow h02 ha hb hw hP hh hg he hr⟩⟩
  refine (h1 h0).1.trans_eq ?_
  have hR' : (R : ℝ) ≠ 0 := by exact_mod_cast hR.ne'
  rw [hg]
  field_simp
  norm_num

/-- **C86.** The bounds on the weights hold at every feasible point of the nonlinear program of `solve_ipopt` -/
theorem C86_pgExtraLine3_feasible {C : CAS} (hC : C.Lawful) {Lh R : ℚ} {Lf : Option ℚ} {W : ℕ → ℕ → ℚ} (hLh : 0 < Lh) (hLf : ∀ l, Lf = some l → 0 < l) (hR : 0 < R)
    (hrow : ∀ i < 3, W i 0 + W i 1 + W i 2 = 1) {p : Name → ℝ} (hp : IpoptFeasible C (pgExtraLine3 0 (some Lh) Lf R W).prog stdParams p) :
    p "eta" ≤ 2 * R * p "gamma" ∧ p "rho" ≤ R * (2 - R * Lh) * p "gamma" := by
  have hg : Guaranteed (pgExtraLine3 0 (some Lh) Lf R W).prog p := guaranteed_of_feasible hC (by calls_simp [pgExtraLine3]; simp [Instr.Clean, stdParams]) (by decide) (by decide) (by
      calls_simp [pgExtraLine3]
      simp [decls, defDecl_ok le_rfl hLh, pg_ok le_rfl hLf]) hp
  exact ⟨pgExtraLine3_eta (defDecl_ok le_rfl hLh) hLf hR hrow hg, pgExtraLine3_rho hLh (pg_ok le_rfl hLf) hrow hg⟩

/-- **C86.** The classical PG-EXTRA iteration that the accepted dictionary stands for, in every real inner product space and for every number of steps: from any start the residuals add up to at
most the energy at the start. -/
theorem C86_pgExtraLine3_run {E : Type} [NormedAddCommGroup E] [InnerProductSpace ℝ E] {mu Lh R : ℚ} {Lf : Option ℚ} {W : ℕ → ℕ → ℚ} (hmu : 0 ≤ mu) (hLh : mu < Lh) (hR : 0 < R)
    (hsym : ∀ i < 3, ∀ j < 3, W i j = W j i) (hrow : ∀ i < 3, W i 0 + W i 1 + W i 2 = 1) (h02 : W 0 2 = 0) (ha : 0 < W 0 1) (hb : 0 < W 1 2) (hw : 0 < W 1 1)
    (f1 f2 f3 k1 k2 k3 : CFun E) (hf1 : (defDecl mu Lf).Holds f1) (hf2 : (defDecl mu Lf).Holds f2) (hf3 : (defDecl mu Lf).Holds f3)
    (hk1 : (defDecl mu (some Lh)).Holds k1) (hk2 : (defDecl mu (some Lh)).Holds k2) (hk3 : (defDecl mu (some Lh)).Holds k3)
    {x_star s1 s2 s3 t1 t2 t3 : E} (hs1 : f1.Sample x_star s1 (f1.f x_star)) (hs2 : f2.Sample x_star s2 (f2.f x_star))
    (hs3 : f3.Sample x_star s3 (f3.f x_star)) (ht1 : k1.Sample x_star t1 (k1.f x_star)) (ht2 : k2.Sample x_star t2 (k2.f x_star))
    (ht3 : k3.Sample x_star t3 (k3.f x_star)) (hopt : s1 + s2 + s3 + t1 + t2 + t3 = 0)
    (x1 x2 x3 y1 y2 y3 w1 w2 w3 i12 i23 : ℕ → E) (hy1 : f1.Sample (x1 0) (y1 0) (f1.f (x1 0))) (hy2 : f2.Sample (x2 0) (y2 0) (f2.f (x2 0)))
    (hy3 : f3.Sample (x3 0) (y3 0) (f3.f (x3 0))) (hw1 : ∀ k, k1.Sample (x1 k) (w1 k) (k1.f (x1 k)))
    (hw2 : ∀ k, k2.Sample (x2 k) (w2 k) (k2.f (x2 k))) (hw3 : ∀ k, k3.Sample (x3 k) (w3 k) (k3.f (x3 k)))
    (hx1 : ∀ k, f1.Prox R ((W 0 0 : ℝ) • x1 k + (W 0 1 : ℝ) • x2 k - (R : ℝ) • w1 k - (R : ℝ) • i12 k) (x1 (k + 1)) (y1 (k + 1)) (f1.f (x1 (k + 1))))
    (hx2 : ∀ k, f2.Prox R ((W 1 0 : ℝ) • x1 k + (W 1 1 : ℝ) • x2 k + (W 1 2 : ℝ) • x3 k - (R : ℝ) • w2 k + (R : ℝ) • i12 k - (R : ℝ) • i23 k)
      (x2 (k + 1)) (y2 (k + 1)) (f2.f (x2 (k + 1))))
    (hx3 : ∀ k, f3.Prox R ((W 2 1 : ℝ) • x2 k + (W 2 2 : ℝ) • x3 k - (R : ℝ) • w3 k + (R : ℝ) • i23 k) (x3 (k + 1)) (y3 (k + 1)) (f3.f (x3 (k + 1))))
    (hi12 : ∀ k, i12 (k + 1) = i12 k + ((W 0 1 : ℝ) / (2 * R)) • (x1 k - x2 k)) (hi23 : ∀ k, i23 (k + 1) = i23 k + ((W 1 2 : ℝ) / (2 * R)) • (x2 k - x3 k)) (n : ℕ) :
    ∑ k ∈ Finset.range n, (1 / 2 * (⟪y1 (k + 1) - s1, x1 (k + 1) - x_star⟫_ℝ + ⟪y2 (k + 1) - s2, x2 (k + 1) - x_star⟫_ℝ + ⟪y3 (k + 1) - s3, x3 (k + 1) - x_star⟫_ℝ) +
        (1 / 2 - R * Lh / (4 * W 1 1)) * (⟪w1 k - t1, x1 k - x_star⟫_ℝ + ⟪w2 k - t2, x2 k - x_star⟫_ℝ + ⟪w3 k - t3, x3 k - x_star⟫_ℝ)) ≤
      1 / (4 * R) * (‖x1 0 - x_star‖ ^ 2 + ‖x2 0 - x_star‖ ^ 2 + ‖x3 0 - x_star‖ ^ 2) + R / (2 * W 0 1) * ‖i12 1 + s1 + t1‖ ^ 2 + R / (2 * W 1 2) * ‖i23 1 - s3 - t3‖ ^ 2 := by
  have hR' : (0 : ℝ) < R := by exact_mod_cast hR
  have hA : (0 : ℝ) < W 0 1 := by exact_mod_cast ha
  have hB : (0 : ℝ) < W 1 2 := by exact_mod_cast hb
  have w20 : W 2 0 = 0 := (hsym 2 (by norm_num) 0 (by norm_num)).trans h02
  obtain ⟨p, p1, p2, p3, p4⟩ : ∃ p : Name → ℝ, p "h" = 1 / 2 ∧ p "gamma" = 1 / (4 * R) ∧ p "eta" = 1 / 2 ∧ p "rho" = 1 / 2 - R * Lh / (4 * W 1 1) :=
    ⟨fun s => if s = "gamma" then 1 / (4 * R) else if s = "rho" then 1 / 2 - R * Lh / (4 * W 1 1) else 1 / 2, by simp, by simp, by simp, by simp⟩
  have hg : Guaranteed (pgExtraLine3 mu (some Lh) Lf R W).prog p := pgExtraLine3_half hmu hLh hR hsym hrow h02 ha hb hw p1 p2 p3.le p4.le
  have hy1' : ∀ k, f1.Sample (x1 k) (y1 k) (f1.f (x1 k)) := fun | 0 => hy1 | k + 1 => (hx1 k).1
  have hy2' : ∀ k, f2.Sample (x2 k) (y2 k) (f2.f (x2 k)) := fun | 0 => hy2 | k + 1 => (hx2 k).1
  have hy3' : ∀ k, f3.Sample (x3 k) (y3 k) (f3.f (x3 k)) := fun | 0 => hy3 | k + 1 => (hx3 k).1
  have q1 : p "h" / ((R : ℝ) / W 0 1) = W 0 1 / (2 * R) := by rw [p1]; field_simp
  have q2 : p "h" / ((R : ℝ) / W 1 2) = W 1 2 / (2 * R) := by rw [p1]; field_simp
  have hs := fun k => pgExtraLine3_of_guaranteed mu (some Lh) Lf R W hg f1 f2 f3 k1 k2 k3 hf1 hf2 hf3 hk1 hk2 hk3 hs1 hs2 hs3 ht1 ht2 ht3 hopt rfl rfl
    (hy1' k) (hy2' k) (hy3' k) (hw1 k) (hw2 k) (hw3 k) (by simp only [h02]; simp) rfl (by simp only [w20]; simp) (hx1 k) (hx2 k) (hx3 k)
    ((hi12 k).trans (by rw [q1])) ((hi23 k).trans (by rw [q2])) ((hi12 (k + 1)).trans (by rw [q1])) ((hi23 (k + 1)).trans (by rw [q2])) rfl rfl rfl
  rw [p2, p3, p4] at hs
  obtain ⟨En, hEn⟩ : ∃ En : ℕ → ℝ, En = fun k => 1 / (4 * (R : ℝ)) * (‖x1 k - x_star‖ ^ 2 + ‖x2 k - x_star‖ ^ 2 + ‖x3 k - x_star‖ ^ 2) +
      R / W 0 1 / 2 * ‖i12 (k + 1) - (-s1 - t1)‖ ^ 2 + R / W 1 2 / 2 * ‖i23 (k + 1) - (s3 + t3)‖ ^ 2 := ⟨_, rfl⟩
  have h0 : ∀ k, 0 ≤ En k := fun k => by rw [hEn]; positivity
  have e0 : En 0 = 1 / (4 * R) * (‖x1 0 - x_star‖ ^ 2 + ‖x2 0 - x_star‖ ^ 2 + ‖x3 0 - x_star‖ ^ 2) + R / (2 * W 0 1) * ‖i12 1 + s1 + t1‖ ^ 2 + R / (2 * W 1 2) * ‖i23 1 - s3 - t3‖ ^ 2 := by
    rw [hEn]
    simp only [zero_add]
    rw [show i12 1 - (-s1 - t1) = i12 1 + s1 + t1 by abel, show i23 1 - (s3 + t3) = i23 1 - s3 - t3 by abel, div_div, div_div, mul_comm (W 0 1 : ℝ), mul_comm (W 1 2 : ℝ)]
  rw [← e0]
  refine le_trans (le_add_of_nonneg_left (h0 n)) ?_
  induction n with
  | zero => simp
  | succ n ih =>
    rw [Finset.sum_range_succ]
    have := hs n
    rw [hEn] at ih ⊢
    simp only at ih ⊢
    linarith

/-- the mixing matrix of `examples/decentralized/pg_extra_line3.ipynb` -/
def notebookW (i j : ℕ) : ℚ := ([[1/3, 2/3, 0], [2/3, 1/6, 1/6], [0, 1/6, 5/6]].getD i []).getD j 0

/-- the numbers of the notebook (`L_smooth_h = 0.1`, `L_smooth_f = 10`, `R = 1`) and the classical step -/
example : ∃ P, (Circuit.pgExtraLine3 0 (some (1/10)) (some 10) 1 notebookW).verify [("h", 1 / 2), ("alpha", 0), ("beta", 0), ("eta", 1 / 2), ("rho", 7 / 20), ("gamma", 1 / 4)] = .ok P ∧ P.worstCase = 0 := by
  obtain ⟨⟨r, h⟩, hr⟩ := (C04_errors refCAS_lawful (Circuit.pgExtraLine3 0 (some (1/10)) (some 10) 1 notebookW).prog Heap.empty).2
    (by change SafeProg (pgExtraLine3 0 (some (1/10)) (some 10) 1 notebookW).prog _ = true; calls_simp [pgExtraLine3]; safe_simp [])
  obtain ⟨P, hP, -, hv⟩ := C73_builds (c := .pgExtraLine3 0 (some (1/10)) (some 10) 1 notebookW)
    (params := [("h", 1 / 2), ("alpha", 0), ("beta", 0), ("eta", 1 / 2), ("rho", 7 / 20), ("gamma", 1 / 4)]) hr (by simp [Circuit.IsDual]) (by simp [Circuit.keys, Dict.get?])
  simp [Circuit.keys, Dict.get?] at hv
  refine ⟨P, hP, C86_pgExtraLine3 le_rfl (by norm_num) (by rintro l ⟨⟩; norm_num) one_pos (by decide +kernel) (by decide +kernel) (by decide +kernel) (by decide +kernel) (by decide +kernel) (by decide +kernel) hP
    (by rw [← hv.1]; norm_num) (by rw [← hv.2.2.2.2.2]; norm_num) (by rw [← hv.2.2.2.1]; norm_num) (by rw [← hv.2.2.2.2.1]; norm_num [notebookW])⟩

/-- a feasible point of the nonlinear program -/
example : ∃ p, IpoptFeasible refCAS (pgExtraLine3 0 (some 1) (some 1) (1/2) (fun i j => ([[3/4,1/4,0],[1/4,1/2,1/4],[0,1/4,3/4]].getD i []).getD j 0)).prog stdParams p ∧
    p "eta" ≤ 1 / 2 ∧ p "rho" ≤ 3 / 8 := by
  obtain ⟨p, hp, -, -, -, -, hg, -, -⟩ := C34_pgExtraLine3_feasible
  have := C86_pgExtraLine3_feasible refCAS_lawful one_pos (by rintro l ⟨⟩; norm_num) (by norm_num) (by decide +kernel) hp
  rw [hg] at this
  norm_num at this
  exact ⟨p, hp, this⟩

/-- a run of the method in `ℝ` with the numbers of the notebook: quadratics with curvature `1 / 20` and the absence of the other functions, from the state `1` with no currents -/
example (n : ℕ) : ∑ k ∈ Finset.range n, 7 / 20 * (3 * (1 / 20 * ((19 / 20 : ℝ) ^ k) ^ 2)) ≤ 3 / 4 := by
  have hZ : (defDecl 0 none).Holds (linFun 0) := linFun_holds 0 (pg_ok le_rfl (by simp))
  have hz : ∀ x, (linFun 0).Sample x 0 ((linFun 0).f x) := fun x => by simpa [linFun] using linFun_sample 0 x
  have hQ : (defDecl 0 (some (1/10))).Holds (quadF (1 / 20) 0) := quadF_holds le_rfl ⟨by norm_num, by rintro l ⟨⟩; norm_num⟩ 0
  have hq : ∀ x : ℝ, (quadF (1 / 20) 0).Sample x (1 / 20 * x) ((quadF (1 / 20) 0).f x) := fun x => quadF_sample (by norm_num) (by ring) rfl
  have h := C86_pgExtraLine3_run (mu := 0) (Lh := 1/10) (R := 1) (Lf := none) (W := notebookW) le_rfl (by norm_num) one_pos (by decide +kernel) (by decide +kernel) (by decide +kernel)
    (by decide +kernel) (by decide +kernel) (by decide +kernel) (linFun 0) (linFun 0) (linFun 0) (quadF (1 / 20) 0) (quadF (1 / 20) 0) (quadF (1 / 20) 0) hZ hZ hZ hQ hQ hQ
    (x_star := 0) (s1 := 0) (s2 := 0) (s3 := 0) (t1 := 1 / 20 * 0) (t2 := 1 / 20 * 0) (t3 := 1 / 20 * 0) (hz _) (hz _) (hz _) (hq _) (hq _) (hq _) (by simp)
    (fun k => (19 / 20) ^ k) (fun k => (19 / 20) ^ k) (fun k => (19 / 20) ^ k) (fun _ => 0) (fun _ => 0) (fun _ => 0) (fun k => 1 / 20 * (19 / 20) ^ k) (fun k => 1 / 20 * (19 / 20) ^ k)
    (fun k => 1 / 20 * (19 / 20) ^ k) (fun _ => 0) (fun _ => 0) (hz _) (hz _) (hz _) (fun k => hq _) (fun k => hq _) (fun k => hq _)
    (fun k => ⟨hz _, by simp [notebookW, pow_succ]; ring⟩) (fun k => ⟨hz _, by simp [notebookW, pow_succ]; ring⟩) (fun k => ⟨hz _, by simp [notebookW, pow_succ]; ring⟩)
    (fun k => by simp) (fun k => by simp) n
  norm_num [notebookW] at h
  refine le_trans (le_of_eq (Finset.sum_congr rfl fun k _ => ?_)) h
  ring

end Verif
