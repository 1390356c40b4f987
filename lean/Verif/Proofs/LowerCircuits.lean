import Verif.Proofs.Lower
import Verif.Proofs.EnsFns

/-!
# Smaller weights of the dissipation: the circuits with a fixed number of calls
-/

namespace Verif
open Build
open scoped InnerProductSpace
set_option linter.unusedSimpArgs false
set_option linter.unusedVariables false

section
variable {E : Type} [NormedAddCommGroup E] [InnerProductSpace ℝ E] {SR : ℕ → E → E → ℝ → Prop}

/-- the number of functions declared by a program -/
def declsAfter : List Instr → ℕ → ℕ
  | [], nd => nd
  | i :: is, nd => declsAfter is (i.nextDecl nd)

/-- the equation of one call of a program -/
theorem MeetsAll.nth {env : Name → ℝ} {V : Vals E} : ∀ {prog : List Instr} {n : Counts} {nd : ℕ}, MeetsAll SR env V prog n nd → ∀ (j : ℕ) {i : Instr},
    prog[j]? = some i → i.Meets SR env V (after (prog.take j) n) (declsAfter (prog.take j) nd)
  | _ :: _, _, _, h, 0, _, hj => by
    simp only [List.getElem?_cons_zero, Option.some.injEq] at hj
    subst hj
    exact h.1
  | _ :: _, _, _, h, j + 1, _, hj => h.2.nth j hj

end

/-- smaller weights of two nonnegative terms -/
theorem lower_two {a a' b b' s t : ℝ} (ha : a' ≤ a) (hb : b' ≤ b) (hs : 0 ≤ s) (ht : 0 ≤ t) : a' * s + b' * t ≤ a * s + b * t :=
  add_le_add (mul_le_mul_of_nonneg_right ha hs) (mul_le_mul_of_nonneg_right hb ht)

section
variable {E : Type} [NormedAddCommGroup E] [InnerProductSpace ℝ E] {SR : ℕ → E → E → ℝ → Prop}

theorem smp_at {w : ℕ →₀ ℝ} {k : ℕ} {x g : E} {v : ℝ} (hw : w = Finsupp.single k 1) (h : SumSample SR w x g v) : SR k x g v :=
  sample_of_single (hw ▸ h)

/-- the value of the sum of two functions -/
theorem sum_value_2 {fs : ℕ → CFun E} {V : Vals E} {w : ℕ →₀ ℝ} {x g g0 g1 : E} {v v0 v1 : ℝ} (h : SumSample (fun k => (fs k).Sample) w x g v)
    (hw : w = V.fn 0 + V.fn 1) (h0 : V.fn 0 = Finsupp.single 0 1) (h1 : V.fn 1 = Finsupp.single 1 1)
    (a0 : (fs 0).Sample x g0 v0) (a1 : (fs 1).Sample x g1 v1) : v = v0 + v1 := by
  subst hw
  rw [h0, h1] at h
  have e : (Finsupp.single 0 1 + Finsupp.single 1 1 : ℕ →₀ ℝ) = ∑ i ∈ Finset.range 2, Finsupp.single i 1 := by simp [Finset.sum_range_succ]
  rw [e] at h
  obtain ⟨G, W, hs, -, rfl⟩ := samples_of_range h
  simp only [Finset.sum_range_succ, Finset.sum_range_zero, zero_add]
  rw [← a0.2.1, ← a1.2.1, ← (hs 0 (by omega)).2.1, ← (hs 1 (by omega)).2.1]

/-- the value of the sum of three functions -/
theorem sum_value_3 {fs : ℕ → CFun E} {V : Vals E} {w : ℕ →₀ ℝ} {x g g0 g1 g2 : E} {v v0 v1 v2 : ℝ} (h : SumSample (fun k => (fs k).Sample) w x g v)
    (hw : w = V.fn 0 + V.fn 1 + V.fn 2) (h0 : V.fn 0 = Finsupp.single 0 1) (h1 : V.fn 1 = Finsupp.single 1 1) (h2 : V.fn 2 = Finsupp.single 2 1)
    (a0 : (fs 0).Sample x g0 v0) (a1 : (fs 1).Sample x g1 v1) (a2 : (fs 2).Sample x g2 v2) : v = v0 + v1 + v2 := by
  subst hw
  rw [h0, h1, h2] at h
  have e : (Finsupp.single 0 1 + Finsupp.single 1 1 + Finsupp.single 2 1 : ℕ →₀ ℝ) = ∑ i ∈ Finset.range 3, Finsupp.single i 1 := by simp [Finset.sum_range_succ]
  rw [e] at h
  obtain ⟨G, W, hs, -, rfl⟩ := samples_of_range h
  simp only [Finset.sum_range_succ, Finset.sum_range_zero, zero_add]
  rw [← a0.2.1, ← a1.2.1, ← a2.2.1, ← (hs 0 (by omega)).2.1, ← (hs 1 (by omega)).2.1, ← (hs 2 (by omega)).2.1]
end

/-- the weights `eta` and `rho` may be lowered at the parameters with `P`: a guarantee remains a guarantee -/
def LowersIf (P : (Name → ℝ) → Prop) (prog : List Instr) : Prop :=
  ∀ p q : Name → ℝ, (∀ n, n ≠ "eta" → n ≠ "rho" → p n = q n) → q "eta" ≤ p "eta" → q "rho" ≤ p "rho" → P p → Guaranteed prog p → Guaranteed prog q

/-- the weights `eta` and `rho` may be lowered: a guarantee remains a guarantee -/
def Lowers (prog : List Instr) : Prop :=
  ∀ p q : Name → ℝ, (∀ n, n ≠ "eta" → n ≠ "rho" → p n = q n) → q "eta" ≤ p "eta" → q "rho" ≤ p "rho" → Guaranteed prog p → Guaranteed prog q

set_option hygiene false in
macro "lowers" k:num : tactic =>
  `(tactic| (intro p q hpq he hr; refine guaranteed_lower_take $k rfl (by first | (safe_simp []; done) | safe_simp [hR.ne']) rfl rfl (by decide) (by decide) (by simp [Instr.Clean, others]) hpq ?_; intro E _ _ fs V hm))

theorem lower_gradientFlow (mu : ℚ) (L : Option ℚ) (Cap : ℚ) : Lowers (gradientFlow mu L Cap).prog := by
  calls_simp [gradientFlow]
  lowers 10
  have a : (fs 0).Sample (V.pt 0) (V.pt 1) (V.ex 0) := smp_at (hm.nth 0 rfl) (And.left (hm.nth 1 rfl))
  have az : V.pt 1 = 0 := And.right (hm.nth 1 rfl)
  have b : (fs 0).Sample (V.pt 2) (V.pt 3) (V.ex 1) := smp_at (hm.nth 0 rfl) (hm.nth 3 rfl)
  have hb := a.le b
  rw [az, inner_zero_left] at hb
  simp [EE.val]
  exact mul_le_mul_of_nonneg_right he (by linarith)

theorem lower_gradientFlowTuneC (mu : ℚ) (L : Option ℚ) : Lowers (gradientFlowTuneC mu L).prog := by
  calls_simp [gradientFlowTuneC]
  lowers 10
  have a : (fs 0).Sample (V.pt 0) (V.pt 1) (V.ex 0) := smp_at (hm.nth 0 rfl) (And.left (hm.nth 1 rfl))
  have az : V.pt 1 = 0 := And.right (hm.nth 1 rfl)
  have b : (fs 0).Sample (V.pt 2) (V.pt 3) (V.ex 1) := smp_at (hm.nth 0 rfl) (hm.nth 3 rfl)
  have hb := a.le b
  rw [az, inner_zero_left] at hb
  simp [EE.val]
  exact mul_le_mul_of_nonneg_right he (by linarith)

theorem lower_acceleratedGradient (mu : ℚ) (L : Option ℚ) (R Cap Ind : ℚ) (hR : 0 < R) : Lowers (acceleratedGradient mu L R Cap Ind).prog := by
  calls_simp [acceleratedGradient]
  lowers 16
  have a : (fs 0).Sample (V.pt 0) (V.pt 1) (V.ex 0) := smp_at (hm.nth 0 rfl) (And.left (hm.nth 1 rfl))
  have az : V.pt 1 = 0 := And.right (hm.nth 1 rfl)
  have b : (fs 0).Sample (V.pt 4) (V.pt 5) (V.ex 1) := smp_at (hm.nth 0 rfl) (hm.nth 5 rfl)
  have hb := a.le b
  rw [az, inner_zero_left, sub_zero] at hb
  have hR' : (0 : ℝ) ≤ R := by exact_mod_cast hR.le
  simp [EE.val]
  linarith [lower_two hr he (mul_nonneg hR' (sq_nonneg ‖V.pt 5 - V.pt 3‖)) hb]

theorem lower_ppm (mu : ℚ) (L : Option ℚ) (Cap R : ℚ) (hR : 0 < R) : Lowers (ppm mu L Cap R).prog := by
  calls_simp [ppm]
  lowers 11
  have a : (fs 0).Sample (V.pt 0) (V.pt 1) (V.ex 0) := smp_at (hm.nth 0 rfl) (And.left (hm.nth 1 rfl))
  have az : V.pt 1 = 0 := And.right (hm.nth 1 rfl)
  have b : (fs 0).Sample (V.pt 9) (V.pt 10) (V.ex 3) := smp_at (hm.nth 0 rfl) (hm.nth 8 rfl)
  have hb := a.le b
  rw [az, inner_zero_left, sub_zero] at hb
  have hR' : (0 : ℝ) ≤ R := by exact_mod_cast hR.le
  simp [EE.val]
  linarith [lower_two hr he (mul_nonneg hR' (sq_nonneg ‖V.pt 8 - V.pt 1‖)) hb]

theorem lower_proxGradient (mu : ℚ) (L : Option ℚ) (R Cap : ℚ) (hR : 0 < R) (hL : R ≤ invSmooth L) : Lowers (proxGradient mu L R Cap).prog := by
  calls_simp [proxGradient]
  lowers 18
  have hR' : (0 : ℝ) ≤ R := by exact_mod_cast hR.le
  have hL' : (0 : ℝ) ≤ invSmooth L - R := by rw [sub_nonneg]; exact_mod_cast hL
  simp [EE.val]
  linarith [lower_two hr he (mul_nonneg hR' (sq_nonneg ‖V.pt 10 - V.pt 3‖)) (mul_nonneg hL' (sq_nonneg ‖V.pt 6 - V.pt 2‖))]

theorem lower_acceleratedGradientTuneRLC (mu : ℚ) (L : Option ℚ) : LowersIf (fun p => 0 ≤ p "R") (acceleratedGradientTuneRLC mu L).prog := by
  calls_simp [acceleratedGradientTuneRLC]
  intro p q hpq he hr hR
  refine guaranteed_lower_take 16 rfl (by safe_simp []) rfl rfl (by decide) (by decide) (by simp [Instr.Clean, others]) hpq ?_
  intro E _ _ fs V hm
  have a : (fs 0).Sample (V.pt 0) (V.pt 1) (V.ex 0) := smp_at (hm.nth 0 rfl) (And.left (hm.nth 1 rfl))
  have az : V.pt 1 = 0 := And.right (hm.nth 1 rfl)
  have b : (fs 0).Sample (V.pt 4) (V.pt 5) (V.ex 1) := smp_at (hm.nth 0 rfl) (hm.nth 5 rfl)
  have hb := a.le b
  rw [az, inner_zero_left, sub_zero] at hb
  simp [EE.val]
  rw [← hpq "R" (by decide) (by decide)]
  linarith [lower_two hr he (mul_nonneg hR (sq_nonneg ‖V.pt 5 - V.pt 3‖)) hb]

theorem lower_douglasRachford (mu : ℚ) (L : Option ℚ) (R Ind : ℚ) (hR : 0 < R) : Lowers (douglasRachford mu L R Ind).prog := by
  calls_simp [douglasRachford]
  lowers 27
  have a0 : (fs 0).Sample (V.pt 0) (V.pt 2) (V.ex 1) := smp_at (hm.nth 0 rfl) (hm.nth 4 rfl)
  have a1 : (fs 1).Sample (V.pt 0) (V.pt 3) (V.ex 2) := smp_at (hm.nth 1 rfl) (hm.nth 5 rfl)
  have b0 : (fs 0).Sample (V.pt 7) (V.pt 8) (V.ex 4) := smp_at (hm.nth 0 rfl) (And.left (hm.nth 11 rfl))
  have b1 : (fs 1).Sample (V.pt 10) (V.pt 11) (V.ex 5) := smp_at (hm.nth 1 rfl) (And.left (hm.nth 13 rfl))
  have hs : V.ex 0 = V.ex 1 + V.ex 2 := sum_value_2 (And.left (hm.nth 3 rfl)) (hm.nth 2 rfl) (hm.nth 0 rfl) (hm.nth 1 rfl) a0 a1
  have h0 := a0.le b0
  have h1 := a1.le b1
  have hR' : (0 : ℝ) ≤ R := by exact_mod_cast hR.le
  simp [EE.val]
  linarith [lower_two hr he (mul_nonneg hR' (sq_nonneg ‖V.pt 8 - V.pt 12‖)) (show 0 ≤ V.ex 4 + V.ex 5 - ⟪V.pt 2, V.pt 7 - V.pt 0⟫_ℝ -
    ⟪V.pt 3, V.pt 10 - V.pt 0⟫_ℝ - V.ex 0 by linarith)]

theorem lower_davisYin (mu : ℚ) (L : Option ℚ) (R Ind : ℚ) (hR : 0 < R) : Lowers (davisYin mu L R Ind).prog := by
  calls_simp [davisYin]
  lowers 38
  have a0 : (fs 0).Sample (V.pt 0) (V.pt 2) (V.ex 1) := smp_at (hm.nth 0 rfl) (hm.nth 5 rfl)
  have a1 : (fs 1).Sample (V.pt 0) (V.pt 3) (V.ex 2) := smp_at (hm.nth 1 rfl) (hm.nth 6 rfl)
  have a2 : (fs 2).Sample (V.pt 0) (V.pt 4) (V.ex 3) := smp_at (hm.nth 2 rfl) (hm.nth 7 rfl)
  have b0 : (fs 0).Sample (V.pt 10) (V.pt 11) (V.ex 6) := smp_at (hm.nth 0 rfl) (And.left (hm.nth 15 rfl))
  have b1 : (fs 1).Sample (V.pt 13) (V.pt 14) (V.ex 7) := smp_at (hm.nth 1 rfl) (And.left (hm.nth 17 rfl))
  have b2 : (fs 2).Sample (V.pt 13) (V.pt 16) (V.ex 8) := smp_at (hm.nth 2 rfl) (hm.nth 19 rfl)
  have hs : V.ex 0 = V.ex 1 + V.ex 2 + V.ex 3 := sum_value_3 (And.left (hm.nth 4 rfl)) (hm.nth 3 rfl) (hm.nth 0 rfl) (hm.nth 1 rfl) (hm.nth 2 rfl) a0 a1 a2
  have h0 := a0.le b0
  have h1 := a1.le b1
  have h2 := a2.le b2
  have hR' : (0 : ℝ) ≤ (R : ℝ)⁻¹ := by positivity
  simp [EE.val]
  linarith [lower_two hr he (mul_nonneg hR' (sq_nonneg ‖V.pt 10 - V.pt 13‖)) (show 0 ≤ V.ex 6 + V.ex 7 + V.ex 8 - ⟪V.pt 2, V.pt 10 - V.pt 0⟫_ℝ -
    ⟪V.pt 3, V.pt 13 - V.pt 0⟫_ℝ - ⟪V.pt 4, V.pt 13 - V.pt 0⟫_ℝ - V.ex 0 by linarith)]

theorem lower_admmConsensusProof (mu : ℚ) (L : Option ℚ) (R : ℚ) (hR : 0 < R) : Lowers (admmConsensusProof mu L R).prog := by
  calls_simp [admmConsensusProof]
  lowers 18
  have hR' : (0 : ℝ) ≤ (R : ℝ)⁻¹ := by positivity
  simp [EE.val]
  exact mul_le_mul_of_nonneg_right he (by positivity)

theorem lower_dgdLine3 (mu : ℚ) (L : Option ℚ) (R Cap : ℚ) (hR : 0 < R) : Lowers (dgdLine3 mu L R Cap).prog := by
  calls_simp [dgdLine3]
  lowers 25
  have a1 : (fs 1).Sample (V.pt 0) (V.pt 1) (V.ex 0) := smp_at (hm.nth 1 rfl) (hm.nth 4 rfl)
  have a0 : (fs 0).Sample (V.pt 2) (V.pt 3) (V.ex 1) := smp_at (hm.nth 0 rfl) (And.left (hm.nth 5 rfl))
  have a2 : (fs 2).Sample (V.pt 4) (V.pt 5) (V.ex 2) := smp_at (hm.nth 2 rfl) (And.left (hm.nth 6 rfl))
  have b0 : (fs 0).Sample (V.pt 15) (V.pt 16) (V.ex 8) := smp_at (hm.nth 0 rfl) (hm.nth 18 rfl)
  have b1 : (fs 1).Sample (V.pt 17) (V.pt 18) (V.ex 9) := smp_at (hm.nth 1 rfl) (hm.nth 20 rfl)
  have b2 : (fs 2).Sample (V.pt 19) (V.pt 20) (V.ex 10) := smp_at (hm.nth 2 rfl) (hm.nth 22 rfl)
  have hR' : (0 : ℝ) ≤ (R : ℝ)⁻¹ := by positivity
  simp [EE.val]
  linarith [lower_two hr he (mul_nonneg hR' (add_nonneg (sq_nonneg ‖V.pt 15 - V.pt 17 - (V.pt 2 - V.pt 0)‖) (sq_nonneg ‖V.pt 19 - V.pt 17 - (V.pt 4 - V.pt 0)‖)))
    (add_nonneg (add_nonneg (a0.mono b0) (a1.mono b1)) (a2.mono b2))]

theorem lower_diffusionLine3 (mu : ℚ) (L : Option ℚ) (R Cap : ℚ) (hR : 0 < R) (hL : R ≤ invSmooth L) : Lowers (diffusionLine3 mu L R Cap).prog := by
  calls_simp [diffusionLine3]
  lowers 38
  have hR' : (0 : ℝ) ≤ (R : ℝ)⁻¹ * 3⁻¹ := by positivity
  have hL' : (0 : ℝ) ≤ invSmooth L - R := by rw [sub_nonneg]; exact_mod_cast hL
  simp [EE.val]
  linarith [lower_two hr he (mul_nonneg hR' (add_nonneg (sq_nonneg ‖V.pt 15 - V.pt 16 - (V.pt 6 - V.pt 7)‖) (sq_nonneg ‖V.pt 17 - V.pt 16 - (V.pt 8 - V.pt 7)‖)))
    (mul_nonneg hL' (add_nonneg (add_nonneg (sq_nonneg ‖V.pt 10 - V.pt 3‖) (sq_nonneg ‖V.pt 12 - V.pt 4‖)) (sq_nonneg ‖V.pt 14 - V.pt 5‖)))]

theorem lower_pgExtraLine3 (mu : ℚ) (L Lf : Option ℚ) (R : ℚ) (W : ℕ → ℕ → ℚ) : Lowers (pgExtraLine3 mu L Lf R W).prog := by
  calls_simp [pgExtraLine3]
  lowers 41
  have a0 : (fs 0).Sample (V.pt 0) (V.pt 2) (V.ex 1) := smp_at (hm.nth 0 rfl) (hm.nth 8 rfl)
  have a1 : (fs 1).Sample (V.pt 0) (V.pt 3) (V.ex 2) := smp_at (hm.nth 1 rfl) (hm.nth 9 rfl)
  have a2 : (fs 2).Sample (V.pt 0) (V.pt 4) (V.ex 3) := smp_at (hm.nth 2 rfl) (hm.nth 10 rfl)
  have a3 : (fs 3).Sample (V.pt 0) (V.pt 5) (V.ex 4) := smp_at (hm.nth 3 rfl) (hm.nth 11 rfl)
  have a4 : (fs 4).Sample (V.pt 0) (V.pt 6) (V.ex 5) := smp_at (hm.nth 4 rfl) (hm.nth 12 rfl)
  have a5 : (fs 5).Sample (V.pt 0) (V.pt 7) (V.ex 6) := smp_at (hm.nth 5 rfl) (hm.nth 13 rfl)
  have b0 : (fs 0).Sample (V.pt 24) (V.pt 25) (V.ex 14) := smp_at (hm.nth 0 rfl) (And.left (hm.nth 32 rfl))
  have b1 : (fs 1).Sample (V.pt 26) (V.pt 27) (V.ex 15) := smp_at (hm.nth 1 rfl) (And.left (hm.nth 33 rfl))
  have b2 : (fs 2).Sample (V.pt 28) (V.pt 29) (V.ex 16) := smp_at (hm.nth 2 rfl) (And.left (hm.nth 34 rfl))
  have b3 : (fs 3).Sample (V.pt 10) (V.pt 16) (V.ex 11) := smp_at (hm.nth 3 rfl) (hm.nth 24 rfl)
  have b4 : (fs 4).Sample (V.pt 11) (V.pt 17) (V.ex 12) := smp_at (hm.nth 4 rfl) (hm.nth 25 rfl)
  have b5 : (fs 5).Sample (V.pt 12) (V.pt 18) (V.ex 13) := smp_at (hm.nth 5 rfl) (hm.nth 26 rfl)
  simp [EE.val]
  have h : ∀ x y : E, ⟪x, y⟫_ℝ = ⟪y, x⟫_ℝ := fun x y => real_inner_comm y x
  have := lower_two he hr (add_nonneg (add_nonneg (a0.mono b0) (a1.mono b1)) (a2.mono b2)) (add_nonneg (add_nonneg (a3.mono b3) (a4.mono b4)) (a5.mono b5))
  rw [h (V.pt 24 - _), h (V.pt 26 - _), h (V.pt 28 - _), h (V.pt 10 - _), h (V.pt 11 - _), h (V.pt 12 - _)] at this
  exact this

theorem lower_dadmmLine3 (mu : ℚ) (L : Option ℚ) (R Ind : ℚ) (hR : 0 < R) : Lowers (dadmmLine3 mu L R Ind).prog := by
  calls_simp [dadmmLine3]
  lowers 42
  have a0 : (fs 0).Sample (V.pt 0) (V.pt 2) (V.ex 1) := smp_at (hm.nth 0 rfl) (hm.nth 5 rfl)
  have a1 : (fs 1).Sample (V.pt 0) (V.pt 3) (V.ex 2) := smp_at (hm.nth 1 rfl) (hm.nth 6 rfl)
  have a2 : (fs 2).Sample (V.pt 0) (V.pt 4) (V.ex 3) := smp_at (hm.nth 2 rfl) (hm.nth 7 rfl)
  have b0 : (fs 0).Sample (V.pt 25) (V.pt 26) (V.ex 10) := smp_at (hm.nth 0 rfl) (And.left (hm.nth 31 rfl))
  have b1 : (fs 1).Sample (V.pt 28) (V.pt 29) (V.ex 11) := smp_at (hm.nth 1 rfl) (And.left (hm.nth 33 rfl))
  have b2 : (fs 2).Sample (V.pt 31) (V.pt 32) (V.ex 12) := smp_at (hm.nth 2 rfl) (And.left (hm.nth 35 rfl))
  have h0 := a0.le b0
  have h1 := a1.le b1
  have h2 := a2.le b2
  have hR' : (0 : ℝ) ≤ (R : ℝ)⁻¹ := by positivity
  simp [EE.val]
  refine add_le_add ?_ (mul_le_mul_of_nonneg_right he (by linarith))
  exact mul_le_mul_of_nonneg_right (mul_le_mul_of_nonneg_right hr (by positivity)) (by positivity)

theorem lower_dadmmCycle4 (mu : ℚ) (L : Option ℚ) (R Ind : ℚ) (hR : 0 < R) : Lowers (dadmmCycle4 mu L R Ind).prog := by
  calls_simp [dadmmCycle4]
  lowers 44
  have a0 : (fs 0).Sample (V.pt 0) (V.pt 2) (V.ex 1) := smp_at (hm.nth 0 rfl) (hm.nth 6 rfl)
  have a1 : (fs 1).Sample (V.pt 0) (V.pt 3) (V.ex 2) := smp_at (hm.nth 1 rfl) (hm.nth 7 rfl)
  have a2 : (fs 2).Sample (V.pt 0) (V.pt 4) (V.ex 3) := smp_at (hm.nth 2 rfl) (hm.nth 8 rfl)
  have a3 : (fs 3).Sample (V.pt 0) (V.pt 5) (V.ex 4) := smp_at (hm.nth 3 rfl) (hm.nth 9 rfl)
  have b0 : (fs 0).Sample (V.pt 19) (V.pt 20) (V.ex 7) := smp_at (hm.nth 0 rfl) (And.left (hm.nth 27 rfl))
  have b1 : (fs 1).Sample (V.pt 22) (V.pt 23) (V.ex 8) := smp_at (hm.nth 1 rfl) (And.left (hm.nth 29 rfl))
  have b2 : (fs 2).Sample (V.pt 25) (V.pt 26) (V.ex 9) := smp_at (hm.nth 2 rfl) (And.left (hm.nth 31 rfl))
  have b3 : (fs 3).Sample (V.pt 28) (V.pt 29) (V.ex 10) := smp_at (hm.nth 3 rfl) (And.left (hm.nth 33 rfl))
  have h0 := a0.le b0
  have h1 := a1.le b1
  have h2 := a2.le b2
  have h3 := a3.le b3
  have hR' : (0 : ℝ) ≤ (R : ℝ)⁻¹ := by positivity
  simp [EE.val]
  refine add_le_add ?_ (mul_le_mul_of_nonneg_right he (by linarith))
  exact mul_le_mul_of_nonneg_right (mul_le_mul_of_nonneg_right hr (by positivity)) (by positivity)

theorem lower_dadmmGraph6 (mu : ℚ) (L : Option ℚ) (R Ind : ℚ) (hR : 0 < R) : Lowers (dadmmGraph6 mu L R Ind).prog := by
  calls_simp [dadmmGraph6]
  lowers 65
  have a0 : (fs 0).Sample (V.pt 0) (V.pt 2) (V.ex 1) := smp_at (hm.nth 0 rfl) (hm.nth 8 rfl)
  have a1 : (fs 1).Sample (V.pt 0) (V.pt 3) (V.ex 2) := smp_at (hm.nth 1 rfl) (hm.nth 9 rfl)
  have a2 : (fs 2).Sample (V.pt 0) (V.pt 4) (V.ex 3) := smp_at (hm.nth 2 rfl) (hm.nth 10 rfl)
  have a3 : (fs 3).Sample (V.pt 0) (V.pt 5) (V.ex 4) := smp_at (hm.nth 3 rfl) (hm.nth 11 rfl)
  have a4 : (fs 4).Sample (V.pt 0) (V.pt 6) (V.ex 5) := smp_at (hm.nth 4 rfl) (hm.nth 12 rfl)
  have a5 : (fs 5).Sample (V.pt 0) (V.pt 7) (V.ex 6) := smp_at (hm.nth 5 rfl) (hm.nth 13 rfl)
  have b0 : (fs 0).Sample (V.pt 28) (V.pt 29) (V.ex 9) := smp_at (hm.nth 0 rfl) (And.left (hm.nth 38 rfl))
  have b1 : (fs 1).Sample (V.pt 31) (V.pt 32) (V.ex 10) := smp_at (hm.nth 1 rfl) (And.left (hm.nth 40 rfl))
  have b2 : (fs 2).Sample (V.pt 34) (V.pt 35) (V.ex 11) := smp_at (hm.nth 2 rfl) (And.left (hm.nth 42 rfl))
  have b3 : (fs 3).Sample (V.pt 37) (V.pt 38) (V.ex 12) := smp_at (hm.nth 3 rfl) (And.left (hm.nth 44 rfl))
  have b4 : (fs 4).Sample (V.pt 40) (V.pt 41) (V.ex 13) := smp_at (hm.nth 4 rfl) (And.left (hm.nth 46 rfl))
  have b5 : (fs 5).Sample (V.pt 43) (V.pt 44) (V.ex 14) := smp_at (hm.nth 5 rfl) (And.left (hm.nth 48 rfl))
  have h0 := a0.le b0
  have h1 := a1.le b1
  have h2 := a2.le b2
  have h3 := a3.le b3
  have h4 := a4.le b4
  have h5 := a5.le b5
  have hR' : (0 : ℝ) ≤ (R : ℝ)⁻¹ := by positivity
  simp [EE.val]
  refine add_le_add ?_ (mul_le_mul_of_nonneg_right he (by linarith))
  exact mul_le_mul_of_nonneg_right (mul_le_mul_of_nonneg_right hr (by positivity)) (by positivity)

theorem lower_dadmmCGraph6 (mu mu1 : ℚ) (L Lf : Option ℚ) (R Cap Ind : ℚ) (hR : 0 < R) : Lowers (dadmmCGraph6 mu mu1 L Lf R Cap Ind).prog := by
  calls_simp [dadmmCGraph6]
  lowers 67
  have a0 : (fs 0).Sample (V.pt 0) (V.pt 2) (V.ex 1) := smp_at (hm.nth 0 rfl) (hm.nth 8 rfl)
  have a1 : (fs 1).Sample (V.pt 0) (V.pt 3) (V.ex 2) := smp_at (hm.nth 1 rfl) (hm.nth 9 rfl)
  have a2 : (fs 2).Sample (V.pt 0) (V.pt 4) (V.ex 3) := smp_at (hm.nth 2 rfl) (hm.nth 10 rfl)
  have a3 : (fs 3).Sample (V.pt 0) (V.pt 5) (V.ex 4) := smp_at (hm.nth 3 rfl) (hm.nth 11 rfl)
  have a4 : (fs 4).Sample (V.pt 0) (V.pt 6) (V.ex 5) := smp_at (hm.nth 4 rfl) (hm.nth 12 rfl)
  have a5 : (fs 5).Sample (V.pt 0) (V.pt 7) (V.ex 6) := smp_at (hm.nth 5 rfl) (hm.nth 13 rfl)
  have b0 : (fs 0).Sample (V.pt 29) (V.pt 30) (V.ex 9) := smp_at (hm.nth 0 rfl) (And.left (hm.nth 39 rfl))
  have b1 : (fs 1).Sample (V.pt 32) (V.pt 33) (V.ex 10) := smp_at (hm.nth 1 rfl) (And.left (hm.nth 41 rfl))
  have b2 : (fs 2).Sample (V.pt 35) (V.pt 36) (V.ex 11) := smp_at (hm.nth 2 rfl) (And.left (hm.nth 43 rfl))
  have b3 : (fs 3).Sample (V.pt 38) (V.pt 39) (V.ex 12) := smp_at (hm.nth 3 rfl) (And.left (hm.nth 45 rfl))
  have b4 : (fs 4).Sample (V.pt 41) (V.pt 42) (V.ex 13) := smp_at (hm.nth 4 rfl) (And.left (hm.nth 47 rfl))
  have b5 : (fs 5).Sample (V.pt 44) (V.pt 45) (V.ex 14) := smp_at (hm.nth 5 rfl) (And.left (hm.nth 49 rfl))
  have h0 := a0.le b0
  have h1 := a1.le b1
  have h2 := a2.le b2
  have h3 := a3.le b3
  have h4 := a4.le b4
  have h5 := a5.le b5
  have hR' : (0 : ℝ) ≤ (R : ℝ)⁻¹ := by positivity
  simp [EE.val]
  refine add_le_add ?_ (mul_le_mul_of_nonneg_right he (by linarith))
  exact mul_le_mul_of_nonneg_right hr (by positivity)

theorem lower_exampleFC3RC (mu : ℚ) (L : Option ℚ) (Cap R : ℚ) (hR : 0 < R) : Lowers (exampleFC3RC mu L Cap R).prog := by
  calls_simp [exampleFC3RC]
  lowers 19
  have a : (fs 0).Sample (V.pt 0) (V.pt 1) (V.ex 0) := smp_at (hm.nth 0 rfl) (And.left (hm.nth 1 rfl))
  have az : V.pt 1 = 0 := And.right (hm.nth 1 rfl)
  have b : (fs 0).Sample (V.pt 4) (V.pt 5) (V.ex 1) := smp_at (hm.nth 0 rfl) (And.left (hm.nth 4 rfl))
  have e : V.pt 4 + (Sym.num (R / 2)).eval q • V.pt 5 = V.pt 2 := And.right (hm.nth 4 rfl)
  have e6 : V.pt 6 = ((2 / R : ℚ) : ℝ) • (V.pt 2 - V.pt 4) := hm.nth 5 rfl
  have e : V.pt 4 + ((R / 2 : ℚ) : ℝ) • V.pt 5 = V.pt 2 := e
  have hR0 : (0 : ℝ) < R := by exact_mod_cast hR
  have e' : V.pt 6 = V.pt 5 := by
    rw [e6, ← e, add_sub_cancel_left, smul_smul, ← Rat.cast_mul, show (2 / R * (R / 2) : ℚ) = 1 by field_simp, Rat.cast_one, one_smul]
  have hb := a.mono b
  rw [← e'] at hb
  have hR' : (0 : ℝ) ≤ (R : ℝ)⁻¹ := by positivity
  simp [EE.val]
  rw [real_inner_smul_left, real_inner_smul_left]
  linarith [lower_two he hr hb (mul_nonneg hR' (add_nonneg (add_nonneg (sq_nonneg ‖V.pt 19‖) (sq_nonneg ‖V.pt 19 - V.pt 3‖)) (sq_nonneg ‖V.pt 3‖)))]

end Verif
