import Verif.Props.CompleteDrs

/-!
# C69 for Davis-Yin splitting
-/

namespace Verif
open Build
open scoped InnerProductSpace

set_option linter.unusedSimpArgs false

variable {C : CAS}

/-- the energy inequality of `davis_yin_splitting` (`classical_central_vi.py` 393-451) for all functions of the class and all steps: `y1_star`, `y2_star`, `y3_star` are
the gradients at the solution, with sum 0 -/
def DavisYinStep (mu L R Ind : ℚ) (p : Name → ℝ) : Prop :=
  ∀ (E : Type) [NormedAddCommGroup E] [InnerProductSpace ℝ E] (f1 f2 f3 : CFun E),
    (defDecl mu (some L)).Holds f1 → (defDecl mu (some L)).Holds f2 → (defDecl mu (some L)).Holds f3 →
    ∀ (x_star y1_star y2_star y3_star e_star i_L_0 x2_0 y3_0 e_0 x1_1 y1_1 x2_1 y2_1 i_L_1 y3_1 e_1 x1_1p5 y1_1p5 x2_1p5 y2_1p5 i_L_1p5 y3_1p5 e_1p5
      x1_2 y1_2 x2_2 y2_2 i_L_2 y3_2 e_2 : E) (f1_star f2_star f3_star f3_0 f1_1 f2_1 f3_1 f1_1p5 f2_1p5 f3_1p5 f1_2 f2_2 f3_2 : ℝ),
      f1.Sample x_star y1_star f1_star → f2.Sample x_star y2_star f2_star → f3.Sample x_star y3_star f3_star → y1_star + y2_star + y3_star = 0 →
      f3.Sample x2_0 y3_0 f3_0 → e_0 = x2_0 - (R : ℝ) • i_L_0 - (R : ℝ) • y3_0 →
      f1.Prox R ((2 : ℝ) • x2_0 - e_0 - (R : ℝ) • y3_0) x1_1 y1_1 f1_1 → f2.Prox R (x1_1 + e_0 - x2_0) x2_1 y2_1 f2_1 →
      i_L_1 = i_L_0 + (p "h" / Ind) • (x2_1 - x1_1) → f3.Sample x2_1 y3_1 f3_1 → e_1 = x2_1 - (R : ℝ) • y3_1 - (R : ℝ) • i_L_1 →
      f1.Prox R ((2 : ℝ) • x2_1 - e_1 - (R : ℝ) • y3_1) x1_1p5 y1_1p5 f1_1p5 → f2.Prox R (x1_1p5 + e_1 - x2_1) x2_1p5 y2_1p5 f2_1p5 →
      i_L_1p5 = i_L_1 + (p "alpha" * p "h" / Ind) • (x2_1p5 - x1_1p5) → f3.Sample x2_1p5 y3_1p5 f3_1p5 →
      e_1p5 = x2_1p5 - (R : ℝ) • y3_1p5 - (R : ℝ) • i_L_1p5 →
      f1.Prox R ((2 : ℝ) • x2_1p5 - e_1p5 - (R : ℝ) • y3_1p5) x1_2 y1_2 f1_2 → f2.Prox R (x1_2 + e_1p5 - x2_1p5) x2_2 y2_2 f2_2 →
      i_L_2 = i_L_1 + (p "beta" * p "h" / Ind) • (x2_1 - x1_1) + ((1 - p "beta") * p "h" / Ind) • (x2_1p5 - x1_1p5) →
      f3.Sample x2_2 y3_2 f3_2 → e_2 = x2_2 - (R : ℝ) • y3_2 - (R : ℝ) • i_L_2 → e_star = x_star - (R : ℝ) • y1_star - (R : ℝ) • y3_star →
      Ind / 2 * ‖i_L_2 - y1_star‖ ^ 2 + p "gamma" * ‖e_2 - e_star‖ ^ 2 ≤ Ind / 2 * ‖i_L_1 - y1_star‖ ^ 2 + p "gamma" * ‖e_1 - e_star‖ ^ 2
        - (p "rho" * (R : ℝ)⁻¹ * ‖x1_1 - x2_1‖ ^ 2 + p "eta" * (f1_1 + f2_1 + f3_1 - ⟪y1_star, x1_1 - x_star⟫_ℝ - ⟪y2_star, x2_1 - x_star⟫_ℝ
          - ⟪y3_star, x2_1 - x_star⟫_ℝ - (f1_star + f2_star + f3_star)))

section
variable {E : Type} [NormedAddCommGroup E] [InnerProductSpace ℝ E]

theorem smp3 {SR : ℕ → E → E → ℝ → Prop} {x g g' g'' : E} {v v' v'' : ℝ} (h : SR 0 x g v) (h' : SR 1 x g' v') (h'' : SR 2 x g'' v'') :
    SumSample SR (Finsupp.single 0 1 + Finsupp.single 1 1 + Finsupp.single 2 1) x (g + g' + g'') (v + v' + v'') :=
  (smp2 h h').addSingle h'' (by simp)

theorem smp3_values {SR : ℕ → E → E → ℝ → Prop} {x g : E} {v : ℝ}
    (h : SumSample SR (Finsupp.single 0 1 + Finsupp.single 1 1 + Finsupp.single 2 1) x g v) :
    ∃ g0 g1 g2 v0 v1 v2, SR 0 x g0 v0 ∧ SR 1 x g1 v1 ∧ SR 2 x g2 v2 ∧ g = g0 + g1 + g2 ∧ v = v0 + v1 + v2 := by
  obtain ⟨G, V, h1, h2, h3⟩ := h
  refine ⟨G 0, G 1, G 2, V 0, V 1, V 2, h1 0 (by simp), h1 1 (by simp), h1 2 (by simp), ?_, ?_⟩
  · rw [h2, Finsupp.sum_add_index' (by simp) (by intros; rw [add_smul]), Finsupp.sum_add_index' (by simp) (by intros; rw [add_smul])]
    simp
  · rw [h3, Finsupp.sum_add_index' (by simp) (by intros; ring), Finsupp.sum_add_index' (by simp) (by intros; ring)]
    simp
end

theorem guaranteed_davisYin {mu L : ℚ} (R Ind : ℚ) (hmu : 0 ≤ mu) (hL : mu < L) (hR0 : R ≠ 0) {p : Name → ℝ} :
    Guaranteed (davisYin mu (some L) R Ind).prog p ↔ DavisYinStep mu L R Ind p := by
  calls_simp [davisYin]
  constructor
  · intro hc E _ _ f1 f2 f3 hf1 hf2 hf3 x_star y1_star y2_star y3_star e_star i_L_0 x2_0 y3_0 e_0 x1_1 y1_1 x2_1 y2_1 i_L_1 y3_1 e_1 x1_1p5 y1_1p5 x2_1p5 y2_1p5
      i_L_1p5 y3_1p5 e_1p5 x1_2 y1_2 x2_2 y2_2 i_L_2 y3_2 e_2 f1_star f2_star f3_star f3_0 f1_1 f2_1 f3_1 f1_1p5 f2_1p5 f3_1p5 f1_2 f2_2 f3_2
      t1 t2 t3 t0 t4 t5 h3 h4 h5 t6 t7 h6 h7 h8 t8 t9 h9 h10 h11 t10 t11 t12
    obtain ⟨a3, k3⟩ : ∃ a, a = (2 : ℝ) • x2_0 - e_0 - (R : ℝ) • y3_0 := ⟨_, rfl⟩
    obtain ⟨a4, k4⟩ : ∃ a, a = x1_1 + e_0 - x2_0 := ⟨_, rfl⟩
    obtain ⟨a6, k6⟩ : ∃ a, a = (2 : ℝ) • x2_1 - e_1 - (R : ℝ) • y3_1 := ⟨_, rfl⟩
    obtain ⟨a7, k7⟩ : ∃ a, a = x1_1p5 + e_1 - x2_1 := ⟨_, rfl⟩
    obtain ⟨a9, k9⟩ : ∃ a, a = (2 : ℝ) • x2_1p5 - e_1p5 - (R : ℝ) • y3_1p5 := ⟨_, rfl⟩
    obtain ⟨a10, k10⟩ : ∃ a, a = x1_2 + e_1p5 - x2_1p5 := ⟨_, rfl⟩
    rw [← k3] at h3
    rw [← k4] at h4
    rw [← k6] at h6
    rw [← k7] at h7
    rw [← k9] at h9
    rw [← k10] at h10
    obtain ⟨E_1, h12⟩ : ∃ E_1, E_1 = Ind / 2 * ‖i_L_1 - y1_star‖ ^ 2 + p "gamma" * ‖e_1 - e_star‖ ^ 2 := ⟨_, rfl⟩
    obtain ⟨E_2, h13⟩ : ∃ E_2, E_2 = Ind / 2 * ‖i_L_2 - y1_star‖ ^ 2 + p "gamma" * ‖e_2 - e_star‖ ^ 2 := ⟨_, rfl⟩
    obtain ⟨Delta_1, h14⟩ : ∃ D, D = p "rho" * (R : ℝ)⁻¹ * ‖x1_1 - x2_1‖ ^ 2 + p "eta" * (f1_1 + f2_1 + f3_1 - ⟪y1_star, x1_1 - x_star⟫_ℝ
      - ⟪y2_star, x2_1 - x_star⟫_ℝ - ⟪y3_star, x2_1 - x_star⟫_ℝ - (f1_star + f2_star + f3_star)) := ⟨_, rfl⟩
    have key := hc.vals (fs := fun k => [f1, f2, f3].getD k f1) (e := 18) (by safe_simp [hR0]) (instance_of_list (.cons hf1 (.cons hf2 (.cons hf3 .nil))))
      ⟨fun i => [x_star, 0, y1_star, y2_star, y3_star, i_L_0, x2_0, y3_0, e_0, a3, x1_1, y1_1, a4, x2_1, y2_1, i_L_1, y3_1, e_1, a6, x1_1p5, y1_1p5, a7,
          x2_1p5, y2_1p5, i_L_1p5, y3_1p5, e_1p5, a9, x1_2, y1_2, a10, x2_2, y2_2, i_L_2, y3_2, e_2, e_star].getD i 0,
        fun i => [f1_star + f2_star + f3_star, f1_star, f2_star, f3_star, 0, f3_0, f1_1, f2_1, f3_1, f1_1p5, f2_1p5, f3_1p5, f1_2, f2_2, f3_2, E_1, E_2, Delta_1,
          E_2 - (E_1 - Delta_1)].getD i 0,
        fun i => [Finsupp.single 0 1, Finsupp.single 1 1, Finsupp.single 2 1, Finsupp.single 0 1 + Finsupp.single 1 1 + Finsupp.single 2 1].getD i 0⟩
      ⟨rfl, rfl, rfl, rfl, ⟨by
          have := smp3 (SR := fun k => ([f1, f2, f3].getD k f1).Sample) t1 t2 t3
          rw [t0] at this; exact this, rfl⟩, smp t1, smp t2, smp t3, by simp [Instr.Meets, Instr.next, t0], trivial, trivial, trivial,
        smp t4, by simpa [Instr.Meets, Instr.next] using t5,
        by simpa [Instr.Meets, Instr.next] using k3, ⟨smp h3.1, by simpa [Instr.next] using h3.2⟩,
        by simpa [Instr.Meets, Instr.next] using k4, ⟨smp h4.1, by simpa [Instr.next] using h4.2⟩,
        by simpa [Instr.Meets, Instr.next] using h5, smp t6, by simpa [Instr.Meets, Instr.next] using t7,
        by simpa [Instr.Meets, Instr.next] using k6, ⟨smp h6.1, by simpa [Instr.next] using h6.2⟩,
        by simpa [Instr.Meets, Instr.next] using k7, ⟨smp h7.1, by simpa [Instr.next] using h7.2⟩,
        by simpa [Instr.Meets, Instr.next] using h8, smp t8, by simpa [Instr.Meets, Instr.next] using t9,
        by simpa [Instr.Meets, Instr.next] using k9, ⟨smp h9.1, by simpa [Instr.next] using h9.2⟩,
        by simpa [Instr.Meets, Instr.next] using k10, ⟨smp h10.1, by simpa [Instr.next] using h10.2⟩,
        by simpa [Instr.Meets, Instr.next] using h11, smp t10, by simpa [Instr.Meets, Instr.next] using t11, by simpa [Instr.Meets, Instr.next] using t12,
        by simpa [Instr.Meets, Instr.next] using h12, by simpa [Instr.Meets, Instr.next] using h13,
        by simpa [Instr.Meets, Instr.next] using h14, rfl, trivial, trivial⟩
      (by simp [consVals]) rfl
    simp only [List.getD_cons_succ, List.getD_cons_zero] at key
    linarith
  · intro h
    refine guaranteed_of_vals (by safe_simp [hR0]) (e := 18) rfl fun {E} _ _ fs hi V hm _ => ?_
    simp [MeetsAll, Instr.Meets, Instr.next] at hm
    obtain ⟨d0, d1, d2, d3, ⟨s0, z0⟩, s1, s2, s2', m3, r4, r5, k3, ⟨s3, n3⟩, k4, ⟨s4, n4⟩, m5, r6, r7, k6, ⟨s6, n6⟩, k7, ⟨s7, n7⟩, m8, r8, r9, k9, ⟨s9, n9⟩,
      k10, ⟨s10, n10⟩, m11, r10, r11, r12, m12, m13, m14, m15⟩ := hm
    rw [d0, d1, d2] at d3
    rw [d3, z0] at s0
    rw [d0] at s1 s3 s6 s9
    rw [d1] at s2 s4 s7 s10
    rw [d2] at s2' r4 r6 r8 r10
    obtain ⟨g0, g1, g2, v0, v1, v2, a0, a1, a2, e, ev⟩ := smp3_values s0
    have hu := gradient_unique hmu hL (hi 0 _ rfl) a0 (sample_of_single s1)
    have hu1 := gradient_unique hmu hL (hi 1 _ rfl) a1 (sample_of_single s2)
    have hu2 := gradient_unique hmu hL (hi 2 _ rfl) a2 (sample_of_single s2')
    rw [hu] at a0 e
    rw [hu1] at a1 e
    rw [hu2] at a2 e
    have := h E (fs 0) (fs 1) (fs 2) (hi 0 _ rfl) (hi 1 _ rfl) (hi 2 _ rfl) _ _ _ _ _ (V.pt 5) _ _ _ _ _ _ _ _ _ _ _ _ _ _ _ _ _ _ _ _ _ _ _ _ _ _ _ _ _ _ _ _ _ _ _ _ _
      a0 a1 a2 e.symm (sample_of_single r4) r5
      ⟨sample_of_single s3, by rw [← k3]; exact n3⟩ ⟨sample_of_single s4, by rw [← k4]; exact n4⟩ m5 (sample_of_single r6) r7
      ⟨sample_of_single s6, by rw [← k6]; exact n6⟩ ⟨sample_of_single s7, by rw [← k7]; exact n7⟩ m8 (sample_of_single r8) r9
      ⟨sample_of_single s9, by rw [← k9]; exact n9⟩ ⟨sample_of_single s10, by rw [← k10]; exact n10⟩ m11 (sample_of_single r10) r11 r12
    rw [m15, m12, m13, m14, ev]
    linarith

/-- the constraint `y1_star + y2_star + y3_star = y_star` of `davis_yin_splitting` is redundant for differentiable functions -/
theorem redundant_davisYin {mu L : ℚ} (R Ind : ℚ) (hmu : 0 ≤ mu) (hL : mu < L) (hR0 : R ≠ 0) (p : Name → ℝ) :
    Redundant (davisYin mu (some L) R Ind).prog p := by
  calls_simp [davisYin]
  intro E _ _ fs hi rr hx c hc _
  obtain ⟨hm, hcs⟩ := meets_of_realExec (by safe_simp [hR0]) hx
  rw [hcs] at hc
  generalize rr.vals = V at hm hc
  simp [MeetsAll, Instr.Meets, Instr.next] at hm
  obtain ⟨d0, d1, d2, d3, ⟨s0, z0⟩, s1, s2, s3, m3, -⟩ := hm
  rw [d0, d1, d2] at d3
  rw [d3, z0] at s0
  rw [d0] at s1
  rw [d1] at s2
  rw [d2] at s3
  obtain ⟨g0, g1, g2, v0, v1, v2, a0, a1, a2, e, -⟩ := smp3_values s0
  have hu := gradient_unique hmu hL (hi 0 _ rfl) a0 (sample_of_single s1)
  have hu1 := gradient_unique hmu hL (hi 1 _ rfl) a1 (sample_of_single s2)
  have hu2 := gradient_unique hmu hL (hi 2 _ rfl) a2 (sample_of_single s3)
  simp [consVals] at hc
  rw [hc]
  simp only
  rw [m3, z0, ← hu, ← hu1, ← hu2, ← e]
  simp

set_option maxHeartbeats 1000000 in
theorem run_davisYin {mu L : ℚ} (R Ind : ℚ) (hmu : 0 ≤ mu) (hL : mu < L) (hR : 0 < R) (p : Name → ℝ) :
    ∃ fs V, RedundantRun (davisYin mu (some L) R Ind).prog p fs V := by
  have hR' : (0 : ℝ) < R := by exact_mod_cast hR
  have hok := defDecl_ok hmu hL
  obtain ⟨k, hk⟩ : ∃ k : ℝ, k = R * (p "alpha" * p "h" / Ind) := ⟨_, rfl⟩
  obtain ⟨c, hc, hne⟩ := (generic [fun c => 1 - R * c,
    fun c => 1 + (-3) * (R * c) + (-1) * (R * c) ^ 2,
    fun c => 1 + (-4) * (R * c) + (-3) * (R * c) ^ 2 + 6 * (R * c) ^ 2 * k + (-2) * (R * c) ^ 3 + 3 * (R * c) ^ 3 * k + (-1) * (R * c) ^ 4,
    fun c => 6 + 3 * (R * c) + (-6) * (R * c) * k + (-3) * (R * c) ^ 2 * k,
    fun c => 3 + (-3) * (R * c) + (-6) * (R * c) * k + (-3) * (R * c) ^ 2 + (-3) * (R * c) ^ 2 * k,
    fun c => 1 + (-2) * (R * c) + 2 * (R * c) ^ 2 + 2 * (R * c) ^ 3,
    fun c => 1 + (-3) * (R * c) + 5 * (R * c) ^ 2 + 7 * (R * c) ^ 3 + (-6) * (R * c) ^ 3 * k + (-3) * (R * c) ^ 4 * k + (-1) * (R * c) ^ 5,
    fun c => 3 + (-3) * (R * c) + (-3) * (R * c) ^ 2,
    fun c => 6 + (-3) * (R * c) + (-9) * (R * c) ^ 2 + 6 * (R * c) ^ 2 * k + (-3) * (R * c) ^ 3 + 3 * (R * c) ^ 3 * k,
    fun c => 3 + (-6) * (R * c) + (-3) * (R * c) ^ 2 + 6 * (R * c) ^ 2 * k + 6 * (R * c) ^ 3 + 3 * (R * c) ^ 3 * k + 3 * (R * c) ^ 4,
    fun c => 1 + 2 * (R * c),
    fun c => 6 + 3 * (R * c),
    fun c => 9 + 9 * (R * c) + 9 * (R * c) ^ 2 + 6 * (R * c) ^ 2 * k + 9 * (R * c) ^ 3 + 3 * (R * c) ^ 3 * k + 3 * (R * c) ^ 4] (inside_infinite hok) (by
    simp only [List.forall_mem_cons, List.not_mem_nil, false_implies, implies_true, and_true]
    exact ⟨⟨by is_poly, 0, by simp⟩, ⟨by is_poly, 0, by simp⟩, ⟨by is_poly, 0, by simp⟩, ⟨by is_poly, 0, by simp⟩, ⟨by is_poly, 0, by simp⟩, ⟨by is_poly, 0, by simp⟩, ⟨by is_poly, 0, by simp⟩, ⟨by is_poly, 0, by simp⟩, ⟨by is_poly, 0, by simp⟩, ⟨by is_poly, 0, by simp⟩, ⟨by is_poly, 0, by simp⟩, ⟨by is_poly, 0, by simp⟩, by is_poly, 0, by simp⟩)).nonempty
  simp only [List.forall_mem_cons, List.not_mem_nil, false_implies, implies_true, and_true] at hne
  obtain ⟨n0, n1, n2, n4, n5, n6, n7, n8, n9, n10, n11, n13, n14⟩ := hne
  have hc0 : 0 < c := lt_of_le_of_lt (by exact_mod_cast hmu) hc.1
  obtain ⟨s, hs⟩ : ∃ s : ℝ, s = R * c := ⟨_, rfl⟩
  rw [← hs] at n0 n1 n2 n4 n5 n6 n7 n8 n9 n10 n11 n13 n14
  have hs0 : 0 < s := by rw [hs]; positivity
  have hw : 0 < 1 + s := by positivity
  have hw' := hw.ne'
  have hs' := hs0.ne'
  -- the points of the run
  obtain ⟨X, hX⟩ : ∃ x : ℝ, x = (1 + 2 * s) / (1 - s) := ⟨_, rfl⟩
  obtain ⟨J, hJ⟩ : ∃ x : ℝ, x = (-2 * s - s ^ 2) / (1 - s) := ⟨_, rfl⟩
  obtain ⟨P1, hP1⟩ : ∃ x : ℝ, x = (1 + (-3) * s + (-1) * s ^ 2) / ((1 - s) * (1 + s)) := ⟨_, rfl⟩
  obtain ⟨P2, hP2⟩ : ∃ x : ℝ, x = (1 + (-2) * s + 2 * s ^ 2 + 2 * s ^ 3) / ((1 - s) * (1 + s) ^ 2) := ⟨_, rfl⟩
  obtain ⟨J', hJ'⟩ : ∃ x : ℝ, x = J + k * (P2 - P1) := ⟨_, rfl⟩
  obtain ⟨Q1, hQ1⟩ : ∃ x : ℝ, x = (1 + (-4) * s + (-3) * s ^ 2 + 6 * s ^ 2 * k + (-2) * s ^ 3 + 3 * s ^ 3 * k + (-1) * s ^ 4) / ((1 - s) * (1 + s) ^ 3) := ⟨_, rfl⟩
  obtain ⟨Q2, hQ2⟩ : ∃ x : ℝ, x = (1 + (-3) * s + 5 * s ^ 2 + 7 * s ^ 3 + (-6) * s ^ 3 * k + (-3) * s ^ 4 * k + (-1) * s ^ 5) / ((1 - s) * (1 + s) ^ 4) := ⟨_, rfl⟩
  have eX1 : X + J = 1 + s := by rw [hX, hJ]; field_simp; ring
  have eX2 : 1 - J - s * X = 1 + s := by rw [hX, hJ]; field_simp; ring
  have eP1 : P1 * (1 + s) = 1 + J := by rw [hP1, hJ]; field_simp; ring
  have eP2 : P2 * (1 + s) = P1 - s - J := by rw [hP1, hP2, hJ]; field_simp; ring
  have eQ1 : Q1 * (1 + s) = P2 + J' := by rw [hQ1, hJ', hP1, hP2, hJ]; field_simp; ring
  have eQ2 : Q2 * (1 + s) = Q1 - s * P2 - J' := by rw [hQ1, hQ2, hJ', hP1, hP2, hJ]; field_simp; ring
  have dne : ∀ {x y z : ℝ}, z ≠ 0 → x - y = z → x ≠ y := fun hz e h => by rw [h, sub_self] at e; exact hz e.symm
  have b1 : (P1 : ℝ) ≠ 0 := dne (z := (1 + (-3) * s + (-1) * s ^ 2) / ((1 - s) * (1 + s) ^ 1)) (div_ne_zero (n1) (mul_ne_zero n0 (pow_ne_zero _ hw'))) (by rw [hP1]; field_simp; ring)
  have b2 : (Q1 : ℝ) ≠ 0 := dne (z := (1 + (-4) * s + (-3) * s ^ 2 + 6 * s ^ 2 * k + (-2) * s ^ 3 + 3 * s ^ 3 * k + (-1) * s ^ 4) / ((1 - s) * (1 + s) ^ 3)) (div_ne_zero (n2) (mul_ne_zero n0 (pow_ne_zero _ hw'))) (by rw [hQ1]; field_simp; ring)
  have b3 : (1 : ℝ) ≠ P1 := dne (z := s * (3) / ((1 - s) * (1 + s) ^ 1)) (div_ne_zero (mul_ne_zero hs' (by norm_num)) (mul_ne_zero n0 (pow_ne_zero _ hw'))) (by rw [hP1]; field_simp; ring)
  have b4 : (1 : ℝ) ≠ Q1 := dne (z := s * (6 + 3 * s + (-6) * s * k + (-3) * s ^ 2 * k) / ((1 - s) * (1 + s) ^ 3)) (div_ne_zero (mul_ne_zero hs' n4) (mul_ne_zero n0 (pow_ne_zero _ hw'))) (by rw [hQ1]; field_simp; ring)
  have b5 : (P1 : ℝ) ≠ Q1 := dne (z := s * (3 + (-3) * s + (-6) * s * k + (-3) * s ^ 2 + (-3) * s ^ 2 * k) / ((1 - s) * (1 + s) ^ 3)) (div_ne_zero (mul_ne_zero hs' n5) (mul_ne_zero n0 (pow_ne_zero _ hw'))) (by rw [hP1, hQ1]; field_simp; ring)
  have b6 : (P2 : ℝ) ≠ 0 := dne (z := (1 + (-2) * s + 2 * s ^ 2 + 2 * s ^ 3) / ((1 - s) * (1 + s) ^ 2)) (div_ne_zero (n6) (mul_ne_zero n0 (pow_ne_zero _ hw'))) (by rw [hP2]; field_simp; ring)
  have b7 : (Q2 : ℝ) ≠ 0 := dne (z := (1 + (-3) * s + 5 * s ^ 2 + 7 * s ^ 3 + (-6) * s ^ 3 * k + (-3) * s ^ 4 * k + (-1) * s ^ 5) / ((1 - s) * (1 + s) ^ 4)) (div_ne_zero (n7) (mul_ne_zero n0 (pow_ne_zero _ hw'))) (by rw [hQ2]; field_simp; ring)
  have b8 : (1 : ℝ) ≠ P2 := dne (z := s * (3 + (-3) * s + (-3) * s ^ 2) / ((1 - s) * (1 + s) ^ 2)) (div_ne_zero (mul_ne_zero hs' n8) (mul_ne_zero n0 (pow_ne_zero _ hw'))) (by rw [hP2]; field_simp; ring)
  have b9 : (1 : ℝ) ≠ Q2 := dne (z := s * (6 + (-3) * s + (-9) * s ^ 2 + 6 * s ^ 2 * k + (-3) * s ^ 3 + 3 * s ^ 3 * k) / ((1 - s) * (1 + s) ^ 4)) (div_ne_zero (mul_ne_zero hs' n9) (mul_ne_zero n0 (pow_ne_zero _ hw'))) (by rw [hQ2]; field_simp; ring)
  have b10 : (P2 : ℝ) ≠ Q2 := dne (z := s * (3 + (-6) * s + (-3) * s ^ 2 + 6 * s ^ 2 * k + 6 * s ^ 3 + 3 * s ^ 3 * k + 3 * s ^ 4) / ((1 - s) * (1 + s) ^ 4)) (div_ne_zero (mul_ne_zero hs' n10) (mul_ne_zero n0 (pow_ne_zero _ hw'))) (by rw [hP2, hQ2]; field_simp; ring)
  have b11 : (X : ℝ) ≠ 0 := dne (z := (1 + 2 * s) / ((1 - s))) (div_ne_zero (n11) (n0)) (by rw [hX]; field_simp; ring)
  have b12 : (X : ℝ) ≠ 1 := dne (z := s * (3) / ((1 - s))) (div_ne_zero (mul_ne_zero hs' (by norm_num)) (n0)) (by rw [hX]; field_simp; ring)
  have b13 : (X : ℝ) ≠ P2 := dne (z := s * (6 + 3 * s) / ((1 - s) * (1 + s) ^ 2)) (div_ne_zero (mul_ne_zero hs' n13) (mul_ne_zero n0 (pow_ne_zero _ hw'))) (by rw [hX, hP2]; field_simp; ring)
  have b14 : (X : ℝ) ≠ Q2 := dne (z := s * (9 + 9 * s + 9 * s ^ 2 + 6 * s ^ 2 * k + 9 * s ^ 3 + 3 * s ^ 3 * k + 3 * s ^ 4) / ((1 - s) * (1 + s) ^ 4)) (div_ne_zero (mul_ne_zero hs' n14) (mul_ne_zero n0 (pow_ne_zero _ hw'))) (by rw [hX, hQ2]; field_simp; ring)
  clear hP1 hP2 hQ1 hQ2 hX hJ
  obtain ⟨i, hi⟩ : ∃ x : ℝ, R * x = J := ⟨J / R, by field_simp⟩
  obtain ⟨i', hi'⟩ : ∃ x : ℝ, x = i + p "alpha" * p "h" / Ind * (P2 - P1) := ⟨_, rfl⟩
  have hJi : R * i' = J' := by rw [hi', hJ', hk, ← hi]; ring
  obtain ⟨i2, hi2⟩ : ∃ x : ℝ, x = i + (1 - p "beta") * p "h" / Ind * (P2 - P1) := ⟨_, rfl⟩
  obtain ⟨e1, he1⟩ : ∃ x : ℝ, x = 1 - s - J := ⟨_, rfl⟩
  obtain ⟨e2, he2⟩ : ∃ x : ℝ, x = Q2 - s * Q2 - R * i2 := ⟨_, rfl⟩
  obtain ⟨E_1, h12⟩ : ∃ E_1, E_1 = Ind / 2 * ‖i‖ ^ 2 + p "gamma" * ‖e1‖ ^ 2 := ⟨_, rfl⟩
  obtain ⟨E_2, h13⟩ : ∃ E_2, E_2 = Ind / 2 * ‖i2‖ ^ 2 + p "gamma" * ‖e2‖ ^ 2 := ⟨_, rfl⟩
  obtain ⟨Delta_1, h14⟩ : ∃ D, D = p "eta" * (c / 2 * 1 ^ 2 + c / 2 * 1 ^ 2 + c / 2 * 1 ^ 2) := ⟨_, rfl⟩
  obtain ⟨V, hV⟩ : ∃ V : Vals ℝ, V = ⟨fun n => [0, 0, 0, 0, 0, i, X, c * X, X - J - s * X, 1 + s, 1, c * 1, 1 + s, 1, c * 1, i, c * 1, e1, 1 + J, P1, c * P1,
        P1 - s - J, P2, c * P2, i', c * P2, P2 - s * P2 - J', P2 + J', Q1, c * Q1, Q1 - s * P2 - J', Q2, c * Q2, i2, c * Q2, e2, 0].getD n 0,
      fun i => [0, 0, 0, 0, 0, c / 2 * X ^ 2, c / 2 * 1 ^ 2, c / 2 * 1 ^ 2, c / 2 * 1 ^ 2, c / 2 * P1 ^ 2, c / 2 * P2 ^ 2, c / 2 * P2 ^ 2, c / 2 * Q1 ^ 2,
        c / 2 * Q2 ^ 2, c / 2 * Q2 ^ 2, E_1, E_2, Delta_1, E_2 - (E_1 - Delta_1)].getD i 0,
      fun i => [Finsupp.single 0 1, Finsupp.single 1 1, Finsupp.single 2 1, Finsupp.single 0 1 + Finsupp.single 1 1 + Finsupp.single 2 1].getD i 0⟩ := ⟨_, rfl⟩
  refine ⟨fun k => [quadF c 0, quadF c 0, quadF c 0].getD k (quadF c 0), V, ?_, ?_, ?_, ?_, ?_⟩
  all_goals calls_simp [davisYin]
  · exact instance_of_list (.cons (quadF_holds hmu hc 0) (.cons (quadF_holds hmu hc 0) (.cons (quadF_holds hmu hc 0) .nil)))
  · rintro (_ | _ | _ | k) d hd
    · injection hd with hd; subst hd; exact quadF_strict hmu hc 0
    · injection hd with hd; subst hd; exact quadF_strict hmu hc 0
    · injection hd with hd; subst hd; exact quadF_strict hmu hc 0
    · simp [decls] at hd
  · subst hV
    refine ⟨rfl, rfl, rfl, rfl, ⟨?_, rfl⟩, smp (quadF_smp0 hc0), smp (quadF_smp0 hc0), smp (quadF_smp0 hc0), ?_, trivial, trivial, trivial, smp (quadF_smp hc0 _), ?_,
      ?_, ⟨smp (quadF_smp hc0 _), ?_⟩, ?_, ⟨smp (quadF_smp hc0 _), ?_⟩, ?_, smp (quadF_smp hc0 _), ?_,
      ?_, ⟨smp (quadF_smp hc0 _), ?_⟩, ?_, ⟨smp (quadF_smp hc0 _), ?_⟩, ?_, smp (quadF_smp hc0 _), ?_,
      ?_, ⟨smp (quadF_smp hc0 _), ?_⟩, ?_, ⟨smp (quadF_smp hc0 _), ?_⟩, ?_, smp (quadF_smp hc0 _), ?_, ?_, ?_, ?_, ?_, rfl, trivial, trivial⟩
    · have := smp3 (SR := fun k => ([quadF c 0, quadF c 0, quadF c 0].getD k (quadF c 0)).Sample) (quadF_smp0 hc0) (quadF_smp0 hc0) (quadF_smp0 hc0)
      simp only [add_zero] at this
      exact this
    · simp [Instr.Meets, Instr.next]
    · simp [Instr.Meets, Instr.next]; linear_combination hi - X * hs
    · simp [Instr.Meets, Instr.next]; linear_combination -eX1 - X * hs
    · simp [Instr.next]; linear_combination -hs
    · simp [Instr.Meets, Instr.next]; linear_combination -eX2
    · simp [Instr.next]; linear_combination -hs
    · simp [Instr.Meets, Instr.next]
    · simp [Instr.Meets, Instr.next]; linear_combination he1 - hs + hi
    · simp [Instr.Meets, Instr.next]; linear_combination he1 - hs
    · simp [Instr.next]; linear_combination eP1 - P1 * hs
    · simp [Instr.Meets, Instr.next]; linear_combination -he1
    · simp [Instr.next]; linear_combination eP2 - P2 * hs
    · simpa [Instr.Meets, Instr.next] using hi'
    · simp [Instr.Meets, Instr.next]; linear_combination hJi - P2 * hs
    · simp [Instr.Meets, Instr.next]; linear_combination -P2 * hs
    · simp [Instr.next]; linear_combination eQ1 - Q1 * hs
    · simp [Instr.Meets, Instr.next]; ring
    · simp [Instr.next]; linear_combination eQ2 - Q2 * hs
    · simpa [Instr.Meets, Instr.next] using hi2
    · simp [Instr.Meets, Instr.next]; linear_combination he2 - Q2 * hs
    · simp [Instr.Meets, Instr.next]
    · simpa [Instr.Meets, Instr.next] using h12
    · simpa [Instr.Meets, Instr.next] using h13
    · simpa [Instr.Meets, Instr.next] using h14
  · subst hV
    simp [consVals]
  · subst hV
    have hre : (defDecl mu (some L)).reuse = true := by by_cases h0 : mu = 0 <;> simp [defDecl, h0, FnDecl.reuse]
    rintro (_ | _ | _ | k) d hd
    · injection hd with hd; subst hd
      refine .inr ⟨hre, ?_⟩
      simp [calls, callsFrom, Instr.callsOf, Instr.next, declIndex, Instr.declares, b1, Ne.symm b1, b2, Ne.symm b2, b3, Ne.symm b3, b4, Ne.symm b4, b5, Ne.symm b5]
    · injection hd with hd; subst hd
      refine .inr ⟨hre, ?_⟩
      simp [calls, callsFrom, Instr.callsOf, Instr.next, declIndex, Instr.declares, b6, Ne.symm b6, b7, Ne.symm b7, b8, Ne.symm b8, b9, Ne.symm b9, b10, Ne.symm b10]
    · injection hd with hd; subst hd
      refine .inr ⟨hre, ?_⟩
      simp [calls, callsFrom, Instr.callsOf, Instr.next, declIndex, Instr.declares, b6, Ne.symm b6, b7, Ne.symm b7, b8, Ne.symm b8, b9, Ne.symm b9, b10, Ne.symm b10, b11, Ne.symm b11, b12, Ne.symm b12, b13, Ne.symm b13, b14, Ne.symm b14]
    · simp [decls] at hd

/-- **C69** for `davis_yin_splitting` (`classical_central_vi.py` 393-451) with smooth functions, for all class parameters, inductances and positive resistances:
at all parameter values the nonlinear program of `solve_ipopt` has a feasible point with these parameters if and only if the energy inequality holds for all functions
of the class and all steps (and `eta`, `rho`, `h` are not negative).  The extra equality constraint of the circuit does not matter: every run satisfies it. -/
theorem C69_davisYin (hC : C.Lawful) {mu L : ℚ} (R Ind : ℚ) (hmu : 0 ≤ mu) (hL : mu < L) (hR : 0 < R) :
    ∃ r h nlp h', runProblem C (davisYin mu (some L) R Ind).prog Heap.empty = .ok (r, h) ∧ solveIpopt C r stdParams [] [] h = .ok (nlp, h') ∧
      ∀ p : Name → ℝ, ((∃ σ, nlp.state.Sat σ ∧ ∀ n ∈ scalarNames stdParams, nlp.state.value σ n = p n) ↔
        DavisYinStep mu L R Ind p ∧ 0 ≤ p "eta" ∧ 0 ≤ p "rho" ∧ 0 ≤ p "h") := by
  have hok := defDecl_ok hmu hL
  have hs : SafeProg (davisYin mu (some L) R Ind).prog ⟨0, 0, 0⟩ = true := by calls_simp [davisYin]; safe_simp [hR.ne']
  have hd : ∀ d ∈ decls (davisYin mu (some L) R Ind).prog, d.Ok := by
    calls_simp [davisYin]
    simp [decls, hok]
  obtain ⟨r, h, nlp, h', hr, hn, hiff⟩ := complete_of_redundant (prog := (davisYin mu (some L) R Ind).prog) (params := stdParams)
    (Gen := fun _ => True) hC hs (by calls_simp [davisYin]; simp [Instr.Clean, stdParams])
    (standard_davisYin mu (some L) R Ind).1 (by calls_simp [davisYin]; simp [Instr.Fresh])
    (fun d hm => ⟨hd d hm, (standard_davisYin mu (some L) R Ind).2 d hm⟩) stdParams_simple
    (by calls_simp [davisYin]; exact ⟨18, by simp⟩) ⟨fun _ => 1, trivial⟩ (fun p _ => redundant_davisYin R Ind hmu hL hR.ne' p)
    fun p _ => run_davisYin R Ind hmu hL hR p
  refine ⟨r, h, nlp, h', hr, hn, fun p => ?_⟩
  have hinv : InvOk stdParams p := fun v hv => absurd hv (by rw [show invParams stdParams = [] by decide]; simp)
  rw [hiff p trivial, guaranteed_davisYin _ _ hmu hL hR.ne']
  simp [hinv]

end Verif
