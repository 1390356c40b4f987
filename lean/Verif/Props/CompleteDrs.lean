import Verif.Proofs.CompleteEq
import Verif.Props.CompleteProxGrad

/-!
# C69 for Douglas-Rachford splitting
-/

namespace Verif
open Build
open scoped InnerProductSpace

set_option linter.unusedSimpArgs false

variable {C : CAS}

/-- the energy inequality of `douglas_rachford_splitting` (`classical_central_vi.py` 344-390) for all functions of the class and all steps: `y_star` is the gradient of
`f1` at the solution and `-y_star` that of `f2`, the steps of the two resistors are proximal steps with the resistance, the current `i_L` follows the two-stage
Runge-Kutta step -/
def DouglasRachfordStep (mu L R Ind : ℚ) (p : Name → ℝ) : Prop :=
  ∀ (E : Type) [NormedAddCommGroup E] [InnerProductSpace ℝ E] (f1 f2 : CFun E), (defDecl mu (some L)).Holds f1 → (defDecl mu (some L)).Holds f2 →
    ∀ (x_star y_star i_L_0 x2_0 x1_1 y1_1 x2_1 y2_1 i_L_1 x1_1p5 y1_1p5 x2_1p5 y2_1p5 i_L_1p5 x1_2 y1_2 x2_2 y2_2 i_L_2 : E)
      (f1_star f2_star f1_1 f2_1 f1_1p5 f2_1p5 f1_2 f2_2 : ℝ),
      f1.Sample x_star y_star f1_star → f2.Sample x_star (-y_star) f2_star →
      f1.Prox R (x2_0 + (R : ℝ) • i_L_0) x1_1 y1_1 f1_1 → f2.Prox R (x1_1 - (R : ℝ) • i_L_0) x2_1 y2_1 f2_1 →
      i_L_1 = i_L_0 + (p "h" / Ind) • (x2_1 - x1_1) →
      f1.Prox R (x2_1 + (R : ℝ) • i_L_1) x1_1p5 y1_1p5 f1_1p5 → f2.Prox R (x1_1p5 - (R : ℝ) • i_L_1) x2_1p5 y2_1p5 f2_1p5 →
      i_L_1p5 = i_L_1 + (p "alpha" * p "h" / Ind) • (x2_1 - x1_1) →
      f1.Prox R (x2_1p5 + (R : ℝ) • i_L_1p5) x1_2 y1_2 f1_2 → f2.Prox R (x1_2 - (R : ℝ) • i_L_1p5) x2_2 y2_2 f2_2 →
      i_L_2 = i_L_1 + (p "beta" * p "h" / Ind) • (x2_1 - x1_1) + ((1 - p "beta") * p "h" / Ind) • (x2_1p5 - x1_1p5) →
      Ind / 2 * ‖i_L_2 - y_star‖ ^ 2 + p "gamma" * ‖x2_2 - x_star‖ ^ 2 ≤ Ind / 2 * ‖i_L_1 - y_star‖ ^ 2 + p "gamma" * ‖x2_1 - x_star‖ ^ 2
        - (p "rho" * R * ‖y1_1 - i_L_1‖ ^ 2 + p "eta" * (f1_1 + f2_1 - ⟪y_star, x1_1 - x_star⟫_ℝ + ⟪y_star, x2_1 - x_star⟫_ℝ - (f1_star + f2_star)))

section
variable {E : Type} [NormedAddCommGroup E] [InnerProductSpace ℝ E]

theorem smp2_values {SR : ℕ → E → E → ℝ → Prop} {x g : E} {v : ℝ} (h : SumSample SR (Finsupp.single 0 1 + Finsupp.single 1 1) x g v) :
    ∃ g0 g1 v0 v1, SR 0 x g0 v0 ∧ SR 1 x g1 v1 ∧ g = g0 + g1 ∧ v = v0 + v1 := by
  obtain ⟨G, V, h1, h2, h3⟩ := h
  refine ⟨G 0, G 1, V 0, V 1, h1 0 (by simp), h1 1 (by simp), ?_, ?_⟩
  · rw [h2, Finsupp.sum_add_index' (by simp) (by intros; rw [add_smul])]
    simp
  · rw [h3, Finsupp.sum_add_index' (by simp) (by intros; ring)]
    simp
end

theorem guaranteed_douglasRachford {mu L : ℚ} (R Ind : ℚ) (hmu : 0 ≤ mu) (hL : mu < L) {p : Name → ℝ} :
    Guaranteed (douglasRachford mu (some L) R Ind).prog p ↔ DouglasRachfordStep mu L R Ind p := by
  calls_simp [douglasRachford]
  constructor
  · intro hc E _ _ f1 f2 hf1 hf2 x_star y_star i_L_0 x2_0 x1_1 y1_1 x2_1 y2_1 i_L_1 x1_1p5 y1_1p5 x2_1p5 y2_1p5 i_L_1p5 x1_2 y1_2 x2_2 y2_2 i_L_2
      f1_star f2_star f1_1 f2_1 f1_1p5 f2_1p5 f1_2 f2_2 h1 h2 h3 h4 h5 h6 h7 h8 h9 h10 h11
    obtain ⟨a3, k3⟩ : ∃ a, a = x2_0 + (R : ℝ) • i_L_0 := ⟨_, rfl⟩
    obtain ⟨a4, k4⟩ : ∃ a, a = x1_1 - (R : ℝ) • i_L_0 := ⟨_, rfl⟩
    obtain ⟨a6, k6⟩ : ∃ a, a = x2_1 + (R : ℝ) • i_L_1 := ⟨_, rfl⟩
    obtain ⟨a7, k7⟩ : ∃ a, a = x1_1p5 - (R : ℝ) • i_L_1 := ⟨_, rfl⟩
    obtain ⟨a9, k9⟩ : ∃ a, a = x2_1p5 + (R : ℝ) • i_L_1p5 := ⟨_, rfl⟩
    obtain ⟨a10, k10⟩ : ∃ a, a = x1_2 - (R : ℝ) • i_L_1p5 := ⟨_, rfl⟩
    rw [← k3] at h3
    rw [← k4] at h4
    rw [← k6] at h6
    rw [← k7] at h7
    rw [← k9] at h9
    rw [← k10] at h10
    obtain ⟨E_1, h12⟩ : ∃ E_1, E_1 = Ind / 2 * ‖i_L_1 - y_star‖ ^ 2 + p "gamma" * ‖x2_1 - x_star‖ ^ 2 := ⟨_, rfl⟩
    obtain ⟨E_2, h13⟩ : ∃ E_2, E_2 = Ind / 2 * ‖i_L_2 - y_star‖ ^ 2 + p "gamma" * ‖x2_2 - x_star‖ ^ 2 := ⟨_, rfl⟩
    obtain ⟨Delta_1, h14⟩ : ∃ D, D = p "rho" * R * ‖y1_1 - i_L_1‖ ^ 2 +
      p "eta" * (f1_1 + f2_1 - ⟪y_star, x1_1 - x_star⟫_ℝ + ⟪y_star, x2_1 - x_star⟫_ℝ - (f1_star + f2_star)) := ⟨_, rfl⟩
    have key := hc.vals (fs := fun k => [f1, f2].getD k f1) (e := 13) (by safe_simp []) (instance_of_list (.cons hf1 (.cons hf2 .nil)))
      ⟨fun i => [x_star, 0, y_star, -y_star, i_L_0, x2_0, a3, x1_1, y1_1, a4, x2_1, y2_1, i_L_1, a6, x1_1p5, y1_1p5, a7, x2_1p5, y2_1p5, i_L_1p5,
          a9, x1_2, y1_2, a10, x2_2, y2_2, i_L_2].getD i 0,
        fun i => [f1_star + f2_star, f1_star, f2_star, 0, f1_1, f2_1, f1_1p5, f2_1p5, f1_2, f2_2, E_1, E_2, Delta_1, E_2 - (E_1 - Delta_1)].getD i 0,
        fun i => [Finsupp.single 0 1, Finsupp.single 1 1, Finsupp.single 0 1 + Finsupp.single 1 1].getD i 0⟩
      ⟨rfl, rfl, rfl, ⟨by
          have := smp2 (SR := fun k => ([f1, f2].getD k f1).Sample) h1 h2
          rw [add_neg_cancel] at this; exact this, rfl⟩, smp h1, smp h2, by simp [Instr.Meets, Instr.next], trivial, trivial, trivial,
        by simpa [Instr.Meets, Instr.next] using k3, ⟨smp h3.1, by simpa [Instr.next] using h3.2⟩,
        by simpa [Instr.Meets, Instr.next] using k4, ⟨smp h4.1, by simpa [Instr.next] using h4.2⟩,
        by simpa [Instr.Meets, Instr.next] using h5,
        by simpa [Instr.Meets, Instr.next] using k6, ⟨smp h6.1, by simpa [Instr.next] using h6.2⟩,
        by simpa [Instr.Meets, Instr.next] using k7, ⟨smp h7.1, by simpa [Instr.next] using h7.2⟩,
        by simpa [Instr.Meets, Instr.next] using h8,
        by simpa [Instr.Meets, Instr.next] using k9, ⟨smp h9.1, by simpa [Instr.next] using h9.2⟩,
        by simpa [Instr.Meets, Instr.next] using k10, ⟨smp h10.1, by simpa [Instr.next] using h10.2⟩,
        by simpa [Instr.Meets, Instr.next] using h11, by simpa [Instr.Meets, Instr.next] using h12, by simpa [Instr.Meets, Instr.next] using h13,
        by simpa [Instr.Meets, Instr.next] using h14, rfl, trivial, trivial⟩
      (by simp [consVals]) rfl
    simp only [List.getD_cons_succ, List.getD_cons_zero] at key
    linarith
  · intro h
    refine guaranteed_of_vals (by safe_simp []) (e := 13) rfl fun {E} _ _ fs hi V hm _ => ?_
    simp [MeetsAll, Instr.Meets, Instr.next] at hm
    obtain ⟨d0, d1, d2, ⟨s0, z0⟩, s1, s2, m3, k3, ⟨s3, n3⟩, k4, ⟨s4, n4⟩, m5, k6, ⟨s6, n6⟩, k7, ⟨s7, n7⟩, m8, k9, ⟨s9, n9⟩, k10, ⟨s10, n10⟩, m11, m12, m13, m14, m15⟩ := hm
    rw [d0, d1] at d2
    rw [d2, z0] at s0
    rw [d0] at s1 s3 s6 s9
    rw [d1] at s2 s4 s7 s10
    obtain ⟨g0, g1, v0, v1, a0, a1, e, ev⟩ := smp2_values s0
    have hu := gradient_unique hmu hL (hi 0 _ rfl) a0 (sample_of_single s1)
    have hu2 := gradient_unique hmu hL (hi 1 _ rfl) a1 (sample_of_single s2)
    have hg1 : g1 = -V.pt 2 := by rw [← hu]; exact (neg_eq_of_add_eq_zero_right e.symm).symm
    rw [hg1] at a1
    rw [hu] at a0
    have := h E (fs 0) (fs 1) (hi 0 _ rfl) (hi 1 _ rfl) _ _ (V.pt 4) (V.pt 5) _ _ _ _ _ _ _ _ _ _ _ _ _ _ _ _ _ _ _ _ _ _ _ a0 a1
      ⟨sample_of_single s3, by rw [← k3]; exact n3⟩ ⟨sample_of_single s4, by rw [← k4]; exact n4⟩ m5 ⟨sample_of_single s6, by rw [← k6]; exact n6⟩
      ⟨sample_of_single s7, by rw [← k7]; exact n7⟩ m8 ⟨sample_of_single s9, by rw [← k9]; exact n9⟩ ⟨sample_of_single s10, by rw [← k10]; exact n10⟩ m11
    rw [← hu2, hg1, inner_neg_left] at m14
    rw [m15, m12, m13, m14, ev]
    linarith

/-- the constraint `y1_star + y2_star = y_star` of `douglas_rachford_splitting` is redundant for differentiable functions -/
theorem redundant_douglasRachford {mu L : ℚ} (R Ind : ℚ) (hmu : 0 ≤ mu) (hL : mu < L) (p : Name → ℝ) :
    Redundant (douglasRachford mu (some L) R Ind).prog p := by
  calls_simp [douglasRachford]
  intro E _ _ fs hi rr hx c hc _
  obtain ⟨hm, hcs⟩ := meets_of_realExec (by safe_simp []) hx
  rw [hcs] at hc
  generalize rr.vals = V at hm hc
  simp [MeetsAll, Instr.Meets, Instr.next] at hm
  obtain ⟨d0, d1, d2, ⟨s0, z0⟩, s1, s2, m3, -⟩ := hm
  rw [d0, d1] at d2
  rw [d2, z0] at s0
  rw [d0] at s1
  rw [d1] at s2
  obtain ⟨g0, g1, v0, v1, a0, a1, e, -⟩ := smp2_values s0
  have hu := gradient_unique hmu hL (hi 0 _ rfl) a0 (sample_of_single s1)
  have hu2 := gradient_unique hmu hL (hi 1 _ rfl) a1 (sample_of_single s2)
  simp [consVals] at hc
  rw [hc]
  simp only
  rw [m3, z0, ← hu, ← hu2, ← e]
  simp

theorem run_douglasRachford {mu L : ℚ} (R Ind : ℚ) (hmu : 0 ≤ mu) (hL : mu < L) (hR : 0 < R) (p : Name → ℝ) :
    ∃ fs V, RedundantRun (douglasRachford mu (some L) R Ind).prog p fs V := by
  have hR' : (0 : ℝ) < R := by exact_mod_cast hR
  have hok := defDecl_ok hmu hL
  obtain ⟨c, hc, hne⟩ := (generic [fun c => 1 - R * c, fun c => 1 - R * c - (R * c) ^ 2 - (R * c) ^ 3] (inside_infinite hok) (by
    simp only [List.forall_mem_cons, List.not_mem_nil, false_implies, implies_true, and_true]
    exact ⟨⟨by is_poly, 0, by simp⟩, by is_poly, 0, by simp⟩)).nonempty
  simp only [List.forall_mem_cons, List.not_mem_nil, false_implies, implies_true, and_true] at hne
  obtain ⟨n1, n2⟩ := hne
  have hc0 : 0 < c := lt_of_le_of_lt (by exact_mod_cast hmu) hc.1
  obtain ⟨s, hs⟩ : ∃ s : ℝ, s = R * c := ⟨_, rfl⟩
  rw [← hs] at n1 n2
  have hs0 : 0 < s := by rw [hs]; positivity
  have hw : 0 < 1 + s := by positivity
  -- the points of the run
  obtain ⟨P1, hP1⟩ : ∃ x : ℝ, x = (1 - s) / (1 + s) := ⟨_, rfl⟩
  obtain ⟨P2, hP2⟩ : ∃ x : ℝ, x = (1 + s ^ 2) / (1 + s) ^ 2 := ⟨_, rfl⟩
  obtain ⟨Q1, hQ1⟩ : ∃ x : ℝ, x = (1 - s - s ^ 2 - s ^ 3) / (1 + s) ^ 3 := ⟨_, rfl⟩
  obtain ⟨Q2, hQ2⟩ : ∃ x : ℝ, x = (1 + 2 * s ^ 2 + 2 * s ^ 3 + s ^ 4) / (1 + s) ^ 4 := ⟨_, rfl⟩
  have eP1 : P1 * (1 + s) = 1 - s := by rw [hP1]; field_simp
  have eP2 : P2 * (1 + s) = P1 + s := by rw [hP1, hP2]; field_simp; ring
  have eQ1 : Q1 * (1 + s) = P2 - s := by rw [hQ1, hP2]; field_simp; ring
  have eQ2 : Q2 * (1 + s) = Q1 + s := by rw [hQ1, hQ2]; field_simp; ring
  have dne : ∀ {x y z : ℝ}, 0 < z → x - y = z → x ≠ y := fun hz e h => by rw [h, sub_self] at e; exact hz.ne e
  have b1 : P1 ≠ 0 := by rw [hP1]; exact div_ne_zero n1 hw.ne'
  have b2 : Q1 ≠ 0 := by rw [hQ1]; exact div_ne_zero n2 (by positivity)
  have b3 : (1 : ℝ) ≠ P1 := dne (z := 2 * s / (1 + s)) (by positivity) (by rw [hP1]; field_simp; ring)
  have b4 : (1 : ℝ) ≠ Q1 := dne (z := (4 * s + 4 * s ^ 2 + 2 * s ^ 3) / (1 + s) ^ 3) (by positivity) (by rw [hQ1]; field_simp; ring)
  have b5 : P1 ≠ Q1 := dne (z := 2 * s / (1 + s) ^ 3) (by positivity) (by rw [hP1, hQ1]; field_simp; ring)
  have b6 : P2 ≠ 0 := by rw [hP2]; positivity
  have b7 : Q2 ≠ 0 := by rw [hQ2]; positivity
  have b8 : (1 : ℝ) ≠ P2 := dne (z := 2 * s / (1 + s) ^ 2) (by positivity) (by rw [hP2]; field_simp; ring)
  have b9 : (1 : ℝ) ≠ Q2 := dne (z := (4 * s + 4 * s ^ 2 + 2 * s ^ 3) / (1 + s) ^ 4) (by positivity) (by rw [hQ2]; field_simp; ring)
  have b10 : P2 ≠ Q2 := dne (z := 2 * s / (1 + s) ^ 4) (by positivity) (by rw [hP2, hQ2]; field_simp; ring)
  clear hP1 hP2 hQ1 hQ2
  obtain ⟨i2, hi2⟩ : ∃ x : ℝ, x = -c + (1 - p "beta") * p "h" / Ind * (P2 - P1) := ⟨_, rfl⟩
  obtain ⟨E_1, h12⟩ : ∃ E_1, E_1 = Ind / 2 * ‖(-c : ℝ)‖ ^ 2 + p "gamma" * ‖(1 : ℝ)‖ ^ 2 := ⟨_, rfl⟩
  obtain ⟨E_2, h13⟩ : ∃ E_2, E_2 = Ind / 2 * ‖i2‖ ^ 2 + p "gamma" * ‖Q2‖ ^ 2 := ⟨_, rfl⟩
  obtain ⟨Delta_1, h14⟩ : ∃ D, D = p "rho" * R * ‖c - -c‖ ^ 2 + p "eta" * (c / 2 * 1 ^ 2 + c / 2 * 1 ^ 2) := ⟨_, rfl⟩
  obtain ⟨V, hV⟩ : ∃ V : Vals ℝ, V = ⟨fun n => [0, 0, 0, 0, -c, 1 + 2 * s, 1 + s, 1, c * 1, 1 + s, 1, c * 1, -c, 1 - s, P1, c * P1, P1 + s, P2, c * P2, -c,
        P2 - s, Q1, c * Q1, Q1 + s, Q2, c * Q2, i2].getD n 0,
      fun i => [0, 0, 0, 0, c / 2 * 1 ^ 2, c / 2 * 1 ^ 2, c / 2 * P1 ^ 2, c / 2 * P2 ^ 2, c / 2 * Q1 ^ 2, c / 2 * Q2 ^ 2, E_1, E_2, Delta_1,
        E_2 - (E_1 - Delta_1)].getD i 0,
      fun i => [Finsupp.single 0 1, Finsupp.single 1 1, Finsupp.single 0 1 + Finsupp.single 1 1].getD i 0⟩ := ⟨_, rfl⟩
  refine ⟨fun k => [quadF c 0, quadF c 0].getD k (quadF c 0), V, ?_, ?_, ?_, ?_, ?_⟩
  all_goals calls_simp [douglasRachford]
  · exact instance_of_list (.cons (quadF_holds hmu hc 0) (.cons (quadF_holds hmu hc 0) .nil))
  · rintro (_ | _ | k) d hd
    · injection hd with hd; subst hd; exact quadF_strict hmu hc 0
    · injection hd with hd; subst hd; exact quadF_strict hmu hc 0
    · simp [decls] at hd
  · subst hV
    refine ⟨rfl, rfl, rfl, ⟨?_, rfl⟩, smp (quadF_smp0 hc0), smp (quadF_smp0 hc0), ?_, trivial, trivial, trivial, ?_, ⟨smp (quadF_smp hc0 _), ?_⟩, ?_,
      ⟨smp (quadF_smp hc0 _), ?_⟩, ?_, ?_, ⟨smp (quadF_smp hc0 _), ?_⟩, ?_, ⟨smp (quadF_smp hc0 _), ?_⟩, ?_, ?_, ⟨smp (quadF_smp hc0 _), ?_⟩, ?_,
      ⟨smp (quadF_smp hc0 _), ?_⟩, ?_, ?_, ?_, ?_, rfl, trivial, trivial⟩
    · have := smp2 (SR := fun k => ([quadF c 0, quadF c 0].getD k (quadF c 0)).Sample) (quadF_smp0 hc0) (quadF_smp0 hc0)
      rw [add_zero] at this; exact this
    · simp [Instr.Meets, Instr.next]
    · simp [Instr.Meets, Instr.next]; linear_combination -hs
    · simp [Instr.next]; linear_combination -hs
    · simp [Instr.Meets, Instr.next]; linear_combination hs
    · simp [Instr.next]; linear_combination -hs
    · simp [Instr.Meets, Instr.next]
    · simp [Instr.Meets, Instr.next]; linear_combination -hs
    · simp [Instr.next]; linear_combination eP1 - P1 * hs
    · simp [Instr.Meets, Instr.next]; linear_combination hs
    · simp [Instr.next]; linear_combination eP2 - P2 * hs
    · simp [Instr.Meets, Instr.next]
    · simp [Instr.Meets, Instr.next]; linear_combination -hs
    · simp [Instr.next]; linear_combination eQ1 - Q1 * hs
    · simp [Instr.Meets, Instr.next]; linear_combination hs
    · simp [Instr.next]; linear_combination eQ2 - Q2 * hs
    · simpa [Instr.Meets, Instr.next] using hi2
    · simpa [Instr.Meets, Instr.next] using h12
    · simpa [Instr.Meets, Instr.next] using h13
    · simpa [Instr.Meets, Instr.next] using h14
  · subst hV
    simp [consVals]
  · subst hV
    have hre : (defDecl mu (some L)).reuse = true := by by_cases h0 : mu = 0 <;> simp [defDecl, h0, FnDecl.reuse]
    rintro (_ | _ | k) d hd
    · injection hd with hd; subst hd
      refine .inr ⟨hre, ?_⟩
      simp [calls, callsFrom, Instr.callsOf, Instr.next, declIndex, Instr.declares, b1, b2, b3, b4, b5, Ne.symm b1, Ne.symm b2, Ne.symm b3, Ne.symm b4, Ne.symm b5]
    · injection hd with hd; subst hd
      refine .inr ⟨hre, ?_⟩
      simp [calls, callsFrom, Instr.callsOf, Instr.next, declIndex, Instr.declares, b6, b7, b8, b9, b10, Ne.symm b6, Ne.symm b7, Ne.symm b8, Ne.symm b9, Ne.symm b10]
    · simp [decls] at hd

/-- **C69** for `douglas_rachford_splitting` (`classical_central_vi.py` 344-390) with smooth functions, for all class parameters, inductances and positive resistances:
at all parameter values the nonlinear program of `solve_ipopt` has a feasible point with these parameters if and only if the energy inequality holds for all functions
of the class and all steps (and `eta`, `rho`, `h` are not negative).  The extra equality constraint of the circuit does not matter: every run satisfies it. -/
theorem C69_douglasRachford (hC : C.Lawful) {mu L : ℚ} (R Ind : ℚ) (hmu : 0 ≤ mu) (hL : mu < L) (hR : 0 < R) :
    ∃ r h nlp h', runProblem C (douglasRachford mu (some L) R Ind).prog Heap.empty = .ok (r, h) ∧ solveIpopt C r stdParams [] [] h = .ok (nlp, h') ∧
      ∀ p : Name → ℝ, ((∃ σ, nlp.state.Sat σ ∧ ∀ n ∈ scalarNames stdParams, nlp.state.value σ n = p n) ↔
        DouglasRachfordStep mu L R Ind p ∧ 0 ≤ p "eta" ∧ 0 ≤ p "rho" ∧ 0 ≤ p "h") := by
  have hok := defDecl_ok hmu hL
  have hs : SafeProg (douglasRachford mu (some L) R Ind).prog ⟨0, 0, 0⟩ = true := by calls_simp [douglasRachford]; safe_simp []
  have hd : ∀ d ∈ decls (douglasRachford mu (some L) R Ind).prog, d.Ok := by
    calls_simp [douglasRachford]
    simp [decls, hok]
  obtain ⟨r, h, nlp, h', hr, hn, hiff⟩ := complete_of_redundant (prog := (douglasRachford mu (some L) R Ind).prog) (params := stdParams)
    (Gen := fun _ => True) hC hs (by calls_simp [douglasRachford]; simp [Instr.Clean, stdParams])
    (standard_douglasRachford mu (some L) R Ind).1 (by calls_simp [douglasRachford]; simp [Instr.Fresh])
    (fun d hm => ⟨hd d hm, (standard_douglasRachford mu (some L) R Ind).2 d hm⟩) stdParams_simple
    (by calls_simp [douglasRachford]; exact ⟨13, by simp⟩) ⟨fun _ => 1, trivial⟩ (fun p _ => redundant_douglasRachford R Ind hmu hL p)
    fun p _ => run_douglasRachford R Ind hmu hL hR p
  refine ⟨r, h, nlp, h', hr, hn, fun p => ?_⟩
  have hinv : InvOk stdParams p := fun v hv => absurd hv (by rw [show invParams stdParams = [] by decide]; simp)
  rw [hiff p trivial, guaranteed_douglasRachford _ _ hmu hL]
  simp [hinv]

end Verif
