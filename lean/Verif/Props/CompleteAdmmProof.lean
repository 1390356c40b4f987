import Verif.Props.CompleteDrs
import Verif.Props.Lower

/-!
# C69, C73, C80, C81 for the two-function consensus circuit `admm_consensus_proof`
-/

namespace Verif
open Build
open scoped InnerProductSpace

set_option linter.unusedSimpArgs false

variable {C : CAS}

/-- the energy inequality of `admm_consensus_proof` (`classical_central_vi.py` 591-627) for all functions of the class and all steps: `y_star` is the gradient of `f` at the
solution and `-y_star` that of `g`, the multipliers start at `y` and `-y`, and `1 / R` takes the place of `rho` (line 605) -/
def AdmmProofStep (mu L R : ℚ) (p : Name → ℝ) : Prop :=
  ∀ (E : Type) [NormedAddCommGroup E] [InnerProductSpace ℝ E] (f g : CFun E), (defDecl mu (some L)).Holds f → (defDecl mu (some L)).Holds g →
    ∀ (x_star y_star z1 y x1 g1 x2 g2 z2 y1_2 y2_2 : E) (f_star g_star f_2 g_2 : ℝ),
      f.Sample x_star y_star f_star → g.Sample x_star (-y_star) g_star →
      f.Prox R (z1 - (R : ℝ) • y) x1 g1 f_2 → g.Prox R (z1 + (R : ℝ) • y) x2 g2 g_2 →
      z2 = (2 : ℝ)⁻¹ • (x1 + x2) → y1_2 = y - (p "h" / R) • (z2 - x1) → y2_2 = -y - (p "h" / R) • (z2 - x2) →
      R * ‖y1_2 + y_star‖ ^ 2 + R * ‖y2_2 - y_star‖ ^ 2 + 2 / R * ‖z2 - x_star‖ ^ 2 ≤ R * ‖y + y_star‖ ^ 2 + R * ‖-y - y_star‖ ^ 2 + 2 / R * ‖z1 - x_star‖ ^ 2
        - (p "eta" * (1 / R * ‖x1 - z2‖ ^ 2 + 1 / R * ‖x2 - z2‖ ^ 2) + (1 / R) ^ 2 * ‖z1 - z2‖ ^ 2)

theorem guaranteed_admmProof {mu L : ℚ} (R : ℚ) (hmu : 0 ≤ mu) (hL : mu < L) {p : Name → ℝ} :
    Guaranteed (admmConsensusProof mu (some L) R).prog p ↔ AdmmProofStep mu L R p := by
  calls_simp [admmConsensusProof]
  constructor
  · intro hc E _ _ f g hf hg x_star y_star z1 y x1 g1 x2 g2 z2 y1_2 y2_2 f_star g_star f_2 g_2 h1 h2 h3 h4 h5 h6 h7
    rw [div_eq_mul_one_div] at h6 h7
    obtain ⟨E_1, h8⟩ : ∃ e, e = R * ‖y + y_star‖ ^ 2 + R * ‖-y + -y_star‖ ^ 2 + 2 * (1 / R) * ‖z1 - x_star‖ ^ 2 := ⟨_, rfl⟩
    obtain ⟨E_2, h9⟩ : ∃ e, e = R * ‖y1_2 + y_star‖ ^ 2 + R * ‖y2_2 + -y_star‖ ^ 2 + 2 * (1 / R) * ‖z2 - x_star‖ ^ 2 := ⟨_, rfl⟩
    obtain ⟨D, h10⟩ : ∃ e, e = p "eta" * (1 / R * ‖x1 - z2‖ ^ 2 + 1 / R * ‖x2 - z2‖ ^ 2) + 1 / R * (1 / R) * ‖z1 - z2‖ ^ 2 := ⟨_, rfl⟩
    have key := hc.vals (fs := fun k => [f, g].getD k f) (e := 7) (by safe_simp []) (instance_of_list (.cons hf (.cons hg .nil)))
      ⟨fun i => [x_star, 0, y_star, -y_star, z1, y, -y, z1 - (R : ℝ) • y, x1, g1, z1 + (R : ℝ) • y, x2, g2, z2, y1_2, y2_2].getD i 0,
        fun i => [f_star + g_star, f_star, f_2, g_2, E_1, E_2, D, E_2 - (E_1 - D)].getD i 0,
        fun i => [Finsupp.single 0 1, Finsupp.single 1 1, Finsupp.single 0 1 + Finsupp.single 1 1].getD i 0⟩
      ⟨rfl, rfl, rfl, ⟨((smp (SR := fun k => ([f, g].getD k f).Sample) (k := 0) h1).addSingle (k := 1) h2 (by simp)).zero (add_neg_cancel _), rfl⟩,
        smp h1, by simp [Instr.Meets, Instr.next], trivial, trivial, by simp [Instr.Meets, Instr.next], by simp [Instr.Meets, Instr.next],
        ⟨smp h3.1, by simpa [Instr.next] using h3.2⟩, by simp [Instr.Meets, Instr.next], ⟨smp h4.1, by simpa [Instr.next] using h4.2⟩,
        by simpa [Instr.Meets, Instr.next] using h5, by simpa [Instr.Meets, Instr.next] using h6, by simpa [Instr.Meets, Instr.next] using h7,
        by simpa [Instr.Meets, Instr.next] using h8, by simpa [Instr.Meets, Instr.next] using h9, by simpa [Instr.Meets, Instr.next] using h10,
        rfl, trivial, trivial⟩
      (by simp [consVals]) rfl
    simp only [List.getD_cons_succ, List.getD_cons_zero] at key
    rw [h8, h9, h10] at key
    simp only [← sub_eq_add_neg] at key
    rw [show (2 : ℝ) * (1 / R) = 2 / R by ring, ← pow_two] at key
    linarith
  · intro h
    refine guaranteed_of_vals (by safe_simp []) (e := 7) rfl fun {E} _ _ fs hi V hm _ => ?_
    simp [MeetsAll, Instr.Meets, Instr.next] at hm
    obtain ⟨d0, d1, d2, ⟨s0, z0⟩, s1, m2, m3, m4, ⟨s5, n5⟩, m6, ⟨s7, n7⟩, m8, m9, m10, m11, m12, m13, m14⟩ := hm
    rw [d0, d1] at d2
    rw [d2, z0] at s0
    rw [d0] at s1 s5
    rw [d1] at s7
    obtain ⟨g0, g1, v0, v1, a0, a1, e, ev⟩ := smp2_values s0
    have hu := gradient_unique hmu hL (hi 0 _ rfl) a0 (sample_of_single s1)
    have hg1 : g1 = -V.pt 2 := by rw [← hu]; exact (neg_eq_of_add_eq_zero_right e.symm).symm
    rw [hg1] at a1
    rw [hu] at a0
    have e3 : V.pt 3 = -V.pt 2 := by rw [m2, z0]; simp
    have := h E (fs 0) (fs 1) (hi 0 _ rfl) (hi 1 _ rfl) _ _ (V.pt 4) (V.pt 5) _ _ _ _ (V.pt 13) (V.pt 14) (V.pt 15) _ _ _ _ a0 a1
      ⟨sample_of_single s5, by rw [n5, m4]⟩ ⟨sample_of_single s7, by rw [n7, m6, m3]; simp⟩ (by rw [m8, smul_add]) (by rw [m9]; simp [div_eq_mul_inv]) (by rw [m10, m3]; simp [div_eq_mul_inv])
    rw [m14, m11, m12, m13, m3, e3]
    simp only [← sub_eq_add_neg]
    have e1 : ((R : ℝ)⁻¹) = 1 / R := by simp
    rw [e1] at *
    linear_combination this

theorem run_admmProof {mu L : ℚ} (R : ℚ) (hmu : 0 ≤ mu) (hL : mu < L) (hR : 0 < R) (p : Name → ℝ) :
    ∃ fs V, RedundantRun (admmConsensusProof mu (some L) R).prog p fs V := by
  have hR' : (0 : ℝ) < R := by exact_mod_cast hR
  obtain ⟨c, hc⟩ := (inside_infinite (defDecl_ok hmu hL)).nonempty
  have hc0 : 0 < c := lt_of_le_of_lt (by exact_mod_cast hmu) hc.1
  obtain ⟨s, hs⟩ : ∃ s : ℝ, s = 1 / (1 + R * c) := ⟨_, rfl⟩
  have hs0 : s ≠ 0 := by rw [hs]; positivity
  have es : s + R * (c * s) = 1 := by rw [hs]; field_simp
  obtain ⟨E_1, h8⟩ : ∃ e : ℝ, e = 2 * (1 / R) * ‖(1 : ℝ)‖ ^ 2 := ⟨_, rfl⟩
  obtain ⟨E_2, h9⟩ : ∃ e : ℝ, e = 2 * (1 / R) * ‖s‖ ^ 2 := ⟨_, rfl⟩
  obtain ⟨D, h10⟩ : ∃ e : ℝ, e = 1 / R * (1 / R) * ‖1 - s‖ ^ 2 := ⟨_, rfl⟩
  obtain ⟨V, hV⟩ : ∃ V : Vals ℝ, V = ⟨fun n => [0, 0, 0, 0, 1, 0, 0, 1, s, c * s, 1, s, c * s, s, 0, 0].getD n 0,
      fun i => [0, 0, c / 2 * s ^ 2, c / 2 * s ^ 2, E_1, E_2, D, E_2 - (E_1 - D)].getD i 0,
      fun i => [Finsupp.single 0 1, Finsupp.single 1 1, Finsupp.single 0 1 + Finsupp.single 1 1].getD i 0⟩ := ⟨_, rfl⟩
  refine ⟨fun k => [quadF c 0, quadF c 0].getD k (quadF c 0), V, ?_, ?_, ?_, ?_, ?_⟩
  all_goals calls_simp [admmConsensusProof]
  · exact instance_of_list (.cons (quadF_holds hmu hc 0) (.cons (quadF_holds hmu hc 0) .nil))
  · rintro (_ | _ | k) d hd
    · injection hd with hd; subst hd; exact quadF_strict hmu hc 0
    · injection hd with hd; subst hd; exact quadF_strict hmu hc 0
    · simp [decls] at hd
  · subst hV
    refine ⟨rfl, rfl, rfl, ⟨?_, rfl⟩, smp (quadF_smp0 hc0), ?_, trivial, trivial, ?_, ?_, ⟨smp (quadF_smp hc0 _), ?_⟩, ?_, ⟨smp (quadF_smp hc0 _), ?_⟩, ?_, ?_, ?_,
      ?_, ?_, ?_, rfl, trivial, trivial⟩
    · have := smp2 (SR := fun k => ([quadF c 0, quadF c 0].getD k (quadF c 0)).Sample) (quadF_smp0 hc0) (quadF_smp0 hc0)
      rw [add_zero] at this; exact this
    · simp [Instr.Meets, Instr.next]
    · simp [Instr.Meets, Instr.next]
    · simp [Instr.Meets, Instr.next]
    · simpa [Instr.next] using es
    · simp [Instr.Meets, Instr.next]
    · simpa [Instr.next] using es
    · simp [Instr.Meets, Instr.next]; ring
    · simp [Instr.Meets, Instr.next]
    · simp [Instr.Meets, Instr.next]
    · simpa [Instr.Meets, Instr.next] using h8
    · simpa [Instr.Meets, Instr.next] using h9
    · simpa [Instr.Meets, Instr.next] using h10
  · subst hV
    simp [consVals]
  · subst hV
    have hre : (defDecl mu (some L)).reuse = true := by by_cases h0 : mu = 0 <;> simp [defDecl, h0, FnDecl.reuse]
    rintro (_ | _ | k) d hd
    · injection hd with hd; subst hd
      refine .inr ⟨hre, ?_⟩
      simp [calls, callsFrom, Instr.callsOf, Instr.next, declIndex, Instr.declares, hs0, hs0.symm]
    · injection hd with hd; subst hd
      refine .inr ⟨hre, ?_⟩
      simp [calls, callsFrom, Instr.callsOf, Instr.next, declIndex, Instr.declares, hs0, hs0.symm]
    · simp [decls] at hd

/-- **C69** for `admm_consensus_proof` (`classical_central_vi.py` 591-627) with smooth functions, for all class parameters and positive resistances: at all parameter values the
nonlinear program of `solve_ipopt` has a feasible point with these parameters if and only if the energy inequality holds for all functions of the class and all steps (and
`eta`, `rho`, `h` are not negative). -/
theorem C69_admmConsensusProof (hC : C.Lawful) {mu L : ℚ} (R : ℚ) (hmu : 0 ≤ mu) (hL : mu < L) (hR : 0 < R) :
    ∃ r h nlp h', runProblem C (admmConsensusProof mu (some L) R).prog Heap.empty = .ok (r, h) ∧ solveIpopt C r stdParams [] [] h = .ok (nlp, h') ∧
      ∀ p : Name → ℝ, ((∃ σ, nlp.state.Sat σ ∧ ∀ n ∈ scalarNames stdParams, nlp.state.value σ n = p n) ↔
        AdmmProofStep mu L R p ∧ 0 ≤ p "eta" ∧ 0 ≤ p "rho" ∧ 0 ≤ p "h") := by
  have hok := defDecl_ok hmu hL
  have hs : SafeProg (admmConsensusProof mu (some L) R).prog ⟨0, 0, 0⟩ = true := by calls_simp [admmConsensusProof]; safe_simp []
  have hd : ∀ d ∈ decls (admmConsensusProof mu (some L) R).prog, d.Ok := by
    calls_simp [admmConsensusProof]
    simp [decls, hok]
  obtain ⟨r, h, nlp, h', hr, hn, hiff⟩ := complete_of_redundant (prog := (admmConsensusProof mu (some L) R).prog) (params := stdParams)
    (Gen := fun _ => True) hC hs (by calls_simp [admmConsensusProof]; simp [Instr.Clean, stdParams])
    (standard_admmConsensusProof mu (some L) R).1 (by calls_simp [admmConsensusProof]; simp [Instr.Fresh])
    (fun d hm => ⟨hd d hm, (standard_admmConsensusProof mu (some L) R).2 d hm⟩) stdParams_simple
    (by calls_simp [admmConsensusProof]; exact ⟨7, by simp⟩) ⟨fun _ => 1, trivial⟩ (fun p _ => by
      intro E _ _ fs hi rr hx c hc _
      obtain ⟨-, hcs⟩ := meets_of_realExec hs hx
      rw [hcs] at hc
      revert hc
      calls_simp [admmConsensusProof]
      simp [consVals])
    fun p _ => run_admmProof R hmu hL hR p
  refine ⟨r, h, nlp, h', hr, hn, fun p => ?_⟩
  have hinv : InvOk stdParams p := fun v hv => absurd hv (by rw [show invParams stdParams = [] by decide]; simp)
  rw [hiff p trivial, guaranteed_admmProof _ hmu hL]
  simp [hinv]

/-- **C73** for `admm_consensus_proof` with smooth functions: PEPit's worst case in verification mode is 0 exactly if the energy inequality holds for all functions of the class
and all steps. -/
theorem C73_admmConsensusProof {mu L R : ℚ} (hmu : 0 ≤ mu) (hL : mu < L) {res : Dict Name ℝ} {P : PepProblem}
    (hP : (Circuit.admmConsensusProof mu (some L) R).verify res = .ok P) : P.worstCase = 0 ↔ AdmmProofStep mu L R P.value := by
  have hok := defDecl_ok hmu hL
  rw [← guaranteed_admmProof R hmu hL]
  rcases C73_worst_case hP (by
    simp only [Circuit.prog]
    calls_simp [admmConsensusProof]
    simp [decls, hok]) with h | h
  · exact ⟨fun _ => h.2, fun _ => h.1⟩
  · exact ⟨fun h0 => (EReal.top_ne_zero (h.1.symm.trans h0)).elim, fun hg => (h.2 hg).elim⟩

/-- **C80** for the program of `admm_consensus_proof` with smooth functions, at all parameter values: if the program has a feasible point, it also has one with smaller weights
`eta`, `rho` that are not negative and the same other values. -/
theorem C80_admmConsensusProof_program (hC : C.Lawful) {mu L : ℚ} (R : ℚ) (hmu : 0 ≤ mu) (hL : mu < L) (hR : 0 < R) :
    ∃ r h nlp h', runProblem C (admmConsensusProof mu (some L) R).prog Heap.empty = .ok (r, h) ∧ solveIpopt C r stdParams [] [] h = .ok (nlp, h') ∧
      ∀ p q : Name → ℝ, (∀ n, n ≠ "eta" → n ≠ "rho" → q n = p n) → q "eta" ≤ p "eta" → q "rho" ≤ p "rho" → 0 ≤ q "eta" → 0 ≤ q "rho" →
        (∃ σ, nlp.state.Sat σ ∧ ∀ n ∈ scalarNames stdParams, nlp.state.value σ n = p n) → ∃ σ, nlp.state.Sat σ ∧ ∀ n ∈ scalarNames stdParams, nlp.state.value σ n = q n := by
  obtain ⟨r, h, nlp, h', h1, h2, hiff⟩ := C69_admmConsensusProof hC R hmu hL hR
  refine ⟨r, h, nlp, h', h1, h2, fun p q hpq he hr he0 hr0 hσ => ?_⟩
  obtain ⟨g1, g2⟩ := (hiff p).1 hσ
  rw [← guaranteed_admmProof R hmu hL] at g1
  refine (hiff q).2 ⟨(guaranteed_admmProof R hmu hL).1 ?_, he0, hr0, by rw [hpq "h" (by decide) (by decide)]; exact g2.2.2⟩
  exact C80_lower (c := .admmConsensusProof mu (some L) R) hR hpq he hr g1

/-! ## C81: when the step of the consensus circuit is certified -/

section
variable {E : Type} [NormedAddCommGroup E] [InnerProductSpace ℝ E]

/-- the decrease of the energy in the step, exactly: twice the two monotonicity terms -/
theorem admm_identity (a b w U : E) :
    2 * ‖U‖ ^ 2 + 2 * ‖w‖ ^ 2 - (2 * ‖U + (2 : ℝ)⁻¹ • (a - b)‖ ^ 2 + 2 * ‖(2 : ℝ)⁻¹ • (a + b)‖ ^ 2 + 2 * ‖(2 : ℝ)⁻¹ • (a - b)‖ ^ 2 + 2 * ‖w - (2 : ℝ)⁻¹ • (a + b)‖ ^ 2)
      = 2 * ⟪w - a - U, a⟫_ℝ + 2 * ⟪w - b + U, b⟫_ℝ := by
  simp only [← real_inner_self_eq_norm_sq, inner_add_left, inner_add_right, inner_sub_left, inner_sub_right, real_inner_smul_left, real_inner_smul_right]
  rw [real_inner_comm a b, real_inner_comm U a, real_inner_comm U b, real_inner_comm w a, real_inner_comm w b]
  ring

theorem sq_half (G H : E) : ‖G + H‖ ^ 2 ≤ 2 * (‖G‖ ^ 2 + ‖H‖ ^ 2) := by
  have := parallelogram_law_with_norm ℝ G H
  nlinarith [sq_nonneg ‖G - H‖]
end

/-- with the step `h = 1` and `eta` at most 1 the energy inequality of the circuit holds as long as `L (1 - 2 R) ≤ 4` -/
theorem admmProofStep_unit {mu L R : ℚ} (hmu : 0 ≤ mu) (hL : mu < L) (hR : 0 < R) (hLR : L * (1 - 2 * R) ≤ 4) {p : Name → ℝ} (hh : p "h" = 1) (he : p "eta" ≤ 1) :
    AdmmProofStep mu L R p := by
  intro E _ _ f g hf hg xs ys z1 y x1 g1 x2 g2 z2 y1_2 y2_2 fs gs f2 v2 h1 h2 ⟨h3, k3⟩ ⟨h4, k4⟩ h5 h6 h7
  have hL0 : 0 < L := lt_of_le_of_lt hmu hL
  have hR' : (0 : ℝ) < R := by exact_mod_cast hR
  have hL' : (0 : ℝ) < L := by exact_mod_cast hL0
  have c1 := cocoercive hL0 (smooth_mono hmu hf) h3 h1
  have c2 := cocoercive hL0 (smooth_mono hmu hg) h4 h2
  have hLR' : (L : ℝ) * (1 - 2 * R) ≤ 4 := by exact_mod_cast hLR
  obtain ⟨a, ha⟩ : ∃ a, a = x1 - xs := ⟨_, rfl⟩
  obtain ⟨b, hb⟩ : ∃ b, b = x2 - xs := ⟨_, rfl⟩
  obtain ⟨w, hw⟩ : ∃ w, w = z1 - xs := ⟨_, rfl⟩
  obtain ⟨u, hu⟩ : ∃ u, u = y + ys := ⟨_, rfl⟩
  obtain ⟨G, hG⟩ : ∃ G, G = g1 - ys := ⟨_, rfl⟩
  obtain ⟨H, hH⟩ : ∃ H, H = g2 - -ys := ⟨_, rfl⟩
  rw [← ha, ← hG] at c1
  rw [← hb, ← hH] at c2
  have e1 : w - a - (R : ℝ) • u = (R : ℝ) • G := by
    rw [hw, ha, hu, hG, smul_sub, smul_add, ← sub_eq_zero]
    rw [← sub_eq_zero] at k3
    rw [← neg_eq_zero, ← k3]
    abel
  have e2 : w - b + (R : ℝ) • u = (R : ℝ) • H := by
    rw [hw, hb, hu, hH, smul_sub, smul_add, smul_neg, ← sub_eq_zero]
    rw [← sub_eq_zero] at k4
    rw [← neg_eq_zero, ← k4]
    abel
  have id := admm_identity a b w ((R : ℝ) • u)
  rw [e1, e2, real_inner_smul_left, real_inner_smul_left] at id
  have e3 : w - (2 : ℝ)⁻¹ • (a + b) = (R / 2 : ℝ) • (G + H) := by
    have : (2 : ℝ)⁻¹ • ((w - a - (R : ℝ) • u) + (w - b + (R : ℝ) • u)) = (2 : ℝ)⁻¹ • ((R : ℝ) • G + (R : ℝ) • H) := by rw [e1, e2]
    rw [← smul_add, smul_smul, show (2 : ℝ)⁻¹ * R = R / 2 by ring] at this
    rw [← this]
    module
  have f1 : y1_2 + ys = (R : ℝ)⁻¹ • ((R : ℝ) • u + (2 : ℝ)⁻¹ • (a - b)) := by
    rw [h6, h5, hh, smul_add (R : ℝ)⁻¹, smul_smul, inv_mul_cancel₀ hR'.ne', one_smul, hu, ha, hb, one_div]
    module
  have f2 : y2_2 - ys = -((R : ℝ)⁻¹ • ((R : ℝ) • u + (2 : ℝ)⁻¹ • (a - b))) := by
    rw [h7, h5, hh, smul_add (R : ℝ)⁻¹, smul_smul, inv_mul_cancel₀ hR'.ne', one_smul, hu, ha, hb, one_div]
    module
  have f3 : z2 - xs = (2 : ℝ)⁻¹ • (a + b) := by rw [h5, ha, hb]; module
  have f4 : x1 - z2 = (2 : ℝ)⁻¹ • (a - b) := by rw [h5, ha, hb]; module
  have f5 : x2 - z2 = -((2 : ℝ)⁻¹ • (a - b)) := by rw [h5, ha, hb]; module
  have f6 : z1 - z2 = w - (2 : ℝ)⁻¹ • (a + b) := by rw [h5, ha, hb, hw]; module
  have f7 : -y - ys = -u := by rw [hu]; abel
  have f8 : ‖u‖ = (R : ℝ)⁻¹ * ‖(R : ℝ) • u‖ := by rw [norm_smul, Real.norm_of_nonneg hR'.le, ← mul_assoc, inv_mul_cancel₀ hR'.ne', one_mul]
  rw [f1, f2, f3, f4, f5, f6, f7, ← hu, ← hw, norm_neg, norm_neg, norm_neg, f8, norm_smul, Real.norm_of_nonneg (inv_nonneg.2 hR'.le)]
  have hs := sq_half G H
  have n3 : ‖w - (2 : ℝ)⁻¹ • (a + b)‖ ^ 2 = R ^ 2 / 4 * ‖G + H‖ ^ 2 := by
    rw [e3, norm_smul, Real.norm_of_nonneg (by positivity)]; ring
  have n1 : ‖G‖ ^ 2 + ‖H‖ ^ 2 ≤ L * (⟪G, a⟫_ℝ + ⟪H, b⟫_ℝ) := by
    rw [div_le_iff₀ hL'] at c1 c2
    linarith
  have n2 : ‖G + H‖ ^ 2 * (1 - 2 * R) ≤ 8 * (⟪G, a⟫_ℝ + ⟪H, b⟫_ℝ) := by
    have hN : 0 ≤ ‖G‖ ^ 2 + ‖H‖ ^ 2 := by positivity
    have hI : 0 ≤ ⟪G, a⟫_ℝ + ⟪H, b⟫_ℝ := nonneg_of_mul_nonneg_right (hN.trans n1) hL'
    rcases le_or_gt (1 - 2 * (R : ℝ)) 0 with h | h
    · nlinarith [sq_nonneg ‖G + H‖]
    · calc ‖G + H‖ ^ 2 * (1 - 2 * R) ≤ 2 * (L * (⟪G, a⟫_ℝ + ⟪H, b⟫_ℝ)) * (1 - 2 * R) := mul_le_mul_of_nonneg_right (hs.trans (by linarith)) h.le
        _ = 2 * (⟪G, a⟫_ℝ + ⟪H, b⟫_ℝ) * (L * (1 - 2 * R)) := by ring
        _ ≤ 2 * (⟪G, a⟫_ℝ + ⟪H, b⟫_ℝ) * 4 := mul_le_mul_of_nonneg_left hLR' (by linarith)
        _ = _ := by ring
  generalize ‖(R : ℝ) • u + (2 : ℝ)⁻¹ • (a - b)‖ = A at *
  generalize ‖(2 : ℝ)⁻¹ • (a - b)‖ = B at *
  generalize ‖w - (2 : ℝ)⁻¹ • (a + b)‖ = D at *
  generalize ‖(2 : ℝ)⁻¹ • (a + b)‖ = F at *
  generalize ‖(R : ℝ) • u‖ = U at *
  generalize ⟪G, a⟫_ℝ = I at *
  generalize ⟪H, b⟫_ℝ = J at *
  generalize ‖G + H‖ ^ 2 = S at *
  have hfin : 0 ≤ (R : ℝ)⁻¹ * (2 * (1 - p "eta") * B ^ 2 + R / 4 * (8 * (I + J) - S * (1 - 2 * R))) :=
    mul_nonneg (inv_nonneg.2 hR'.le) (add_nonneg (mul_nonneg (by linarith) (sq_nonneg _)) (mul_nonneg (by positivity) (by linarith)))
  have e4 : (R : ℝ) * ((R : ℝ)⁻¹ * A) ^ 2 = (R : ℝ)⁻¹ * A ^ 2 := by field_simp
  have e5 : (R : ℝ) * ((R : ℝ)⁻¹ * U) ^ 2 = (R : ℝ)⁻¹ * U ^ 2 := by field_simp
  have e6 : (1 / (R : ℝ)) ^ 2 * D ^ 2 = S / 4 := by rw [n3]; field_simp
  have e7 : (R : ℝ)⁻¹ * (R / 4 * (8 * (I + J) - S * (1 - 2 * R))) = 2 * (I + J) - S / 4 + (R : ℝ) / 2 * S := by field_simp; ring
  have e8 : (R : ℝ)⁻¹ * D ^ 2 = R / 4 * S := by rw [n3]; field_simp
  have e9 : (R : ℝ)⁻¹ * (2 * U ^ 2 + 2 * ‖w‖ ^ 2 - (2 * A ^ 2 + 2 * F ^ 2 + 2 * B ^ 2 + 2 * D ^ 2)) = 2 * I + 2 * J := by rw [id]; field_simp
  rw [e4, e5, e6, div_eq_mul_inv 2, one_div]
  rw [mul_add, e7] at hfin
  linarith

/-- at `L (1 - 2 R) > 4` the inequality fails for two equal quadratic functions -/
theorem admmProofStep_bound {mu L R : ℚ} (hmu : 0 ≤ mu) (hL : mu < L) (hR : 0 < R) {p : Name → ℝ} (h : AdmmProofStep mu L R p) : L * (1 - 2 * R) ≤ 4 := by
  by_contra hcon
  push Not at hcon
  have hR' : (0 : ℝ) < R := by exact_mod_cast hR
  have hcon' : (4 : ℝ) < L * (1 - 2 * R) := by exact_mod_cast hcon
  have hL' : (0 : ℝ) < L := by exact_mod_cast lt_of_le_of_lt hmu hL
  have h1 : (0 : ℝ) < 1 - 2 * R := by
    by_contra hn
    nlinarith
  obtain ⟨c, hc1, hc2⟩ : ∃ c : ℝ, max (mu : ℝ) (4 / (1 - 2 * R)) < c ∧ c < L :=
    exists_between (max_lt (by exact_mod_cast hL) (by rw [div_lt_iff₀ h1]; exact hcon'))
  obtain ⟨hc3, hc4⟩ := max_lt_iff.1 hc1
  rw [div_lt_iff₀ h1] at hc4
  have hc : Inside mu (some L) c := ⟨hc3, by simpa using hc2⟩
  have hc0 : 0 < c := lt_of_le_of_lt (by exact_mod_cast hmu) hc3
  have hD : (0 : ℝ) < 1 + R * c := by positivity
  obtain ⟨s, hs⟩ : ∃ s : ℝ, s = 1 / (1 + R * c) := ⟨_, rfl⟩
  have es : s + R * (c * s) = 1 := by rw [hs]; field_simp
  have key := h ℝ (quadF c 0) (quadF c 0) (quadF_holds hmu hc 0) (quadF_holds hmu hc 0) 0 0 1 0 s (c * s) s (c * s) s 0 0 0 0 _ _ (quadF_smp0 hc0)
    (by simpa using quadF_smp0 hc0) ⟨quadF_smp hc0 _, by simpa using es⟩ ⟨quadF_smp hc0 _, by simpa using es⟩ (by simp; ring) (by simp) (by simp)
  simp at key
  have e1 : 1 - s = R * c * s := by linear_combination -es
  have hs0 : 0 < s := by rw [hs]; positivity
  rw [e1] at key
  have e2 : ((R : ℝ) ^ 2)⁻¹ * (R * c * s) ^ 2 = (c * s) ^ 2 := by field_simp
  have e3 : 2 / (R : ℝ) - 2 / R * s ^ 2 = 2 * c * s * (1 + s) := by
    have : 2 / (R : ℝ) - 2 / R * s ^ 2 = 2 / R * ((1 - s) * (1 + s)) := by ring
    rw [this, e1]
    field_simp
  have e4 : 0 ≤ c * s * (2 * (1 + s) - c * s) := by
    rw [e2] at key
    linarith
  have e5 : 0 ≤ 2 * (1 + s) - c * s := nonneg_of_mul_nonneg_right e4 (by positivity)
  have e6 : (2 * (1 + s) - c * s) = s * (4 - c * (1 - 2 * R)) := by linear_combination 2 * (-es)
  rw [e6] at e5
  have := nonneg_of_mul_nonneg_right e5 hs0
  linarith

/-- **C81** for `admm_consensus_proof` (`classical_central_vi.py` 591-627), the circuit of the convergence proof of ADMM, with two smooth functions, for all class parameters and
positive resistances: the nonlinear program of `solve_ipopt` has a feasible point if and only if `L (1 - 2 R) ≤ 4`, and then every point with step `h = 1`, `0 ≤ eta ≤ 1` and
`rho ≥ 0` is feasible, whatever the other parameters are. -/
theorem C81_admmConsensusProof (hC : C.Lawful) {mu L : ℚ} (R : ℚ) (hmu : 0 ≤ mu) (hL : mu < L) (hR : 0 < R) :
    ∃ r h nlp h', runProblem C (admmConsensusProof mu (some L) R).prog Heap.empty = .ok (r, h) ∧ solveIpopt C r stdParams [] [] h = .ok (nlp, h') ∧
      ((∃ σ, nlp.state.Sat σ) ↔ L * (1 - 2 * R) ≤ 4) ∧
      (L * (1 - 2 * R) ≤ 4 → ∀ p : Name → ℝ, p "h" = 1 → 0 ≤ p "eta" → p "eta" ≤ 1 → 0 ≤ p "rho" →
        ∃ σ, nlp.state.Sat σ ∧ ∀ n ∈ scalarNames stdParams, nlp.state.value σ n = p n) := by
  obtain ⟨r, h, nlp, h', h1, h2, hiff⟩ := C69_admmConsensusProof hC R hmu hL hR
  have hmain : L * (1 - 2 * R) ≤ 4 → ∀ p : Name → ℝ, p "h" = 1 → 0 ≤ p "eta" → p "eta" ≤ 1 → 0 ≤ p "rho" →
      ∃ σ, nlp.state.Sat σ ∧ ∀ n ∈ scalarNames stdParams, nlp.state.value σ n = p n := fun hb p hh e0 e1 r0 =>
    (hiff p).2 ⟨admmProofStep_unit hmu hL hR hb hh e1, e0, r0, by rw [hh]; exact zero_le_one⟩
  refine ⟨r, h, nlp, h', h1, h2, ⟨fun ⟨σ, hσ⟩ => ?_, fun hb => ?_⟩, hmain⟩
  · exact admmProofStep_bound hmu hL hR ((hiff _).1 ⟨σ, hσ, fun n _ => rfl⟩).1
  · obtain ⟨σ, hσ, -⟩ := hmain hb (fun _ => 1) rfl zero_le_one le_rfl zero_le_one
    exact ⟨σ, hσ⟩

/-- **C81.** In verification mode the dictionary of the textbook step is accepted: with `h = 1`, `eta ≤ 1` PEPit's worst case is 0 if `L (1 - 2 R) ≤ 4`, and it is infinite for every
dictionary if `L (1 - 2 R) > 4`. -/
theorem C81_admmConsensusProof_verify {mu L R : ℚ} (hmu : 0 ≤ mu) (hL : mu < L) (hR : 0 < R) {res : Dict Name ℝ} {P : PepProblem}
    (hP : (Circuit.admmConsensusProof mu (some L) R).verify res = .ok P) :
    (L * (1 - 2 * R) ≤ 4 → P.value "h" = 1 → P.value "eta" ≤ 1 → P.worstCase = 0) ∧ (4 < L * (1 - 2 * R) → P.worstCase = ⊤) := by
  constructor
  · exact fun hb hh he => (C73_admmConsensusProof hmu hL hP).2 (admmProofStep_unit hmu hL hR hb hh he)
  · intro hb
    rcases C73_worst_case hP (by
      simp only [Circuit.prog]
      calls_simp [admmConsensusProof]
      simp [decls, defDecl_ok hmu hL]) with h | h
    · exact absurd (admmProofStep_bound hmu hL hR ((C73_admmConsensusProof hmu hL hP).1 h.1)) (not_le.2 hb)
    · exact h.1

/-- for convex functions `eta ≤ 2 h - h ^ 2`: two functions that are 0 -/
theorem admmProofStep_eta {L R : ℚ} (hL : 0 < L) (hR : 0 < R) {p : Name → ℝ} (h : AdmmProofStep 0 L R p) : p "eta" ≤ 2 * p "h" - p "h" ^ 2 := by
  have hR' : (0 : ℝ) < R := by exact_mod_cast hR
  have hF : (defDecl 0 (some L)).Holds (linFun 0) := linFun_holds 0 (defDecl_ok le_rfl hL)
  have hs : ∀ x, (linFun 0).Sample x 0 0 := fun x => by simpa using linFun_sample 0 x
  have key := h ℝ (linFun 0) (linFun 0) hF hF 0 0 0 1 (-R) 0 R 0 0 (1 - p "h") (-1 + p "h") 0 0 0 0 (hs _) (by simpa using hs 0) ⟨hs _, by simp⟩ ⟨hs _, by simp⟩ (by simp)
    (by simp; field_simp) (by simp; field_simp)
  simp only [add_zero, sub_zero, Real.norm_eq_abs, sq_abs, abs_neg, abs_zero, sub_self] at key
  have e : (p "eta" : ℝ) * (1 / R * (R : ℝ) ^ 2 + 1 / R * (R : ℝ) ^ 2) = R * (2 * p "eta") := by field_simp; ring
  rw [e] at key
  nlinarith [key]

/-- **C81.** For two convex `L`-smooth functions the best certified weight is `eta = 1`: every feasible point of the program of `admm_consensus_proof` has `eta ≤ 2 h - h²`, so `eta ≤ 1`, and
if `L (1 - 2 R) ≤ 4` the point `h = 1`, `eta = 1` is feasible. -/
theorem C81_admmConsensusProof_best (hC : C.Lawful) {L : ℚ} (R : ℚ) (hL : 0 < L) (hR : 0 < R) :
    ∃ r h nlp h', runProblem C (admmConsensusProof 0 (some L) R).prog Heap.empty = .ok (r, h) ∧ solveIpopt C r stdParams [] [] h = .ok (nlp, h') ∧
      (∀ σ, nlp.state.Sat σ → nlp.state.value σ "eta" ≤ 2 * nlp.state.value σ "h" - nlp.state.value σ "h" ^ 2 ∧ nlp.state.value σ "eta" ≤ 1) ∧
      (L * (1 - 2 * R) ≤ 4 → ∃ σ, nlp.state.Sat σ ∧ nlp.state.value σ "eta" = 1 ∧ nlp.state.value σ "h" = 1) := by
  obtain ⟨r, h, nlp, h', h1, h2, hiff⟩ := C69_admmConsensusProof hC R le_rfl hL hR
  refine ⟨r, h, nlp, h', h1, h2, fun σ hσ => ?_, fun hb => ?_⟩
  · have := admmProofStep_eta hL hR ((hiff _).1 ⟨σ, hσ, fun n _ => rfl⟩).1
    exact ⟨this, this.trans (by nlinarith [sq_nonneg (nlp.state.value σ "h" - 1)])⟩
  · obtain ⟨σ, hσ, hv⟩ := (hiff fun _ => 1).2 ⟨admmProofStep_unit le_rfl hL hR hb rfl le_rfl, zero_le_one, zero_le_one, zero_le_one⟩
    exact ⟨σ, hσ, hv _ (by decide), hv _ (by decide)⟩

/-- both sides occur: with `R = 1` the program is feasible for every `L`; with `R = 1 / 4` and `L = 10` it has no feasible point -/
example : (∃ r h nlp h', runProblem refCAS (admmConsensusProof 0 (some 100) 1).prog Heap.empty = .ok (r, h) ∧ solveIpopt refCAS r stdParams [] [] h = .ok (nlp, h') ∧
      ∃ σ, nlp.state.Sat σ) ∧
    ∃ r h nlp h', runProblem refCAS (admmConsensusProof 0 (some 10) (1 / 4)).prog Heap.empty = .ok (r, h) ∧ solveIpopt refCAS r stdParams [] [] h = .ok (nlp, h') ∧
      ¬ ∃ σ, nlp.state.Sat σ := by
  constructor
  · obtain ⟨r, h, nlp, h', h1, h2, h3, -⟩ := C81_admmConsensusProof refCAS_lawful (mu := 0) (L := 100) 1 (by norm_num) (by norm_num) (by norm_num)
    exact ⟨r, h, nlp, h', h1, h2, h3.2 (by norm_num)⟩
  · obtain ⟨r, h, nlp, h', h1, h2, h3, -⟩ := C81_admmConsensusProof refCAS_lawful (mu := 0) (L := 10) (1 / 4) (by norm_num) (by norm_num) (by norm_num)
    exact ⟨r, h, nlp, h', h1, h2, fun hσ => absurd (h3.1 hσ) (by norm_num)⟩

/-- a dictionary that verification mode builds a problem for -/
example : ∃ P, (Circuit.admmConsensusProof 0 (some 1) 1).verify [("h", 1), ("eta", 1), ("rho", 0)] = .ok P ∧ P.worstCase = 0 := by
  obtain ⟨r, h, -, -, hr, -⟩ := C69_admmConsensusProof refCAS_lawful (mu := 0) (L := 1) 1 (by norm_num) (by norm_num) (by norm_num)
  obtain ⟨P, hP, -, hv⟩ := C73_builds (c := .admmConsensusProof 0 (some 1) 1) (params := [("h", 1), ("eta", 1), ("rho", 0)]) hr (by simp [Circuit.IsDual])
    (by simp [Circuit.keys, Dict.get?])
  simp [Circuit.keys, Dict.get?] at hv
  exact ⟨P, hP, (C81_admmConsensusProof_verify (by norm_num) (by norm_num) (by norm_num) hP).1 (by norm_num) hv.1.symm hv.2.1.symm.le⟩

end Verif
