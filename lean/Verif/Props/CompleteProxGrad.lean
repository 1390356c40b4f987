import Verif.Props.CompleteDual

/-!
# C69 for the proximal gradient circuit
-/

namespace Verif
open Build
open scoped InnerProductSpace

set_option linter.unusedSimpArgs false

variable {C : CAS}

/-- the energy inequality of `prox_gradient_circuit` (`classical_central_vi.py` 195-235) for all smooth `f`, all convex `g` and all steps: `y2_star` is
the gradient of `f` at the solution, `-y2_star` is a subgradient of `g` there, `x1_1` and `x1_2` are the proximal points of `g` at `e_1` and `e_2` -/
def ProxGradientStep (mu L R Cap : ℚ) (p : Name → ℝ) : Prop :=
  ∀ (E : Type) [NormedAddCommGroup E] [InnerProductSpace ℝ E] (f g : CFun E), (defDecl mu (some L)).Holds f → (defDecl 0 none).Holds g →
    ∀ (x_star y2_star x2_1 y2_1 e_1 x1_1 y1_1 nabla x2_2 y2_2 e_2 x1_2 y1_2 : E) (f_star g_star f2_1 g1_1 f2_2 g1_2 : ℝ),
      f.Sample x_star y2_star f_star → g.Sample x_star (-y2_star) g_star →
      f.Sample x2_1 y2_1 f2_1 → e_1 = x2_1 - (R : ℝ) • y2_1 → g.Prox R e_1 x1_1 y1_1 g1_1 → nabla = (R : ℝ)⁻¹ • (e_1 - x1_1) →
      x2_2 = x2_1 - (p "h" / Cap) • (nabla + y2_1) →
      f.Sample x2_2 y2_2 f2_2 → e_2 = x2_2 - (R : ℝ) • y2_2 → g.Prox R e_2 x1_2 y1_2 g1_2 →
      Cap / 2 * ‖e_2 - (x_star - (R : ℝ) • y2_star)‖ ^ 2 ≤ Cap / 2 * ‖e_1 - (x_star - (R : ℝ) • y2_star)‖ ^ 2
        - (p "eta" * (1 / L - R) * ‖y2_1 - y2_star‖ ^ 2 + p "rho" * R * ‖nabla + y2_star‖ ^ 2)

section
variable {E : Type} [NormedAddCommGroup E] [InnerProductSpace ℝ E]

theorem smp2 {SR : ℕ → E → E → ℝ → Prop} {x g g' : E} {v v' : ℝ} (h : SR 0 x g v) (h' : SR 1 x g' v') :
    SumSample SR (Finsupp.single 0 1 + Finsupp.single 1 1) x (g + g') (v + v') :=
  (smp h).addSingle h' (by simp)

theorem smp2_iff {SR : ℕ → E → E → ℝ → Prop} {x g : E} {v : ℝ} (h : SumSample SR (Finsupp.single 0 1 + Finsupp.single 1 1) x g v) :
    ∃ g0 g1 v0 v1, SR 0 x g0 v0 ∧ SR 1 x g1 v1 ∧ g = g0 + g1 := by
  obtain ⟨G, V, h1, h2, -⟩ := h
  refine ⟨G 0, G 1, V 0, V 1, h1 0 (by simp), h1 1 (by simp), ?_⟩
  rw [h2, Finsupp.sum_add_index' (by simp) (by intros; rw [add_smul])]
  simp
end

theorem guaranteed_proxGradient {mu L : ℚ} (R Cap : ℚ) (hmu : 0 ≤ mu) (hL : mu < L) (hR0 : R ≠ 0) {p : Name → ℝ} :
    Guaranteed (proxGradient mu (some L) R Cap).prog p ↔ ProxGradientStep mu L R Cap p := by
  calls_simp [proxGradient]
  constructor
  · intro hc E _ _ f g hf hg x_star y2_star x2_1 y2_1 e_1 x1_1 y1_1 nabla x2_2 y2_2 e_2 x1_2 y1_2 f_star g_star f2_1 g1_1 f2_2 g1_2 h1 h2 h3 h4 h5 h6 h7 h8 h9 h10
    obtain ⟨e_star, hes⟩ : ∃ e, e = x_star - (R : ℝ) • y2_star := ⟨_, rfl⟩
    rw [← hes]
    obtain ⟨E_1, h11⟩ : ∃ E_1, E_1 = Cap / 2 * ‖e_1 - e_star‖ ^ 2 := ⟨_, rfl⟩
    obtain ⟨E_2, h12⟩ : ∃ E_2, E_2 = Cap / 2 * ‖e_2 - e_star‖ ^ 2 := ⟨_, rfl⟩
    obtain ⟨Delta_1, h13⟩ : ∃ D, D = p "eta" * (1 / L - R) * ‖y2_1 - y2_star‖ ^ 2 + p "rho" * R * ‖nabla - -y2_star‖ ^ 2 := ⟨_, rfl⟩
    have key := hc.vals (fs := fun k => [f, g].getD k f) (e := 9) (by safe_simp [hR0]) (instance_of_list (.cons hf (.cons hg .nil)))
      ⟨fun i => [x_star, 0, y2_star, -y2_star, e_star, x2_1, y2_1, e_1, x1_1, y1_1, nabla, x2_2, y2_2, e_2, x1_2, y1_2].getD i 0,
        fun i => [f_star + g_star, f_star, f2_1, g1_1, f2_2, g1_2, E_1, E_2, Delta_1, E_2 - (E_1 - Delta_1)].getD i 0,
        fun i => [Finsupp.single 0 1, Finsupp.single 1 1, Finsupp.single 0 1 + Finsupp.single 1 1].getD i 0⟩
      ⟨rfl, rfl, rfl, ⟨by
          have := smp2 (SR := fun k => ([f, g].getD k f).Sample) h1 h2
          rw [add_neg_cancel] at this; exact this, rfl⟩, smp h1, by simp [Instr.Meets, Instr.next],
        by simpa [Instr.Meets, Instr.next] using hes, trivial, smp h3, by simpa [Instr.Meets, Instr.next] using h4,
        ⟨smp h5.1, by simpa [Instr.next] using h5.2⟩, by simpa [Instr.Meets, Instr.next] using h6, by simpa [Instr.Meets, Instr.next] using h7,
        smp h8, by simpa [Instr.Meets, Instr.next] using h9, ⟨smp h10.1, by simpa [Instr.next] using h10.2⟩,
        by simpa [Instr.Meets, Instr.next] using h11, by simpa [Instr.Meets, Instr.next] using h12,
        by simpa [Instr.Meets, Instr.next, invSmooth] using h13, rfl, trivial, trivial⟩
      (by simp [consVals]) rfl
    simp only [List.getD_cons_succ, List.getD_cons_zero] at key
    rw [sub_neg_eq_add] at h13
    linarith
  · intro h
    refine guaranteed_of_vals (by safe_simp [hR0]) (e := 9) rfl fun {E} _ _ fs hi V hm _ => ?_
    simp [MeetsAll, Instr.Meets, Instr.next] at hm
    obtain ⟨d0, d1, d2, ⟨s0, z0⟩, s1, m2, m3, s4, m5, ⟨s6, m6⟩, m7, m8, s9, m10, ⟨s11, m11⟩, m12, m13, m14, m15⟩ := hm
    rw [d0, d1] at d2
    rw [d2, z0] at s0
    rw [d0] at s1 s4 s9
    rw [d1] at s6 s11
    rw [z0, zero_sub] at m2
    obtain ⟨g0, g1, v0, v1, a0, a1, e⟩ := smp2_iff s0
    have hu := gradient_unique hmu hL (hi 0 _ rfl) a0 (sample_of_single s1)
    have hg1 : g1 = -V.pt 2 := by rw [← hu]; exact (neg_eq_of_add_eq_zero_right e.symm).symm
    rw [hg1] at a1
    have := h E (fs 0) (fs 1) (hi 0 _ rfl) (hi 1 _ rfl) _ _ _ _ _ _ _ _ _ _ _ _ _ _ _ _ _ _ _ (sample_of_single s1) a1 (sample_of_single s4) m5
      ⟨sample_of_single s6, m6⟩ m7 (by rw [m8, smul_add]) (sample_of_single s9) m10 ⟨sample_of_single s11, m11⟩
    rw [m2, sub_neg_eq_add] at m14
    rw [m15, m12, m13, m14, m3]
    simp [invSmooth] at this ⊢
    linarith

theorem run_proxGradient {mu L : ℚ} (R Cap : ℚ) (hmu : 0 ≤ mu) (hL : mu < L) (hCap : Cap ≠ 0) (hR : 0 < R) {p : Name → ℝ} (hh : p "h" ≠ 0) :
    ∃ fs V, RepeatRun (proxGradient mu (some L) R Cap).prog p fs V := by
  have hC' : (Cap : ℝ) ≠ 0 := by exact_mod_cast hCap
  have hR' : (0 : ℝ) < R := by exact_mod_cast hR
  have hw : (1 + R : ℝ) ≠ 0 := by positivity
  have hok := defDecl_ok hmu hL
  obtain ⟨c, hc, hne⟩ := (generic [fun c => 1 - R * c, fun c => 1 - p "h" / Cap / (1 + R) * (1 + c)] (inside_infinite hok) (by
    simp only [List.forall_mem_cons, List.not_mem_nil, false_implies, implies_true, and_true]
    exact ⟨⟨by is_poly, 0, by simp⟩, by is_poly, -1, by simp⟩)).nonempty
  simp only [List.forall_mem_cons, List.not_mem_nil, false_implies, implies_true, and_true] at hne
  obtain ⟨n1, n2⟩ := hne
  have hc0 : 0 < c := lt_of_le_of_lt (by exact_mod_cast hmu) hc.1
  have hi1 : Inside 0 none 1 := ⟨by norm_num, by simp⟩
  obtain ⟨u, hu⟩ : ∃ u : ℝ, u = (1 - R * c) / (1 + R) := ⟨_, rfl⟩
  obtain ⟨x2, hx2⟩ : ∃ x : ℝ, x = 1 - p "h" / Cap / (1 + R) * (1 + c) := ⟨_, rfl⟩
  rw [← hx2] at n2
  have hu' : u * (1 + R) = 1 - R * c := by rw [hu, div_mul_cancel₀ _ hw]
  have hu0 : u ≠ 0 := by rw [hu]; exact div_ne_zero n1 hw
  have hx1 : x2 ≠ 1 := by
    rw [hx2]; intro h
    have : p "h" / Cap / (1 + R) * (1 + c) ≠ 0 := mul_ne_zero (div_ne_zero (div_ne_zero hh hC') hw) (by positivity)
    exact this (by linarith)
  have q1 : (quadF c 0).Sample 1 c (c / 2) := by simpa using quadF_smp hc0 1
  have q2 : (quadF 1 0).Sample u u (1 / 2 * u ^ 2) := by simpa using quadF_smp one_pos u
  have q3 : (quadF 1 0).Sample (u * x2) (u * x2) (1 / 2 * (u * x2) ^ 2) := by simpa using quadF_smp one_pos (u * x2)
  obtain ⟨E_1, h11⟩ : ∃ E_1, E_1 = Cap / 2 * ‖(1 - R * c : ℝ)‖ ^ 2 := ⟨_, rfl⟩
  obtain ⟨E_2, h12⟩ : ∃ E_2, E_2 = Cap / 2 * ‖x2 - R * (c * x2)‖ ^ 2 := ⟨_, rfl⟩
  obtain ⟨Delta_1, h13⟩ : ∃ D, D = p "eta" * (1 / L - R) * ‖c‖ ^ 2 + p "rho" * R * ‖u‖ ^ 2 := ⟨_, rfl⟩
  refine ⟨fun k => [quadF c 0, quadF 1 0].getD k (quadF c 0),
    ⟨fun n => [0, 0, 0, 0, 0, 1, c, 1 - R * c, u, u, u, x2, c * x2, x2 - R * (c * x2), u * x2, u * x2].getD n 0,
      fun i => [0, 0, c / 2, 1 / 2 * u ^ 2, c / 2 * x2 ^ 2, 1 / 2 * (u * x2) ^ 2, E_1, E_2, Delta_1, E_2 - (E_1 - Delta_1)].getD i 0,
      fun i => [Finsupp.single 0 1, Finsupp.single 1 1, Finsupp.single 0 1 + Finsupp.single 1 1].getD i 0⟩, ?_, ?_, ?_, ?_, ?_⟩
  all_goals calls_simp [proxGradient]
  · exact instance_of_list (.cons (quadF_holds hmu hc 0) (.cons (quadF_holds le_rfl hi1 0) .nil))
  · rintro (_ | _ | k) d hd
    · injection hd with hd; subst hd; exact quadF_strict hmu hc 0
    · injection hd with hd; subst hd; exact quadF_strict le_rfl hi1 0
    · simp [decls] at hd
  · refine ⟨rfl, rfl, rfl, ⟨?_, rfl⟩, smp (quadF_smp0 hc0), ?_, ?_, trivial, smp q1, ?_, ⟨smp q2, ?_⟩, ?_, ?_,
      smp (quadF_smp hc0 _), ?_, ⟨smp q3, ?_⟩, ?_, ?_, ?_, rfl, trivial, trivial⟩
    · have := smp2 (SR := fun k => ([quadF c 0, quadF 1 0].getD k (quadF c 0)).Sample) (quadF_smp0 hc0) (quadF_smp0 one_pos)
      rw [add_zero] at this; exact this
    · simp [Instr.Meets, Instr.next]
    · simp [Instr.Meets, Instr.next]
    · simp [Instr.Meets, Instr.next]
    · simp [Instr.next]; linarith
    · simp [Instr.Meets, Instr.next]; field_simp; linarith
    · simp [Instr.Meets, Instr.next]; rw [hx2, hu]; field_simp; ring
    · simp [Instr.Meets, Instr.next]
    · simp [Instr.next]; linear_combination x2 * hu'
    · simpa [Instr.Meets, Instr.next] using h11
    · simpa [Instr.Meets, Instr.next] using h12
    · simpa [Instr.Meets, Instr.next, invSmooth] using h13
  · simp [consVals]
  · rintro (_ | _ | k) d hd
    · injection hd with hd; subst hd
      refine .inr ⟨by by_cases h0 : mu = 0 <;> simp [defDecl, h0, FnDecl.reuse], ?_⟩
      simp [calls, callsFrom, Instr.callsOf, Instr.next, declIndex, Instr.declares, n2, Ne.symm n2, hx1, Ne.symm hx1]
    · refine .inl ?_
      have a1 : ¬ u = u * x2 := fun h => hx1 (mul_left_cancel₀ hu0 (by rw [← h, mul_one]))
      simp [calls, callsFrom, Instr.callsOf, Instr.next, declIndex, Instr.declares, n2, Ne.symm n2, hu0, Ne.symm hu0, a1]
    · simp [decls] at hd

/-- **C69** for `prox_gradient_circuit` (`classical_central_vi.py` 195-235) with a smooth `f`, for all class parameters, capacities and resistances:
at all parameter values with `h` not 0 the nonlinear program of `solve_ipopt` has a feasible point with these parameters if and only if the energy
inequality holds for all functions of the classes and all steps (and `eta`, `rho`, `h` are not negative). -/
theorem C69_proxGradient (hC : C.Lawful) {mu L : ℚ} (R Cap : ℚ) (hmu : 0 ≤ mu) (hL : mu < L) (hCap : Cap ≠ 0) (hR : 0 < R) :
    ∃ r h nlp h', runProblem C (proxGradient mu (some L) R Cap).prog Heap.empty = .ok (r, h) ∧ solveIpopt C r stdParams [] [] h = .ok (nlp, h') ∧
      ∀ p : Name → ℝ, p "h" ≠ 0 →
        ((∃ σ, nlp.state.Sat σ ∧ ∀ n ∈ scalarNames stdParams, nlp.state.value σ n = p n) ↔
          ProxGradientStep mu L R Cap p ∧ 0 ≤ p "eta" ∧ 0 ≤ p "rho" ∧ 0 ≤ p "h") := by
  have hok := defDecl_ok hmu hL
  have hs : SafeProg (proxGradient mu (some L) R Cap).prog ⟨0, 0, 0⟩ = true := by calls_simp [proxGradient]; safe_simp [hR.ne']
  have hd : ∀ d ∈ decls (proxGradient mu (some L) R Cap).prog, d.Ok := by
    calls_simp [proxGradient]
    simp [decls, hok]
    simp [defDecl, FnDecl.Ok]
  obtain ⟨r, h, nlp, h', hr, hn, hiff⟩ := complete_of_repeats (prog := (proxGradient mu (some L) R Cap).prog) (params := stdParams)
    (Gen := fun p => p "h" ≠ 0) hC hs (by calls_simp [proxGradient]; simp [Instr.Clean, stdParams])
    (standard_proxGradient mu (some L) R Cap).1 (by calls_simp [proxGradient]; simp [Instr.Fresh])
    (fun d hm => ⟨hd d hm, (standard_proxGradient mu (some L) R Cap).2 d hm⟩) stdParams_simple
    (by calls_simp [proxGradient]; exact ⟨9, by simp⟩) ⟨fun _ => 1, by norm_num⟩ fun p hh => by
      obtain ⟨fs, V, s⟩ := run_proxGradient R Cap hmu hL hCap hR hh
      obtain ⟨rr, h1, h2, h3⟩ := s.exec hs
      exact ⟨fs, rr, s.inst, s.strict, h1, h2, h3⟩
  refine ⟨r, h, nlp, h', hr, hn, fun p h1 => ?_⟩
  have hinv : InvOk stdParams p := fun v hv => absurd hv (by rw [show invParams stdParams = [] by decide]; simp)
  rw [hiff p h1, guaranteed_proxGradient _ _ hmu hL hR.ne']
  simp [hinv]

end Verif
