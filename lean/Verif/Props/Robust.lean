import Verif.Proofs.Robust
import Verif.Props.CircuitCertsDec
import Verif.Proofs.Interp
import Verif.Model.CircuitsDec

/-!
# C64: what a certificate says when the extra constraints are violated
-/

namespace Verif
open Build
open scoped InnerProductSpace

variable {E : Type} [NormedAddCommGroup E] [InnerProductSpace ℝ E] {C : CAS}

/-- **C64.** Let `env` be the parameter values of a feasible point of the nonlinear program.  Then there is one number `K` such that in every
real inner product space, for all functions of the declared classes and every execution of the program, the performance metric is at most
`K` times the total violation of the extra constraints. -/
theorem C64_robust (hC : C.Lawful) {prog : List Instr} {params : List Name} {env : Name → ℝ}
    (hclean : ∀ i ∈ prog, i.Clean {n | n ∈ params}) (hpl : ∀ n ∈ params, Plain n) (hnd : ∀ n ∈ params, ¬ IsDual n)
    (hok : ∀ d ∈ decls prog, d.Ok) (h : IpoptFeasible C prog params env) :
    ∃ K : ℝ, 0 ≤ K ∧ ∀ {E : Type} [NormedAddCommGroup E] [InnerProductSpace ℝ E] (fs : ℕ → CFun E), Instance prog fs → ∀ rr : RRegs E,
      RealExec fs env prog rr → ∀ v, rr.metric = some v → v ≤ K * rr.violation :=
  robust_of_feasible hC hclean hpl hnd hok h

/-- **C64** for `dgd_line3` (`classical_decentral_vi.py` 9-63) with convex functions that need not be strongly convex: the nonlinear program
has no feasible point with a positive step. -/
theorem C64_dgdLine3 (hC : C.Lawful) (L : Option ℚ) (R Cap : ℚ) (hR : R ≠ 0) (hCap : 0 < Cap) (hok : (defDecl 0 L).Ok) {p : Name → ℝ}
    (hp : IpoptFeasible C (dgdLine3 0 L R Cap).prog stdParams p) : p "h" ≤ 0 := by
  obtain ⟨K, -, hK⟩ := robust_of_feasible hC (by calls_simp [dgdLine3]; simp [Instr.Clean, stdParams])
    (by decide) (by decide) (by
      calls_simp [dgdLine3]
      intro d hd
      simp only [decls, List.mem_cons, List.not_mem_nil, or_false, or_self] at hd
      rcases hd with rfl; assumption) hp
  have hK : RobustBy (dgdLine3 0 L R Cap).prog p K := hK
  calls_simp [dgdLine3] at hK
  have hC' : (0 : ℝ) < Cap := by exact_mod_cast hCap
  have hR' : (R : ℝ) ≠ 0 := by exact_mod_cast hR
  by_contra hh
  rw [not_le] at hh
  set t : ℝ := p "h" / Cap with ht
  -- a point so far away that the metric exceeds the bound
  obtain ⟨M, hM⟩ : ∃ M : ℝ, K * |(R : ℝ) ^ 2 / 4| - 2 * p "rho" * (1 / R) * t ^ 2 < M * p "h" :=
    ⟨(K * |(R : ℝ) ^ 2 / 4| - 2 * p "rho" * (1 / R) * t ^ 2 + 1) / p "h", by rw [div_mul_cancel₀ _ hh.ne']; linarith⟩
  have key := hK.vals (E := ℝ) (fs := fun k => [linFun 0, linFun 1, linFun 0].getD k (linFun 0)) (e := 14) (cs := [(R : ℝ) ^ 2 / 4]) (by safe_simp [hR])
    (instance_of_list (.cons (linFun_holds 0 hok) (.cons (linFun_holds 1 hok) (.cons (linFun_holds 0 hok) .nil))))
    ⟨fun i => [0, 1, 0, 0, 0, 0, 0, -(R : ℝ) / 2, 1, -M, 0, -M, 1, -M, 0, -M, 0, -M - t, 1, -M, 0].getD i 0,
      fun i => [1 * 0, 0 * 0, 0 * 0, 1 * (-(R : ℝ) / 2), (R : ℝ) ^ 2 / 4, 0 * -M, 1 * -M, 0 * -M, 0 * -M, 1 * (-M - t), 0 * -M,
        Cap / 2 * (M ^ 2 + M ^ 2 + M ^ 2), Cap / 2 * (M ^ 2 + (M + t) ^ 2 + M ^ 2), p "rho" * (1 / R) * (t ^ 2 + t ^ 2),
        Cap / 2 * (M ^ 2 + (M + t) ^ 2 + M ^ 2) - (Cap / 2 * (M ^ 2 + M ^ 2 + M ^ 2) - p "rho" * (1 / R) * (t ^ 2 + t ^ 2))].getD i 0,
      fun i => [Finsupp.single 0 1, Finsupp.single 1 1, Finsupp.single 2 1].getD i 0⟩
    ⟨rfl,
      rfl,
      rfl,
      trivial,
      smp (linFun_sample 1 0),
      ⟨smp (linFun_sample 0 0), by simp [Instr.next]⟩,
      ⟨smp (linFun_sample 0 0), by simp [Instr.next]⟩,
      by simp [Instr.Meets, Instr.next],
      ⟨smp (linFun_sample 1 (-R / 2)), by simp [Instr.next]; ring⟩,
      by
        show (R : ℝ) ^ 2 / 4 = ‖(0 : ℝ) - (-(R : ℝ) / 2)‖ ^ 2
        rw [Real.norm_eq_abs, sq_abs]; ring,
      trivial,
      trivial,
      smp (linFun_sample 0 (-M)),
      trivial,
      smp (linFun_sample 1 (-M)),
      trivial,
      smp (linFun_sample 0 (-M)),
      by simp [Instr.Meets, Instr.next],
      smp (linFun_sample 0 (-M)),
      by simp [Instr.Meets, Instr.next, ht],
      smp (linFun_sample 1 (-M - t)),
      by simp [Instr.Meets, Instr.next],
      smp (linFun_sample 0 (-M)),
      by simp [Instr.Meets, Instr.next],
      by simp [Instr.Meets, Instr.next]; left; ring,
      by simp [Instr.Meets, Instr.next],
      rfl,
      trivial,
      trivial⟩
    (by simp [consVals]) rfl
  simp only [List.getD_cons_succ, List.getD_cons_zero, List.map_cons, List.map_nil, List.sum_cons, List.sum_nil, add_zero] at key
  have e1 : Cap * t = p "h" := by rw [ht]; field_simp
  have : Cap / 2 * (M ^ 2 + (M + t) ^ 2 + M ^ 2) - (Cap / 2 * (M ^ 2 + M ^ 2 + M ^ 2) - p "rho" * (1 / R) * (t ^ 2 + t ^ 2)) =
    M * (Cap * t) + Cap / 2 * t ^ 2 + 2 * p "rho" * (1 / R) * t ^ 2 := by ring
  rw [this, e1] at key
  have : 0 ≤ Cap / 2 * t ^ 2 := by positivity
  linarith

/-! ### The inequality itself holds -/

/-- gradients of a smooth convex function are cocoercive -/
theorem cocoercive {L : ℚ} (hL : 0 < L) {F : CFun E} (hF : (FnDecl.smoothConvex (some L)).Holds F) {x g y g' : E} {v v' : ℝ}
    (s : F.Sample x g v) (s' : F.Sample y g' v') : ‖g - g'‖ ^ 2 / L ≤ ⟪g - g', x - y⟫_ℝ := by
  have h1 := lhs_nonpos (d := .smoothConvex (some L)) hL hF s s'
  have h2 := lhs_nonpos (d := .smoothConvex (some L)) hL hF s' s
  simp only [FnDecl.cls, FnClass.lhs] at h1 h2
  rw [norm_sub_rev g' g, ← neg_sub x y, inner_neg_right] at h2
  rw [inner_sub_left]
  have : ‖g - g'‖ ^ 2 / L = 2 * (1 / (2 * (L : ℝ)) * ‖g - g'‖ ^ 2) := by
    have : (L : ℝ) ≠ 0 := by exact_mod_cast hL.ne'
    field_simp
  linarith

omit [InnerProductSpace ℝ E] in
theorem norm_add_sq_titu {p q : ℝ} (hp : 0 < p) (hq : 0 < q) (a b : E) : ‖a + b‖ ^ 2 ≤ (p + q) * (‖a‖ ^ 2 / p + ‖b‖ ^ 2 / q) := by
  have h1 : ‖a + b‖ ^ 2 ≤ (‖a‖ + ‖b‖) ^ 2 := pow_le_pow_left₀ (norm_nonneg _) (norm_add_le a b) 2
  refine h1.trans ?_
  have : (p + q) * (‖a‖ ^ 2 / p + ‖b‖ ^ 2 / q) - (‖a‖ + ‖b‖) ^ 2 = (q * ‖a‖ - p * ‖b‖) ^ 2 / (p * q) := by
    field_simp; ring
  have : 0 ≤ (q * ‖a‖ - p * ‖b‖) ^ 2 / (p * q) := by positivity
  linarith

/-- one step of gradient descent on `f1 + f2 + f3` plus the energy of two resistors -/
theorem dgd_contract {L R c : ℝ} (hL : 0 < L) (hR : 0 < R) (hc : 0 ≤ c) (hstep : c * (L + 3 / R) ≤ 2) {d1 d2 d3 a1 a2 a3 : E}
    (h1 : ‖a1‖ ^ 2 / L ≤ ⟪a1, d1⟫_ℝ) (h2 : ‖a2‖ ^ 2 / L ≤ ⟪a2, d2⟫_ℝ) (h3 : ‖a3‖ ^ 2 / L ≤ ⟪a3, d3⟫_ℝ) :
    ‖d1 - c • (a1 + R⁻¹ • (d1 - d2))‖ ^ 2 + ‖d2 - c • (a2 + R⁻¹ • (d2 - d1 + d2 - d3))‖ ^ 2 + ‖d3 - c • (a3 + R⁻¹ • (d3 - d2))‖ ^ 2 ≤
      ‖d1‖ ^ 2 + ‖d2‖ ^ 2 + ‖d3‖ ^ 2 := by
  set b1 := R⁻¹ • (d1 - d2) with hb1
  set b2 := R⁻¹ • (d2 - d1 + d2 - d3) with hb2
  set b3 := R⁻¹ • (d3 - d2) with hb3
  have hq : (0 : ℝ) < 3 / R := by positivity
  -- the resistor part
  have hb : ‖b1‖ ^ 2 / (3 / R) + ‖b2‖ ^ 2 / (3 / R) + ‖b3‖ ^ 2 / (3 / R) ≤ ⟪b1, d1⟫_ℝ + ⟪b2, d2⟫_ℝ + ⟪b3, d3⟫_ℝ := by
    set u := d1 - d2
    set w := d3 - d2
    have e2 : b2 = -(R⁻¹ • (u + w)) := by rw [hb2, ← smul_neg]; congr 1; simp only [u, w]; abel
    have hi : ⟪b1, d1⟫_ℝ + ⟪b2, d2⟫_ℝ + ⟪b3, d3⟫_ℝ = R⁻¹ * (‖u‖ ^ 2 + ‖w‖ ^ 2) := by
      rw [e2, hb1, hb3, inner_neg_left, inner_smul_left, inner_smul_left, inner_smul_left, inner_add_left, ← real_inner_self_eq_norm_sq,
        ← real_inner_self_eq_norm_sq]
      have e1 : ⟪u, u⟫_ℝ = ⟪u, d1⟫_ℝ - ⟪u, d2⟫_ℝ := by rw [← inner_sub_right]
      have e3 : ⟪w, w⟫_ℝ = ⟪w, d3⟫_ℝ - ⟪w, d2⟫_ℝ := by rw [← inner_sub_right]
      rw [e1, e3]
      simp
      ring
    have hn : ‖u + w‖ ^ 2 ≤ 2 * ‖u‖ ^ 2 + 2 * ‖w‖ ^ 2 := by
      have := norm_add_sq_titu one_pos one_pos u w
      linarith
    have n1 : ‖b1‖ ^ 2 = R⁻¹ ^ 2 * ‖u‖ ^ 2 := by rw [hb1, norm_smul, Real.norm_eq_abs, abs_of_pos (by positivity)]; ring
    have n2 : ‖b2‖ ^ 2 = R⁻¹ ^ 2 * ‖u + w‖ ^ 2 := by rw [e2, norm_neg, norm_smul, Real.norm_eq_abs, abs_of_pos (by positivity)]; ring
    have n3 : ‖b3‖ ^ 2 = R⁻¹ ^ 2 * ‖w‖ ^ 2 := by rw [hb3, norm_smul, Real.norm_eq_abs, abs_of_pos (by positivity)]; ring
    rw [hi, n1, n2, n3, ← add_div, ← add_div, div_le_iff₀ hq]
    have : R⁻¹ * (‖u‖ ^ 2 + ‖w‖ ^ 2) * (3 / R) = R⁻¹ ^ 2 * (3 * (‖u‖ ^ 2 + ‖w‖ ^ 2)) := by field_simp
    rw [this, ← mul_add, ← mul_add]
    exact mul_le_mul_of_nonneg_left (by linarith) (by positivity)
  have ex : ∀ d a b : E, ‖d - c • (a + b)‖ ^ 2 = ‖d‖ ^ 2 - 2 * c * (⟪a, d⟫_ℝ + ⟪b, d⟫_ℝ) + c ^ 2 * ‖a + b‖ ^ 2 := by
    intro d a b
    rw [norm_sub_sq_real, inner_smul_right, inner_add_right, norm_smul, Real.norm_eq_abs, mul_pow, sq_abs, real_inner_comm d a, real_inner_comm d b]
    ring
  rw [ex, ex, ex]
  have t1 := norm_add_sq_titu hL hq a1 b1
  have t2 := norm_add_sq_titu hL hq a2 b2
  have t3 := norm_add_sq_titu hL hq a3 b3
  set S := ⟪a1, d1⟫_ℝ + ⟪b1, d1⟫_ℝ + (⟪a2, d2⟫_ℝ + ⟪b2, d2⟫_ℝ) + (⟪a3, d3⟫_ℝ + ⟪b3, d3⟫_ℝ) with hS
  have hN : ‖a1 + b1‖ ^ 2 + ‖a2 + b2‖ ^ 2 + ‖a3 + b3‖ ^ 2 ≤ (L + 3 / R) * S := by
    have : ‖a1‖ ^ 2 / L + ‖b1‖ ^ 2 / (3 / R) + (‖a2‖ ^ 2 / L + ‖b2‖ ^ 2 / (3 / R)) + (‖a3‖ ^ 2 / L + ‖b3‖ ^ 2 / (3 / R)) ≤ S := by
      rw [hS]; linarith
    have := mul_le_mul_of_nonneg_left this (by positivity : 0 ≤ L + 3 / R)
    linarith
  have hS0 : 0 ≤ S := by
    have : 0 ≤ (L + 3 / R) * S := le_trans (by positivity) hN
    exact nonneg_of_mul_nonneg_right this (by positivity)
  have h5 := mul_le_mul_of_nonneg_left hN (sq_nonneg c)
  have h6 : c ^ 2 * ((L + 3 / R) * S) ≤ 2 * c * S := by
    have := mul_le_mul_of_nonneg_right hstep (mul_nonneg hc hS0)
    nlinarith
  rw [hS] at h6 h5
  linarith

/-- With `L`-smooth convex functions and `h (L + 3 / R) ≤ 2 C` the energy does not increase: the inequality that `dgd_line3` asks for, with
`eta = rho = 0`, is true.  So for these steps the nonlinear program of C64_dgdLine3 is infeasible although the guarantee holds. -/
theorem C64_dgdLine3_guaranteed (L R Cap : ℚ) (hL : 0 < L) (hR : 0 < R) (hCap : 0 < Cap) {p : Name → ℝ} (hh : 0 ≤ p "h")
    (hstep : p "h" * (L + 3 / R) ≤ 2 * Cap) (heta : p "eta" = 0) (hrho : p "rho" = 0) : Guaranteed (dgdLine3 0 (some L) R Cap).prog p := by
  calls_simp [dgdLine3]
  refine guaranteed_of_vals (e := 14) (by safe_simp [hR.ne']) rfl ?_
  intro E _ _ fs hi V hm hcons
  obtain ⟨f0, f1, f2, -, m1, m2, m3, m4, m5, m6, -, -, m7, -, m8, -, m9, n1, -, n2, -, n3, -, e1, e2, e3, e4, -, -⟩ := hm
  simp only [Instr.Meets, Instr.next, Instr.nextDecl, Nat.reduceAdd, zero_add] at f0 f1 f2 m1 m2 m3 m4 m5 m6 m7 m8 m9 n1 n2 n3 e1 e2 e3 e4
  have hc : V.ex 4 = 0 := hcons _ (by simp [consVals])
  rw [f0] at m2 m7
  rw [f1] at m1 m5 m8
  rw [f2] at m3 m9
  have hF : ∀ k < 3, (FnDecl.smoothConvex (some L)).Holds (fs k) := by
    intro k hk
    apply hi k
    interval_cases k <;> simp [decls, defDecl]
  have hC' : (0 : ℝ) < Cap := by exact_mod_cast hCap
  have hR' : (0 : ℝ) < R := by exact_mod_cast hR
  have hL' : (0 : ℝ) < L := by exact_mod_cast hL
  -- the equilibrium
  have q1 : V.pt 0 = V.pt 7 := by
    rw [m6] at hc
    simpa [sub_eq_zero] using hc
  have q2 : V.pt 8 = V.pt 1 := by
    have s1 := sample_of_single m1
    have s5 := sample_of_single m5.1
    rw [← q1] at s5
    exact (hF 1 (by norm_num)).unique rfl s5 s1
  have r1 : V.pt 3 = -((R : ℝ)⁻¹ • (V.pt 2 - V.pt 0)) := by
    have : V.pt 2 + (R : ℝ) • V.pt 3 = V.pt 0 := by simpa using m2.2
    rw [← this]; simp [smul_smul, hR'.ne']
  have r3 : V.pt 5 = -((R : ℝ)⁻¹ • (V.pt 4 - V.pt 0)) := by
    have : V.pt 4 + (R : ℝ) • V.pt 5 = V.pt 0 := by simpa using m3.2
    rw [← this]; simp [smul_smul, hR'.ne']
  have r2 : V.pt 1 = -((R : ℝ)⁻¹ • (V.pt 0 - V.pt 2 + V.pt 0 - V.pt 4)) := by
    have h5 : V.pt 7 + ((R / 2 : ℚ) : ℝ) • V.pt 8 = (2 : ℝ)⁻¹ • (V.pt 2 + V.pt 4) := by
      have := m5.2; rw [m4] at this; simpa using this
    rw [← q1, q2] at h5
    have h6 : (R : ℝ) • V.pt 1 = -(V.pt 0 - V.pt 2 + V.pt 0 - V.pt 4) := by
      have := congrArg (fun z => (2 : ℝ) • z) h5
      simp only [smul_add, smul_smul] at this
      have e : (2 : ℝ) * ((R / 2 : ℚ) : ℝ) = R := by push_cast; ring
      rw [e] at this
      rw [eq_sub_of_add_eq' this]
      module
    rw [← smul_neg, ← h6, smul_smul, inv_mul_cancel₀ hR'.ne', one_smul]
  have c1 := cocoercive hL (hF 0 (by norm_num)) (sample_of_single m7) (sample_of_single m2.1)
  have c2 := cocoercive hL (hF 1 (by norm_num)) (sample_of_single m8) (sample_of_single m1)
  have c3 := cocoercive hL (hF 2 (by norm_num)) (sample_of_single m9) (sample_of_single m3.1)
  have key := dgd_contract (c := p "h" / Cap) hL' hR' (div_nonneg hh hC'.le) (by rw [div_mul_eq_mul_div, div_le_iff₀ hC']; exact hstep) c1 c2 c3
  have k1 : V.pt 15 - V.pt 2 = V.pt 9 - V.pt 2 - (p "h" / Cap) • (V.pt 10 - V.pt 3 + (R : ℝ)⁻¹ • (V.pt 9 - V.pt 2 - (V.pt 11 - V.pt 0))) := by
    rw [n1, r1]; simp [pH]; module
  have k2 : V.pt 17 - V.pt 0 = V.pt 11 - V.pt 0 - (p "h" / Cap) • (V.pt 12 - V.pt 1 +
      (R : ℝ)⁻¹ • (V.pt 11 - V.pt 0 - (V.pt 9 - V.pt 2) + (V.pt 11 - V.pt 0) - (V.pt 13 - V.pt 4))) := by
    rw [n2, r2]; simp [pH]; module
  have k3 : V.pt 19 - V.pt 4 = V.pt 13 - V.pt 4 - (p "h" / Cap) • (V.pt 14 - V.pt 5 + (R : ℝ)⁻¹ • (V.pt 13 - V.pt 4 - (V.pt 11 - V.pt 0))) := by
    rw [n3, r3]; simp [pH]; module
  rw [← k1, ← k2, ← k3] at key
  have e5 : V.ex 13 = 0 := by rw [e3]; simp [pRho, pEta, heta, hrho]
  rw [e4]
  simp only [EE.val_sub', EE.val_reg', e5, e1, e2]
  simp
  have := mul_le_mul_of_nonneg_left key (by positivity : (0 : ℝ) ≤ Cap / 2)
  linarith

/-! ### Non-vacuity -/

/-- with strongly convex functions the nonlinear program is feasible with `h = 1 / 4`, so C64_robust applies -/
example : ∃ (p : Name → ℝ) (K : ℝ), p "h" = 1 / 4 ∧ RobustBy (dgdLine3 (1 / 2) (some 1) 1 1).prog p K := by
  obtain ⟨p, hp, -, -, -, -, -, hh, -⟩ := C34_dgdLine3_feasible
  obtain ⟨K, -, hK⟩ := C64_robust refCAS_lawful (by calls_simp [dgdLine3]; simp [Instr.Clean, stdParams])
    (by decide) (by decide) (by
      calls_simp [dgdLine3]
      intro d hd
      simp only [decls, List.mem_cons, List.not_mem_nil, or_false, or_self] at hd
      rcases hd with rfl; norm_num [FnDecl.Ok, defDecl]) hp
  exact ⟨p, K, hh, hK⟩

/-- the steps of `C64_dgdLine3_guaranteed`: `L = R = C = 1`, `h = 1 / 2`; for them the nonlinear program is infeasible -/
example : ∃ p : Name → ℝ, Guaranteed (dgdLine3 0 (some 1) 1 1).prog p ∧ 0 < p "h" ∧ ∀ C : CAS, C.Lawful →
    ¬ IpoptFeasible C (dgdLine3 0 (some 1) 1 1).prog stdParams p := by
  have h : Guaranteed (dgdLine3 0 (some 1) 1 1).prog fun n => if n = "h" then 1 / 2 else 0 :=
    C64_dgdLine3_guaranteed 1 1 1 one_pos one_pos one_pos (by norm_num) (by norm_num) (if_neg (by decide)) (if_neg (by decide))
  refine ⟨_, h, by norm_num, fun C hC hf => ?_⟩
  have := C64_dgdLine3 hC (some 1) 1 1 one_ne_zero one_pos (by norm_num [defDecl, FnDecl.Ok]) hf
  norm_num at this

end Verif
