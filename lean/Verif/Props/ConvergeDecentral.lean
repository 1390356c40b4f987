import Verif.Proofs.Converge
import Verif.Props.CircuitsDecentral
import Verif.Props.CircuitCertsDec

/-!
# C33 for the decentralised circuits and the new circuit: a feasible point of the nonlinear program implies convergence of every run

In the runs of the decentralised ADMM circuits `x k i` is the point of node `i` in iteration `k`, `e k i j` the voltage and `c k i j` the
current of the inductor of the edge between `i` and `j` before iteration `k`; nodes are numbered as in the code.

Axioms of every theorem: propext, Classical.choice, Quot.sound.
-/

namespace Verif
open Build
open scoped InnerProductSpace
open Filter

variable {E : Type} [NormedAddCommGroup E] [InnerProductSpace ℝ E] {C : CAS}

/-- the two ends of an edge meet when the midpoint meets one of them -/
theorem ends_left {e a b : ℕ → E} (he : ∀ k, e k = (2 : ℝ)⁻¹ • (a k + b k)) (h : Tendsto (fun k => e k - a k) atTop (nhds 0)) :
    Tendsto (fun k => a k - b k) atTop (nhds 0) := by
  have := h.const_smul (-2 : ℝ)
  rw [smul_zero] at this
  refine this.congr fun k => ?_
  rw [he]; module

theorem ends_right {e a b : ℕ → E} (he : ∀ k, e k = (2 : ℝ)⁻¹ • (a k + b k)) (h : Tendsto (fun k => e k - b k) atTop (nhds 0)) :
    Tendsto (fun k => a k - b k) atTop (nhds 0) := by
  have := h.const_smul (2 : ℝ)
  rw [smul_zero] at this
  refine this.congr fun k => ?_
  rw [he]; module

omit [InnerProductSpace ℝ E] in
theorem ends_trans {a b c : ℕ → E} (h : Tendsto (fun k => a k - b k) atTop (nhds 0)) (h' : Tendsto (fun k => b k - c k) atTop (nhds 0)) :
    Tendsto (fun k => a k - c k) atTop (nhds 0) := by simpa using h.add h'

omit [InnerProductSpace ℝ E] in
theorem ends_symm {a b : ℕ → E} (h : Tendsto (fun k => a k - b k) atTop (nhds 0)) : Tendsto (fun k => b k - a k) atTop (nhds 0) := by
  simpa using h.neg

/-- **C33** for `decentralized_gradient_descent_line3`: the differences of neighbours tend to those at the equilibrium of the circuit, and for strongly convex functions
the points tend to the equilibrium. -/
theorem C33_dgdLine3 (hC : C.Lawful) (mu : ℚ) (L : Option ℚ) (R Cap : ℚ) (hR : 0 < R) (hCap : 0 ≤ Cap) (hok : (defDecl mu L).Ok)
    {p : Name → ℝ} (hp : IpoptFeasible C (dgdLine3 mu L R Cap).prog stdParams p) (heta : 0 ≤ p "eta") (hrho : 0 ≤ p "rho")
    (f1 f2 f3 : CFun E) (hf1 : (defDecl mu L).Holds f1) (hf2 : (defDecl mu L).Holds f2) (hf3 : (defDecl mu L).Holds f3)
    {s1 s2 s3 t1 t2 t3 : E} (hs1 : f1.Sample s1 t1 (f1.f s1)) (hs2 : f2.Sample s2 t2 (f2.f s2)) (hs3 : f3.Sample s3 t3 (f3.f s3))
    (eq1 : s1 + (R : ℝ) • t1 = s2) (eq3 : s3 + (R : ℝ) • t3 = s2) (eq2 : s2 + ((R : ℝ) / 2) • t2 = (2 : ℝ)⁻¹ • (s1 + s3))
    (x1 x2 x3 y1 y2 y3 : ℕ → E) (hy1 : ∀ k, f1.Sample (x1 k) (y1 k) (f1.f (x1 k))) (hy2 : ∀ k, f2.Sample (x2 k) (y2 k) (f2.f (x2 k)))
    (hy3 : ∀ k, f3.Sample (x3 k) (y3 k) (f3.f (x3 k)))
    (h1 : ∀ k, x1 (k + 1) = x1 k - (p "h" / Cap) • (y1 k + (R : ℝ)⁻¹ • (x1 k - x2 k)))
    (h2 : ∀ k, x2 (k + 1) = x2 k - (p "h" / Cap) • (y2 k + (R : ℝ)⁻¹ • (x2 k - x1 k + x2 k - x3 k)))
    (h3 : ∀ k, x3 (k + 1) = x3 k - (p "h" / Cap) • (y3 k + (R : ℝ)⁻¹ • (x3 k - x2 k))) :
    (0 < p "rho" → Tendsto (fun k => x1 k - x2 k) atTop (nhds (s1 - s2)) ∧ Tendsto (fun k => x3 k - x2 k) atTop (nhds (s3 - s2))) ∧
      (0 < p "eta" → 0 < mu → Tendsto x1 atTop (nhds s1) ∧ Tendsto x2 atTop (nhds s2) ∧ Tendsto x3 atTop (nhds s3)) := by
  have hR' : (0 : ℝ) < R := by exact_mod_cast hR
  have hC' : (0 : ℝ) ≤ Cap := by exact_mod_cast hCap
  have hs := fun k => C34_dgdLine3 hC mu L R Cap hR.ne' hok hp f1 f2 f3 hf1 hf2 hf3 hs2 ⟨hs1, eq1⟩ ⟨hs3, eq3⟩ ⟨hs2, eq2⟩ (hy1 k) (hy2 k) (hy3 k)
    (h1 k) (hy1 (k + 1)) (h2 k) (hy2 (k + 1)) (h3 k) (hy3 (k + 1)) rfl rfl rfl
  have m1 : ∀ k, 0 ≤ ⟪x1 k - s1, y1 k - t1⟫_ℝ := fun k => sample_mono_nonneg (hy1 k) hs1
  have m2 : ∀ k, 0 ≤ ⟪x2 k - s2, y2 k - t2⟫_ℝ := fun k => sample_mono_nonneg (hy2 k) hs2
  have m3 : ∀ k, 0 ≤ ⟪x3 k - s3, y3 k - t3⟫_ℝ := fun k => sample_mono_nonneg (hy3 k) hs3
  have ha : ∀ k, 0 ≤ p "rho" * (1 / R) * (‖x1 (k + 1) - x2 (k + 1) - (s1 - s2)‖ ^ 2 + ‖x3 (k + 1) - x2 (k + 1) - (s3 - s2)‖ ^ 2) :=
    fun k => by positivity
  have hb : ∀ k, 0 ≤ p "eta" * (⟪x1 (k + 1) - s1, y1 (k + 1) - t1⟫_ℝ + ⟪x2 (k + 1) - s2, y2 (k + 1) - t2⟫_ℝ +
      ⟪x3 (k + 1) - s3, y3 (k + 1) - t3⟫_ℝ) := fun k => mul_nonneg heta (add_nonneg (add_nonneg (m1 _) (m2 _)) (m3 _))
  obtain ⟨-, ht, -⟩ := energy_limit (En := fun k => Cap / 2 * (‖x1 k - s1‖ ^ 2 + ‖x2 k - s2‖ ^ 2 + ‖x3 k - s3‖ ^ 2)) hs (fun k => by positivity)
    (fun k => add_nonneg (ha k) (hb k))
  constructor
  · intro hr
    have g1 : Tendsto (fun k => x1 (k + 1) - x2 (k + 1) - (s1 - s2)) atTop (nhds 0) := part_tendsto_vec (c := p "rho" * (1 / R)) (by positivity)
      (fun k => (by
        have : 0 ≤ p "rho" * (1 / R) * ‖x3 (k + 1) - x2 (k + 1) - (s3 - s2)‖ ^ 2 := by positivity
        have := hb k
        linarith)) ht
    have g2 : Tendsto (fun k => x3 (k + 1) - x2 (k + 1) - (s3 - s2)) atTop (nhds 0) := part_tendsto_vec (c := p "rho" * (1 / R)) (by positivity)
      (fun k => (by
        have : 0 ≤ p "rho" * (1 / R) * ‖x1 (k + 1) - x2 (k + 1) - (s1 - s2)‖ ^ 2 := by positivity
        have := hb k
        linarith)) ht
    exact ⟨(tendsto_add_atTop_iff_nat 1).1 (by simpa using g1.add_const (s1 - s2)),
      (tendsto_add_atTop_iff_nat 1).1 (by simpa using g2.add_const (s3 - s2))⟩
  · intro he hmu
    have hm' : (0 : ℝ) < mu := by exact_mod_cast hmu
    have hem : 0 < p "eta" * mu := by positivity
    have g1 : Tendsto (fun k => x1 (k + 1) - s1) atTop (nhds 0) := part_tendsto_vec hem (fun k => by
      have a1 := mul_le_mul_of_nonneg_left (sample_strong hmu hf1 (hy1 (k + 1)) hs1) heta
      have a2 := mul_nonneg heta (m2 (k + 1))
      have a3 := mul_nonneg heta (m3 (k + 1))
      have := ha k
      linarith) ht
    have g2 : Tendsto (fun k => x2 (k + 1) - s2) atTop (nhds 0) := part_tendsto_vec hem (fun k => by
      have a1 := mul_le_mul_of_nonneg_left (sample_strong hmu hf2 (hy2 (k + 1)) hs2) heta
      have a2 := mul_nonneg heta (m1 (k + 1))
      have a3 := mul_nonneg heta (m3 (k + 1))
      have := ha k
      linarith) ht
    have g3 : Tendsto (fun k => x3 (k + 1) - s3) atTop (nhds 0) := part_tendsto_vec hem (fun k => by
      have a1 := mul_le_mul_of_nonneg_left (sample_strong hmu hf3 (hy3 (k + 1)) hs3) heta
      have a2 := mul_nonneg heta (m1 (k + 1))
      have a3 := mul_nonneg heta (m2 (k + 1))
      have := ha k
      linarith) ht
    exact ⟨(tendsto_add_atTop_iff_nat 1).1 (by simpa using g1.add_const s1), (tendsto_add_atTop_iff_nat 1).1 (by simpa using g2.add_const s2),
      (tendsto_add_atTop_iff_nat 1).1 (by simpa using g3.add_const s3)⟩

/-- **C33** for `diffusion_line3`: the differences of the voltages behind the resistors tend to those at the equilibrium, and for `R < 1 / L` the
gradients tend to those at the equilibrium. -/
theorem C33_diffusionLine3 (hC : C.Lawful) (mu : ℚ) (L : Option ℚ) (R Cap : ℚ) (hR : 0 < R) (hRL : (R : ℝ) ≤ invSmooth L) (hCap : 0 ≤ Cap)
    (hok : (defDecl mu L).Ok) {p : Name → ℝ} (hp : IpoptFeasible C (diffusionLine3 mu L R Cap).prog stdParams p) (heta : 0 ≤ p "eta")
    (hrho : 0 ≤ p "rho")
    (f1 f2 f3 : CFun E) (hf1 : (defDecl mu L).Holds f1) (hf2 : (defDecl mu L).Holds f2) (hf3 : (defDecl mu L).Holds f3)
    {s1 s2 s3 t1 t2 t3 u1 u2 u3 : E} (hs1 : f1.Sample s1 t1 (f1.f s1)) (hs2 : f2.Sample s2 t2 (f2.f s2)) (hs3 : f3.Sample s3 t3 (f3.f s3))
    (hu1 : u1 = s1 - (R : ℝ) • t1) (hu2 : u2 = s2 - (R : ℝ) • t2) (hu3 : u3 = s3 - (R : ℝ) • t3)
    (eq2 : t2 = (3 * (R : ℝ))⁻¹ • (u1 - (2 : ℝ) • u2 + u3)) (eq1 : t1 = (3 * (R : ℝ))⁻¹ • (u2 - u1)) (eq3 : t3 = (3 * (R : ℝ))⁻¹ • (u2 - u3))
    (x1 x2 x3 y1 y2 y3 : ℕ → E) (hy1 : ∀ k, f1.Sample (x1 k) (y1 k) (f1.f (x1 k))) (hy2 : ∀ k, f2.Sample (x2 k) (y2 k) (f2.f (x2 k)))
    (hy3 : ∀ k, f3.Sample (x3 k) (y3 k) (f3.f (x3 k)))
    (h1 : ∀ k, x1 (k + 1) = x1 k - (p "h" / Cap) • (y1 k + (1 / (3 * (R : ℝ))) • (x1 k - (R : ℝ) • y1 k - (x2 k - (R : ℝ) • y2 k))))
    (h2 : ∀ k, x2 (k + 1) = x2 k - (p "h" / Cap) • (y2 k + (1 / (3 * (R : ℝ))) •
      ((2 : ℝ) • (x2 k - (R : ℝ) • y2 k) - (x1 k - (R : ℝ) • y1 k) - (x3 k - (R : ℝ) • y3 k))))
    (h3 : ∀ k, x3 (k + 1) = x3 k - (p "h" / Cap) • (y3 k + (1 / (3 * (R : ℝ))) • (x3 k - (R : ℝ) • y3 k - (x2 k - (R : ℝ) • y2 k)))) :
    (0 < p "rho" → Tendsto (fun k => x1 k - (R : ℝ) • y1 k - (x2 k - (R : ℝ) • y2 k)) atTop (nhds (u1 - u2)) ∧
        Tendsto (fun k => x3 k - (R : ℝ) • y3 k - (x2 k - (R : ℝ) • y2 k)) atTop (nhds (u3 - u2))) ∧
      (0 < p "eta" → (R : ℝ) < invSmooth L → Tendsto y1 atTop (nhds t1) ∧ Tendsto y2 atTop (nhds t2) ∧ Tendsto y3 atTop (nhds t3)) := by
  have hR' : (0 : ℝ) < R := by exact_mod_cast hR
  have hC' : (0 : ℝ) ≤ Cap := by exact_mod_cast hCap
  have hs := fun k => C34_diffusionLine3 hC mu L R Cap hR.ne' hok hp f1 f2 f3 hf1 hf2 hf3 hs1 hs2 hs3 hu1 hu2 hu3 eq2 eq1 eq3 (hy1 k) (hy2 k) (hy3 k)
    rfl rfl rfl (h1 k) (hy1 (k + 1)) (h2 k) (hy2 (k + 1)) (h3 k) (hy3 (k + 1)) rfl rfl rfl rfl rfl rfl
  have hc : 0 ≤ p "eta" * (invSmooth L - R) := mul_nonneg heta (by linarith)
  have ha : ∀ k, 0 ≤ p "rho" * (1 / (3 * R)) * (‖x1 k - (R : ℝ) • y1 k - (x2 k - (R : ℝ) • y2 k) - (u1 - u2)‖ ^ 2 +
      ‖x3 k - (R : ℝ) • y3 k - (x2 k - (R : ℝ) • y2 k) - (u3 - u2)‖ ^ 2) := fun k => by positivity
  have hb : ∀ k, 0 ≤ p "eta" * (invSmooth L - R) * (‖y1 k - t1‖ ^ 2 + ‖y2 k - t2‖ ^ 2 + ‖y3 k - t3‖ ^ 2) := fun k => by positivity
  obtain ⟨-, ht, -⟩ := energy_limit (En := fun k => Cap / 2 * (‖x1 k - (R : ℝ) • y1 k - u1‖ ^ 2 + ‖x2 k - (R : ℝ) • y2 k - u2‖ ^ 2 +
    ‖x3 k - (R : ℝ) • y3 k - u3‖ ^ 2)) hs (fun k => by positivity) (fun k => add_nonneg (ha k) (hb k))
  constructor
  · intro hr
    have g1 : Tendsto (fun k => x1 k - (R : ℝ) • y1 k - (x2 k - (R : ℝ) • y2 k) - (u1 - u2)) atTop (nhds 0) :=
      part_tendsto_vec (c := p "rho" * (1 / (3 * R))) (by positivity) (fun k => (by
        have : 0 ≤ p "rho" * (1 / (3 * R)) * ‖x3 k - (R : ℝ) • y3 k - (x2 k - (R : ℝ) • y2 k) - (u3 - u2)‖ ^ 2 := by positivity
        have := hb k
        linarith)) ht
    have g2 : Tendsto (fun k => x3 k - (R : ℝ) • y3 k - (x2 k - (R : ℝ) • y2 k) - (u3 - u2)) atTop (nhds 0) :=
      part_tendsto_vec (c := p "rho" * (1 / (3 * R))) (by positivity) (fun k => (by
        have : 0 ≤ p "rho" * (1 / (3 * R)) * ‖x1 k - (R : ℝ) • y1 k - (x2 k - (R : ℝ) • y2 k) - (u1 - u2)‖ ^ 2 := by positivity
        have := hb k
        linarith)) ht
    exact ⟨by simpa using g1.add_const (u1 - u2), by simpa using g2.add_const (u3 - u2)⟩
  · intro he hlt
    have hc' : 0 < p "eta" * (invSmooth L - R) := mul_pos he (by linarith)
    have g1 : Tendsto (fun k => y1 k - t1) atTop (nhds 0) := part_tendsto_vec hc' (fun k => by
      have : 0 ≤ p "eta" * (invSmooth L - R) * (‖y2 k - t2‖ ^ 2 + ‖y3 k - t3‖ ^ 2) := by positivity
      have := ha k
      linarith) ht
    have g2 : Tendsto (fun k => y2 k - t2) atTop (nhds 0) := part_tendsto_vec hc' (fun k => by
      have : 0 ≤ p "eta" * (invSmooth L - R) * (‖y1 k - t1‖ ^ 2 + ‖y3 k - t3‖ ^ 2) := by positivity
      have := ha k
      linarith) ht
    have g3 : Tendsto (fun k => y3 k - t3) atTop (nhds 0) := part_tendsto_vec hc' (fun k => by
      have : 0 ≤ p "eta" * (invSmooth L - R) * (‖y1 k - t1‖ ^ 2 + ‖y2 k - t2‖ ^ 2) := by positivity
      have := ha k
      linarith) ht
    exact ⟨by simpa using g1.add_const t1, by simpa using g2.add_const t2, by simpa using g3.add_const t3⟩

/-- **C33** for `example_fC3RC_circuit`: the value tends to the minimum, the voltage of the second capacitor to zero. -/
theorem C33_exampleFC3RC (hC : C.Lawful) (mu : ℚ) (L : Option ℚ) (Cap R : ℚ) (hCap : 0 ≤ Cap) (hR : 0 < R) (hok : (defDecl mu L).Ok)
    {p : Name → ℝ} (hp : IpoptFeasible C (exampleFC3RC mu L Cap R).prog stdParams p) (heta : 0 < p "eta") (hrho : 0 ≤ p "rho")
    (f : CFun E) (hf : (defDecl mu L).Holds f) {x_star : E} (hdom : x_star ∈ f.dom) (hmin : ∀ y ∈ f.dom, f.f x_star ≤ f.f y)
    (z e x g zh eh xh gh : ℕ → E) (hx : ∀ k, f.Prox (R / 2) (z k) (x k) (g k) (f.f (x k)))
    (hxh : ∀ k, f.Prox (R / 2) (zh k) (xh k) (gh k) (f.f (xh k)))
    (h1 : ∀ k, eh k = e k - (p "alpha" * p "h" / (2 * R * Cap)) • ((R : ℝ) • g k + (3 : ℝ) • e k))
    (h2 : ∀ k, zh k = z k - (p "alpha" * p "h" / (4 * R * Cap)) • ((5 * (R : ℝ)) • g k + (3 : ℝ) • e k))
    (h3 : ∀ k, e (k + 1) = e k - (p "beta" * p "h" / (2 * R * Cap)) • ((R : ℝ) • g k + (3 : ℝ) • e k) -
      ((1 - p "beta") * p "h" / (2 * R * Cap)) • ((R : ℝ) • gh k + (3 : ℝ) • eh k))
    (h4 : ∀ k, z (k + 1) = z k - (p "beta" * p "h" / (4 * R * Cap)) • ((5 * (R : ℝ)) • g k + (3 : ℝ) • e k) -
      ((1 - p "beta") * p "h" / (4 * R * Cap)) • ((5 * (R : ℝ)) • gh k + (3 : ℝ) • eh k)) :
    (∀ N, ∑ k ∈ Finset.range N, (f.f (x k) - f.f x_star) ≤
        (Cap / 2 * ‖(2 : ℝ)⁻¹ • e 0 - z 0 + x_star‖ ^ 2 + Cap / 2 * ‖e 0‖ ^ 2) / p "eta") ∧
      Tendsto (fun k => f.f (x k)) atTop (nhds (f.f x_star)) ∧ (0 < p "rho" → Tendsto e atTop (nhds 0)) := by
  have hR' : (0 : ℝ) < R := by exact_mod_cast hR
  have hC' : (0 : ℝ) ≤ Cap := by exact_mod_cast hCap
  have hg : ∀ k, g k = (2 / (R : ℝ)) • (z k - x k) := fun k => by
    rw [← (hx k).2, add_sub_cancel_left, smul_smul, show (2 : ℝ) / R * (R / 2) = 1 by field_simp, one_smul]
  have hgh : ∀ k, gh k = (2 / (R : ℝ)) • (zh k - xh k) := fun k => by
    rw [← (hxh k).2, add_sub_cancel_left, smul_smul, show (2 : ℝ) / R * (R / 2) = 1 by field_simp, one_smul]
  have hstar : f.Sample x_star 0 (f.f x_star) := CFun.Sample.zero_iff.2 ⟨hdom, rfl, hmin⟩
  have hs := fun k => C34_exampleFC3RC hC mu L Cap R hok hp f hf hstar (hx k) (hg k) (h1 k) (h2 k) (hxh k) (hgh k) (h3 k) (h4 k) (hx (k + 1))
    (hg (k + 1)) rfl rfl rfl rfl rfl rfl
  have hgap : ∀ k, 0 ≤ f.f (x k) - f.f x_star := fun k => sub_nonneg.2 (hmin _ (hx k).1.1)
  have hle : ∀ k, p "eta" * (f.f (x k) - f.f x_star) ≤ ⟪p "eta" • (x k - x_star), g k⟫_ℝ := fun k => by
    have := sample_mono (hx k).1 hstar
    rw [inner_zero_left, sub_zero, sub_zero] at this
    rw [real_inner_smul_left]
    exact mul_le_mul_of_nonneg_left this heta.le
  have hq : ∀ k, 0 ≤ p "rho" * (1 / R) * (‖(2 : ℝ)⁻¹ • (e k - (R : ℝ) • g k)‖ ^ 2 + ‖(2 : ℝ)⁻¹ • (e k - (R : ℝ) • g k) - e k‖ ^ 2 + ‖e k‖ ^ 2) :=
    fun k => by positivity
  obtain ⟨-, b, c⟩ := summable_of_dissipation (En := fun k => Cap / 2 * ‖(2 : ℝ)⁻¹ • e k - z k + x_star‖ ^ 2 + Cap / 2 * ‖e k‖ ^ 2)
    (gap := fun k => f.f (x k) - f.f x_star) heta (fun k => (hs k).trans (by have := hle k; have := hq k; linarith)) (fun k => by positivity) hgap
  refine ⟨b, by simpa using c.add_const (f.f x_star), fun hr => ?_⟩
  obtain ⟨-, ht, -⟩ := energy_limit (En := fun k => Cap / 2 * ‖(2 : ℝ)⁻¹ • e k - z k + x_star‖ ^ 2 + Cap / 2 * ‖e k‖ ^ 2) hs
    (fun k => by positivity) (fun k => add_nonneg ((mul_nonneg heta.le (hgap k)).trans (hle k)) (hq k))
  refine part_tendsto_vec (c := p "rho" * (1 / R)) (by positivity) (fun k => ?_) ht
  have a1 := (mul_nonneg heta.le (hgap k)).trans (hle k)
  have a2 : 0 ≤ p "rho" * (1 / R) * (‖(2 : ℝ)⁻¹ • (e k - (R : ℝ) • g k)‖ ^ 2 + ‖(2 : ℝ)⁻¹ • (e k - (R : ℝ) • g k) - e k‖ ^ 2) := by positivity
  linarith

/-- **C33** for `pg_extra_l3`: for `eta > 0` the Bregman gaps of the functions of the proximal steps and for `rho > 0` those of the functions of
the gradient steps tend to zero, and for strongly convex functions all points tend to the solution. -/
theorem C33_pgExtraLine3 (hC : C.Lawful) (mu : ℚ) (Lh Lf : Option ℚ) (R : ℚ) (W : ℕ → ℕ → ℚ) (hR : 0 ≤ R) (hW01 : 0 ≤ W 0 1) (hW12 : 0 ≤ W 1 2)
    (hok0 : (defDecl mu Lf).Ok) (hok1 : (defDecl mu Lh).Ok)
    {p : Name → ℝ} (hp : IpoptFeasible C (pgExtraLine3 mu Lh Lf R W).prog stdParams p) (heta : 0 ≤ p "eta") (hrho : 0 ≤ p "rho") (hgamma : 0 ≤ p "gamma")
    (f1 f2 f3 k1 k2 k3 : CFun E) (hf1 : (defDecl mu Lf).Holds f1) (hf2 : (defDecl mu Lf).Holds f2) (hf3 : (defDecl mu Lf).Holds f3)
    (hk1 : (defDecl mu Lh).Holds k1) (hk2 : (defDecl mu Lh).Holds k2) (hk3 : (defDecl mu Lh).Holds k3)
    {x_star s1 s2 s3 t1 t2 t3 : E} (hs1 : f1.Sample x_star s1 (f1.f x_star)) (hs2 : f2.Sample x_star s2 (f2.f x_star))
    (hs3 : f3.Sample x_star s3 (f3.f x_star)) (ht1 : k1.Sample x_star t1 (k1.f x_star)) (ht2 : k2.Sample x_star t2 (k2.f x_star))
    (ht3 : k3.Sample x_star t3 (k3.f x_star)) (hopt : s1 + s2 + s3 + t1 + t2 + t3 = 0)
    (x1 x2 x3 y1 y2 y3 w1 w2 w3 i12 i23 : ℕ → E) (hy1 : f1.Sample (x1 0) (y1 0) (f1.f (x1 0))) (hy2 : f2.Sample (x2 0) (y2 0) (f2.f (x2 0)))
    (hy3 : f3.Sample (x3 0) (y3 0) (f3.f (x3 0))) (hw1 : ∀ k, k1.Sample (x1 k) (w1 k) (k1.f (x1 k)))
    (hw2 : ∀ k, k2.Sample (x2 k) (w2 k) (k2.f (x2 k))) (hw3 : ∀ k, k3.Sample (x3 k) (w3 k) (k3.f (x3 k)))
    (hx1 : ∀ k, f1.Prox R ((W 0 0 : ℝ) • x1 k + (W 0 1 : ℝ) • x2 k + (W 0 2 : ℝ) • x3 k - (R : ℝ) • w1 k - (R : ℝ) • i12 k)
      (x1 (k + 1)) (y1 (k + 1)) (f1.f (x1 (k + 1))))
    (hx2 : ∀ k, f2.Prox R ((W 1 0 : ℝ) • x1 k + (W 1 1 : ℝ) • x2 k + (W 1 2 : ℝ) • x3 k - (R : ℝ) • w2 k + (R : ℝ) • i12 k - (R : ℝ) • i23 k)
      (x2 (k + 1)) (y2 (k + 1)) (f2.f (x2 (k + 1))))
    (hx3 : ∀ k, f3.Prox R ((W 2 0 : ℝ) • x1 k + (W 2 1 : ℝ) • x2 k + (W 2 2 : ℝ) • x3 k - (R : ℝ) • w3 k + (R : ℝ) • i23 k)
      (x3 (k + 1)) (y3 (k + 1)) (f3.f (x3 (k + 1))))
    (hi12 : ∀ k, i12 (k + 1) = i12 k + (p "h" / (R / W 0 1)) • (x1 k - x2 k))
    (hi23 : ∀ k, i23 (k + 1) = i23 k + (p "h" / (R / W 1 2)) • (x2 k - x3 k)) :
    (0 < p "eta" → Tendsto (fun k => (f1.f (x1 k) - f1.f x_star - ⟪s1, x1 k - x_star⟫_ℝ) + (f2.f (x2 k) - f2.f x_star - ⟪s2, x2 k - x_star⟫_ℝ) +
        (f3.f (x3 k) - f3.f x_star - ⟪s3, x3 k - x_star⟫_ℝ)) atTop (nhds 0)) ∧
      (0 < p "rho" → Tendsto (fun k => (k1.f (x1 k) - k1.f x_star - ⟪t1, x1 k - x_star⟫_ℝ) + (k2.f (x2 k) - k2.f x_star - ⟪t2, x2 k - x_star⟫_ℝ) +
        (k3.f (x3 k) - k3.f x_star - ⟪t3, x3 k - x_star⟫_ℝ)) atTop (nhds 0)) ∧
      (0 < p "eta" + p "rho" → 0 < mu → Tendsto x1 atTop (nhds x_star) ∧ Tendsto x2 atTop (nhds x_star) ∧ Tendsto x3 atTop (nhds x_star)) := by
  have hR' : (0 : ℝ) ≤ R := by exact_mod_cast hR
  have hA : (0 : ℝ) ≤ W 0 1 := by exact_mod_cast hW01
  have hB : (0 : ℝ) ≤ W 1 2 := by exact_mod_cast hW12
  have hy1' : ∀ k, f1.Sample (x1 k) (y1 k) (f1.f (x1 k)) := fun | 0 => hy1 | k + 1 => (hx1 k).1
  have hy2' : ∀ k, f2.Sample (x2 k) (y2 k) (f2.f (x2 k)) := fun | 0 => hy2 | k + 1 => (hx2 k).1
  have hy3' : ∀ k, f3.Sample (x3 k) (y3 k) (f3.f (x3 k)) := fun | 0 => hy3 | k + 1 => (hx3 k).1
  have hs := fun k => C34_pgExtraLine3 hC mu Lh Lf R W hok0 hok1 hp f1 f2 f3 k1 k2 k3 hf1 hf2 hf3 hk1 hk2 hk3 hs1 hs2 hs3 ht1 ht2 ht3 hopt rfl rfl
    (hy1' k) (hy2' k) (hy3' k) (hw1 k) (hw2 k) (hw3 k) rfl rfl rfl (hx1 k) (hx2 k) (hx3 k) (hi12 k) (hi23 k) (hi12 (k + 1)) (hi23 (k + 1)) rfl rfl rfl
  have sym : ∀ a b c d : E, ⟪a - b, c - d⟫_ℝ = ⟪c - d, a - b⟫_ℝ := fun a b c d => real_inner_comm _ _
  have m1 : ∀ k, 0 ≤ ⟪y1 k - s1, x1 k - x_star⟫_ℝ := fun k => by rw [sym]; exact sample_mono_nonneg (hy1' k) hs1
  have m2 : ∀ k, 0 ≤ ⟪y2 k - s2, x2 k - x_star⟫_ℝ := fun k => by rw [sym]; exact sample_mono_nonneg (hy2' k) hs2
  have m3 : ∀ k, 0 ≤ ⟪y3 k - s3, x3 k - x_star⟫_ℝ := fun k => by rw [sym]; exact sample_mono_nonneg (hy3' k) hs3
  have n1 : ∀ k, 0 ≤ ⟪w1 k - t1, x1 k - x_star⟫_ℝ := fun k => by rw [sym]; exact sample_mono_nonneg (hw1 k) ht1
  have n2 : ∀ k, 0 ≤ ⟪w2 k - t2, x2 k - x_star⟫_ℝ := fun k => by rw [sym]; exact sample_mono_nonneg (hw2 k) ht2
  have n3 : ∀ k, 0 ≤ ⟪w3 k - t3, x3 k - x_star⟫_ℝ := fun k => by rw [sym]; exact sample_mono_nonneg (hw3 k) ht3
  have ha : ∀ k, 0 ≤ p "eta" * (⟪y1 (k + 1) - s1, x1 (k + 1) - x_star⟫_ℝ + ⟪y2 (k + 1) - s2, x2 (k + 1) - x_star⟫_ℝ +
      ⟪y3 (k + 1) - s3, x3 (k + 1) - x_star⟫_ℝ) := fun k => mul_nonneg heta (add_nonneg (add_nonneg (m1 _) (m2 _)) (m3 _))
  have hb : ∀ k, 0 ≤ p "rho" * (⟪w1 k - t1, x1 k - x_star⟫_ℝ + ⟪w2 k - t2, x2 k - x_star⟫_ℝ + ⟪w3 k - t3, x3 k - x_star⟫_ℝ) :=
    fun k => mul_nonneg hrho (add_nonneg (add_nonneg (n1 _) (n2 _)) (n3 _))
  obtain ⟨-, ht, -⟩ := energy_limit (En := fun k => p "gamma" * (‖x1 k - x_star‖ ^ 2 + ‖x2 k - x_star‖ ^ 2 + ‖x3 k - x_star‖ ^ 2) +
      R / W 0 1 / 2 * ‖i12 (k + 1) - (-s1 - t1)‖ ^ 2 + R / W 1 2 / 2 * ‖i23 (k + 1) - (s3 + t3)‖ ^ 2) hs (fun k => by positivity)
    (fun k => add_nonneg (ha k) (hb k))
  have le : ∀ {F : CFun E} {x g v : E}, F.Sample x g (F.f x) → F.Sample x_star v (F.f x_star) →
      F.f x - F.f x_star - ⟪v, x - x_star⟫_ℝ ≤ ⟪g - v, x - x_star⟫_ℝ := fun {F x g v} h h' => by
    have h1 := sample_mono h h'
    rw [sym, real_inner_comm _ v]
    rw [real_inner_comm] at h1
    rw [real_inner_comm]
    have e1 : ⟪g - v, x - x_star⟫_ℝ = ⟪g, x - x_star⟫_ℝ - ⟪v, x - x_star⟫_ℝ := inner_sub_left _ _ _
    have h2 := h.2.2 x_star h'.1
    have e2 : ⟪g, x_star - x⟫_ℝ = -⟪g, x - x_star⟫_ℝ := by rw [← inner_neg_right, neg_sub]
    have e3 : ⟪x - x_star, v⟫_ℝ = ⟪v, x - x_star⟫_ℝ := real_inner_comm _ _
    have e4 : ⟪x - x_star, g - v⟫_ℝ = ⟪g - v, x - x_star⟫_ℝ := real_inner_comm _ _
    linarith
  refine ⟨fun he => ?_, fun hr => ?_, fun her hmu => ?_⟩
  · refine (tendsto_add_atTop_iff_nat 1).1 (part_tendsto he (fun k => ?_) (fun k => ?_) ht)
    · exact add_nonneg (add_nonneg (bregman_nonneg hs1 (hy1' (k + 1))) (bregman_nonneg hs2 (hy2' (k + 1)))) (bregman_nonneg hs3 (hy3' (k + 1)))
    · refine le_trans (mul_le_mul_of_nonneg_left (add_le_add (add_le_add (le (hy1' (k + 1)) hs1) (le (hy2' (k + 1)) hs2)) (le (hy3' (k + 1)) hs3)) heta) ?_
      exact le_add_of_nonneg_right (hb k)
  · refine part_tendsto hr (fun k => ?_) (fun k => ?_) ht
    · exact add_nonneg (add_nonneg (bregman_nonneg ht1 (hw1 k)) (bregman_nonneg ht2 (hw2 k))) (bregman_nonneg ht3 (hw3 k))
    · refine le_trans (mul_le_mul_of_nonneg_left (add_le_add (add_le_add (le (hw1 k) ht1) (le (hw2 k) ht2)) (le (hw3 k) ht3)) hrho) ?_
      exact le_add_of_nonneg_left (ha k)
  · have hm' : (0 : ℝ) < mu := by exact_mod_cast hmu
    rcases lt_or_ge 0 (p "eta") with he | he
    · have hem : 0 < p "eta" * mu := by positivity
      have g1 : Tendsto (fun k => x1 (k + 1) - x_star) atTop (nhds 0) := part_tendsto_vec hem (fun k => by
        have a1 := mul_le_mul_of_nonneg_left (sample_strong hmu hf1 (hy1' (k + 1)) hs1) heta
        have a2 := mul_nonneg heta (m2 (k + 1))
        have a3 := mul_nonneg heta (m3 (k + 1))
        have := hb k
        rw [sym] at a1
        linarith) ht
      have g2 : Tendsto (fun k => x2 (k + 1) - x_star) atTop (nhds 0) := part_tendsto_vec hem (fun k => by
        have a1 := mul_le_mul_of_nonneg_left (sample_strong hmu hf2 (hy2' (k + 1)) hs2) heta
        have a2 := mul_nonneg heta (m1 (k + 1))
        have a3 := mul_nonneg heta (m3 (k + 1))
        have := hb k
        rw [sym] at a1
        linarith) ht
      have g3 : Tendsto (fun k => x3 (k + 1) - x_star) atTop (nhds 0) := part_tendsto_vec hem (fun k => by
        have a1 := mul_le_mul_of_nonneg_left (sample_strong hmu hf3 (hy3' (k + 1)) hs3) heta
        have a2 := mul_nonneg heta (m1 (k + 1))
        have a3 := mul_nonneg heta (m2 (k + 1))
        have := hb k
        rw [sym] at a1
        linarith) ht
      exact ⟨(tendsto_add_atTop_iff_nat 1).1 (by simpa using g1.add_const x_star), (tendsto_add_atTop_iff_nat 1).1 (by simpa using g2.add_const x_star),
        (tendsto_add_atTop_iff_nat 1).1 (by simpa using g3.add_const x_star)⟩
    · have hem : 0 < p "rho" * mu := mul_pos (by linarith) hm'
      have g1 : Tendsto (fun k => x1 k - x_star) atTop (nhds 0) := part_tendsto_vec hem (fun k => by
        have a1 := mul_le_mul_of_nonneg_left (sample_strong hmu hk1 (hw1 k) ht1) hrho
        have a2 := mul_nonneg hrho (n2 k)
        have a3 := mul_nonneg hrho (n3 k)
        have := ha k
        rw [sym] at a1
        linarith) ht
      have g2 : Tendsto (fun k => x2 k - x_star) atTop (nhds 0) := part_tendsto_vec hem (fun k => by
        have a1 := mul_le_mul_of_nonneg_left (sample_strong hmu hk2 (hw2 k) ht2) hrho
        have a2 := mul_nonneg hrho (n1 k)
        have a3 := mul_nonneg hrho (n3 k)
        have := ha k
        rw [sym] at a1
        linarith) ht
      have g3 : Tendsto (fun k => x3 k - x_star) atTop (nhds 0) := part_tendsto_vec hem (fun k => by
        have a1 := mul_le_mul_of_nonneg_left (sample_strong hmu hk3 (hw3 k) ht3) hrho
        have a2 := mul_nonneg hrho (n1 k)
        have a3 := mul_nonneg hrho (n2 k)
        have := ha k
        rw [sym] at a1
        linarith) ht
      exact ⟨by simpa using g1.add_const x_star, by simpa using g2.add_const x_star, by simpa using g3.add_const x_star⟩

/-- **C33** for `decentralized_admm_consensus_l3`: all nodes agree in the limit, the value of the sum tends to the minimum, and for strongly convex
functions the points of all nodes tend to the solution.  `xh`, `eh` and `ch` are the values at the intermediate step of the two-stage scheme. -/
theorem C33_dadmmLine3 (hC : C.Lawful) (mu : ℚ) (L : Option ℚ) (R Ind : ℚ) (hR : 0 < R) (hInd : 0 ≤ Ind) (hok : (defDecl mu L).Ok)
    {p : Name → ℝ} (hp : IpoptFeasible C (dadmmLine3 mu L R Ind).prog stdParams p) (heta : 0 < p "eta") (hrho : 0 < p "rho") (hgamma : 0 ≤ p "gamma")
    (f : ℕ → CFun E) (hf1 : (defDecl mu L).Holds (f 1)) (hf2 : (defDecl mu L).Holds (f 2)) (hf3 : (defDecl mu L).Holds (f 3))
    {x_star : E} {ys : ℕ → E} (hstar : ∀ i, 1 ≤ i → i ≤ 3 → (f i).Sample x_star (ys i) ((f i).f x_star))
    (hopt : ys 1 + ys 2 + ys 3 = 0) (x g xh gh : ℕ → ℕ → E) (e c eh ch : ℕ → ℕ → ℕ → E)
    (hxh1 : ∀ k, (f 1).Prox R ((R : ℝ) • c k 1 2 + e k 1 2) (xh k 1) (gh k 1) ((f 1).f (xh k 1)))
    (hxh2 : ∀ k, (f 2).Prox (R / 2) ((2 : ℝ)⁻¹ • ((-(R : ℝ)) • c k 1 2 + e k 1 2 + ((R : ℝ) • c k 2 3 + e k 2 3))) (xh k 2) (gh k 2) ((f 2).f (xh k 2)))
    (hxh3 : ∀ k, (f 3).Prox R ((-(R : ℝ)) • c k 2 3 + e k 2 3) (xh k 3) (gh k 3) ((f 3).f (xh k 3)))
    (heh12 : ∀ k, eh k 1 2 = (2 : ℝ)⁻¹ • (xh k 1 + xh k 2)) (heh23 : ∀ k, eh k 2 3 = (2 : ℝ)⁻¹ • (xh k 2 + xh k 3))
    (hch12 : ∀ k, ch k 1 2 = c k 1 2 + (p "alpha" * p "h" / Ind) • (eh k 1 2 - xh k 1))
    (hch23 : ∀ k, ch k 2 3 = c k 2 3 + (p "alpha" * p "h" / Ind) • (eh k 2 3 - xh k 2))
    (hx1 : ∀ k, (f 1).Prox R ((R : ℝ) • ch k 1 2 + eh k 1 2) (x k 1) (g k 1) ((f 1).f (x k 1)))
    (hx2 : ∀ k, (f 2).Prox (R / 2) ((2 : ℝ)⁻¹ • ((-(R : ℝ)) • ch k 1 2 + eh k 1 2 + ((R : ℝ) • ch k 2 3 + eh k 2 3))) (x k 2) (g k 2) ((f 2).f (x k 2)))
    (hx3 : ∀ k, (f 3).Prox R ((-(R : ℝ)) • ch k 2 3 + eh k 2 3) (x k 3) (g k 3) ((f 3).f (x k 3)))
    (he12 : ∀ k, e (k + 1) 1 2 = (2 : ℝ)⁻¹ • (x k 1 + x k 2)) (he23 : ∀ k, e (k + 1) 2 3 = (2 : ℝ)⁻¹ • (x k 2 + x k 3))
    (hc12 : ∀ k, c (k + 1) 1 2 = c k 1 2 + (p "beta" * p "h" / Ind) • (eh k 1 2 - xh k 1) + ((1 - p "beta") * p "h" / Ind) • (e (k + 1) 1 2 - x k 1))
    (hc23 : ∀ k, c (k + 1) 2 3 = c k 2 3 + (p "beta" * p "h" / Ind) • (eh k 2 3 - xh k 2) + ((1 - p "beta") * p "h" / Ind) • (e (k + 1) 2 3 - x k 2)) :
    (∀ i, 1 ≤ i → i ≤ 3 → Tendsto (fun k => x k i - x k 2) atTop (nhds 0)) ∧
      Tendsto (fun k => ∑ i ∈ Finset.range 3, (f (i + 1)).f (x k (i + 1))) atTop (nhds (∑ i ∈ Finset.range 3, (f (i + 1)).f x_star)) ∧
      (0 < mu → ∀ i, 1 ≤ i → i ≤ 3 → Tendsto (fun k => x k i) atTop (nhds x_star)) := by
  have hR' : (0 : ℝ) < R := by exact_mod_cast hR
  have hInd' : (0 : ℝ) ≤ Ind := by exact_mod_cast hInd
  have hs := fun k => C34_dadmmLine3 hC mu L R Ind hok hp (f 1) (f 2) (f 3) hf1 hf2 hf3 (hstar 1 (by norm_num) (by norm_num))
    (hstar 2 (by norm_num) (by norm_num)) (hstar 3 (by norm_num) (by norm_num)) hopt (hxh1 k) (hxh2 k) (hxh3 k) (heh12 k) (heh23 k) (hch12 k) (hch23 k)
    (hx1 k) (hx2 k) (hx3 k) (he12 k) (he23 k) (hc12 k) (hc23 k) rfl rfl rfl
  have hnn : ∀ k, ∀ i ∈ Finset.range 3, 0 ≤ (f (i + 1)).f (x k (i + 1)) - (f (i + 1)).f x_star - ⟪ys (i + 1), x k (i + 1) - x_star⟫_ℝ := by
    intro k i hi
    have hi := Finset.mem_range.1 hi
    have hsm : (f (i + 1)).Sample (x k (i + 1)) (g k (i + 1)) ((f (i + 1)).f (x k (i + 1))) := by
      interval_cases i <;> first | exact (hx1 k).1 | exact (hx2 k).1 | exact (hx3 k).1
    exact bregman_nonneg (hstar (i + 1) (by omega) (by omega)) hsm
  have hs' : ∀ k, _ ≤ _ - (p "rho" * (1 / R) * (‖e (k + 1) 1 2 - x k 1‖ ^ 2 + ‖e (k + 1) 1 2 - x k 2‖ ^ 2 + ‖e (k + 1) 2 3 - x k 2‖ ^ 2 + ‖e (k + 1) 2 3 - x k 3‖ ^ 2) +
      p "eta" * ∑ i ∈ Finset.range 3, ((f (i + 1)).f (x k (i + 1)) - (f (i + 1)).f x_star - ⟪ys (i + 1), x k (i + 1) - x_star⟫_ℝ)) := fun k => by
    refine (hs k).trans (le_of_eq ?_)
    simp only [Finset.sum_range_succ, Finset.sum_range_zero, zero_add]
    norm_num only
    rw [sub_right_inj]
    ring
  have hS : ∀ k, 0 ≤ ∑ i ∈ Finset.range 3, ((f (i + 1)).f (x k (i + 1)) - (f (i + 1)).f x_star - ⟪ys (i + 1), x k (i + 1) - x_star⟫_ℝ) :=
    fun k => Finset.sum_nonneg (hnn k)
  have hq : ∀ k, 0 ≤ p "rho" * (1 / R) * (‖e (k + 1) 1 2 - x k 1‖ ^ 2 + ‖e (k + 1) 1 2 - x k 2‖ ^ 2 + ‖e (k + 1) 2 3 - x k 2‖ ^ 2 + ‖e (k + 1) 2 3 - x k 3‖ ^ 2) :=
    fun k => by positivity
  obtain ⟨-, ht, -⟩ := energy_limit (En := fun k => p "gamma" * ‖e k 1 2 - x_star‖ ^ 2 + p "gamma" * ‖e k 2 3 - x_star‖ ^ 2 + Ind / 2 * ‖c k 1 2 - ys 1‖ ^ 2 +
      Ind / 2 * ‖-c k 1 2 - -ys 1‖ ^ 2 + Ind / 2 * ‖c k 2 3 - (ys 2 + ys 1)‖ ^ 2 + Ind / 2 * ‖-c k 2 3 - ys 3‖ ^ 2) hs'
    (fun k => by positivity) (fun k => add_nonneg (hq k) (mul_nonneg heta.le (hS k)))
  have hB := part_tendsto heta hS (fun k => le_add_of_nonneg_left (hq k)) ht
  have d1 : Tendsto (fun k => e (k + 1) 1 2 - x k 1) atTop (nhds 0) := part_tendsto_vec (c := p "rho" * (1 / R)) (by positivity) (fun k => by
    have h1 : 0 ≤ p "rho" * (1 / R) * (‖e (k + 1) 1 2 - x k 2‖ ^ 2 + ‖e (k + 1) 2 3 - x k 2‖ ^ 2 + ‖e (k + 1) 2 3 - x k 3‖ ^ 2) := by positivity
    have h2 := mul_nonneg heta.le (hS k)
    linarith) ht
  have d2 : Tendsto (fun k => e (k + 1) 2 3 - x k 2) atTop (nhds 0) := part_tendsto_vec (c := p "rho" * (1 / R)) (by positivity) (fun k => by
    have h1 : 0 ≤ p "rho" * (1 / R) * (‖e (k + 1) 1 2 - x k 1‖ ^ 2 + ‖e (k + 1) 1 2 - x k 2‖ ^ 2 + ‖e (k + 1) 2 3 - x k 3‖ ^ 2) := by positivity
    have h2 := mul_nonneg heta.le (hS k)
    linarith) ht
  have m12 : Tendsto (fun k => x k 1 - x k 2) atTop (nhds 0) := ends_left he12 d1
  have m23 : Tendsto (fun k => x k 2 - x k 3) atTop (nhds 0) := ends_left he23 d2
  have hcons : ∀ i, 1 ≤ i → i ≤ 3 → Tendsto (fun k => x k i - x k 2) atTop (nhds 0) := by
    intro i h1 h2
    interval_cases i
    · exact m12
    · simp
    · exact ends_symm m23
  refine ⟨hcons, values_of_bregman (n := 3) (ys := fun i => ys (i + 1)) (x := fun k i => x k (i + 1)) (z := fun k => x k 2) (xs := x_star) ?_
    (fun i hi => hcons (i + 1) (by omega) (by omega)) hB, ?_⟩
  · rw [← hopt]; simp only [Finset.sum_range_succ, Finset.sum_range_zero, zero_add]
  · intro hmu i h1 h2
    have hm' : (0 : ℝ) < mu := by exact_mod_cast hmu
    have hh : Tendsto (fun k => x k 2 - x_star) atTop (nhds 0) := part_tendsto_vec (c := (mu : ℝ) / 2) (by positivity) (fun k =>
      (bregman_strong hmu hf2 (hstar 2 (by norm_num) (by norm_num)) (hx2 k).1).trans (Finset.single_le_sum
        (f := fun i => (f (i + 1)).f (x k (i + 1)) - (f (i + 1)).f x_star - ⟪ys (i + 1), x k (i + 1) - x_star⟫_ℝ) (hnn k) (Finset.mem_range.2 (by norm_num : 1 < 3)))) hB
    simpa using ((hcons i h1 h2).add hh).add_const x_star

/-- **C33** for `decentralized_admm_cycle4`: all nodes agree in the limit, the value of the sum tends to the minimum, and for strongly convex functions the
points of all nodes tend to the solution. -/
theorem C33_dadmmCycle4 (hC : C.Lawful) (mu : ℚ) (L : Option ℚ) (R Ind : ℚ) (hR : 0 < R) (hInd : 0 ≤ Ind) (hok : (defDecl mu L).Ok)
    {p : Name → ℝ} (hp : IpoptFeasible C (dadmmCycle4 mu L R Ind).prog stdParams p) (heta : 0 < p "eta") (hrho : 0 < p "rho") (hgamma : 0 ≤ p "gamma")
    (f : ℕ → CFun E) (hf1 : (defDecl mu L).Holds (f 1)) (hf2 : (defDecl mu L).Holds (f 2)) (hf3 : (defDecl mu L).Holds (f 3)) (hf4 : (defDecl mu L).Holds (f 4))
    {x_star : E} {ys : ℕ → E} (hstar : ∀ i, 1 ≤ i → i ≤ 4 → (f i).Sample x_star (ys i) ((f i).f x_star))
    (hopt : ys 1 + ys 2 + ys 3 + ys 4 = 0) (x g : ℕ → ℕ → E) (e c : ℕ → ℕ → ℕ → E)
    (hx1 : ∀ k, (f 1).Prox (R / 2) ((1 / 2 : ℝ) • ((R : ℝ) • c k 1 2 + e k 1 2 + ((-(R : ℝ)) • c k 4 1 + e k 4 1))) (x k 1) (g k 1) ((f 1).f (x k 1)))
    (hx2 : ∀ k, (f 2).Prox (R / 2) ((1 / 2 : ℝ) • ((-(R : ℝ)) • c k 1 2 + e k 1 2 + ((R : ℝ) • c k 2 3 + e k 2 3))) (x k 2) (g k 2) ((f 2).f (x k 2)))
    (hx3 : ∀ k, (f 3).Prox (R / 2) ((1 / 2 : ℝ) • ((-(R : ℝ)) • c k 2 3 + e k 2 3 + ((R : ℝ) • c k 3 4 + e k 3 4))) (x k 3) (g k 3) ((f 3).f (x k 3)))
    (hx4 : ∀ k, (f 4).Prox (R / 2) ((1 / 2 : ℝ) • ((R : ℝ) • c k 4 1 + e k 4 1 + ((-(R : ℝ)) • c k 3 4 + e k 3 4))) (x k 4) (g k 4) ((f 4).f (x k 4)))
    (he12 : ∀ k, e (k + 1) 1 2 = (2 : ℝ)⁻¹ • (x k 1 + x k 2))
    (he23 : ∀ k, e (k + 1) 2 3 = (2 : ℝ)⁻¹ • (x k 2 + x k 3))
    (he34 : ∀ k, e (k + 1) 3 4 = (2 : ℝ)⁻¹ • (x k 3 + x k 4))
    (he41 : ∀ k, e (k + 1) 4 1 = (2 : ℝ)⁻¹ • (x k 4 + x k 1))
    (hc12 : ∀ k, c (k + 1) 1 2 = c k 1 2 + (p "h" / Ind) • (e (k + 1) 1 2 - x k 1))
    (hc23 : ∀ k, c (k + 1) 2 3 = c k 2 3 + (p "h" / Ind) • (e (k + 1) 2 3 - x k 2))
    (hc34 : ∀ k, c (k + 1) 3 4 = c k 3 4 + (p "h" / Ind) • (e (k + 1) 3 4 - x k 3))
    (hc41 : ∀ k, c (k + 1) 4 1 = c k 4 1 + (p "h" / Ind) • (e (k + 1) 4 1 - x k 4)) :
    (∀ i, 1 ≤ i → i ≤ 4 → Tendsto (fun k => x k i - x k 4) atTop (nhds 0)) ∧
      Tendsto (fun k => ∑ i ∈ Finset.range 4, (f (i + 1)).f (x k (i + 1))) atTop (nhds (∑ i ∈ Finset.range 4, (f (i + 1)).f x_star)) ∧
      (0 < mu → ∀ i, 1 ≤ i → i ≤ 4 → Tendsto (fun k => x k i) atTop (nhds x_star)) := by
  have hR' : (0 : ℝ) < R := by exact_mod_cast hR
  have hInd' : (0 : ℝ) ≤ Ind := by exact_mod_cast hInd
  have hs := fun k => C34_dadmmCycle4 (y_12 := 0) hC mu L R Ind hok hp (f 1) (f 2) (f 3) (f 4)
    hf1 hf2 hf3 hf4 (hstar 1 (by norm_num) (by norm_num)) (hstar 2 (by norm_num) (by norm_num)) (hstar 3 (by norm_num) (by norm_num)) (hstar 4 (by norm_num) (by norm_num)) hopt rfl rfl rfl (hx1 k) (hx2 k) (hx3 k) (hx4 k) (he12 k) (he23 k) (he34 k) (he41 k) (hc12 k) (hc23 k) (hc34 k) (hc41 k) rfl rfl rfl
  have hnn : ∀ k, ∀ i ∈ Finset.range 4, 0 ≤ (f (i + 1)).f (x k (i + 1)) - (f (i + 1)).f x_star - ⟪ys (i + 1), x k (i + 1) - x_star⟫_ℝ := by
    intro k i hi
    have hi := Finset.mem_range.1 hi
    have hsm : (f (i + 1)).Sample (x k (i + 1)) (g k (i + 1)) ((f (i + 1)).f (x k (i + 1))) := by
      interval_cases i <;> first | exact (hx1 k).1 | exact (hx2 k).1 | exact (hx3 k).1 | exact (hx4 k).1
    exact bregman_nonneg (hstar (i + 1) (by omega) (by omega)) hsm
  have hs' : ∀ k, p "gamma" * (‖e (k + 1) 1 2 - x_star‖ ^ 2 + ‖e (k + 1) 2 3 - x_star‖ ^ 2 + ‖e (k + 1) 3 4 - x_star‖ ^ 2 + ‖e (k + 1) 4 1 - x_star‖ ^ 2) +
      Ind * ‖c (k + 1) 1 2 - 0‖ ^ 2 + Ind * ‖c (k + 1) 2 3 - (ys 2 + 0)‖ ^ 2 + Ind * ‖c (k + 1) 3 4 - (ys 3 + (ys 2 + 0))‖ ^ 2 + Ind * ‖c (k + 1) 4 1 + (ys 1 - 0)‖ ^ 2 ≤ p "gamma" * (‖e k 1 2 - x_star‖ ^ 2 + ‖e k 2 3 - x_star‖ ^ 2 + ‖e k 3 4 - x_star‖ ^ 2 + ‖e k 4 1 - x_star‖ ^ 2) +
      Ind * ‖c k 1 2 - 0‖ ^ 2 + Ind * ‖c k 2 3 - (ys 2 + 0)‖ ^ 2 + Ind * ‖c k 3 4 - (ys 3 + (ys 2 + 0))‖ ^ 2 + Ind * ‖c k 4 1 + (ys 1 - 0)‖ ^ 2 -
      (p "rho" * (2 / R) * (‖e (k + 1) 1 2 - x k 1‖ ^ 2 + ‖e (k + 1) 2 3 - x k 2‖ ^ 2 + ‖e (k + 1) 3 4 - x k 4‖ ^ 2 + ‖e (k + 1) 4 1 - x k 1‖ ^ 2) + p "eta" * ∑ i ∈ Finset.range 4, ((f (i + 1)).f (x k (i + 1)) - (f (i + 1)).f x_star - ⟪ys (i + 1), x k (i + 1) - x_star⟫_ℝ)) := fun k => by
    have := hs k
    simp only [Finset.sum_range_succ, Finset.sum_range_zero, zero_add]
    refine this.trans (le_of_eq ?_)
    norm_num only
    ring
  have hq : ∀ k, 0 ≤ p "rho" * (2 / R) * (‖e (k + 1) 1 2 - x k 1‖ ^ 2 + ‖e (k + 1) 2 3 - x k 2‖ ^ 2 + ‖e (k + 1) 3 4 - x k 4‖ ^ 2 + ‖e (k + 1) 4 1 - x k 1‖ ^ 2) := fun k => by positivity
  have hS : ∀ k, 0 ≤ ∑ i ∈ Finset.range 4, ((f (i + 1)).f (x k (i + 1)) - (f (i + 1)).f x_star - ⟪ys (i + 1), x k (i + 1) - x_star⟫_ℝ) := fun k => Finset.sum_nonneg (hnn k)
  obtain ⟨-, ht, -⟩ := energy_limit (En := fun k => p "gamma" * (‖e k 1 2 - x_star‖ ^ 2 + ‖e k 2 3 - x_star‖ ^ 2 + ‖e k 3 4 - x_star‖ ^ 2 + ‖e k 4 1 - x_star‖ ^ 2) +
      Ind * ‖c k 1 2 - 0‖ ^ 2 + Ind * ‖c k 2 3 - (ys 2 + 0)‖ ^ 2 + Ind * ‖c k 3 4 - (ys 3 + (ys 2 + 0))‖ ^ 2 + Ind * ‖c k 4 1 + (ys 1 - 0)‖ ^ 2) hs'
    (fun k => by positivity) (fun k => add_nonneg (hq k) (mul_nonneg heta.le (hS k)))
  have hB := part_tendsto heta hS (fun k => le_add_of_nonneg_left (hq k)) ht
  have d121 : Tendsto (fun k => e (k + 1) 1 2 - x k 1) atTop (nhds 0) := part_tendsto_vec (c := p "rho" * (2 / R)) (by positivity) (fun k => by
    have h1 : 0 ≤ p "rho" * (2 / R) * (0 + ‖e (k + 1) 2 3 - x k 2‖ ^ 2 + ‖e (k + 1) 3 4 - x k 4‖ ^ 2 + ‖e (k + 1) 4 1 - x k 1‖ ^ 2) := by positivity
    have h2 := mul_nonneg heta.le (hS k)
    linarith) ht
  have m12 : Tendsto (fun k => x k 1 - x k 2) atTop (nhds 0) := ends_left he12 d121
  have d232 : Tendsto (fun k => e (k + 1) 2 3 - x k 2) atTop (nhds 0) := part_tendsto_vec (c := p "rho" * (2 / R)) (by positivity) (fun k => by
    have h1 : 0 ≤ p "rho" * (2 / R) * (‖e (k + 1) 1 2 - x k 1‖ ^ 2 + 0 + ‖e (k + 1) 3 4 - x k 4‖ ^ 2 + ‖e (k + 1) 4 1 - x k 1‖ ^ 2) := by positivity
    have h2 := mul_nonneg heta.le (hS k)
    linarith) ht
  have m23 : Tendsto (fun k => x k 2 - x k 3) atTop (nhds 0) := ends_left he23 d232
  have d344 : Tendsto (fun k => e (k + 1) 3 4 - x k 4) atTop (nhds 0) := part_tendsto_vec (c := p "rho" * (2 / R)) (by positivity) (fun k => by
    have h1 : 0 ≤ p "rho" * (2 / R) * (‖e (k + 1) 1 2 - x k 1‖ ^ 2 + ‖e (k + 1) 2 3 - x k 2‖ ^ 2 + 0 + ‖e (k + 1) 4 1 - x k 1‖ ^ 2) := by positivity
    have h2 := mul_nonneg heta.le (hS k)
    linarith) ht
  have m34 : Tendsto (fun k => x k 3 - x k 4) atTop (nhds 0) := ends_right he34 d344
  have d411 : Tendsto (fun k => e (k + 1) 4 1 - x k 1) atTop (nhds 0) := part_tendsto_vec (c := p "rho" * (2 / R)) (by positivity) (fun k => by
    have h1 : 0 ≤ p "rho" * (2 / R) * (‖e (k + 1) 1 2 - x k 1‖ ^ 2 + ‖e (k + 1) 2 3 - x k 2‖ ^ 2 + ‖e (k + 1) 3 4 - x k 4‖ ^ 2 + 0) := by positivity
    have h2 := mul_nonneg heta.le (hS k)
    linarith) ht
  have m41 : Tendsto (fun k => x k 4 - x k 1) atTop (nhds 0) := ends_right he41 d411
  have hcons : ∀ i, 1 ≤ i → i ≤ 4 → Tendsto (fun k => x k i - x k 4) atTop (nhds 0) := by
    intro i h1 h2
    interval_cases i
    · exact ends_symm m41
    · exact ends_trans m23 m34
    · exact m34
    · exact by simp
  refine ⟨hcons, values_of_bregman (n := 4) (ys := fun i => ys (i + 1)) (x := fun k i => x k (i + 1)) (z := fun k => x k 4) (xs := x_star) ?_
    (fun i hi => hcons (i + 1) (by omega) (by omega)) hB, ?_⟩
  · rw [← hopt]; simp only [Finset.sum_range_succ, Finset.sum_range_zero, zero_add]
  · intro hmu i h1 h2
    have hm' : (0 : ℝ) < mu := by exact_mod_cast hmu
    have hh : Tendsto (fun k => x k 4 - x_star) atTop (nhds 0) := part_tendsto_vec (c := (mu : ℝ) / 2) (by positivity) (fun k =>
      (bregman_strong hmu hf4 (hstar 4 (by norm_num) (by norm_num)) (hx4 k).1).trans (Finset.single_le_sum
        (f := fun i => (f (i + 1)).f (x k (i + 1)) - (f (i + 1)).f x_star - ⟪ys (i + 1), x k (i + 1) - x_star⟫_ℝ) (hnn k) (Finset.mem_range.2 (by norm_num : 3 < 4)))) hB
    simpa using ((hcons i h1 h2).add hh).add_const x_star

/-- **C33** for `decentralized_admm_graph6`: all nodes agree in the limit, the value of the sum tends to the minimum, and for strongly convex functions the
points of all nodes tend to the solution. -/
theorem C33_dadmmGraph6 (hC : C.Lawful) (mu : ℚ) (L : Option ℚ) (R Ind : ℚ) (hR : 0 < R) (hInd : 0 ≤ Ind) (hok : (defDecl mu L).Ok)
    {p : Name → ℝ} (hp : IpoptFeasible C (dadmmGraph6 mu L R Ind).prog stdParams p) (heta : 0 < p "eta") (hrho : 0 < p "rho") (hgamma : 0 ≤ p "gamma")
    (f : ℕ → CFun E) (hf1 : (defDecl mu L).Holds (f 1)) (hf2 : (defDecl mu L).Holds (f 2)) (hf3 : (defDecl mu L).Holds (f 3)) (hf4 : (defDecl mu L).Holds (f 4)) (hf5 : (defDecl mu L).Holds (f 5)) (hf6 : (defDecl mu L).Holds (f 6))
    {x_star : E} {ys : ℕ → E} (hstar : ∀ i, 1 ≤ i → i ≤ 6 → (f i).Sample x_star (ys i) ((f i).f x_star))
    (hopt : ys 1 + ys 2 + ys 3 + ys 4 + ys 5 + ys 6 = 0) (x g : ℕ → ℕ → E) (e c : ℕ → ℕ → ℕ → E)
    (hx1 : ∀ k, (f 1).Prox (R / 2) ((1 / 2 : ℝ) • (((R : ℝ) • c k 1 2 + e k 1 2) + ((R : ℝ) • c k 1 3 + e k 1 3))) (x k 1) (g k 1) ((f 1).f (x k 1)))
    (hx2 : ∀ k, (f 2).Prox (R / 3) ((1 / 3 : ℝ) • (((-(R : ℝ)) • c k 1 2 + e k 1 2) + ((R : ℝ) • c k 2 3 + e k 2 3) + ((R : ℝ) • c k 2 4 + e k 2 4))) (x k 2) (g k 2) ((f 2).f (x k 2)))
    (hx3 : ∀ k, (f 3).Prox (R / 3) ((1 / 3 : ℝ) • (((-(R : ℝ)) • c k 1 3 + e k 1 3) + ((-(R : ℝ)) • c k 2 3 + e k 2 3) + ((R : ℝ) • c k 3 4 + e k 3 4))) (x k 3) (g k 3) ((f 3).f (x k 3)))
    (hx4 : ∀ k, (f 4).Prox (R / 4) ((1 / 4 : ℝ) • (((-(R : ℝ)) • c k 2 4 + e k 2 4) + ((-(R : ℝ)) • c k 3 4 + e k 3 4) + ((R : ℝ) • c k 4 5 + e k 4 5) + ((R : ℝ) • c k 4 6 + e k 4 6))) (x k 4) (g k 4) ((f 4).f (x k 4)))
    (hx5 : ∀ k, (f 5).Prox R ((-(R : ℝ)) • c k 4 5 + e k 4 5) (x k 5) (g k 5) ((f 5).f (x k 5)))
    (hx6 : ∀ k, (f 6).Prox R ((-(R : ℝ)) • c k 4 6 + e k 4 6) (x k 6) (g k 6) ((f 6).f (x k 6)))
    (he12 : ∀ k, e (k + 1) 1 2 = (2 : ℝ)⁻¹ • (x k 1 + x k 2))
    (he13 : ∀ k, e (k + 1) 1 3 = (2 : ℝ)⁻¹ • (x k 1 + x k 3))
    (he23 : ∀ k, e (k + 1) 2 3 = (2 : ℝ)⁻¹ • (x k 2 + x k 3))
    (he24 : ∀ k, e (k + 1) 2 4 = (2 : ℝ)⁻¹ • (x k 2 + x k 4))
    (he34 : ∀ k, e (k + 1) 3 4 = (2 : ℝ)⁻¹ • (x k 3 + x k 4))
    (he45 : ∀ k, e (k + 1) 4 5 = (2 : ℝ)⁻¹ • (x k 4 + x k 5))
    (he46 : ∀ k, e (k + 1) 4 6 = (2 : ℝ)⁻¹ • (x k 4 + x k 6))
    (hc12 : ∀ k, c (k + 1) 1 2 = c k 1 2 + (p "h" / Ind) • (e (k + 1) 1 2 - x k 1))
    (hc13 : ∀ k, c (k + 1) 1 3 = c k 1 3 + (p "h" / Ind) • (e (k + 1) 1 3 - x k 1))
    (hc23 : ∀ k, c (k + 1) 2 3 = c k 2 3 + (p "h" / Ind) • (e (k + 1) 2 3 - x k 2))
    (hc24 : ∀ k, c (k + 1) 2 4 = c k 2 4 + (p "h" / Ind) • (e (k + 1) 2 4 - x k 2))
    (hc34 : ∀ k, c (k + 1) 3 4 = c k 3 4 + (p "h" / Ind) • (e (k + 1) 3 4 - x k 3))
    (hc45 : ∀ k, c (k + 1) 4 5 = c k 4 5 + (p "h" / Ind) • (e (k + 1) 4 5 - x k 4))
    (hc46 : ∀ k, c (k + 1) 4 6 = c k 4 6 + (p "h" / Ind) • (e (k + 1) 4 6 - x k 4)) :
    (∀ i, 1 ≤ i → i ≤ 6 → Tendsto (fun k => x k i - x k 4) atTop (nhds 0)) ∧
      Tendsto (fun k => ∑ i ∈ Finset.range 6, (f (i + 1)).f (x k (i + 1))) atTop (nhds (∑ i ∈ Finset.range 6, (f (i + 1)).f x_star)) ∧
      (0 < mu → ∀ i, 1 ≤ i → i ≤ 6 → Tendsto (fun k => x k i) atTop (nhds x_star)) := by
  have hR' : (0 : ℝ) < R := by exact_mod_cast hR
  have hInd' : (0 : ℝ) ≤ Ind := by exact_mod_cast hInd
  have hs := fun k => C34_dadmmGraph6 (y_12 := 0) (y_23 := 0) hC mu L R Ind hok hp (f 1) (f 2) (f 3) (f 4) (f 5) (f 6)
    hf1 hf2 hf3 hf4 hf5 hf6 (hstar 1 (by norm_num) (by norm_num)) (hstar 2 (by norm_num) (by norm_num)) (hstar 3 (by norm_num) (by norm_num)) (hstar 4 (by norm_num) (by norm_num)) (hstar 5 (by norm_num) (by norm_num)) (hstar 6 (by norm_num) (by norm_num)) hopt rfl rfl rfl (hx1 k) (hx2 k) (hx3 k) (hx4 k) (hx5 k) (hx6 k) (he12 k) (he13 k) (he23 k) (he24 k) (he34 k) (he45 k) (he46 k) (hc12 k) (hc13 k) (hc23 k) (hc24 k) (hc34 k) (hc45 k) (hc46 k) rfl rfl rfl
  have hnn : ∀ k, ∀ i ∈ Finset.range 6, 0 ≤ (f (i + 1)).f (x k (i + 1)) - (f (i + 1)).f x_star - ⟪ys (i + 1), x k (i + 1) - x_star⟫_ℝ := by
    intro k i hi
    have hi := Finset.mem_range.1 hi
    have hsm : (f (i + 1)).Sample (x k (i + 1)) (g k (i + 1)) ((f (i + 1)).f (x k (i + 1))) := by
      interval_cases i <;> first | exact (hx1 k).1 | exact (hx2 k).1 | exact (hx3 k).1 | exact (hx4 k).1 | exact (hx5 k).1 | exact (hx6 k).1
    exact bregman_nonneg (hstar (i + 1) (by omega) (by omega)) hsm
  have hs' : ∀ k, p "gamma" * (‖e (k + 1) 1 2 - x_star‖ ^ 2 + ‖e (k + 1) 1 3 - x_star‖ ^ 2 + ‖e (k + 1) 2 3 - x_star‖ ^ 2 + ‖e (k + 1) 2 4 - x_star‖ ^ 2 + ‖e (k + 1) 3 4 - x_star‖ ^ 2 + ‖e (k + 1) 4 5 - x_star‖ ^ 2 + ‖e (k + 1) 4 6 - x_star‖ ^ 2) +
      Ind * ‖c (k + 1) 1 2 - 0‖ ^ 2 + Ind * ‖c (k + 1) 1 3 - (ys 1 - 0)‖ ^ 2 + Ind * ‖c (k + 1) 2 3 - 0‖ ^ 2 + Ind * ‖c (k + 1) 2 4 - (ys 2 + 0 - 0)‖ ^ 2 + Ind * ‖c (k + 1) 3 4 - (ys 3 + (ys 1 - 0) + 0)‖ ^ 2 + Ind * ‖c (k + 1) 4 5 + ys 5‖ ^ 2 + Ind * ‖c (k + 1) 4 6 + ys 6‖ ^ 2 ≤ p "gamma" * (‖e k 1 2 - x_star‖ ^ 2 + ‖e k 1 3 - x_star‖ ^ 2 + ‖e k 2 3 - x_star‖ ^ 2 + ‖e k 2 4 - x_star‖ ^ 2 + ‖e k 3 4 - x_star‖ ^ 2 + ‖e k 4 5 - x_star‖ ^ 2 + ‖e k 4 6 - x_star‖ ^ 2) +
      Ind * ‖c k 1 2 - 0‖ ^ 2 + Ind * ‖c k 1 3 - (ys 1 - 0)‖ ^ 2 + Ind * ‖c k 2 3 - 0‖ ^ 2 + Ind * ‖c k 2 4 - (ys 2 + 0 - 0)‖ ^ 2 + Ind * ‖c k 3 4 - (ys 3 + (ys 1 - 0) + 0)‖ ^ 2 + Ind * ‖c k 4 5 + ys 5‖ ^ 2 + Ind * ‖c k 4 6 + ys 6‖ ^ 2 -
      (p "rho" * (2 / R) * (‖e (k + 1) 1 2 - x k 1‖ ^ 2 + ‖e (k + 1) 1 3 - x k 3‖ ^ 2 + ‖e (k + 1) 2 3 - x k 2‖ ^ 2 + ‖e (k + 1) 2 4 - x k 2‖ ^ 2 + ‖e (k + 1) 3 4 - x k 4‖ ^ 2 + ‖e (k + 1) 4 5 - x k 5‖ ^ 2 + ‖e (k + 1) 4 6 - x k 6‖ ^ 2) + p "eta" * ∑ i ∈ Finset.range 6, ((f (i + 1)).f (x k (i + 1)) - (f (i + 1)).f x_star - ⟪ys (i + 1), x k (i + 1) - x_star⟫_ℝ)) := fun k => by
    have := hs k
    simp only [Finset.sum_range_succ, Finset.sum_range_zero, zero_add]
    refine this.trans (le_of_eq ?_)
    norm_num only
    ring
  have hq : ∀ k, 0 ≤ p "rho" * (2 / R) * (‖e (k + 1) 1 2 - x k 1‖ ^ 2 + ‖e (k + 1) 1 3 - x k 3‖ ^ 2 + ‖e (k + 1) 2 3 - x k 2‖ ^ 2 + ‖e (k + 1) 2 4 - x k 2‖ ^ 2 + ‖e (k + 1) 3 4 - x k 4‖ ^ 2 + ‖e (k + 1) 4 5 - x k 5‖ ^ 2 + ‖e (k + 1) 4 6 - x k 6‖ ^ 2) := fun k => by positivity
  have hS : ∀ k, 0 ≤ ∑ i ∈ Finset.range 6, ((f (i + 1)).f (x k (i + 1)) - (f (i + 1)).f x_star - ⟪ys (i + 1), x k (i + 1) - x_star⟫_ℝ) := fun k => Finset.sum_nonneg (hnn k)
  obtain ⟨-, ht, -⟩ := energy_limit (En := fun k => p "gamma" * (‖e k 1 2 - x_star‖ ^ 2 + ‖e k 1 3 - x_star‖ ^ 2 + ‖e k 2 3 - x_star‖ ^ 2 + ‖e k 2 4 - x_star‖ ^ 2 + ‖e k 3 4 - x_star‖ ^ 2 + ‖e k 4 5 - x_star‖ ^ 2 + ‖e k 4 6 - x_star‖ ^ 2) +
      Ind * ‖c k 1 2 - 0‖ ^ 2 + Ind * ‖c k 1 3 - (ys 1 - 0)‖ ^ 2 + Ind * ‖c k 2 3 - 0‖ ^ 2 + Ind * ‖c k 2 4 - (ys 2 + 0 - 0)‖ ^ 2 + Ind * ‖c k 3 4 - (ys 3 + (ys 1 - 0) + 0)‖ ^ 2 + Ind * ‖c k 4 5 + ys 5‖ ^ 2 + Ind * ‖c k 4 6 + ys 6‖ ^ 2) hs'
    (fun k => by positivity) (fun k => add_nonneg (hq k) (mul_nonneg heta.le (hS k)))
  have hB := part_tendsto heta hS (fun k => le_add_of_nonneg_left (hq k)) ht
  have d121 : Tendsto (fun k => e (k + 1) 1 2 - x k 1) atTop (nhds 0) := part_tendsto_vec (c := p "rho" * (2 / R)) (by positivity) (fun k => by
    have h1 : 0 ≤ p "rho" * (2 / R) * (0 + ‖e (k + 1) 1 3 - x k 3‖ ^ 2 + ‖e (k + 1) 2 3 - x k 2‖ ^ 2 + ‖e (k + 1) 2 4 - x k 2‖ ^ 2 + ‖e (k + 1) 3 4 - x k 4‖ ^ 2 + ‖e (k + 1) 4 5 - x k 5‖ ^ 2 + ‖e (k + 1) 4 6 - x k 6‖ ^ 2) := by positivity
    have h2 := mul_nonneg heta.le (hS k)
    linarith) ht
  have m12 : Tendsto (fun k => x k 1 - x k 2) atTop (nhds 0) := ends_left he12 d121
  have d133 : Tendsto (fun k => e (k + 1) 1 3 - x k 3) atTop (nhds 0) := part_tendsto_vec (c := p "rho" * (2 / R)) (by positivity) (fun k => by
    have h1 : 0 ≤ p "rho" * (2 / R) * (‖e (k + 1) 1 2 - x k 1‖ ^ 2 + 0 + ‖e (k + 1) 2 3 - x k 2‖ ^ 2 + ‖e (k + 1) 2 4 - x k 2‖ ^ 2 + ‖e (k + 1) 3 4 - x k 4‖ ^ 2 + ‖e (k + 1) 4 5 - x k 5‖ ^ 2 + ‖e (k + 1) 4 6 - x k 6‖ ^ 2) := by positivity
    have h2 := mul_nonneg heta.le (hS k)
    linarith) ht
  have m13 : Tendsto (fun k => x k 1 - x k 3) atTop (nhds 0) := ends_right he13 d133
  have d232 : Tendsto (fun k => e (k + 1) 2 3 - x k 2) atTop (nhds 0) := part_tendsto_vec (c := p "rho" * (2 / R)) (by positivity) (fun k => by
    have h1 : 0 ≤ p "rho" * (2 / R) * (‖e (k + 1) 1 2 - x k 1‖ ^ 2 + ‖e (k + 1) 1 3 - x k 3‖ ^ 2 + 0 + ‖e (k + 1) 2 4 - x k 2‖ ^ 2 + ‖e (k + 1) 3 4 - x k 4‖ ^ 2 + ‖e (k + 1) 4 5 - x k 5‖ ^ 2 + ‖e (k + 1) 4 6 - x k 6‖ ^ 2) := by positivity
    have h2 := mul_nonneg heta.le (hS k)
    linarith) ht
  have m23 : Tendsto (fun k => x k 2 - x k 3) atTop (nhds 0) := ends_left he23 d232
  have d242 : Tendsto (fun k => e (k + 1) 2 4 - x k 2) atTop (nhds 0) := part_tendsto_vec (c := p "rho" * (2 / R)) (by positivity) (fun k => by
    have h1 : 0 ≤ p "rho" * (2 / R) * (‖e (k + 1) 1 2 - x k 1‖ ^ 2 + ‖e (k + 1) 1 3 - x k 3‖ ^ 2 + ‖e (k + 1) 2 3 - x k 2‖ ^ 2 + 0 + ‖e (k + 1) 3 4 - x k 4‖ ^ 2 + ‖e (k + 1) 4 5 - x k 5‖ ^ 2 + ‖e (k + 1) 4 6 - x k 6‖ ^ 2) := by positivity
    have h2 := mul_nonneg heta.le (hS k)
    linarith) ht
  have m24 : Tendsto (fun k => x k 2 - x k 4) atTop (nhds 0) := ends_left he24 d242
  have d344 : Tendsto (fun k => e (k + 1) 3 4 - x k 4) atTop (nhds 0) := part_tendsto_vec (c := p "rho" * (2 / R)) (by positivity) (fun k => by
    have h1 : 0 ≤ p "rho" * (2 / R) * (‖e (k + 1) 1 2 - x k 1‖ ^ 2 + ‖e (k + 1) 1 3 - x k 3‖ ^ 2 + ‖e (k + 1) 2 3 - x k 2‖ ^ 2 + ‖e (k + 1) 2 4 - x k 2‖ ^ 2 + 0 + ‖e (k + 1) 4 5 - x k 5‖ ^ 2 + ‖e (k + 1) 4 6 - x k 6‖ ^ 2) := by positivity
    have h2 := mul_nonneg heta.le (hS k)
    linarith) ht
  have m34 : Tendsto (fun k => x k 3 - x k 4) atTop (nhds 0) := ends_right he34 d344
  have d455 : Tendsto (fun k => e (k + 1) 4 5 - x k 5) atTop (nhds 0) := part_tendsto_vec (c := p "rho" * (2 / R)) (by positivity) (fun k => by
    have h1 : 0 ≤ p "rho" * (2 / R) * (‖e (k + 1) 1 2 - x k 1‖ ^ 2 + ‖e (k + 1) 1 3 - x k 3‖ ^ 2 + ‖e (k + 1) 2 3 - x k 2‖ ^ 2 + ‖e (k + 1) 2 4 - x k 2‖ ^ 2 + ‖e (k + 1) 3 4 - x k 4‖ ^ 2 + 0 + ‖e (k + 1) 4 6 - x k 6‖ ^ 2) := by positivity
    have h2 := mul_nonneg heta.le (hS k)
    linarith) ht
  have m45 : Tendsto (fun k => x k 4 - x k 5) atTop (nhds 0) := ends_right he45 d455
  have d466 : Tendsto (fun k => e (k + 1) 4 6 - x k 6) atTop (nhds 0) := part_tendsto_vec (c := p "rho" * (2 / R)) (by positivity) (fun k => by
    have h1 : 0 ≤ p "rho" * (2 / R) * (‖e (k + 1) 1 2 - x k 1‖ ^ 2 + ‖e (k + 1) 1 3 - x k 3‖ ^ 2 + ‖e (k + 1) 2 3 - x k 2‖ ^ 2 + ‖e (k + 1) 2 4 - x k 2‖ ^ 2 + ‖e (k + 1) 3 4 - x k 4‖ ^ 2 + ‖e (k + 1) 4 5 - x k 5‖ ^ 2 + 0) := by positivity
    have h2 := mul_nonneg heta.le (hS k)
    linarith) ht
  have m46 : Tendsto (fun k => x k 4 - x k 6) atTop (nhds 0) := ends_right he46 d466
  have hcons : ∀ i, 1 ≤ i → i ≤ 6 → Tendsto (fun k => x k i - x k 4) atTop (nhds 0) := by
    intro i h1 h2
    interval_cases i
    · exact ends_trans m12 m24
    · exact m24
    · exact m34
    · exact by simp
    · exact ends_symm m45
    · exact ends_symm m46
  refine ⟨hcons, values_of_bregman (n := 6) (ys := fun i => ys (i + 1)) (x := fun k i => x k (i + 1)) (z := fun k => x k 4) (xs := x_star) ?_
    (fun i hi => hcons (i + 1) (by omega) (by omega)) hB, ?_⟩
  · rw [← hopt]; simp only [Finset.sum_range_succ, Finset.sum_range_zero, zero_add]
  · intro hmu i h1 h2
    have hm' : (0 : ℝ) < mu := by exact_mod_cast hmu
    have hh : Tendsto (fun k => x k 4 - x_star) atTop (nhds 0) := part_tendsto_vec (c := (mu : ℝ) / 2) (by positivity) (fun k =>
      (bregman_strong hmu hf4 (hstar 4 (by norm_num) (by norm_num)) (hx4 k).1).trans (Finset.single_le_sum
        (f := fun i => (f (i + 1)).f (x k (i + 1)) - (f (i + 1)).f x_star - ⟪ys (i + 1), x k (i + 1) - x_star⟫_ℝ) (hnn k) (Finset.mem_range.2 (by norm_num : 3 < 6)))) hB
    simpa using ((hcons i h1 h2).add hh).add_const x_star

/-- **C33** for `dadmm_C_graph6`: all nodes agree in the limit, the value of the sum tends to the minimum, and for strongly convex functions the
points of all nodes tend to the solution. -/
theorem C33_dadmmCGraph6 (hC : C.Lawful) (mu0 mu1 : ℚ) (L0 L1 : Option ℚ) (R Cap Ind : ℚ) (hR : 0 < R) (hCap : 0 ≤ Cap) (hInd : 0 ≤ Ind) (hok0 : (defDecl mu0 L0).Ok) (hok1 : (defDecl mu1 L1).Ok)
    {p : Name → ℝ} (hp : IpoptFeasible C (dadmmCGraph6 mu0 mu1 L0 L1 R Cap Ind).prog stdParams p) (heta : 0 < p "eta") (hrho : 0 < p "rho") (hgamma : 0 ≤ p "gamma")
    (f : ℕ → CFun E) (hf1 : (defDecl mu0 L0).Holds (f 1)) (hf2 : (defDecl mu0 L0).Holds (f 2)) (hf3 : (defDecl mu0 L0).Holds (f 3)) (hf4 : (defDecl mu1 L1).Holds (f 4)) (hf5 : (defDecl mu1 L1).Holds (f 5)) (hf6 : (defDecl mu0 L0).Holds (f 6))
    {x_star : E} {ys : ℕ → E} (hstar : ∀ i, 1 ≤ i → i ≤ 6 → (f i).Sample x_star (ys i) ((f i).f x_star))
    (hopt : ys 1 + ys 2 + ys 3 + ys 4 + ys 5 + ys 6 = 0) (x g : ℕ → ℕ → E) (e c : ℕ → ℕ → ℕ → E)
    (hx1 : ∀ k, (f 1).Prox (R / 2) ((1 / 2 : ℝ) • (((R : ℝ) • c k 1 2 + e k 1 2) + ((R : ℝ) • c k 1 3 + e k 1 3))) (x k 1) (g k 1) ((f 1).f (x k 1)))
    (hx2 : ∀ k, (f 2).Prox (R / 3) ((1 / 3 : ℝ) • (((-(R : ℝ)) • c k 1 2 + e k 1 2) + ((R : ℝ) • c k 2 3 + e k 2 3) + ((R : ℝ) • c k 2 4 + e k 2 4))) (x k 2) (g k 2) ((f 2).f (x k 2)))
    (hx3 : ∀ k, (f 3).Prox (R / 3) ((1 / 3 : ℝ) • (((-(R : ℝ)) • c k 1 3 + e k 1 3) + ((-(R : ℝ)) • c k 2 3 + e k 2 3) + ((R : ℝ) • c k 3 4 + e k 3 4))) (x k 3) (g k 3) ((f 3).f (x k 3)))
    (hx4 : ∀ k, (f 4).Prox (R / 4) ((1 / 4 : ℝ) • (((-(R : ℝ)) • c k 2 4 + e k 2 4) + ((-(R : ℝ)) • c k 3 4 + e k 3 4) + ((R : ℝ) • c k 4 5 + e k 4 5) + ((R : ℝ) • c k 4 6 + e k 4 6))) (x k 4) (g k 4) ((f 4).f (x k 4)))
    (hx5 : ∀ k, (f 5).Prox R ((R : ℝ) • c k 5 4 + e k 4 5) (x k 5) (g k 5) ((f 5).f (x k 5)))
    (hx6 : ∀ k, (f 6).Prox R ((-(R : ℝ)) • c k 4 6 + e k 4 6) (x k 6) (g k 6) ((f 6).f (x k 6)))
    (he12 : ∀ k, e (k + 1) 1 2 = (2 : ℝ)⁻¹ • (x k 1 + x k 2))
    (he13 : ∀ k, e (k + 1) 1 3 = (2 : ℝ)⁻¹ • (x k 1 + x k 3))
    (he23 : ∀ k, e (k + 1) 2 3 = (2 : ℝ)⁻¹ • (x k 2 + x k 3))
    (he24 : ∀ k, e (k + 1) 2 4 = (2 : ℝ)⁻¹ • (x k 2 + x k 4))
    (he34 : ∀ k, e (k + 1) 3 4 = (2 : ℝ)⁻¹ • (x k 3 + x k 4))
    (he45 : ∀ k, e (k + 1) 4 5 = e k 4 5 - (p "h" / Cap) • (c k 4 5 + c k 5 4 + (R : ℝ)⁻¹ • ((2 : ℝ) • e k 4 5 - x k 4 - x k 5)))
    (he46 : ∀ k, e (k + 1) 4 6 = (2 : ℝ)⁻¹ • (x k 4 + x k 6))
    (hc12 : ∀ k, c (k + 1) 1 2 = c k 1 2 + (p "h" / Ind) • (e (k + 1) 1 2 - x k 1))
    (hc13 : ∀ k, c (k + 1) 1 3 = c k 1 3 + (p "h" / Ind) • (e (k + 1) 1 3 - x k 1))
    (hc23 : ∀ k, c (k + 1) 2 3 = c k 2 3 + (p "h" / Ind) • (e (k + 1) 2 3 - x k 2))
    (hc24 : ∀ k, c (k + 1) 2 4 = c k 2 4 + (p "h" / Ind) • (e (k + 1) 2 4 - x k 2))
    (hc34 : ∀ k, c (k + 1) 3 4 = c k 3 4 + (p "h" / Ind) • (e (k + 1) 3 4 - x k 3))
    (hc45 : ∀ k, c (k + 1) 4 5 = c k 4 5 + (p "h" / Ind) • (e (k + 1) 4 5 - x k 4))
    (hc54 : ∀ k, c (k + 1) 5 4 = c k 5 4 + (p "h" / Ind) • (e (k + 1) 4 5 - x k 5))
    (hc46 : ∀ k, c (k + 1) 4 6 = c k 4 6 + (p "h" / Ind) • (e (k + 1) 4 6 - x k 4)) :
    (∀ i, 1 ≤ i → i ≤ 6 → Tendsto (fun k => x k i - x k 4) atTop (nhds 0)) ∧
      Tendsto (fun k => ∑ i ∈ Finset.range 6, (f (i + 1)).f (x k (i + 1))) atTop (nhds (∑ i ∈ Finset.range 6, (f (i + 1)).f x_star)) ∧
      (0 < mu1 → ∀ i, 1 ≤ i → i ≤ 6 → Tendsto (fun k => x k i) atTop (nhds x_star)) := by
  have hR' : (0 : ℝ) < R := by exact_mod_cast hR
  have hCap' : (0 : ℝ) ≤ Cap := by exact_mod_cast hCap
  have hInd' : (0 : ℝ) ≤ Ind := by exact_mod_cast hInd
  have hs := fun k => C34_dadmmCGraph6 (y_12 := 0) (y_23 := 0) hC mu0 mu1 L0 L1 R Cap Ind hR.ne' hok0 hok1 hp (f 1) (f 2) (f 3) (f 4) (f 5) (f 6)
    hf1 hf2 hf3 hf4 hf5 hf6 (hstar 1 (by norm_num) (by norm_num)) (hstar 2 (by norm_num) (by norm_num)) (hstar 3 (by norm_num) (by norm_num)) (hstar 4 (by norm_num) (by norm_num)) (hstar 5 (by norm_num) (by norm_num)) (hstar 6 (by norm_num) (by norm_num)) hopt rfl rfl rfl (hx1 k) (hx2 k) (hx3 k) (hx4 k) (hx5 k) (hx6 k) (he12 k) (he13 k) (he23 k) (he24 k) (he34 k) (he45 k) (he46 k) (hc12 k) (hc13 k) (hc23 k) (hc24 k) (hc34 k) (hc45 k) (hc54 k) (hc46 k) rfl rfl rfl
  have hnn : ∀ k, ∀ i ∈ Finset.range 6, 0 ≤ (f (i + 1)).f (x k (i + 1)) - (f (i + 1)).f x_star - ⟪ys (i + 1), x k (i + 1) - x_star⟫_ℝ := by
    intro k i hi
    have hi := Finset.mem_range.1 hi
    have hsm : (f (i + 1)).Sample (x k (i + 1)) (g k (i + 1)) ((f (i + 1)).f (x k (i + 1))) := by
      interval_cases i <;> first | exact (hx1 k).1 | exact (hx2 k).1 | exact (hx3 k).1 | exact (hx4 k).1 | exact (hx5 k).1 | exact (hx6 k).1
    exact bregman_nonneg (hstar (i + 1) (by omega) (by omega)) hsm
  have hs' : ∀ k, p "gamma" * (‖e (k + 1) 1 2 - x_star‖ ^ 2 + ‖e (k + 1) 1 3 - x_star‖ ^ 2 + ‖e (k + 1) 2 3 - x_star‖ ^ 2 + ‖e (k + 1) 2 4 - x_star‖ ^ 2 + ‖e (k + 1) 3 4 - x_star‖ ^ 2 + ‖e (k + 1) 4 6 - x_star‖ ^ 2) +
      Ind * ‖c (k + 1) 1 2 - 0‖ ^ 2 + Ind * ‖c (k + 1) 1 3 - (ys 1 - 0)‖ ^ 2 + Ind * ‖c (k + 1) 2 3 - 0‖ ^ 2 + Ind * ‖c (k + 1) 2 4 - (ys 2 + 0 - 0)‖ ^ 2 + Ind * ‖c (k + 1) 3 4 - (ys 3 + (ys 1 - 0) + 0)‖ ^ 2 + Ind / 2 * ‖c (k + 1) 4 5 + ys 5‖ ^ 2 + Ind / 2 * ‖c (k + 1) 5 4 - ys 5‖ ^ 2 + Ind * ‖c (k + 1) 4 6 + ys 6‖ ^ 2 + Cap / 2 * ‖e (k + 1) 4 5 - x_star‖ ^ 2 ≤ p "gamma" * (‖e k 1 2 - x_star‖ ^ 2 + ‖e k 1 3 - x_star‖ ^ 2 + ‖e k 2 3 - x_star‖ ^ 2 + ‖e k 2 4 - x_star‖ ^ 2 + ‖e k 3 4 - x_star‖ ^ 2 + ‖e k 4 6 - x_star‖ ^ 2) +
      Ind * ‖c k 1 2 - 0‖ ^ 2 + Ind * ‖c k 1 3 - (ys 1 - 0)‖ ^ 2 + Ind * ‖c k 2 3 - 0‖ ^ 2 + Ind * ‖c k 2 4 - (ys 2 + 0 - 0)‖ ^ 2 + Ind * ‖c k 3 4 - (ys 3 + (ys 1 - 0) + 0)‖ ^ 2 + Ind / 2 * ‖c k 4 5 + ys 5‖ ^ 2 + Ind / 2 * ‖c k 5 4 - ys 5‖ ^ 2 + Ind * ‖c k 4 6 + ys 6‖ ^ 2 + Cap / 2 * ‖e k 4 5 - x_star‖ ^ 2 -
      (p "rho" * (2 / R * (‖e (k + 1) 1 2 - x k 1‖ ^ 2 + ‖e (k + 1) 1 3 - x k 3‖ ^ 2 + ‖e (k + 1) 2 3 - x k 2‖ ^ 2 + ‖e (k + 1) 2 4 - x k 2‖ ^ 2 + ‖e (k + 1) 3 4 - x k 4‖ ^ 2 + ‖e (k + 1) 4 6 - x k 6‖ ^ 2) + 1 / R * (‖e (k + 1) 4 5 - x k 5‖ ^ 2 + ‖e (k + 1) 4 5 - x k 4‖ ^ 2)) + p "eta" * ∑ i ∈ Finset.range 6, ((f (i + 1)).f (x k (i + 1)) - (f (i + 1)).f x_star - ⟪ys (i + 1), x k (i + 1) - x_star⟫_ℝ)) := fun k => by
    have := hs k
    simp only [Finset.sum_range_succ, Finset.sum_range_zero, zero_add]
    refine this.trans (le_of_eq ?_)
    norm_num only
    ring
  have hq : ∀ k, 0 ≤ p "rho" * (2 / R * (‖e (k + 1) 1 2 - x k 1‖ ^ 2 + ‖e (k + 1) 1 3 - x k 3‖ ^ 2 + ‖e (k + 1) 2 3 - x k 2‖ ^ 2 + ‖e (k + 1) 2 4 - x k 2‖ ^ 2 + ‖e (k + 1) 3 4 - x k 4‖ ^ 2 + ‖e (k + 1) 4 6 - x k 6‖ ^ 2) + 1 / R * (‖e (k + 1) 4 5 - x k 5‖ ^ 2 + ‖e (k + 1) 4 5 - x k 4‖ ^ 2)) := fun k => by positivity
  have hS : ∀ k, 0 ≤ ∑ i ∈ Finset.range 6, ((f (i + 1)).f (x k (i + 1)) - (f (i + 1)).f x_star - ⟪ys (i + 1), x k (i + 1) - x_star⟫_ℝ) := fun k => Finset.sum_nonneg (hnn k)
  obtain ⟨-, ht, -⟩ := energy_limit (En := fun k => p "gamma" * (‖e k 1 2 - x_star‖ ^ 2 + ‖e k 1 3 - x_star‖ ^ 2 + ‖e k 2 3 - x_star‖ ^ 2 + ‖e k 2 4 - x_star‖ ^ 2 + ‖e k 3 4 - x_star‖ ^ 2 + ‖e k 4 6 - x_star‖ ^ 2) +
      Ind * ‖c k 1 2 - 0‖ ^ 2 + Ind * ‖c k 1 3 - (ys 1 - 0)‖ ^ 2 + Ind * ‖c k 2 3 - 0‖ ^ 2 + Ind * ‖c k 2 4 - (ys 2 + 0 - 0)‖ ^ 2 + Ind * ‖c k 3 4 - (ys 3 + (ys 1 - 0) + 0)‖ ^ 2 + Ind / 2 * ‖c k 4 5 + ys 5‖ ^ 2 + Ind / 2 * ‖c k 5 4 - ys 5‖ ^ 2 + Ind * ‖c k 4 6 + ys 6‖ ^ 2 + Cap / 2 * ‖e k 4 5 - x_star‖ ^ 2) hs'
    (fun k => by positivity) (fun k => add_nonneg (hq k) (mul_nonneg heta.le (hS k)))
  have hB := part_tendsto heta hS (fun k => le_add_of_nonneg_left (hq k)) ht
  have d121 : Tendsto (fun k => e (k + 1) 1 2 - x k 1) atTop (nhds 0) := part_tendsto_vec (c := p "rho" * (2 / R)) (by positivity) (fun k => by
    have h1 : 0 ≤ p "rho" * (2 / R * (0 + ‖e (k + 1) 1 3 - x k 3‖ ^ 2 + ‖e (k + 1) 2 3 - x k 2‖ ^ 2 + ‖e (k + 1) 2 4 - x k 2‖ ^ 2 + ‖e (k + 1) 3 4 - x k 4‖ ^ 2 + ‖e (k + 1) 4 6 - x k 6‖ ^ 2) + 1 / R * (‖e (k + 1) 4 5 - x k 5‖ ^ 2 + ‖e (k + 1) 4 5 - x k 4‖ ^ 2)) := by positivity
    have h2 := mul_nonneg heta.le (hS k)
    linarith) ht
  have m12 : Tendsto (fun k => x k 1 - x k 2) atTop (nhds 0) := ends_left he12 d121
  have d133 : Tendsto (fun k => e (k + 1) 1 3 - x k 3) atTop (nhds 0) := part_tendsto_vec (c := p "rho" * (2 / R)) (by positivity) (fun k => by
    have h1 : 0 ≤ p "rho" * (2 / R * (‖e (k + 1) 1 2 - x k 1‖ ^ 2 + 0 + ‖e (k + 1) 2 3 - x k 2‖ ^ 2 + ‖e (k + 1) 2 4 - x k 2‖ ^ 2 + ‖e (k + 1) 3 4 - x k 4‖ ^ 2 + ‖e (k + 1) 4 6 - x k 6‖ ^ 2) + 1 / R * (‖e (k + 1) 4 5 - x k 5‖ ^ 2 + ‖e (k + 1) 4 5 - x k 4‖ ^ 2)) := by positivity
    have h2 := mul_nonneg heta.le (hS k)
    linarith) ht
  have m13 : Tendsto (fun k => x k 1 - x k 3) atTop (nhds 0) := ends_right he13 d133
  have d232 : Tendsto (fun k => e (k + 1) 2 3 - x k 2) atTop (nhds 0) := part_tendsto_vec (c := p "rho" * (2 / R)) (by positivity) (fun k => by
    have h1 : 0 ≤ p "rho" * (2 / R * (‖e (k + 1) 1 2 - x k 1‖ ^ 2 + ‖e (k + 1) 1 3 - x k 3‖ ^ 2 + 0 + ‖e (k + 1) 2 4 - x k 2‖ ^ 2 + ‖e (k + 1) 3 4 - x k 4‖ ^ 2 + ‖e (k + 1) 4 6 - x k 6‖ ^ 2) + 1 / R * (‖e (k + 1) 4 5 - x k 5‖ ^ 2 + ‖e (k + 1) 4 5 - x k 4‖ ^ 2)) := by positivity
    have h2 := mul_nonneg heta.le (hS k)
    linarith) ht
  have m23 : Tendsto (fun k => x k 2 - x k 3) atTop (nhds 0) := ends_left he23 d232
  have d242 : Tendsto (fun k => e (k + 1) 2 4 - x k 2) atTop (nhds 0) := part_tendsto_vec (c := p "rho" * (2 / R)) (by positivity) (fun k => by
    have h1 : 0 ≤ p "rho" * (2 / R * (‖e (k + 1) 1 2 - x k 1‖ ^ 2 + ‖e (k + 1) 1 3 - x k 3‖ ^ 2 + ‖e (k + 1) 2 3 - x k 2‖ ^ 2 + 0 + ‖e (k + 1) 3 4 - x k 4‖ ^ 2 + ‖e (k + 1) 4 6 - x k 6‖ ^ 2) + 1 / R * (‖e (k + 1) 4 5 - x k 5‖ ^ 2 + ‖e (k + 1) 4 5 - x k 4‖ ^ 2)) := by positivity
    have h2 := mul_nonneg heta.le (hS k)
    linarith) ht
  have m24 : Tendsto (fun k => x k 2 - x k 4) atTop (nhds 0) := ends_left he24 d242
  have d344 : Tendsto (fun k => e (k + 1) 3 4 - x k 4) atTop (nhds 0) := part_tendsto_vec (c := p "rho" * (2 / R)) (by positivity) (fun k => by
    have h1 : 0 ≤ p "rho" * (2 / R * (‖e (k + 1) 1 2 - x k 1‖ ^ 2 + ‖e (k + 1) 1 3 - x k 3‖ ^ 2 + ‖e (k + 1) 2 3 - x k 2‖ ^ 2 + ‖e (k + 1) 2 4 - x k 2‖ ^ 2 + 0 + ‖e (k + 1) 4 6 - x k 6‖ ^ 2) + 1 / R * (‖e (k + 1) 4 5 - x k 5‖ ^ 2 + ‖e (k + 1) 4 5 - x k 4‖ ^ 2)) := by positivity
    have h2 := mul_nonneg heta.le (hS k)
    linarith) ht
  have m34 : Tendsto (fun k => x k 3 - x k 4) atTop (nhds 0) := ends_right he34 d344
  have d454 : Tendsto (fun k => e (k + 1) 4 5 - x k 4) atTop (nhds 0) := part_tendsto_vec (c := p "rho" * (1 / R)) (by positivity) (fun k => by
    have h1 : 0 ≤ p "rho" * (2 / R * (‖e (k + 1) 1 2 - x k 1‖ ^ 2 + ‖e (k + 1) 1 3 - x k 3‖ ^ 2 + ‖e (k + 1) 2 3 - x k 2‖ ^ 2 + ‖e (k + 1) 2 4 - x k 2‖ ^ 2 + ‖e (k + 1) 3 4 - x k 4‖ ^ 2 + ‖e (k + 1) 4 6 - x k 6‖ ^ 2) + 1 / R * (‖e (k + 1) 4 5 - x k 5‖ ^ 2 + 0)) := by positivity
    have h2 := mul_nonneg heta.le (hS k)
    linarith) ht
  have d455 : Tendsto (fun k => e (k + 1) 4 5 - x k 5) atTop (nhds 0) := part_tendsto_vec (c := p "rho" * (1 / R)) (by positivity) (fun k => by
    have h1 : 0 ≤ p "rho" * (2 / R * (‖e (k + 1) 1 2 - x k 1‖ ^ 2 + ‖e (k + 1) 1 3 - x k 3‖ ^ 2 + ‖e (k + 1) 2 3 - x k 2‖ ^ 2 + ‖e (k + 1) 2 4 - x k 2‖ ^ 2 + ‖e (k + 1) 3 4 - x k 4‖ ^ 2 + ‖e (k + 1) 4 6 - x k 6‖ ^ 2) + 1 / R * (0 + ‖e (k + 1) 4 5 - x k 4‖ ^ 2)) := by positivity
    have h2 := mul_nonneg heta.le (hS k)
    linarith) ht
  have m45 : Tendsto (fun k => x k 4 - x k 5) atTop (nhds 0) := ends_trans (ends_symm d454) d455
  have d466 : Tendsto (fun k => e (k + 1) 4 6 - x k 6) atTop (nhds 0) := part_tendsto_vec (c := p "rho" * (2 / R)) (by positivity) (fun k => by
    have h1 : 0 ≤ p "rho" * (2 / R * (‖e (k + 1) 1 2 - x k 1‖ ^ 2 + ‖e (k + 1) 1 3 - x k 3‖ ^ 2 + ‖e (k + 1) 2 3 - x k 2‖ ^ 2 + ‖e (k + 1) 2 4 - x k 2‖ ^ 2 + ‖e (k + 1) 3 4 - x k 4‖ ^ 2 + 0) + 1 / R * (‖e (k + 1) 4 5 - x k 5‖ ^ 2 + ‖e (k + 1) 4 5 - x k 4‖ ^ 2)) := by positivity
    have h2 := mul_nonneg heta.le (hS k)
    linarith) ht
  have m46 : Tendsto (fun k => x k 4 - x k 6) atTop (nhds 0) := ends_right he46 d466
  have hcons : ∀ i, 1 ≤ i → i ≤ 6 → Tendsto (fun k => x k i - x k 4) atTop (nhds 0) := by
    intro i h1 h2
    interval_cases i
    · exact ends_trans m12 m24
    · exact m24
    · exact m34
    · exact by simp
    · exact ends_symm m45
    · exact ends_symm m46
  refine ⟨hcons, values_of_bregman (n := 6) (ys := fun i => ys (i + 1)) (x := fun k i => x k (i + 1)) (z := fun k => x k 4) (xs := x_star) ?_
    (fun i hi => hcons (i + 1) (by omega) (by omega)) hB, ?_⟩
  · rw [← hopt]; simp only [Finset.sum_range_succ, Finset.sum_range_zero, zero_add]
  · intro hmu i h1 h2
    have hm' : (0 : ℝ) < mu1 := by exact_mod_cast hmu
    have hh : Tendsto (fun k => x k 4 - x_star) atTop (nhds 0) := part_tendsto_vec (c := (mu1 : ℝ) / 2) (by positivity) (fun k =>
      (bregman_strong hmu hf4 (hstar 4 (by norm_num) (by norm_num)) (hx4 k).1).trans (Finset.single_le_sum
        (f := fun i => (f (i + 1)).f (x k (i + 1)) - (f (i + 1)).f x_star - ⟪ys (i + 1), x k (i + 1) - x_star⟫_ℝ) (hnn k) (Finset.mem_range.2 (by norm_num : 3 < 6)))) hB
    simpa using ((hcons i h1 h2).add hh).add_const x_star

/-! ### The hypotheses can be met

Runs of each circuit with the parameters of a certificate, for functions `(x - a)² / 2` on the reals, from a point that is not the solution.  For
`dadmmGraph6` and `dadmmCGraph6` no exact certificate is given: the kernel needs too much memory to run their builders. -/

/-- minimizers 0, 2, 4: the equilibrium of the circuit is 1, 2, 3 -/
example : ∃ p, ∃ x1 x2 x3 : ℕ → ℝ, IpoptFeasible refCAS (dgdLine3 (1/2) (some 1) 1 1).prog stdParams p ∧ x1 0 = 7 ∧ x2 0 = -5 ∧ x3 0 = 7 ∧
    Tendsto x1 atTop (nhds 1) ∧ Tendsto x2 atTop (nhds 2) ∧ Tendsto x3 atTop (nhds 3) := by
  obtain ⟨p, hp, -, -, -, ve, -, vh, vr⟩ := C34_dgdLine3_feasible
  let st : ℕ → ℝ × ℝ × ℝ := iter (fun s => (s.1 - 1 / 4 * (s.1 - 0 + (s.1 - s.2.1)), s.2.1 - 1 / 4 * (s.2.1 - 2 + (s.2.1 - s.1 + s.2.1 - s.2.2)),
    s.2.2 - 1 / 4 * (s.2.2 - 4 + (s.2.2 - s.2.1)))) (7, -5, 7)
  refine ⟨p, fun k => (st k).1, fun k => (st k).2.1, fun k => (st k).2.2, hp, rfl, rfl, rfl, (C33_dgdLine3 refCAS_lawful (1/2) (some 1) 1 1
    (by norm_num) (by norm_num) (by norm_num [defDecl, FnDecl.Ok]) hp (by rw [ve]; norm_num) (by rw [vr]; norm_num) (halfSq 0) (halfSq 2) (halfSq 4)
    (halfSq_holds (by norm_num) 0) (halfSq_holds (by norm_num) 2) (halfSq_holds (by norm_num) 4) (s1 := 1) (s2 := 2) (s3 := 3) (t1 := 1) (t2 := 0)
    (t3 := -1) (halfSq_sample (by norm_num)) (halfSq_sample (by norm_num)) (halfSq_sample (by norm_num)) (by norm_num) (by norm_num) (by norm_num)
    _ _ _ (fun k => (st k).1 - 0) (fun k => (st k).2.1 - 2) (fun k => (st k).2.2 - 4) (fun k => halfSq_sample rfl)
    (fun k => halfSq_sample rfl) (fun k => halfSq_sample rfl) (fun k => ?_) (fun k => ?_) (fun k => ?_)).2 (by rw [ve]; norm_num) (by norm_num)⟩
  all_goals
    rw [vh]; push_cast; simp only [smul_eq_mul, st, iter]; ring

/-- minimizers -1, 3, 7: the equilibrium of the circuit is 1, 3, 5, with the gradients 2, 0, -2 -/
example : ∃ p, ∃ x1 x2 x3 : ℕ → ℝ, IpoptFeasible refCAS (diffusionLine3 (1/2) (some 1) (1/2) 1).prog stdParams p ∧ x1 0 = 7 ∧ x2 0 = -5 ∧ x3 0 = 7 ∧
    Tendsto (fun k => x1 k - (-1)) atTop (nhds 2) ∧ Tendsto (fun k => x2 k - 3) atTop (nhds 0) ∧ Tendsto (fun k => x3 k - 7) atTop (nhds (-2)) := by
  obtain ⟨p, hp, -, -, -, ve, -, vh, vr⟩ := C34_diffusionLine3_feasible
  let u : ℝ → ℝ → ℝ := fun a x => x - 1 / 2 * (x - a)
  let st : ℕ → ℝ × ℝ × ℝ := iter (fun s => (s.1 - 1 / 2 * (s.1 - (-1) + 2 / 3 * (u (-1) s.1 - u 3 s.2.1)),
    s.2.1 - 1 / 2 * (s.2.1 - 3 + 2 / 3 * (2 * u 3 s.2.1 - u (-1) s.1 - u 7 s.2.2)), s.2.2 - 1 / 2 * (s.2.2 - 7 + 2 / 3 * (u 7 s.2.2 - u 3 s.2.1)))) (7, -5, 7)
  refine ⟨p, fun k => (st k).1, fun k => (st k).2.1, fun k => (st k).2.2, hp, rfl, rfl, rfl, (C33_diffusionLine3 refCAS_lawful (1/2) (some 1) (1/2) 1
    (by norm_num) (by norm_num [invSmooth]) (by norm_num) (by norm_num [defDecl, FnDecl.Ok]) hp (by rw [ve]; norm_num) (by rw [vr]; norm_num)
    (halfSq (-1)) (halfSq 3) (halfSq 7)
    (halfSq_holds (by norm_num) _) (halfSq_holds (by norm_num) _) (halfSq_holds (by norm_num) _) (s1 := 1) (s2 := 3) (s3 := 5) (t1 := 2) (t2 := 0)
    (t3 := -2) (u1 := 0) (u2 := 3) (u3 := 6) (halfSq_sample (by norm_num)) (halfSq_sample (by norm_num)) (halfSq_sample (by norm_num))
    (by norm_num) (by norm_num) (by norm_num) (by norm_num) (by norm_num) (by norm_num)
    _ _ _ (fun k => (st k).1 - (-1)) (fun k => (st k).2.1 - 3) (fun k => (st k).2.2 - 7) (fun k => halfSq_sample rfl)
    (fun k => halfSq_sample rfl) (fun k => halfSq_sample rfl) (fun k => ?_) (fun k => ?_) (fun k => ?_)).2 (by rw [ve]; norm_num)
    (by norm_num [invSmooth])⟩
  all_goals
    rw [vh]; push_cast; simp only [smul_eq_mul, st, iter]; simp only [u]; ring

/-- minimizers 0, 1, 2, both for the proximal and the gradient steps -/
example : ∃ p, ∃ x1 x2 x3 : ℕ → ℝ, IpoptFeasible refCAS (pgExtraLine3 0 (some 1) (some 1) (1/2)
      (fun i j => ([[3/4,1/4,0],[1/4,1/2,1/4],[0,1/4,3/4]].getD i []).getD j 0)).prog stdParams p ∧ x1 0 = 7 ∧ x2 0 = -5 ∧ x3 0 = 7 ∧
    Tendsto (fun k => ((halfSq 0).f (x1 k) - (halfSq 0).f 1 - ⟪(1 : ℝ), x1 k - 1⟫_ℝ) + ((halfSq 1).f (x2 k) - (halfSq 1).f 1 - ⟪(0 : ℝ), x2 k - 1⟫_ℝ) +
        ((halfSq 2).f (x3 k) - (halfSq 2).f 1 - ⟪(-1 : ℝ), x3 k - 1⟫_ℝ)) atTop (nhds 0) := by
  obtain ⟨p, hp, -, -, -, ve, vg, vh, vr⟩ := C34_pgExtraLine3_feasible
  let st : ℕ → (ℝ × ℝ × ℝ) × ℝ × ℝ := iter (fun s =>
    (((3 / 4 * s.1.1 + 1 / 4 * s.1.2.1 + 0 * s.1.2.2 - 1 / 2 * (s.1.1 - 0) - 1 / 2 * s.2.1 + 0) / (3 / 2),
      (1 / 4 * s.1.1 + 1 / 2 * s.1.2.1 + 1 / 4 * s.1.2.2 - 1 / 2 * (s.1.2.1 - 1) + 1 / 2 * s.2.1 - 1 / 2 * s.2.2 + 1 / 2) / (3 / 2),
      (0 * s.1.1 + 1 / 4 * s.1.2.1 + 3 / 4 * s.1.2.2 - 1 / 2 * (s.1.2.2 - 2) + 1 / 2 * s.2.2 + 1) / (3 / 2)),
      s.2.1 + 1 / 4 * (s.1.1 - s.1.2.1), s.2.2 + 1 / 4 * (s.1.2.1 - s.1.2.2))) ((7, -5, 7), 3, 4)
  refine ⟨p, fun k => (st k).1.1, fun k => (st k).1.2.1, fun k => (st k).1.2.2, hp, rfl, rfl, rfl, (C33_pgExtraLine3 refCAS_lawful 0 (some 1) (some 1) (1/2)
    (fun i j => ([[3/4,1/4,0],[1/4,1/2,1/4],[0,1/4,3/4]].getD i []).getD j 0)
    (by norm_num) (by norm_num) (by norm_num) (by norm_num [defDecl, FnDecl.Ok]) (by norm_num [defDecl, FnDecl.Ok]) hp (by rw [ve]; norm_num)
    (by rw [vr]; norm_num) (by rw [vg]; norm_num) (halfSq 0) (halfSq 1) (halfSq 2) (halfSq 0) (halfSq 1) (halfSq 2)
    (halfSq_holds (by norm_num) 0) (halfSq_holds (by norm_num) 1) (halfSq_holds (by norm_num) 2) (halfSq_holds (by norm_num) 0)
    (halfSq_holds (by norm_num) 1) (halfSq_holds (by norm_num) 2) (x_star := 1) (s1 := 1) (s2 := 0) (s3 := -1) (t1 := 1) (t2 := 0) (t3 := -1)
    (halfSq_sample (by norm_num)) (halfSq_sample (by norm_num)) (halfSq_sample (by norm_num)) (halfSq_sample (by norm_num)) (halfSq_sample (by norm_num))
    (halfSq_sample (by norm_num)) (by norm_num)
    _ _ _ (fun k => (st k).1.1 - 0) (fun k => (st k).1.2.1 - 1) (fun k => (st k).1.2.2 - 2) (fun k => (st k).1.1 - 0) (fun k => (st k).1.2.1 - 1)
    (fun k => (st k).1.2.2 - 2) (fun k => (st k).2.1) (fun k => (st k).2.2) (halfSq_sample rfl)
    (halfSq_sample rfl) (halfSq_sample rfl) (fun k => halfSq_sample rfl)
    (fun k => halfSq_sample rfl) (fun k => halfSq_sample rfl) (fun k => halfSq_prox rfl ?_) (fun k => halfSq_prox rfl ?_) (fun k => halfSq_prox rfl ?_)
    (fun k => ?_) (fun k => ?_)).1 (by rw [ve]; norm_num)⟩
  all_goals
    simp only [vh, smul_eq_mul, st, iter, List.getD_cons_zero, List.getD_cons_succ]; push_cast; ring

/-- three nodes with minimizers 1, 2, 3 -/
example : ∃ p, ∃ x : ℕ → ℕ → ℝ, IpoptFeasible refCAS (dadmmLine3 0 (some 1) 1 1).prog stdParams p ∧ x 0 1 ≠ x 0 3 ∧
    (∀ i, 1 ≤ i → i ≤ 3 → Tendsto (fun k => x k i - x k 2) atTop (nhds 0)) ∧
    Tendsto (fun k => ∑ i ∈ Finset.range 3, (halfSq (i + 1 : ℕ)).f (x k (i + 1))) atTop (nhds (∑ i ∈ Finset.range 3, (halfSq (i + 1 : ℕ)).f 2)) := by
  obtain ⟨p, hp, va, vb, -, ve, vg, vh, vr⟩ := C34_dadmmLine3_feasible
  let X : (ℝ × ℝ) × ℝ × ℝ → ℕ → ℝ := fun s i => if i = 1 then (s.2.1 + s.1.1 + 1) / 2 else if i = 2 then (-s.2.1 + s.1.1 + s.2.2 + s.1.2 + 2) / 3
    else (-s.2.2 + s.1.2 + 3) / 2
  let Ev : (ℕ → ℝ) → ℝ × ℝ := fun x => (1 / 2 * (x 1 + x 2), 1 / 2 * (x 2 + x 3))
  let half : (ℝ × ℝ) × ℝ × ℝ → (ℝ × ℝ) × ℝ × ℝ := fun s => (Ev (X s), s.2.1 + ((Ev (X s)).1 - X s 1), s.2.2 + ((Ev (X s)).2 - X s 2))
  let st : ℕ → (ℝ × ℝ) × ℝ × ℝ := iter (fun s => (Ev (X (half s)),
    s.2.1 + 1 / 2 * ((Ev (X s)).1 - X s 1) + 1 / 2 * ((Ev (X (half s))).1 - X (half s) 1),
    s.2.2 + 1 / 2 * ((Ev (X s)).2 - X s 2) + 1 / 2 * ((Ev (X (half s))).2 - X (half s) 2))) ((5, 6), 7, 9)
  have hst : ∀ k, st (k + 1) = (Ev (X (half (st k))),
    (st k).2.1 + 1 / 2 * ((Ev (X (st k))).1 - X (st k) 1) + 1 / 2 * ((Ev (X (half (st k)))).1 - X (half (st k)) 1),
    (st k).2.2 + 1 / 2 * ((Ev (X (st k))).2 - X (st k) 2) + 1 / 2 * ((Ev (X (half (st k)))).2 - X (half (st k)) 2)) := fun k => rfl
  have key := C33_dadmmLine3 refCAS_lawful 0 (some 1) 1 1 (by norm_num) (by norm_num) (by norm_num [defDecl, FnDecl.Ok]) hp (by rw [ve]; norm_num)
    (by rw [vr]; norm_num) (by rw [vg]; norm_num) (fun i => halfSq i) (halfSq_holds (by norm_num) _) (halfSq_holds (by norm_num) _)
    (halfSq_holds (by norm_num) _) (x_star := 2) (ys := fun i => 2 - i) (fun i _ _ => halfSq_sample rfl) (by norm_num)
    (fun k => X (half (st k))) (fun k i => X (half (st k)) i - i) (fun k => X (st k)) (fun k i => X (st k) i - i)
    (fun k i _ => if i = 1 then (st k).1.1 else (st k).1.2) (fun k i _ => if i = 1 then (st k).2.1 else (st k).2.2)
    (fun k i _ => if i = 1 then (half (st k)).1.1 else (half (st k)).1.2) (fun k i _ => if i = 1 then (half (st k)).2.1 else (half (st k)).2.2)
    (fun k => halfSq_prox rfl ?_) (fun k => halfSq_prox rfl ?_) (fun k => halfSq_prox rfl ?_) (fun k => ?_) (fun k => ?_) (fun k => ?_) (fun k => ?_)
    (fun k => halfSq_prox rfl ?_) (fun k => halfSq_prox rfl ?_) (fun k => halfSq_prox rfl ?_) (fun k => ?_) (fun k => ?_) (fun k => ?_) (fun k => ?_)
  · exact ⟨p, fun k => X (half (st k)), hp, by norm_num [X, half, Ev, st, iter], key.1, key.2.1⟩
  all_goals simp only [va, vb, vh, smul_eq_mul, if_true, (by norm_num : (2 : ℕ) ≠ 1), if_false]
  any_goals (simp only [X, if_true, (by norm_num : (2 : ℕ) ≠ 1), (by norm_num : (3 : ℕ) ≠ 1), (by norm_num : (3 : ℕ) ≠ 2), if_false]; push_cast; ring1)
  any_goals (simp only [half, Ev]; push_cast; ring1)
  all_goals (simp only [hst, half, Ev]; push_cast; ring)

/-- four nodes in a cycle with minimizers 1, 2, 3, 4 -/
example : ∃ p, ∃ x : ℕ → ℕ → ℝ, IpoptFeasible refCAS (dadmmCycle4 0 (some 1) 1 1).prog stdParams p ∧ x 0 1 ≠ x 0 3 ∧
    (∀ i, 1 ≤ i → i ≤ 4 → Tendsto (fun k => x k i - x k 4) atTop (nhds 0)) ∧
    Tendsto (fun k => ∑ i ∈ Finset.range 4, (halfSq (i + 1 : ℕ)).f (x k (i + 1))) atTop (nhds (∑ i ∈ Finset.range 4, (halfSq (i + 1 : ℕ)).f (5 / 2))) := by
  obtain ⟨p, hp, -, -, -, ve, vg, vh, vr⟩ := C34_dadmmCycle4_feasible
  let X : (ℕ → ℝ) × (ℕ → ℝ) → ℕ → ℝ := fun s i => if i = 1 then (s.2 1 + s.1 1 - s.2 4 + s.1 4 + 1) / 3 else if i = 2 then
      (-s.2 1 + s.1 1 + s.2 2 + s.1 2 + 2) / 3 else if i = 3 then (-s.2 2 + s.1 2 + s.2 3 + s.1 3 + 3) / 3 else (s.2 4 + s.1 4 - s.2 3 + s.1 3 + 4) / 3
  let Ev : (ℕ → ℝ) → ℕ → ℝ := fun x i => if i = 4 then 1 / 2 * (x 4 + x 1) else 1 / 2 * (x i + x (i + 1))
  let st : ℕ → (ℕ → ℝ) × (ℕ → ℝ) := iter (fun s => (Ev (X s), fun i => s.2 i + (Ev (X s) i - X s i))) (fun i => i, fun i => 2 * i)
  have hst : ∀ k, st (k + 1) = (Ev (X (st k)), fun i => (st k).2 i + (Ev (X (st k)) i - X (st k) i)) := fun k => rfl
  have hn : (2 : ℕ) ≠ 1 ∧ (3 : ℕ) ≠ 1 ∧ (3 : ℕ) ≠ 2 ∧ (4 : ℕ) ≠ 1 ∧ (4 : ℕ) ≠ 2 ∧ (4 : ℕ) ≠ 3 ∧ (1 : ℕ) ≠ 4 ∧ (2 : ℕ) ≠ 4 ∧ (3 : ℕ) ≠ 4 := by decide
  obtain ⟨n1, n2, n3, n4, n5, n6, n7, n8, n9⟩ := hn
  have key := C33_dadmmCycle4 refCAS_lawful 0 (some 1) 1 1 (by norm_num) (by norm_num) (by norm_num [defDecl, FnDecl.Ok]) hp (by rw [ve]; norm_num)
    (by rw [vr]; norm_num) (by rw [vg]; norm_num) (fun i => halfSq i) (halfSq_holds (by norm_num) _) (halfSq_holds (by norm_num) _)
    (halfSq_holds (by norm_num) _) (halfSq_holds (by norm_num) _) (x_star := 5 / 2) (ys := fun i => 5 / 2 - i) (fun i _ _ => halfSq_sample rfl)
    (by norm_num) (fun k => X (st k)) (fun k i => X (st k) i - i) (fun k i _ => (st k).1 i) (fun k i _ => (st k).2 i)
    (fun k => halfSq_prox rfl ?_) (fun k => halfSq_prox rfl ?_) (fun k => halfSq_prox rfl ?_) (fun k => halfSq_prox rfl ?_)
    (fun k => ?_) (fun k => ?_) (fun k => ?_) (fun k => ?_) (fun k => ?_) (fun k => ?_) (fun k => ?_) (fun k => ?_)
  · exact ⟨p, fun k => X (st k), hp, by norm_num [X, st, iter], key.1, key.2.1⟩
  all_goals simp only [vh, smul_eq_mul]
  any_goals (simp only [X, if_true, n1, n2, n3, n4, n5, n6, if_false]; push_cast; ring1)
  all_goals (simp only [hst, Ev, n7, n8, n9, if_true, if_false]; push_cast; ring)

/-- the circuit found by the search, with minimizer 1 -/
example : ∃ p, ∃ x : ℕ → ℝ, IpoptFeasible refCAS (exampleFC3RC 0 (some 1) 1 1).prog stdParams p ∧ x 0 = 11 / 3 ∧
    Tendsto (fun k => (halfSq 1).f (x k)) atTop (nhds ((halfSq 1).f 1)) := by
  obtain ⟨p, hp, va, vb, -, ve, -, vh, vr⟩ := C34_exampleFC3RC_feasible
  let X : ℝ → ℝ := fun z => (2 * z + 1) / 3
  let eh : ℝ × ℝ → ℝ := fun s => s.2 - 1 / 4 * (X s.1 - 1 + 3 * s.2)
  let zh : ℝ × ℝ → ℝ := fun s => s.1 - 1 / 8 * (5 * (X s.1 - 1) + 3 * s.2)
  let st : ℕ → ℝ × ℝ := iter (fun s => (s.1 - 1 / 16 * (5 * (X s.1 - 1) + 3 * s.2) - 1 / 16 * (5 * (X (zh s) - 1) + 3 * eh s),
    s.2 - 1 / 8 * (X s.1 - 1 + 3 * s.2) - 1 / 8 * (X (zh s) - 1 + 3 * eh s))) (5, 3)
  refine ⟨p, fun k => X (st k).1, hp, by norm_num [X, st, iter], (C33_exampleFC3RC refCAS_lawful 0 (some 1) 1 1 (by norm_num) (by norm_num)
    (by norm_num [defDecl, FnDecl.Ok]) hp (by rw [ve]; norm_num) (by rw [vr]; norm_num) (halfSq 1) (halfSq_holds (by norm_num) 1) trivial (halfSq_min 1)
    (fun k => (st k).1) (fun k => (st k).2) _ (fun k => X (st k).1 - 1) (fun k => zh (st k)) (fun k => eh (st k)) (fun k => X (zh (st k)))
    (fun k => X (zh (st k)) - 1) (fun k => halfSq_prox rfl ?_) (fun k => halfSq_prox rfl ?_) (fun k => ?_) (fun k => ?_) (fun k => ?_) (fun k => ?_)).2.1⟩
  · push_cast; simp only [X]; ring
  · push_cast; simp only [X]; ring
  · simp only [va, vh, smul_eq_mul, eh]; push_cast; ring
  · simp only [va, vh, smul_eq_mul, zh]; push_cast; ring
  · simp only [vb, vh, smul_eq_mul, st, iter]; push_cast; ring
  · simp only [vb, vh, smul_eq_mul, st, iter]; push_cast; ring

end Verif
