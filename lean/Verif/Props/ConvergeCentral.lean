import Verif.Proofs.Converge
import Verif.Props.CircuitsN
import Verif.Props.CircuitCerts

/-!
# C33 for the centralised circuits: a feasible point of the nonlinear program implies convergence of every run

`douglas_rachford_splitting` and `davis_yin_splitting` are missing: the state in which the program of these builders ends is not a state in which
it starts, so their inequality does not add up over iterations.

Axioms of every theorem: propext, Classical.choice, Quot.sound.
-/

namespace Verif
open Build
open scoped InnerProductSpace
open Filter

variable {E : Type} [NormedAddCommGroup E] [InnerProductSpace ℝ E] {C : CAS}

/-- **C33** for `gradient_flow_circuit_tuneC`: the gaps are summable with sum at most `C / (2 eta) ‖x 0 - x_star‖²`, and the values tend to the
minimum. -/
theorem C33_gradientFlowTuneC (hC : C.Lawful) (mu : ℚ) (L : Option ℚ) (hok : (defDecl mu L).Ok) {p : Name → ℝ}
    (hp : IpoptFeasible C (gradientFlowTuneC mu L).prog tuneCParams p) (hCap : 0 ≤ p "C") (heta : 0 < p "eta")
    (f : CFun E) (hf : (defDecl mu L).Holds f) {x_star : E} (hdom : x_star ∈ f.dom) (hmin : ∀ y ∈ f.dom, f.f x_star ≤ f.f y)
    (x xh y yh : ℕ → E) (hx : ∀ k, f.Sample (x k) (y k) (f.f (x k))) (hxh : ∀ k, f.Sample (xh k) (yh k) (f.f (xh k)))
    (h1 : ∀ k, xh k = x k - (p "alpha" * p "h" * p "invC") • y k)
    (h2 : ∀ k, x (k + 1) = x k - (p "beta" * p "h" * p "invC") • y k - ((1 - p "beta") * p "h" * p "invC") • yh k) :
    (∀ N, ∑ k ∈ Finset.range N, (f.f (x k) - f.f x_star) ≤ p "C" / 2 * ‖x 0 - x_star‖ ^ 2 / p "eta") ∧
      Tendsto (fun k => f.f (x k)) atTop (nhds (f.f x_star)) := by
  have hstep := fun k => C34_gradientFlowTuneC hC mu L hok hp f hf (CFun.Sample.zero_iff.2 ⟨hdom, rfl, hmin⟩) (hx k) (h1 k) (hxh k) (h2 k)
    (hx (k + 1)) rfl rfl rfl
  obtain ⟨-, b, c⟩ := summable_of_dissipation (En := fun k => p "C" / 2 * ‖x k - x_star‖ ^ 2) (gap := fun k => f.f (x k) - f.f x_star) heta
    hstep (fun k => by positivity) (fun k => sub_nonneg.2 (hmin _ (hx k).1))
  exact ⟨b, by simpa using c.add_const (f.f x_star)⟩

/-- **C33** for `accelerated_gradient_circuit`: the gaps are summable and the values tend to the minimum; if `rho > 0` and `R > 0`, the current
through the resistor tends to zero. -/
theorem C33_acceleratedGradient (hC : C.Lawful) (mu : ℚ) (L : Option ℚ) (R Cap Ind : ℚ) (hR : 0 ≤ R) (hCap : 0 ≤ Cap) (hInd : 0 ≤ Ind)
    (hok : (defDecl mu L).Ok) {p : Name → ℝ} (hp : IpoptFeasible C (acceleratedGradient mu L R Cap Ind).prog stdParams p)
    (heta : 0 < p "eta") (hrho : 0 ≤ p "rho")
    (f : CFun E) (hf : (defDecl mu L).Holds f) {x_star : E} (hdom : x_star ∈ f.dom) (hmin : ∀ y ∈ f.dom, f.f x_star ≤ f.f y)
    (v_C i_L x y v_Ch i_Lh xh yh : ℕ → E) (hx : ∀ k, f.Sample (x k) (y k) (f.f (x k))) (hxh : ∀ k, f.Sample (xh k) (yh k) (f.f (xh k)))
    (h1 : ∀ k, x k = (R : ℝ) • i_L k + v_C k)
    (h2 : ∀ k, i_Lh k = i_L k + (p "alpha" * p "h" / Ind) • (v_C k - (x k - (R : ℝ) • y k)))
    (h3 : ∀ k, v_Ch k = v_C k - (p "alpha" * p "h" / Cap) • y k)
    (h4 : ∀ k, xh k = (R : ℝ) • i_Lh k + v_Ch k)
    (h5 : ∀ k, i_L (k + 1) = i_L k + (p "beta" * p "h" / Ind) • (v_C k - (x k - (R : ℝ) • y k)) +
      ((1 - p "beta") * p "h" / Ind) • (v_Ch k - (xh k - (R : ℝ) • yh k)))
    (h6 : ∀ k, v_C (k + 1) = v_C k - (p "beta" * p "h" / Cap) • y k - ((1 - p "beta") * p "h" / Cap) • yh k) :
    (∀ N, ∑ k ∈ Finset.range N, (f.f (x k) - f.f x_star) ≤ (Cap / 2 * ‖v_C 0 - x_star‖ ^ 2 + Ind / 2 * ‖i_L 0‖ ^ 2) / p "eta") ∧
      Tendsto (fun k => f.f (x k)) atTop (nhds (f.f x_star)) ∧
      (0 < R → 0 < p "rho" → Tendsto (fun k => y k - i_L k) atTop (nhds 0)) := by
  have hR' : (0 : ℝ) ≤ R := by exact_mod_cast hR
  have hC' : (0 : ℝ) ≤ Cap := by exact_mod_cast hCap
  have hI' : (0 : ℝ) ≤ Ind := by exact_mod_cast hInd
  have hstep := fun k => C34_acceleratedGradient hC mu L R Cap Ind hok hp f hf (CFun.Sample.zero_iff.2 ⟨hdom, rfl, hmin⟩) (h1 k) (hx k) (h2 k)
    (h3 k) (h4 k) (hxh k) (h5 k) (h6 k) (h1 (k + 1)) (hx (k + 1)) rfl rfl rfl
  have hgap : ∀ k, 0 ≤ f.f (x k) - f.f x_star := fun k => sub_nonneg.2 (hmin _ (hx k).1)
  obtain ⟨-, b, c⟩ := summable_of_dissipation (En := fun k => Cap / 2 * ‖v_C k - x_star‖ ^ 2 + Ind / 2 * ‖i_L k‖ ^ 2)
    (gap := fun k => f.f (x k) - f.f x_star) heta
    (fun k => (hstep k).trans (by
      have : 0 ≤ p "rho" * R * ‖y k - i_L k‖ ^ 2 := by positivity
      linarith)) (fun k => by positivity) hgap
  refine ⟨b, by simpa using c.add_const (f.f x_star), fun hR0 hr => ?_⟩
  obtain ⟨-, ht, -⟩ := energy_limit (En := fun k => Cap / 2 * ‖v_C k - x_star‖ ^ 2 + Ind / 2 * ‖i_L k‖ ^ 2)
    hstep (fun k => by positivity) (fun k => add_nonneg (by positivity) (mul_nonneg heta.le (hgap k)))
  have hR0' : (0 : ℝ) < R := by exact_mod_cast hR0
  exact part_tendsto_vec (c := p "rho" * R) (by positivity) (fun k => le_add_of_nonneg_right (mul_nonneg heta.le (hgap k))) ht

/-- **C33** for `accelerated_gradient_circuit_tuneRLC`, where the element values are variables of the nonlinear program. -/
theorem C33_acceleratedGradientTuneRLC (hC : C.Lawful) (mu : ℚ) (L : Option ℚ) (hok : (defDecl mu L).Ok) {p : Name → ℝ}
    (hp : IpoptFeasible C (acceleratedGradientTuneRLC mu L).prog tuneRLCParams p) (hR : 0 ≤ p "R") (hCap : 0 ≤ p "C") (hInd : 0 ≤ p "L")
    (heta : 0 < p "eta") (hrho : 0 ≤ p "rho")
    (f : CFun E) (hf : (defDecl mu L).Holds f) {x_star : E} (hdom : x_star ∈ f.dom) (hmin : ∀ y ∈ f.dom, f.f x_star ≤ f.f y)
    (v_C i_L x y v_Ch i_Lh xh yh : ℕ → E) (hx : ∀ k, f.Sample (x k) (y k) (f.f (x k))) (hxh : ∀ k, f.Sample (xh k) (yh k) (f.f (xh k)))
    (h1 : ∀ k, x k = p "R" • i_L k + v_C k)
    (h2 : ∀ k, i_Lh k = i_L k + (p "alpha" * p "h" * p "invL") • (v_C k - (x k - p "R" • y k)))
    (h3 : ∀ k, v_Ch k = v_C k - (p "alpha" * p "h" * p "invC") • y k)
    (h4 : ∀ k, xh k = p "R" • i_Lh k + v_Ch k)
    (h5 : ∀ k, i_L (k + 1) = i_L k + (p "beta" * p "h" * p "invL") • (v_C k - (x k - p "R" • y k)) +
      ((1 - p "beta") * p "h" * p "invL") • (v_Ch k - (xh k - p "R" • yh k)))
    (h6 : ∀ k, v_C (k + 1) = v_C k - (p "beta" * p "h" * p "invC") • y k - ((1 - p "beta") * p "h" * p "invC") • yh k) :
    (∀ N, ∑ k ∈ Finset.range N, (f.f (x k) - f.f x_star) ≤ (p "C" / 2 * ‖v_C 0 - x_star‖ ^ 2 + p "L" / 2 * ‖i_L 0‖ ^ 2) / p "eta") ∧
      Tendsto (fun k => f.f (x k)) atTop (nhds (f.f x_star)) := by
  have hstep := fun k => C34_acceleratedGradientTuneRLC hC mu L hok hp f hf (CFun.Sample.zero_iff.2 ⟨hdom, rfl, hmin⟩) (h1 k) (hx k) (h2 k)
    (h3 k) (h4 k) (hxh k) (h5 k) (h6 k) (h1 (k + 1)) (hx (k + 1)) rfl rfl rfl
  obtain ⟨-, b, c⟩ := summable_of_dissipation (En := fun k => p "C" / 2 * ‖v_C k - x_star‖ ^ 2 + p "L" / 2 * ‖i_L k‖ ^ 2)
    (gap := fun k => f.f (x k) - f.f x_star) heta
    (fun k => (hstep k).trans (by
      have : 0 ≤ p "rho" * p "R" * ‖y k - i_L k‖ ^ 2 := by positivity
      linarith)) (fun k => by positivity) (fun k => sub_nonneg.2 (hmin _ (hx k).1))
  exact ⟨b, by simpa using c.add_const (f.f x_star)⟩

/-- **C33** for `prox_gradient_circuit` with `0 < R < 1 / L`: the gradients of the smooth part and the subgradients of the other part tend to those
at the solution, the two points of an iteration meet, and the value of the sum tends to the minimum. -/
theorem C33_proxGradient (hC : C.Lawful) (mu : ℚ) (L : Option ℚ) (R Cap : ℚ) (hR : 0 < R) (hRL : (R : ℝ) < invSmooth L) (hCap : 0 < Cap)
    (hok : (defDecl mu L).Ok) {p : Name → ℝ} (hp : IpoptFeasible C (proxGradient mu L R Cap).prog stdParams p)
    (heta : 0 < p "eta") (hrho : 0 < p "rho")
    (f g : CFun E) (hf : (defDecl mu L).Holds f) (hg : (defDecl 0 none).Holds g)
    {x_star y_star : E} (hfs : f.Sample x_star y_star (f.f x_star)) (hgs : g.Sample x_star (-y_star) (g.f x_star))
    (x y e u w : ℕ → E) (hx : ∀ k, f.Sample (x k) (y k) (f.f (x k))) (he : ∀ k, e k = x k - (R : ℝ) • y k)
    (hu : ∀ k, g.Prox R (e k) (u k) (w k) (g.f (u k))) (hstep : ∀ k, x (k + 1) = x k - (p "h" / Cap) • ((R : ℝ)⁻¹ • (e k - u k) + y k)) :
    Tendsto y atTop (nhds y_star) ∧ Tendsto w atTop (nhds (-y_star)) ∧ Tendsto (fun k => x k - u k) atTop (nhds 0) ∧
      Tendsto (fun k => f.f (x k) + g.f (u k)) atTop (nhds (f.f x_star + g.f x_star)) := by
  have hR' : (0 : ℝ) < R := by exact_mod_cast hR
  have hC' : (0 : ℝ) < Cap := by exact_mod_cast hCap
  have hw : ∀ k, (R : ℝ)⁻¹ • (e k - u k) = w k := fun k => by
    rw [← (hu k).2, add_sub_cancel_left, smul_smul, inv_mul_cancel₀ hR'.ne', one_smul]
  have hs := fun k => C34_proxGradient hC mu L R Cap hR.ne' hok trivial hp f g hf hg hfs hgs rfl (hx k) (he k) (hu k) rfl (hstep k)
    (hx (k + 1)) (he (k + 1)) (hu (k + 1)) rfl rfl rfl
  have hc1 : 0 < p "eta" * (invSmooth L - R) := mul_pos heta (by linarith)
  have hc2 : 0 < p "rho" * R := by positivity
  obtain ⟨-, ht, hbd⟩ := energy_limit (En := fun k => Cap / 2 * ‖e k - (x_star - (R : ℝ) • y_star)‖ ^ 2) hs (fun k => by positivity)
    (fun k => by positivity)
  have h1 : Tendsto (fun k => y k - y_star) atTop (nhds 0) := part_tendsto_vec hc1 (fun k => le_add_of_nonneg_right (by positivity)) ht
  have h2 : Tendsto (fun k => w k + y_star) atTop (nhds 0) :=
    part_tendsto_vec hc2 (fun k => by rw [← hw]; exact le_add_of_nonneg_left (by positivity)) ht
  have hy : Tendsto y atTop (nhds y_star) := by simpa using h1.add_const y_star
  have hw' : Tendsto w atTop (nhds (-y_star)) := by simpa using h2.add_const (-y_star)
  have hxu : ∀ k, x k - u k = (R : ℝ) • (w k + y k) := fun k => by
    have h3 := (hu k).2
    rw [he] at h3
    rw [smul_add, ← sub_eq_iff_eq_add.2 h3.symm]; abel
  have hd : Tendsto (fun k => x k - u k) atTop (nhds 0) := by
    have := (hw'.add hy).const_smul (R : ℝ)
    rw [neg_add_cancel, smul_zero] at this
    exact this.congr fun k => (hxu k).symm
  refine ⟨hy, hw', hd, ?_⟩
  -- the points stay bounded
  obtain ⟨M, hM⟩ : ∃ M, ∀ k, ‖x k - x_star‖ ≤ M := by
    obtain ⟨B, hB⟩ := hy.norm.bddAbove_range
    refine ⟨Cap / 2 * ‖e 0 - (x_star - (R : ℝ) • y_star)‖ ^ 2 / (Cap / 2) + 1 + (R * B + ‖(R : ℝ) • y_star‖), fun k => ?_⟩
    have h4 := norm_le_of_sq (half_pos hC') (hbd k)
    have h5 : x k - x_star = (e k - (x_star - (R : ℝ) • y_star)) + ((R : ℝ) • y k - (R : ℝ) • y_star) := by rw [he]; abel
    rw [h5]
    refine (norm_add_le _ _).trans (add_le_add h4 ((norm_sub_le _ _).trans ?_))
    rw [norm_smul, Real.norm_of_nonneg hR'.le]
    have : ‖y k‖ ≤ B := hB ⟨k, rfl⟩
    gcongr
  have hup : Tendsto (fun k => ⟪w k + y k, x k - x_star⟫_ℝ - ⟪w k, x k - u k⟫_ℝ) atTop (nhds 0) := by
    have a1 : Tendsto (fun k => w k + y k) atTop (nhds 0) := by simpa using hw'.add hy
    have a2 := hw'.inner (𝕜 := ℝ) hd
    rw [inner_zero_right] at a2
    simpa using (inner_tendsto_zero a1 hM).sub a2
  have hlow : Tendsto (fun k => ⟪y_star, x k - u k⟫_ℝ) atTop (nhds 0) := by
    simpa using (tendsto_const_nhds (x := y_star)).inner (𝕜 := ℝ) hd
  have hgap : Tendsto (fun k => f.f (x k) + g.f (u k) - (f.f x_star + g.f x_star)) atTop (nhds 0) := by
    refine tendsto_of_tendsto_of_tendsto_of_le_of_le hlow hup (fun k => ?_) (fun k => ?_)
    · have b1 := bregman_nonneg hfs (hx k)
      have b2 := bregman_nonneg hgs (hu k).1
      have b3 : ⟪y_star, x k - u k⟫_ℝ = ⟪y_star, x k - x_star⟫_ℝ + ⟪-y_star, u k - x_star⟫_ℝ := by
        rw [inner_neg_left, ← sub_eq_add_neg, ← inner_sub_right]; congr 1; abel
      simp only [b3]
      linarith
    · have b1 := bregman_nonneg (hx k) hfs
      have b2 := bregman_nonneg (hu k).1 hgs
      have b3 : ⟪w k + y k, x k - x_star⟫_ℝ - ⟪w k, x k - u k⟫_ℝ = -⟪y k, x_star - x k⟫_ℝ - ⟪w k, x_star - u k⟫_ℝ := by
        simp only [inner_add_left, inner_sub_right]; ring
      simp only [b3]
      linarith
  simpa using hgap.add_const (f.f x_star + g.f x_star)

/-- **C33** for `admm_consensus_proof`: the two copies agree in the limit, the average settles, and the value of the sum tends to the minimum. -/
theorem C33_admmConsensusProof (hC : C.Lawful) (mu : ℚ) (L : Option ℚ) (R : ℚ) (hR : 0 < R) (hok : (defDecl mu L).Ok)
    {p : Name → ℝ} (hp : IpoptFeasible C (admmConsensusProof mu L R).prog stdParams p) (heta : 0 < p "eta")
    (f g : CFun E) (hf : (defDecl mu L).Holds f) (hg : (defDecl mu L).Holds g)
    {x_star y_star : E} (hfs : f.Sample x_star y_star (f.f x_star)) (hgs : g.Sample x_star (-y_star) (g.f x_star))
    (z y x1 x2 g1 g2 : ℕ → E) (hx1 : ∀ k, f.Prox R (z k - (R : ℝ) • y k) (x1 k) (g1 k) (f.f (x1 k)))
    (hx2 : ∀ k, g.Prox R (z k + (R : ℝ) • y k) (x2 k) (g2 k) (g.f (x2 k)))
    (hz : ∀ k, z (k + 1) = (2 : ℝ)⁻¹ • (x1 k + x2 k)) (hy : ∀ k, y (k + 1) = y k - (p "h" * (1 / R)) • (z (k + 1) - x1 k)) :
    Tendsto (fun k => x1 k - x2 k) atTop (nhds 0) ∧ Tendsto (fun k => z (k + 1) - z k) atTop (nhds 0) ∧
      Tendsto (fun k => f.f (x1 k) + g.f (x2 k)) atTop (nhds (f.f x_star + g.f x_star)) := by
  have hR' : (0 : ℝ) < R := by exact_mod_cast hR
  have hy2 : ∀ k, -y (k + 1) = -y k - (p "h" * (1 / R)) • (z (k + 1) - x2 k) := fun k => by
    rw [hy, hz]; module
  have hs := fun k => C34_admmConsensusProof hC mu L R hok hp f g hf hg hfs hgs (hx1 k) (hx2 k) (hz k) (hy k) (hy2 k) rfl rfl rfl
  obtain ⟨-, ht, hbd⟩ := energy_limit
    (En := fun k => R * ‖y k + y_star‖ ^ 2 + R * ‖-y k + -y_star‖ ^ 2 + 2 * (1 / R) * ‖z k - x_star‖ ^ 2) hs
    (fun k => by positivity) (fun k => by positivity)
  have hzz : Tendsto (fun k => z k - z (k + 1)) atTop (nhds 0) :=
    part_tendsto_vec (c := 1 / R * (1 / R)) (by positivity) (fun k => le_add_of_nonneg_left (by positivity)) ht
  have h1 : Tendsto (fun k => x1 k - z (k + 1)) atTop (nhds 0) :=
    part_tendsto_vec (c := p "eta" * (1 / R)) (by positivity) (fun k => by
      have a1 : 0 ≤ p "eta" * (1 / R * ‖x2 k - z (k + 1)‖ ^ 2) := by positivity
      have a2 : 0 ≤ 1 / (R : ℝ) * (1 / R) * ‖z k - z (k + 1)‖ ^ 2 := by positivity
      linarith) ht
  have h2 : Tendsto (fun k => x2 k - z (k + 1)) atTop (nhds 0) :=
    part_tendsto_vec (c := p "eta" * (1 / R)) (by positivity) (fun k => by
      have a1 : 0 ≤ p "eta" * (1 / R * ‖x1 k - z (k + 1)‖ ^ 2) := by positivity
      have a2 : 0 ≤ 1 / (R : ℝ) * (1 / R) * ‖z k - z (k + 1)‖ ^ 2 := by positivity
      linarith) ht
  have h12 : Tendsto (fun k => x1 k - x2 k) atTop (nhds 0) := by simpa using h1.sub h2
  refine ⟨h12, by simpa using hzz.neg, ?_⟩
  obtain ⟨Mz, hMz⟩ : ∃ M, ∀ k, ‖z k - x_star‖ ≤ M := ⟨_, fun k => norm_le_of_sq (c := 2 * (1 / R)) (by positivity) (by
    refine le_trans ?_ (hbd k)
    exact le_add_of_nonneg_left (by positivity))⟩
  obtain ⟨My, hMy⟩ : ∃ M, ∀ k, ‖y k + y_star‖ ≤ M := ⟨_, fun k => norm_le_of_sq (c := (R : ℝ)) hR' (by
    refine le_trans ?_ (hbd k)
    have : 0 ≤ (R : ℝ) * ‖-y k + -y_star‖ ^ 2 + 2 * (1 / R) * ‖z k - x_star‖ ^ 2 := by positivity
    linarith)⟩
  obtain ⟨M1, hM1⟩ : ∃ M, ∀ k, ‖x1 k - x_star‖ ≤ M := by
    obtain ⟨B, hB⟩ := h1.norm.bddAbove_range
    refine ⟨B + Mz, fun k => ?_⟩
    rw [show x1 k - x_star = (x1 k - z (k + 1)) + (z (k + 1) - x_star) by abel]
    exact (norm_add_le _ _).trans (add_le_add (hB ⟨k, rfl⟩) (hMz _))
  have hg1 : ∀ k, g1 k = (R : ℝ)⁻¹ • (z k - x1 k) - y k := fun k => by
    have h3 := (hx1 k).2
    have : (R : ℝ) • g1 k = z k - (R : ℝ) • y k - x1 k := by rw [← h3]; abel
    have h4 : g1 k = (R : ℝ)⁻¹ • ((R : ℝ) • g1 k) := by rw [smul_smul, inv_mul_cancel₀ hR'.ne', one_smul]
    rw [h4, this, smul_sub, smul_sub, smul_sub, smul_smul, inv_mul_cancel₀ hR'.ne', one_smul]; abel
  have hg2 : ∀ k, g2 k = (R : ℝ)⁻¹ • (z k - x2 k) + y k := fun k => by
    have h3 := (hx2 k).2
    have : (R : ℝ) • g2 k = z k + (R : ℝ) • y k - x2 k := by rw [← h3]; abel
    have h4 : g2 k = (R : ℝ)⁻¹ • ((R : ℝ) • g2 k) := by rw [smul_smul, inv_mul_cancel₀ hR'.ne', one_smul]
    rw [h4, this, smul_sub, smul_add, smul_sub, smul_smul, inv_mul_cancel₀ hR'.ne', one_smul]; abel
  have hzx2 : Tendsto (fun k => z k - x2 k) atTop (nhds 0) := by simpa using hzz.sub h2
  have hzx1 : Tendsto (fun k => z k - x1 k) atTop (nhds 0) := by simpa using hzz.sub h1
  obtain ⟨M2, hM2⟩ : ∃ M, ∀ k, ‖g2 k‖ ≤ M := by
    obtain ⟨B, hB⟩ := (hzx2.const_smul (R : ℝ)⁻¹).norm.bddAbove_range
    refine ⟨B + (My + ‖y_star‖), fun k => ?_⟩
    rw [hg2, show y k = (y k + y_star) - y_star by abel]
    exact (norm_add_le _ _).trans (add_le_add (hB ⟨k, rfl⟩) ((norm_sub_le _ _).trans (add_le_add (hMy k) le_rfl)))
  have hsum : Tendsto (fun k => g1 k + g2 k) atTop (nhds 0) := by
    have := (hzx1.const_smul (R : ℝ)⁻¹).add (hzx2.const_smul (R : ℝ)⁻¹)
    rw [smul_zero, add_zero] at this
    exact this.congr fun k => by rw [hg1, hg2]; abel
  have hup : Tendsto (fun k => ⟪g1 k + g2 k, x1 k - x_star⟫_ℝ - ⟪x1 k - x2 k, g2 k⟫_ℝ) atTop (nhds 0) := by
    simpa using (inner_tendsto_zero hsum hM1).sub (inner_tendsto_zero h12 hM2)
  have hlow : Tendsto (fun k => ⟪y_star, x1 k - x2 k⟫_ℝ) atTop (nhds 0) := by
    simpa using (tendsto_const_nhds (x := y_star)).inner (𝕜 := ℝ) h12
  have hgap : Tendsto (fun k => f.f (x1 k) + g.f (x2 k) - (f.f x_star + g.f x_star)) atTop (nhds 0) := by
    refine tendsto_of_tendsto_of_tendsto_of_le_of_le hlow hup (fun k => ?_) (fun k => ?_)
    · have b1 := bregman_nonneg hfs (hx1 k).1
      have b2 := bregman_nonneg hgs (hx2 k).1
      have b3 : ⟪y_star, x1 k - x2 k⟫_ℝ = ⟪y_star, x1 k - x_star⟫_ℝ + ⟪-y_star, x2 k - x_star⟫_ℝ := by
        rw [inner_neg_left, ← sub_eq_add_neg, ← inner_sub_right]; congr 1; abel
      simp only [b3]
      linarith
    · have b1 := bregman_nonneg (hx1 k).1 hfs
      have b2 := bregman_nonneg (hx2 k).1 hgs
      have b3 : ⟪g1 k + g2 k, x1 k - x_star⟫_ℝ - ⟪x1 k - x2 k, g2 k⟫_ℝ = -⟪g1 k, x_star - x1 k⟫_ℝ - ⟪g2 k, x_star - x2 k⟫_ℝ := by
        rw [real_inner_comm (g2 k)]
        simp only [inner_add_left, inner_sub_right]; ring
      simp only [b3]
      linarith
  simpa using hgap.add_const (f.f x_star + g.f x_star)

/-! ### The circuits with any number of functions -/

/-- deviations from the average add up to zero -/
theorem sum_sub_avg {n : ℕ} {x : ℕ → E} {z : E} (hz : z = ((n : ℝ) + 2)⁻¹ • ∑ i ∈ Finset.range (n + 2), x i) :
    ∑ i ∈ Finset.range (n + 2), (z - x i) = 0 := by
  rw [Finset.sum_sub_distrib, Finset.sum_const, Finset.card_range, hz, ← Nat.cast_smul_eq_nsmul ℝ, smul_smul]
  push_cast
  rw [mul_inv_cancel₀ (by positivity), one_smul, sub_self]

/-- **C33** for `primal_decomposition` with `n = k + 1` functions: the excess values are summable and the value tends to the minimum. -/
theorem C33_primalDecomposition (hC : C.Lawful) (n : ℕ) (mu : ℚ) (L : Option ℚ) (Cap : ℚ) (hCap : 0 ≤ Cap) (hok : (defDecl mu L).Ok)
    {p : Name → ℝ} (hp : IpoptFeasible C (primalDecomposition n mu L Cap).prog stdParams p) (heta : 0 < p "eta")
    (f : ℕ → CFun E) (hf : ∀ i < n + 1, (defDecl mu L).Holds (f i)) {x_star : E} {y_star : ℕ → E}
    (hstar : ∀ i < n + 1, (f i).Sample x_star (y_star i) ((f i).f x_star)) (hopt : ∑ i ∈ Finset.range (n + 1), y_star i = 0)
    (z zh : ℕ → E) (y yh : ℕ → ℕ → E) (hy : ∀ k, ∀ i < n + 1, (f i).Sample (z k) (y k i) ((f i).f (z k)))
    (hzh : ∀ k, zh k = z k - (p "alpha" * p "h" / Cap) • ∑ i ∈ Finset.range (n + 1), y k i)
    (hyh : ∀ k, ∀ i < n + 1, (f i).Sample (zh k) (yh k i) ((f i).f (zh k)))
    (hz : ∀ k, z (k + 1) = z k - (p "beta" * p "h" / Cap) • ∑ i ∈ Finset.range (n + 1), y k i -
      ((1 - p "beta") * p "h" / Cap) • ∑ i ∈ Finset.range (n + 1), yh k i) :
    (∀ N, ∑ k ∈ Finset.range N, (∑ i ∈ Finset.range (n + 1), (f i).f (z k) - ∑ i ∈ Finset.range (n + 1), (f i).f x_star) ≤
        Cap / 2 * ‖z 0 - x_star‖ ^ 2 / p "eta") ∧
      Tendsto (fun k => ∑ i ∈ Finset.range (n + 1), (f i).f (z k)) atTop (nhds (∑ i ∈ Finset.range (n + 1), (f i).f x_star)) := by
  have hC' : (0 : ℝ) ≤ Cap := by exact_mod_cast hCap
  have hs := fun k => C34_primalDecomposition hC n mu L Cap hok hp f hf hstar hopt (hy k) (hzh k) (hyh k) (hz k)
  have hlow : ∀ k, 0 ≤ ∑ i ∈ Finset.range (n + 1), (f i).f (z k) - ∑ i ∈ Finset.range (n + 1), (f i).f x_star := fun k => by
    rw [← Finset.sum_sub_distrib]
    have : ∑ i ∈ Finset.range (n + 1), ⟪y_star i, z k - x_star⟫_ℝ = 0 := by rw [← sum_inner, hopt, inner_zero_left]
    rw [← this]
    refine Finset.sum_le_sum fun i hi => ?_
    have := bregman_nonneg (hstar i (Finset.mem_range.1 hi)) (hy k i (Finset.mem_range.1 hi))
    linarith
  have hle : ∀ k, ∑ i ∈ Finset.range (n + 1), (f i).f (z k) - ∑ i ∈ Finset.range (n + 1), (f i).f x_star ≤
      ⟪z k - x_star, ∑ i ∈ Finset.range (n + 1), y k i⟫_ℝ := fun k => by
    rw [← Finset.sum_sub_distrib, inner_sum]
    refine Finset.sum_le_sum fun i hi => ?_
    have := bregman_nonneg (hy k i (Finset.mem_range.1 hi)) (hstar i (Finset.mem_range.1 hi))
    rw [← neg_sub (z k), inner_neg_right, real_inner_comm] at this
    linarith
  obtain ⟨-, b, c⟩ := summable_of_dissipation (En := fun k => Cap / 2 * ‖z k - x_star‖ ^ 2)
    (gap := fun k => ∑ i ∈ Finset.range (n + 1), (f i).f (z k) - ∑ i ∈ Finset.range (n + 1), (f i).f x_star) heta
    (fun k => (hs k).trans (sub_le_sub_left (mul_le_mul_of_nonneg_left (hle k) heta.le) _)) (fun k => by positivity) hlow
  exact ⟨b, by simpa using c.add_const (∑ i ∈ Finset.range (n + 1), (f i).f x_star)⟩

/-- **C33** for `dual_decomposition` with `n + 2` strongly convex functions: every copy tends to the solution, every value to the value there. -/
theorem C33_dualDecomposition (hC : C.Lawful) (n : ℕ) (mu : ℚ) (L : Option ℚ) (Ind : ℚ) (hInd : 0 ≤ Ind) (hmu : 0 < mu) (hok : (defDecl mu L).Ok)
    {p : Name → ℝ} (hp : IpoptFeasible C (dualDecomposition n mu L Ind).prog stdParams p) (heta : 0 < p "eta")
    (f : ℕ → CFun E) (hf : ∀ i < n + 2, (defDecl mu L).Holds (f i)) {x_star : E} {y_star : ℕ → E}
    (hstar : ∀ i < n + 2, (f i).Sample x_star (y_star i) ((f i).f x_star)) (hopt : ∑ i ∈ Finset.range (n + 2), y_star i = 0)
    (y x yh xh : ℕ → ℕ → E) (z zh : ℕ → E) (h0 : ∑ i ∈ Finset.range (n + 2), y 0 i = 0)
    (hx : ∀ k, ∀ i < n + 2, (f i).Sample (x k i) (y k i) ((f i).f (x k i)))
    (hz : ∀ k, z k = ((n : ℝ) + 2)⁻¹ • ∑ i ∈ Finset.range (n + 2), x k i)
    (hyh : ∀ k, ∀ i < n + 2, yh k i = y k i + (p "alpha" * p "h" / Ind) • (z k - x k i))
    (hxh : ∀ k, ∀ i < n + 2, (f i).Sample (xh k i) (yh k i) ((f i).f (xh k i)))
    (hzh : ∀ k, zh k = ((n : ℝ) + 2)⁻¹ • ∑ i ∈ Finset.range (n + 2), xh k i)
    (hy : ∀ k, ∀ i < n + 2, y (k + 1) i = y k i + (p "beta" * p "h" / Ind) • (z k - x k i) + ((1 - p "beta") * p "h" / Ind) • (zh k - xh k i)) :
    ∀ i < n + 2, Tendsto (fun k => x k i) atTop (nhds x_star) ∧ Tendsto (fun k => (f i).f (x k i)) atTop (nhds ((f i).f x_star)) := by
  have hI' : (0 : ℝ) ≤ Ind := by exact_mod_cast hInd
  have hm' : (0 : ℝ) < mu := by exact_mod_cast hmu
  have hkcl : ∀ k, ∑ i ∈ Finset.range (n + 2), y k i = 0 := by
    intro k
    induction k with
    | zero => exact h0
    | succ k ih =>
      rw [Finset.sum_congr rfl fun i hi => hy k i (Finset.mem_range.1 hi), Finset.sum_add_distrib, Finset.sum_add_distrib, ih, ← Finset.smul_sum,
        ← Finset.smul_sum, sum_sub_avg (hz k), sum_sub_avg (hzh k)]
      simp
  have hs := fun k => C34_dualDecomposition hC n mu L Ind hok hp f hf hstar hopt (hkcl k) (hx k) (hz k) (hyh k) (hxh k) (hzh k) (hy k)
  have hnn : ∀ k, ∀ i < n + 2, 0 ≤ p "eta" * ⟪x k i - x_star, y k i - y_star i⟫_ℝ := fun k i hi =>
    mul_nonneg heta.le (sample_mono_nonneg (hx k i hi) (hstar i hi))
  obtain ⟨-, ht, -⟩ := energy_limit (En := fun k => ∑ i ∈ Finset.range (n + 2), Ind / 2 * ‖y k i - y_star i‖ ^ 2) hs
    (fun k => Finset.sum_nonneg fun i _ => by positivity) (fun k => Finset.sum_nonneg fun i hi => hnn k i (Finset.mem_range.1 hi))
  intro i hi
  have hone : ∀ k, p "eta" * ⟪x k i - x_star, y k i - y_star i⟫_ℝ ≤
      ∑ j ∈ Finset.range (n + 2), p "eta" * ⟪x k j - x_star, y k j - y_star j⟫_ℝ := fun k =>
    Finset.single_le_sum (f := fun j => p "eta" * ⟪x k j - x_star, y k j - y_star j⟫_ℝ) (fun j hj => hnn k j (Finset.mem_range.1 hj))
      (Finset.mem_range.2 hi)
  have hx' : Tendsto (fun k => x k i - x_star) atTop (nhds 0) := part_tendsto_vec (c := p "eta" * mu) (by positivity) (fun k => by
    rw [mul_assoc]
    exact (mul_le_mul_of_nonneg_left (sample_strong hmu (hf i hi) (hx k i hi) (hstar i hi)) heta.le).trans (hone k)) ht
  refine ⟨by simpa using hx'.add_const x_star, ?_⟩
  have hb : Tendsto (fun k => (f i).f (x k i) - (f i).f x_star - ⟪y_star i, x k i - x_star⟫_ℝ) atTop (nhds 0) :=
    part_tendsto heta (fun k => bregman_nonneg (hstar i hi) (hx k i hi)) (fun k =>
      (mul_le_mul_of_nonneg_left (sample_mono (hx k i hi) (hstar i hi)) heta.le).trans (hone k)) ht
  have hin : Tendsto (fun k => ⟪y_star i, x k i - x_star⟫_ℝ) atTop (nhds 0) := by
    simpa using (tendsto_const_nhds (x := y_star i)).inner (𝕜 := ℝ) hx'
  simpa using (hb.add hin).add_const ((f i).f x_star)

/-- **C33** for `admm_consensus` with `n + 2` functions: the gaps between the values and their linearizations at the solution vanish,
the subgradients follow the currents of the inductors, and for strongly convex functions every copy tends to the solution. -/
theorem C33_admmConsensus (hC : C.Lawful) (n : ℕ) (mu : ℚ) (L : Option ℚ) (R Ind : ℚ) (hR : 0 < R) (hInd : 0 ≤ Ind) (hok : (defDecl mu L).Ok)
    {p : Name → ℝ} (hp : IpoptFeasible C (admmConsensus n mu L R Ind).prog stdParams p) (heta : 0 < p "eta") (hrho : 0 < p "rho")
    (hgamma : 0 ≤ p "gamma")
    (f : ℕ → CFun E) (hf : ∀ i < n + 2, (defDecl mu L).Holds (f i)) {x_star : E} {y_star : ℕ → E}
    (hstar : ∀ i < n + 2, (f i).Sample x_star (y_star i) ((f i).f x_star)) (hopt : ∑ i ∈ Finset.range (n + 2), y_star i = 0)
    (e eh : ℕ → E) (c ch xh gh x g : ℕ → ℕ → E) (h0 : ∑ i ∈ Finset.range (n + 2), c 0 i = 0)
    (h1 : ∀ k, ∀ i < n + 2, (f i).Prox R ((R : ℝ) • c k i + e k) (xh k i) (gh k i) ((f i).f (xh k i)))
    (h2 : ∀ k, eh k = ((n : ℝ) + 2)⁻¹ • ∑ i ∈ Finset.range (n + 2), xh k i)
    (h3 : ∀ k, ∀ i < n + 2, ch k i = c k i + (p "alpha" * p "h" / Ind) • (∑ j ∈ Finset.range (n + 2), xh k j - xh k i))
    (h4 : ∀ k, ∀ i < n + 2, (f i).Prox R ((R : ℝ) • ch k i + eh k) (x k i) (g k i) ((f i).f (x k i)))
    (h5 : ∀ k, e (k + 1) = ((n : ℝ) + 2)⁻¹ • ∑ i ∈ Finset.range (n + 2), x k i)
    (h6 : ∀ k, ∀ i < n + 2, c (k + 1) i = c k i + (p "beta" * p "h" / Ind) • (eh k - xh k i) +
      ((1 - p "beta") * p "h" / Ind) • (e (k + 1) - x k i)) :
    Tendsto (fun k => ∑ i ∈ Finset.range (n + 2), ((f i).f (x k i) - (f i).f x_star - ⟪y_star i, x k i - x_star⟫_ℝ)) atTop (nhds 0) ∧
      (∀ i < n + 2, Tendsto (fun k => g k i - c (k + 1) i) atTop (nhds 0)) ∧
      (0 < mu → ∀ i < n + 2, Tendsto (fun k => x k i) atTop (nhds x_star)) := by
  have hI' : (0 : ℝ) ≤ Ind := by exact_mod_cast hInd
  have hR' : (0 : ℝ) < R := by exact_mod_cast hR
  have hkcl : ∀ k, ∑ i ∈ Finset.range (n + 2), c k i = 0 := by
    intro k
    induction k with
    | zero => exact h0
    | succ k ih =>
      rw [Finset.sum_congr rfl fun i hi => h6 k i (Finset.mem_range.1 hi), Finset.sum_add_distrib, Finset.sum_add_distrib, ih, ← Finset.smul_sum,
        ← Finset.smul_sum, sum_sub_avg (h2 k), sum_sub_avg (h5 k)]
      simp
  have hs := fun k => C34_admmConsensus hC n mu L R Ind hok hp f hf hstar hopt (hkcl k) (h1 k) (h2 k) (h3 k) (h4 k) (h5 k) (h6 k)
  have hnn : ∀ k, ∀ i < n + 2, 0 ≤ (f i).f (x k i) - (f i).f x_star - ⟪y_star i, x k i - x_star⟫_ℝ := fun k i hi =>
    bregman_nonneg (hstar i hi) (h4 k i hi).1
  have hns : ∀ k, 0 ≤ ∑ i ∈ Finset.range (n + 2), ((f i).f (x k i) - (f i).f x_star - ⟪y_star i, x k i - x_star⟫_ℝ) := fun k =>
    Finset.sum_nonneg fun i hi => hnn k i (Finset.mem_range.1 hi)
  have hnq : ∀ k, 0 ≤ ∑ i ∈ Finset.range (n + 2), p "rho" * R * ‖g k i - c (k + 1) i‖ ^ 2 := fun k => Finset.sum_nonneg fun i _ => by positivity
  obtain ⟨-, ht, -⟩ := energy_limit (En := fun k => p "gamma" * ‖e k - x_star‖ ^ 2 + ∑ i ∈ Finset.range (n + 2), Ind / 2 * ‖c k i - y_star i‖ ^ 2) hs
    (fun k => add_nonneg (by positivity) (Finset.sum_nonneg fun i _ => by positivity))
    (fun k => add_nonneg (hnq k) (mul_nonneg heta.le (hns k)))
  have hB := part_tendsto heta hns (fun k => le_add_of_nonneg_left (hnq k)) ht
  refine ⟨hB, fun i hi => part_tendsto_vec (c := p "rho" * R) (by positivity) (fun k => ?_) ht, fun hmu i hi => ?_⟩
  · refine le_trans ?_ (le_add_of_nonneg_right (mul_nonneg heta.le (hns k)))
    exact Finset.single_le_sum (f := fun j => p "rho" * R * ‖g k j - c (k + 1) j‖ ^ 2) (fun j _ => by positivity) (Finset.mem_range.2 hi)
  · have hm' : (0 : ℝ) < mu := by exact_mod_cast hmu
    have := part_tendsto_vec (u := fun k => x k i - x_star) (c := (mu : ℝ) / 2) (by positivity) (fun k =>
      (bregman_strong hmu (hf i hi) (hstar i hi) (h4 k i hi).1).trans
        (Finset.single_le_sum (f := fun j => (f j).f (x k j) - (f j).f x_star - ⟪y_star j, x k j - x_star⟫_ℝ)
          (fun j hj => hnn k j (Finset.mem_range.1 hj)) (Finset.mem_range.2 hi))) hB
    simpa using this.add_const x_star

/-- **C33** for `admm_euler_consensus` with `n + 2` functions: the copies agree in the limit and the value of the sum tends to the minimum. -/
theorem C33_admmEulerConsensus (hC : C.Lawful) (n : ℕ) (mu : ℚ) (L : Option ℚ) (R Ind : ℚ) (hR : 0 < R) (hInd : 0 ≤ Ind) (hok : (defDecl mu L).Ok)
    {p : Name → ℝ} (hp : IpoptFeasible C (admmEulerConsensus n mu L R Ind).prog stdParams p) (heta : 0 < p "eta") (hrho : 0 < p "rho")
    (f : ℕ → CFun E) (hf : ∀ i < n + 2, (defDecl mu L).Holds (f i)) {x_star : E} {y_star : ℕ → E}
    (hstar : ∀ i < n + 2, (f i).Sample x_star (y_star i) ((f i).f x_star)) (hopt : ∑ i ∈ Finset.range (n + 2), y_star i = 0)
    (e : ℕ → E) (c x g : ℕ → ℕ → E) (h0 : ∑ i ∈ Finset.range (n + 2), c 0 i = 0)
    (h1 : ∀ k, ∀ i < n + 2, (f i).Prox R ((R : ℝ) • c k i + e k) (x k i) (g k i) ((f i).f (x k i)))
    (h2 : ∀ k, e k = ((n : ℝ) + 2)⁻¹ • ∑ i ∈ Finset.range (n + 2), x k i)
    (h3 : ∀ k, ∀ i < n + 2, c (k + 1) i = c k i + (p "h" / Ind) • (e k - x k i)) :
    (∀ i < n + 2, Tendsto (fun k => x k i - e k) atTop (nhds 0)) ∧
      Tendsto (fun k => ∑ i ∈ Finset.range (n + 2), (f i).f (x k i)) atTop (nhds (∑ i ∈ Finset.range (n + 2), (f i).f x_star)) ∧
      (0 < mu → ∀ i < n + 2, Tendsto (fun k => x k i) atTop (nhds x_star)) := by
  have hI' : (0 : ℝ) ≤ Ind := by exact_mod_cast hInd
  have hR' : (0 : ℝ) < R := by exact_mod_cast hR
  have hkcl : ∀ k, ∑ i ∈ Finset.range (n + 2), c k i = 0 := by
    intro k
    induction k with
    | zero => exact h0
    | succ k ih =>
      rw [Finset.sum_congr rfl fun i hi => h3 k i (Finset.mem_range.1 hi), Finset.sum_add_distrib, ih, ← Finset.smul_sum, sum_sub_avg (h2 k)]
      simp
  have hs := fun k => C34_admmEulerConsensus hC n mu L R Ind hok hp f hf hstar hopt (hkcl k) (h1 k) (h2 k) (h3 k)
  have hnn : ∀ k, ∀ i < n + 2, 0 ≤ (f i).f (x k i) - (f i).f x_star - ⟪y_star i, x k i - x_star⟫_ℝ := fun k i hi =>
    bregman_nonneg (hstar i hi) (h1 k i hi).1
  have hns : ∀ k, 0 ≤ ∑ i ∈ Finset.range (n + 2), ((f i).f (x k i) - (f i).f x_star - ⟪y_star i, x k i - x_star⟫_ℝ) := fun k =>
    Finset.sum_nonneg fun i hi => hnn k i (Finset.mem_range.1 hi)
  have hnq : ∀ k, 0 ≤ ∑ i ∈ Finset.range (n + 2), p "rho" * R * ‖g k i - c k i‖ ^ 2 := fun k => Finset.sum_nonneg fun i _ => by positivity
  obtain ⟨-, ht, -⟩ := energy_limit (En := fun k => ∑ i ∈ Finset.range (n + 2), Ind / 2 * ‖c k i - y_star i‖ ^ 2) hs
    (fun k => Finset.sum_nonneg fun i _ => by positivity)
    (fun k => add_nonneg (hnq k) (mul_nonneg heta.le (hns k)))
  have hB := part_tendsto heta hns (fun k => le_add_of_nonneg_left (hnq k)) ht
  have hcons : ∀ i < n + 2, Tendsto (fun k => x k i - e k) atTop (nhds 0) := fun i hi => by
    have : Tendsto (fun k => g k i - c k i) atTop (nhds 0) := part_tendsto_vec (c := p "rho" * R) (by positivity) (fun k => by
      refine le_trans ?_ (le_add_of_nonneg_right (mul_nonneg heta.le (hns k)))
      exact Finset.single_le_sum (f := fun j => p "rho" * R * ‖g k j - c k j‖ ^ 2) (fun j _ => by positivity) (Finset.mem_range.2 hi)) ht
    have := this.const_smul (-(R : ℝ))
    rw [smul_zero] at this
    refine this.congr fun k => ?_
    have h4 := (h1 k i hi).2
    rw [show e k = x k i + (R : ℝ) • g k i - (R : ℝ) • c k i by rw [h4]; abel]
    module
  refine ⟨hcons, values_of_bregman hopt hcons hB, fun hmu i hi => ?_⟩
  have hm' : (0 : ℝ) < mu := by exact_mod_cast hmu
  have := part_tendsto_vec (u := fun k => x k i - x_star) (c := (mu : ℝ) / 2) (by positivity) (fun k =>
    (bregman_strong hmu (hf i hi) (hstar i hi) (h1 k i hi).1).trans
      (Finset.single_le_sum (f := fun j => (f j).f (x k j) - (f j).f x_star - ⟪y_star j, x k j - x_star⟫_ℝ)
        (fun j hj => hnn k j (Finset.mem_range.1 hj)) (Finset.mem_range.2 hi))) hB
  simpa using this.add_const x_star

/-! ### The hypotheses can be met

Runs of each circuit with the parameters of a certificate, for functions `(x - a)² / 2` on the reals, from a point that is not the solution. -/

/-- gradient flow with a tuned capacitor from 5, with minimizer 1 -/
example : ∃ p, ∃ x : ℕ → ℝ, IpoptFeasible refCAS (gradientFlowTuneC 0 (some 1)).prog tuneCParams p ∧ x 0 = 5 ∧
    Tendsto (fun k : ℕ => (halfSq 1).f (x k)) atTop (nhds ((halfSq 1).f 1)) := by
  obtain ⟨p, hp, va, vb, -, ve, -, vh, -, vC, vI⟩ := C34_gradientFlowTuneC_feasible
  let x : ℕ → ℝ := iter (fun x => x - 1 / 4 * (x - 1) - 1 / 4 * (x - 1 / 2 * (x - 1) - 1)) 5
  refine ⟨p, x, hp, rfl, (C33_gradientFlowTuneC refCAS_lawful 0 (some 1) (by norm_num [defDecl, FnDecl.Ok]) hp (by rw [vC]; norm_num)
    (by rw [ve]; norm_num) (halfSq 1) (halfSq_holds (by norm_num) 1) trivial (halfSq_min 1) x
    (fun k => x k - 1 / 2 * (x k - 1)) (fun k => x k - 1) (fun k => x k - 1 / 2 * (x k - 1) - 1) (fun k => halfSq_sample rfl)
    (fun k => halfSq_sample rfl) (fun k => ?_) (fun k => ?_)).2⟩
  · simp only [va, vh, vI, smul_eq_mul]; ring
  · simp only [vb, vh, vI, smul_eq_mul, x, iter]; ring

/-- accelerated gradient from `v_C = 5`, `i_L = 2`, with minimizer 1 -/
example : ∃ p, ∃ x : ℕ → ℝ, IpoptFeasible refCAS (acceleratedGradient 0 (some 1) 1 1 1).prog stdParams p ∧ x 0 = 7 ∧
    Tendsto (fun k : ℕ => (halfSq 1).f (x k)) atTop (nhds ((halfSq 1).f 1)) := by
  obtain ⟨p, hp, va, vb, -, ve, -, vh, vr⟩ := C34_acceleratedGradient_feasible
  let ih : ℝ × ℝ → ℝ := fun s => s.2 + 1 / 2 * (s.1 - (s.2 + s.1 - (s.2 + s.1 - 1)))
  let vh' : ℝ × ℝ → ℝ := fun s => s.1 - 1 / 2 * (s.2 + s.1 - 1)
  let st : ℕ → ℝ × ℝ := iter (fun s => (s.1 - 1 / 4 * (s.2 + s.1 - 1) - 1 / 4 * (ih s + vh' s - 1),
    s.2 + 1 / 4 * (s.1 - (s.2 + s.1 - (s.2 + s.1 - 1))) + 1 / 4 * (vh' s - (ih s + vh' s - (ih s + vh' s - 1))))) (5, 2)
  refine ⟨p, fun k => (st k).2 + (st k).1, hp, by norm_num [st, iter], (C33_acceleratedGradient refCAS_lawful 0 (some 1) 1 1 1 (by norm_num) (by norm_num)
    (by norm_num) (by norm_num [defDecl, FnDecl.Ok]) hp (by rw [ve]; norm_num) (by rw [vr]; norm_num) (halfSq 1) (halfSq_holds (by norm_num) 1) trivial
    (halfSq_min 1) (fun k => (st k).1) (fun k => (st k).2) _ (fun k => (st k).2 + (st k).1 - 1)
    (fun k => vh' (st k)) (fun k => ih (st k)) (fun k => ih (st k) + vh' (st k)) (fun k => ih (st k) + vh' (st k) - 1) (fun k => halfSq_sample rfl)
    (fun k => halfSq_sample rfl) (fun k => ?_) (fun k => ?_) (fun k => ?_) (fun k => ?_) (fun k => ?_) (fun k => ?_)).2.1⟩
  · simp
  · simp only [va, vh, smul_eq_mul, ih]; push_cast; ring
  · simp only [va, vh, smul_eq_mul, vh']; push_cast; ring
  · simp
  · simp only [vb, vh, smul_eq_mul, st, iter, ih, vh']; push_cast; ring
  · simp only [vb, vh, smul_eq_mul, st, iter, ih, vh']; push_cast; ring

/-- the tuned variant, same run -/
example : ∃ p, ∃ x : ℕ → ℝ, IpoptFeasible refCAS (acceleratedGradientTuneRLC 0 (some 1)).prog tuneRLCParams p ∧ x 0 = 7 ∧
    Tendsto (fun k : ℕ => (halfSq 1).f (x k)) atTop (nhds ((halfSq 1).f 1)) := by
  obtain ⟨p, hp, va, vb, -, ve, -, vh, vr, vC, vIC, vL, vIL, vR⟩ := C34_acceleratedGradientTuneRLC_feasible
  let ih : ℝ × ℝ → ℝ := fun s => s.2 + 1 / 2 * (s.1 - (s.2 + s.1 - (s.2 + s.1 - 1)))
  let vh' : ℝ × ℝ → ℝ := fun s => s.1 - 1 / 2 * (s.2 + s.1 - 1)
  let st : ℕ → ℝ × ℝ := iter (fun s => (s.1 - 1 / 4 * (s.2 + s.1 - 1) - 1 / 4 * (ih s + vh' s - 1),
    s.2 + 1 / 4 * (s.1 - (s.2 + s.1 - (s.2 + s.1 - 1))) + 1 / 4 * (vh' s - (ih s + vh' s - (ih s + vh' s - 1))))) (5, 2)
  refine ⟨p, fun k => (st k).2 + (st k).1, hp, by norm_num [st, iter], (C33_acceleratedGradientTuneRLC refCAS_lawful 0 (some 1)
    (by norm_num [defDecl, FnDecl.Ok]) hp (by rw [vR]; norm_num) (by rw [vC]; norm_num) (by rw [vL]; norm_num) (by rw [ve]; norm_num)
    (by rw [vr]; norm_num) (halfSq 1) (halfSq_holds (by norm_num) 1) trivial
    (halfSq_min 1) (fun k => (st k).1) (fun k => (st k).2) _ (fun k => (st k).2 + (st k).1 - 1)
    (fun k => vh' (st k)) (fun k => ih (st k)) (fun k => ih (st k) + vh' (st k)) (fun k => ih (st k) + vh' (st k) - 1) (fun k => halfSq_sample rfl)
    (fun k => halfSq_sample rfl) (fun k => ?_) (fun k => ?_) (fun k => ?_) (fun k => ?_) (fun k => ?_) (fun k => ?_)).2⟩
  · simp [vR]
  · simp only [va, vh, vIL, vR, smul_eq_mul, ih]; ring
  · simp only [va, vh, vIC, smul_eq_mul, vh']; ring
  · simp [vR]
  · simp only [vb, vh, vIL, vR, smul_eq_mul, st, iter, ih, vh']; ring
  · simp only [vb, vh, vIC, smul_eq_mul, st, iter, ih, vh']; ring

/-- proximal gradient with minimizers 0 and 2, so that the solution is 1 -/
example : ∃ p, ∃ x u : ℕ → ℝ, IpoptFeasible refCAS (proxGradient 0 (some 1) (1/2) 1).prog stdParams p ∧ x 0 = 5 ∧
    Tendsto (fun k : ℕ => (halfSq 0).f (x k) + (halfSq 2).f (u k)) atTop (nhds ((halfSq 0).f 1 + (halfSq 2).f 1)) := by
  obtain ⟨p, hp, -, -, -, ve, -, vh, vr⟩ := C34_proxGradient_feasible
  let u : ℝ → ℝ := fun x => (x / 2 + 1) / (3 / 2)
  let x : ℕ → ℝ := iter (fun x => x - 1 / 2 * (2 * (x / 2 - u x) + x)) 5
  have hg : (defDecl 0 none).Holds (halfSq 2) := (C12_members 0 none _).2 ⟨((C12_members 0 (some 1) _).1 (halfSq_holds (by norm_num) 2)).1, by simp⟩
  refine ⟨p, x, fun k => u (x k), hp, rfl, (C33_proxGradient refCAS_lawful 0 (some 1) (1/2) 1 (by norm_num) (by norm_num [invSmooth]) (by norm_num)
    (by norm_num [defDecl, FnDecl.Ok]) hp (by rw [ve]; norm_num) (by rw [vr]; norm_num) (halfSq 0) (halfSq 2) (halfSq_holds (by norm_num) 0) hg
    (x_star := 1) (y_star := 1) (halfSq_sample (by norm_num)) (halfSq_sample (by norm_num)) x x (fun k => x k / 2) (fun k => u (x k)) (fun k => u (x k) - 2)
    (fun k => halfSq_sample (by simp)) (fun k => ?_) (fun k => halfSq_prox rfl ?_) (fun k => ?_)).2.2.2⟩
  · push_cast; simp only [smul_eq_mul]; ring
  · push_cast; simp only [u]; ring
  · rw [vh]; push_cast; simp only [smul_eq_mul, x, iter]; ring

/-- two nodes with minimizers 0 and 2: from `z = 5`, `y = 3` both tend to the solution 1 -/
example : ∃ p, ∃ x1 x2 : ℕ → ℝ, IpoptFeasible refCAS (admmConsensusProof 0 (some 1) 1).prog stdParams p ∧ x1 0 = 1 ∧ x2 0 = 5 ∧
    Tendsto (fun k : ℕ => x1 k - x2 k) atTop (nhds 0) ∧
    Tendsto (fun k : ℕ => (halfSq 0).f (x1 k) + (halfSq 2).f (x2 k)) atTop (nhds ((halfSq 0).f 1 + (halfSq 2).f 1)) := by
  obtain ⟨p, hp, -, -, -, ve, -, vh, -⟩ := C34_admmConsensusProof_feasible
  let x1 : ℝ × ℝ → ℝ := fun s => (s.1 - s.2) / 2
  let x2 : ℝ × ℝ → ℝ := fun s => (s.1 + s.2 + 2) / 2
  let st : ℕ → ℝ × ℝ := iter (fun s => (1 / 2 * (x1 s + x2 s), s.2 - 1 / 2 * (1 / 2 * (x1 s + x2 s) - x1 s))) (5, 3)
  have key := C33_admmConsensusProof refCAS_lawful 0 (some 1) 1 (by norm_num) (by norm_num [defDecl, FnDecl.Ok]) hp (by rw [ve]; norm_num)
    (halfSq 0) (halfSq 2) (halfSq_holds (by norm_num) 0) (halfSq_holds (by norm_num) 2)
    (x_star := 1) (y_star := 1) (halfSq_sample (by norm_num)) (halfSq_sample (by norm_num)) (fun k => (st k).1) (fun k => (st k).2)
    (fun k => x1 (st k)) (fun k => x2 (st k)) (fun k => x1 (st k) - 0) (fun k => x2 (st k) - 2) (fun k => halfSq_prox rfl ?_)
    (fun k => halfSq_prox rfl ?_) (fun k => ?_) (fun k => ?_)
  · exact ⟨p, fun k => x1 (st k), fun k => x2 (st k), hp, by norm_num [x1, st, iter], by norm_num [x2, st, iter], key.1, key.2.2⟩
  · push_cast; simp only [smul_eq_mul, x1]; ring
  · push_cast; simp only [smul_eq_mul, x2]; ring
  · simp only [smul_eq_mul, st, iter]; ring
  · rw [vh]; push_cast; simp only [smul_eq_mul, st, iter]; ring

/-- primal decomposition of `x² / 2 + (x - 1)² / 2 + (x - 2)² / 2` from 5 -/
example : ∃ p, ∃ z : ℕ → ℝ, IpoptFeasible refCAS (primalDecomposition 2 0 (some 1) 1).prog stdParams p ∧ z 0 = 5 ∧
    Tendsto (fun k : ℕ => ∑ i ∈ Finset.range 3, (halfSq i).f (z k)) atTop (nhds (∑ i ∈ Finset.range 3, (halfSq i).f 1)) := by
  obtain ⟨p, hp, va, vb, -, ve, -, vh, -⟩ := C34_primalDecomposition_feasible
  let zh : ℝ → ℝ := fun z => z - 1 / 2 * ∑ i ∈ Finset.range 3, (z - (i : ℝ))
  let z : ℕ → ℝ := iter (fun z => z - 1 / 4 * ∑ i ∈ Finset.range 3, (z - (i : ℝ)) - 1 / 4 * ∑ i ∈ Finset.range 3, (zh z - (i : ℝ))) 5
  refine ⟨p, z, hp, rfl, (C33_primalDecomposition refCAS_lawful 2 0 (some 1) 1 (by norm_num) (by norm_num [defDecl, FnDecl.Ok]) hp (by rw [ve]; norm_num)
    (fun i => halfSq i) (fun i _ => halfSq_holds (by norm_num) i) (x_star := 1) (y_star := fun i => 1 - i) (fun i _ => halfSq_sample rfl)
    (by norm_num [Finset.sum_range_succ]) z (fun k => zh (z k)) (fun k i => z k - i) (fun k i => zh (z k) - i) (fun k i _ => halfSq_sample rfl)
    (fun k => ?_) (fun k i _ => halfSq_sample rfl) (fun k => ?_)).2⟩
  · rw [va, vh]; push_cast; simp only [smul_eq_mul, zh]; norm_num
  · rw [vb, vh]; push_cast; simp only [smul_eq_mul, z, iter]; norm_num

/-- dual decomposition with minimizers 0, 1, 2, from the currents -3, 1, 2 -/
example : ∃ p, ∃ x : ℕ → ℕ → ℝ, IpoptFeasible refCAS (dualDecomposition 1 (1/2) (some 1) 1).prog stdParams p ∧ x 0 0 = -3 ∧
    ∀ i < 3, Tendsto (fun k : ℕ => x k i) atTop (nhds 1) := by
  obtain ⟨p, hp, va, vb, -, ve, -, vh, -⟩ := C34_dualDecomposition_feasible
  let av : (ℕ → ℝ) → ℝ := fun y => 1 / 3 * ∑ i ∈ Finset.range 3, (y i + (i : ℝ))
  let y : ℕ → ℕ → ℝ := iter (fun y i => y i + 1 / 4 * (av y - (y i + i))) (fun i => if i = 0 then -3 else i)
  refine ⟨p, fun k i => y k i + i, hp, by simp [y, iter], fun i hi => (C33_dualDecomposition refCAS_lawful 1 (1/2) (some 1) 1 (by norm_num) (by norm_num)
    (by norm_num [defDecl, FnDecl.Ok]) hp (by rw [ve]; norm_num)
    (fun i => halfSq i) (fun i _ => halfSq_holds (by norm_num) i) (x_star := 1) (y_star := fun i => 1 - i) (fun i _ => halfSq_sample rfl)
    (by norm_num [Finset.sum_range_succ]) y (fun k i => y k i + i) y (fun k i => y k i + i) (fun k => av (y k)) (fun k => av (y k))
    (by norm_num [Finset.sum_range_succ, y, iter]) (fun k i _ => halfSq_sample (by ring)) (fun k => ?_) (fun k i _ => ?_)
    (fun k i _ => halfSq_sample (by ring)) (fun k => ?_) (fun k i _ => ?_) i hi).1⟩
  · simp only [av, smul_eq_mul]; norm_num
  · rw [va]; simp
  · simp only [av, smul_eq_mul]; norm_num
  · rw [vb, vh]; push_cast; simp only [smul_eq_mul, y, iter]; norm_num

/-- consensus ADMM with minimizers 0, 1, 2 -/
example : ∃ p, ∃ x : ℕ → ℕ → ℝ, IpoptFeasible refCAS (admmConsensus 1 (1/2) (some 1) 1 1).prog stdParams p ∧ x 0 0 = 3 / 2 ∧
    ∀ i < 3, Tendsto (fun k : ℕ => x k i) atTop (nhds 1) := by
  obtain ⟨p, hp, va, vb, -, ve, vg, vh, vr⟩ := C34_admmConsensus_feasible
  let xh : ℝ × (ℕ → ℝ) → ℕ → ℝ := fun s i => (s.2 i + s.1 + i) / 2
  let eh : ℝ × (ℕ → ℝ) → ℝ := fun s => 1 / 3 * ∑ i ∈ Finset.range 3, xh s i
  let x : ℝ × (ℕ → ℝ) → ℕ → ℝ := fun s i => (s.2 i + eh s + i) / 2
  let e : ℝ × (ℕ → ℝ) → ℝ := fun s => 1 / 3 * ∑ i ∈ Finset.range 3, x s i
  let st : ℕ → ℝ × (ℕ → ℝ) := iter (fun s => (e s, fun i => s.2 i + 1 / 2 * (e s - x s i))) (3, fun i => 1 - i)
  refine ⟨p, fun k => x (st k), hp, ?_, (C33_admmConsensus refCAS_lawful 1 (1/2) (some 1) 1 1 (by norm_num) (by norm_num)
    (by norm_num [defDecl, FnDecl.Ok]) hp (by rw [ve]; norm_num) (by rw [vr]; norm_num) (by rw [vg]; norm_num)
    (fun i => halfSq i) (fun i _ => halfSq_holds (by norm_num) i) (x_star := 1) (y_star := fun i => 1 - i) (fun i _ => halfSq_sample rfl)
    (by norm_num [Finset.sum_range_succ]) (fun k => (st k).1) (fun k => eh (st k)) (fun k => (st k).2) (fun k => (st k).2) (fun k => xh (st k))
    (fun k i => xh (st k) i - i) (fun k => x (st k)) (fun k i => x (st k) i - i) (by norm_num [Finset.sum_range_succ, st, iter])
    (fun k i _ => halfSq_prox rfl ?_) (fun k => ?_) (fun k i _ => ?_) (fun k i _ => halfSq_prox rfl ?_) (fun k => ?_) (fun k i _ => ?_)).2.2 (by norm_num)⟩
  · norm_num [x, eh, xh, st, iter, Finset.sum_range_succ]
  · push_cast; simp only [smul_eq_mul, xh]; ring
  · simp only [eh, smul_eq_mul]; norm_num
  · rw [va]; simp
  · push_cast; simp only [smul_eq_mul, x]; ring
  · simp only [st, iter, e, smul_eq_mul]; norm_num
  · rw [vb, vh]; push_cast; simp only [smul_eq_mul, st, iter]; norm_num

/-- the variant with one explicit Euler step; the average `e` solves `e = (c + e + 1) / 2` on average, so it is constantly 1 -/
example : ∃ p, ∃ x : ℕ → ℕ → ℝ, IpoptFeasible refCAS (admmEulerConsensus 1 (1/2) (some 1) 1 1).prog stdParams p ∧ x 0 0 = 0 ∧ x 0 2 = 2 ∧
    ∀ i < 3, Tendsto (fun k : ℕ => x k i) atTop (nhds 1) := by
  obtain ⟨p, hp, -, -, -, ve, -, vh, vr⟩ := C34_admmEulerConsensus_feasible
  let c : ℕ → ℕ → ℝ := iter (fun c i => c i + 1 / 2 * (1 - (c i + 1 + i) / 2)) (fun i => (i : ℝ) - 1)
  have hc : ∀ k, ∑ i ∈ Finset.range 3, c k i = 0 := fun k => by
    induction k with
    | zero => norm_num [c, iter, Finset.sum_range_succ]
    | succ k ih =>
      simp only [Finset.sum_range_succ, Finset.sum_range_zero] at ih ⊢
      change 0 + (c k 0 + 1 / 2 * (1 - (c k 0 + 1 + (0 : ℕ)) / 2)) + (c k 1 + 1 / 2 * (1 - (c k 1 + 1 + (1 : ℕ)) / 2)) + (c k 2 + 1 / 2 * (1 - (c k 2 + 1 + (2 : ℕ)) / 2)) = 0
      push_cast
      linarith
  refine ⟨p, fun k i => (c k i + 1 + i) / 2, hp, by norm_num [c, iter], by norm_num [c, iter], (C33_admmEulerConsensus refCAS_lawful 1 (1/2) (some 1) 1 1
    (by norm_num) (by norm_num)
    (by norm_num [defDecl, FnDecl.Ok]) hp (by rw [ve]; norm_num) (by rw [vr]; norm_num)
    (fun i => halfSq i) (fun i _ => halfSq_holds (by norm_num) i) (x_star := 1) (y_star := fun i => 1 - i) (fun i _ => halfSq_sample rfl)
    (by norm_num [Finset.sum_range_succ]) (fun k => 1) c (fun k i => (c k i + 1 + i) / 2) (fun k i => (c k i + 1 + i) / 2 - i) (hc 0)
    (fun k i _ => halfSq_prox rfl ?_) (fun k => ?_) (fun k i _ => ?_)).2.2 (by norm_num)⟩
  · push_cast; simp only [smul_eq_mul]; ring
  · have := hc k
    simp only [Finset.sum_range_succ, Finset.sum_range_zero, smul_eq_mul] at this ⊢
    push_cast
    linarith
  · rw [vh]; push_cast; simp only [smul_eq_mul, c, iter]; norm_num

end Verif
