import Verif.Proofs.CircuitsNCan
import Verif.Props.CircuitsCentral

/-!
# C34: one-step guarantees of the circuits with any number of functions

`dual_decomposition`, `primal_decomposition`, `admm_consensus`, `admm_euler_consensus` for every number of functions.  `p` are the parameter
values of a feasible point of the nonlinear program that `solve_ipopt` makes of the builder's problem; sequences are indexed by the functions.

Axioms of every theorem: propext, Classical.choice, Quot.sound.
-/

namespace Verif
open Build
open scoped InnerProductSpace

variable {E : Type} [NormedAddCommGroup E] [InnerProductSpace ℝ E] {C : CAS}

/-- the functions with an index smaller than `n`, the first one otherwise -/
def firstN (f : ℕ → CFun E) (n : ℕ) (i : ℕ) : CFun E := if i < n then f i else f 0

theorem firstN_sample {f : ℕ → CFun E} {n i : ℕ} (hi : i < n) {x g : E} {v : ℝ} (h : (f i).Sample x g v) : (firstN f n i).Sample x g v := by
  rwa [firstN, if_pos hi]

theorem firstN_holds {f : ℕ → CFun E} {n : ℕ} {d : FnDecl} (h0 : 0 < n) (h : ∀ i < n, d.Holds (f i)) (i : ℕ) : d.Holds (firstN f n i) := by
  unfold firstN
  split
  · exact h i ‹_›
  · exact h 0 h0

/-- **C34** for `dual_decomposition` (`classical_central_vi.py` 238-302) with `n = k + 2` functions. -/
theorem C34_dualDecomposition (hC : C.Lawful) (k : ℕ) (mu : ℚ) (L : Option ℚ) (Ind : ℚ) (hok : (defDecl mu L).Ok)
    {p : Name → ℝ} (hp : IpoptFeasible C (dualDecomposition k mu L Ind).prog stdParams p)
    (f : ℕ → CFun E) (hf : ∀ i < k + 2, (defDecl mu L).Holds (f i))
    {x_star z_1 z_1p5 : E} {y_star i_1 x_1 i_1p5 x_1p5 i_2 : ℕ → E} {v_star v_1 v_1p5 : ℕ → ℝ}
    (hstar : ∀ i < k + 2, (f i).Sample x_star (y_star i) (v_star i)) (hopt : ∑ i ∈ Finset.range (k + 2), y_star i = 0)
    (hkcl : ∑ i ∈ Finset.range (k + 2), i_1 i = 0)
    (h1 : ∀ i < k + 2, (f i).Sample (x_1 i) (i_1 i) (v_1 i))
    (h2 : z_1 = ((k : ℝ) + 2)⁻¹ • ∑ i ∈ Finset.range (k + 2), x_1 i)
    (h3 : ∀ i < k + 2, i_1p5 i = i_1 i + (p "alpha" * p "h" / Ind) • (z_1 - x_1 i))
    (h4 : ∀ i < k + 2, (f i).Sample (x_1p5 i) (i_1p5 i) (v_1p5 i))
    (h5 : z_1p5 = ((k : ℝ) + 2)⁻¹ • ∑ i ∈ Finset.range (k + 2), x_1p5 i)
    (h6 : ∀ i < k + 2, i_2 i = i_1 i + (p "beta" * p "h" / Ind) • (z_1 - x_1 i) + ((1 - p "beta") * p "h" / Ind) • (z_1p5 - x_1p5 i)) :
    ∑ i ∈ Finset.range (k + 2), Ind / 2 * ‖i_2 i - y_star i‖ ^ 2 ≤
      ∑ i ∈ Finset.range (k + 2), Ind / 2 * ‖i_1 i - y_star i‖ ^ 2 -
        ∑ i ∈ Finset.range (k + 2), p "eta" * ⟪x_1 i - x_star, i_1 i - y_star i⟫_ℝ := by
  have key := le_of_can hC hok hp (fs := firstN f (k + 2)) (firstN_holds (by omega) hf)
    (can_dualDecomposition (z1 := z_1) (z15 := z_1p5) (i15 := i_1p5) (i2 := i_2) (v1 := v_1) (v15 := v_1p5) rfl (fun i hi => firstN_sample hi (hstar i hi)) hopt hkcl
      (fun i hi => firstN_sample hi (h1 i hi)) (by rw [h2]; push_cast; rfl) (fun i hi => by rw [h3 i hi]; simp)
      (fun i hi => firstN_sample hi (h4 i hi)) (by rw [h5]; push_cast; rfl) (fun i hi => by rw [h6 i hi]; simp))
  push_cast at key
  simp only [pEta_eval] at key
  linarith

/-- **C34** for `primal_decomposition` (`classical_central_vi.py` 303-341) with `n = k + 1` functions. -/
theorem C34_primalDecomposition (hC : C.Lawful) (k : ℕ) (mu : ℚ) (L : Option ℚ) (Cap : ℚ) (hok : (defDecl mu L).Ok)
    {p : Name → ℝ} (hp : IpoptFeasible C (primalDecomposition k mu L Cap).prog stdParams p)
    (f : ℕ → CFun E) (hf : ∀ i < k + 1, (defDecl mu L).Holds (f i))
    {x_star z_1 z_1p5 z_2 : E} {y_star y_1 y_1p5 : ℕ → E} {v_star v_1 v_1p5 : ℕ → ℝ}
    (hstar : ∀ i < k + 1, (f i).Sample x_star (y_star i) (v_star i)) (hopt : ∑ i ∈ Finset.range (k + 1), y_star i = 0)
    (h1 : ∀ i < k + 1, (f i).Sample z_1 (y_1 i) (v_1 i))
    (h2 : z_1p5 = z_1 - (p "alpha" * p "h" / Cap) • ∑ i ∈ Finset.range (k + 1), y_1 i)
    (h3 : ∀ i < k + 1, (f i).Sample z_1p5 (y_1p5 i) (v_1p5 i))
    (h4 : z_2 = z_1 - (p "beta" * p "h" / Cap) • ∑ i ∈ Finset.range (k + 1), y_1 i -
      ((1 - p "beta") * p "h" / Cap) • ∑ i ∈ Finset.range (k + 1), y_1p5 i) :
    Cap / 2 * ‖z_2 - x_star‖ ^ 2 ≤ Cap / 2 * ‖z_1 - x_star‖ ^ 2 - p "eta" * ⟪z_1 - x_star, ∑ i ∈ Finset.range (k + 1), y_1 i⟫_ℝ := by
  have key := le_of_can hC hok hp (fs := firstN f (k + 1)) (firstN_holds (by omega) hf)
    (can_primalDecomposition (v1 := v_1) (v15 := v_1p5) (y15 := y_1p5) (z15 := z_1p5) (z2 := z_2) rfl (fun i hi => firstN_sample hi (hstar i hi)) hopt
      (fun i hi => firstN_sample hi (h1 i hi)) (by rw [h2]; simp) (fun i hi => firstN_sample hi (h3 i hi)) (by rw [h4]; simp))
  push_cast at key
  simp only [pEta_eval, sub_zero] at key
  linarith

/-- **C34** for `admm_consensus` (`classical_central_vi.py` 454-526) with `n = k + 2` functions.  The line `h3` is the code's: the currents at
step 1.5 use the sum of the points, not their average (see C35). -/
theorem C34_admmConsensus (hC : C.Lawful) (k : ℕ) (mu : ℚ) (L : Option ℚ) (R Ind : ℚ) (hok : (defDecl mu L).Ok)
    {p : Name → ℝ} (hp : IpoptFeasible C (admmConsensus k mu L R Ind).prog stdParams p)
    (f : ℕ → CFun E) (hf : ∀ i < k + 2, (defDecl mu L).Holds (f i))
    {x_star e_1 e_1p5 e_2 : E} {y_star i_1 x_1p5 y_1p5 i_1p5 x_2 y_2 i_2 : ℕ → E} {v_star v_1p5 v_2 : ℕ → ℝ}
    (hstar : ∀ i < k + 2, (f i).Sample x_star (y_star i) (v_star i)) (hopt : ∑ i ∈ Finset.range (k + 2), y_star i = 0)
    (hkcl : ∑ i ∈ Finset.range (k + 2), i_1 i = 0)
    (h1 : ∀ i < k + 2, (f i).Prox R ((R : ℝ) • i_1 i + e_1) (x_1p5 i) (y_1p5 i) (v_1p5 i))
    (h2 : e_1p5 = ((k : ℝ) + 2)⁻¹ • ∑ i ∈ Finset.range (k + 2), x_1p5 i)
    (h3 : ∀ i < k + 2, i_1p5 i = i_1 i + (p "alpha" * p "h" / Ind) • (∑ j ∈ Finset.range (k + 2), x_1p5 j - x_1p5 i))
    (h4 : ∀ i < k + 2, (f i).Prox R ((R : ℝ) • i_1p5 i + e_1p5) (x_2 i) (y_2 i) (v_2 i))
    (h5 : e_2 = ((k : ℝ) + 2)⁻¹ • ∑ i ∈ Finset.range (k + 2), x_2 i)
    (h6 : ∀ i < k + 2, i_2 i = i_1 i + (p "beta" * p "h" / Ind) • (e_1p5 - x_1p5 i) + ((1 - p "beta") * p "h" / Ind) • (e_2 - x_2 i)) :
    p "gamma" * ‖e_2 - x_star‖ ^ 2 + ∑ i ∈ Finset.range (k + 2), Ind / 2 * ‖i_2 i - y_star i‖ ^ 2 ≤
      p "gamma" * ‖e_1 - x_star‖ ^ 2 + ∑ i ∈ Finset.range (k + 2), Ind / 2 * ‖i_1 i - y_star i‖ ^ 2 -
        (∑ i ∈ Finset.range (k + 2), p "rho" * R * ‖y_2 i - i_2 i‖ ^ 2 +
          p "eta" * ∑ i ∈ Finset.range (k + 2), (v_2 i - v_star i - ⟪y_star i, x_2 i - x_star⟫_ℝ)) := by
  have key := le_of_can hC hok hp (fs := firstN f (k + 2)) (firstN_holds (by omega) hf)
    (Can.mono (can_admmConsensus (v15 := v_1p5) (e1 := e_1) (e15 := e_1p5) (e2 := e_2) (i15 := i_1p5) (i2 := i_2) (x2 := x_2) (g2 := y_2) (v2 := v_2) (x15 := x_1p5) (g15 := y_1p5) (s15 := ∑ i ∈ Finset.range (k + 2), x_1p5 i) rfl
      (fun i hi => firstN_sample hi (hstar i hi)) hopt hkcl
      (fun i hi => firstN_sample hi (h1 i hi).1) (fun i hi => (h1 i hi).2) rfl (fun i hi => by rw [h3 i hi]; simp) (by rw [h2]; push_cast; rfl)
      (fun i hi => firstN_sample hi (h4 i hi).1) (fun i hi => (h4 i hi).2) (by rw [h5]; push_cast; rfl) (fun i hi => by rw [h6 i hi]; simp)) fun _ _ _ h => h.2)
  push_cast at key
  simp only [pEta_eval, pGamma_eval, Sym.eval_neg', Sym.eval_mulq', pRho_eval, Finset.sum_add_distrib, ← Finset.mul_sum, Finset.sum_sub_distrib] at key ⊢
  linarith

/-- **C34** for `admm_euler_consensus` (`classical_central_vi.py` 529-588) with `n = k + 2` functions. -/
theorem C34_admmEulerConsensus (hC : C.Lawful) (k : ℕ) (mu : ℚ) (L : Option ℚ) (R Ind : ℚ) (hok : (defDecl mu L).Ok)
    {p : Name → ℝ} (hp : IpoptFeasible C (admmEulerConsensus k mu L R Ind).prog stdParams p)
    (f : ℕ → CFun E) (hf : ∀ i < k + 2, (defDecl mu L).Holds (f i))
    {x_star e_1 : E} {y_star i_1 x_1 y_1 i_2 : ℕ → E} {v_star v_1 : ℕ → ℝ}
    (hstar : ∀ i < k + 2, (f i).Sample x_star (y_star i) (v_star i)) (hopt : ∑ i ∈ Finset.range (k + 2), y_star i = 0)
    (hkcl : ∑ i ∈ Finset.range (k + 2), i_1 i = 0)
    (h1 : ∀ i < k + 2, (f i).Prox R ((R : ℝ) • i_1 i + e_1) (x_1 i) (y_1 i) (v_1 i))
    (h2 : e_1 = ((k : ℝ) + 2)⁻¹ • ∑ i ∈ Finset.range (k + 2), x_1 i)
    (h3 : ∀ i < k + 2, i_2 i = i_1 i + (p "h" / Ind) • (e_1 - x_1 i)) :
    ∑ i ∈ Finset.range (k + 2), Ind / 2 * ‖i_2 i - y_star i‖ ^ 2 ≤
      ∑ i ∈ Finset.range (k + 2), Ind / 2 * ‖i_1 i - y_star i‖ ^ 2 -
        (∑ i ∈ Finset.range (k + 2), p "rho" * R * ‖y_1 i - i_1 i‖ ^ 2 +
          p "eta" * ∑ i ∈ Finset.range (k + 2), (v_1 i - v_star i - ⟪y_star i, x_1 i - x_star⟫_ℝ)) := by
  have key := le_of_can hC hok hp (fs := firstN f (k + 2)) (firstN_holds (by omega) hf)
    (can_admmEulerConsensus (e1 := e_1) (i2 := i_2) (x1 := x_1) (g1 := y_1) (v1 := v_1) rfl (fun i hi => firstN_sample hi (hstar i hi)) hopt hkcl
      (fun i hi => firstN_sample hi (h1 i hi).1) (fun i hi => (h1 i hi).2) (fun i hi => by rw [h3 i hi]; simp) (by rw [h2]; push_cast; rfl))
  push_cast at key
  simp only [pEta_eval, Sym.eval_neg', Sym.eval_mulq', pRho_eval, Finset.sum_add_distrib, ← Finset.mul_sum, Finset.sum_sub_distrib] at key ⊢
  linarith

end Verif
