import Verif.Proofs.PgLimit
import Verif.Proofs.SumRule
import Verif.Props.PgConv

/-!
# C53 in finite dimension: the points of PG-EXTRA converge to a minimiser

Axioms of every theorem: propext, Classical.choice, Quot.sound.
-/

namespace Verif
open scoped InnerProductSpace
open Filter (Tendsto atTop)

variable {E : Type} [NormedAddCommGroup E] [InnerProductSpace ℝ E] [FiniteDimensional ℝ E]

section
variable (a : PgExtra ℝ) (n : ℕ) (W : ℕ → ℕ → ℝ) (G : NxGraph) (F : ℕ → CFun E) (prox : ℕ → E → ℝ → E) (H : ℕ → E → ℝ)
    (grad : ℕ → E → E) (L : ℝ) (xh : E) (hset : a.Setting n W G F prox H grad L xh)
include hset

/-- **C53**, iterates: the points of all nodes converge to one and the same minimiser of the sum of all functions; no strong convexity needed. -/
theorem C53_iterates (itr : ℕ) (hi : itr ≠ 0) (st : ℕ → PgExtra.State E) (hrun : a.run n itr W G prox grad = .ok st) :
    ∃ xl : E, SumMin n (fun j => (F j).plus (H j)) xl ∧ ∀ j < n, Tendsto (fun k => (st k).x j) atTop (nhds xl) := by
  obtain ⟨L', kap, gh, Ih, hC⟩ := pgExtra_conv hset hi hrun
  obtain ⟨xl, h1, gl, h2, h3⟩ := hC.converges hset.nodes hset.connected fun j hj z =>
    ⟨_, (hset.prox j hj z a.rho hset.rho_pos).sample (hset.convex j hj) hset.rho_pos⟩
  exact ⟨xl, (sumMin_of_samples (fun j hj => (hset.smooth j hj).1) h2 h3).min, h1⟩

/-- **C53**, distances: if the minimiser is unique, the distances to it that `pg_extra` reports tend to zero; no strong convexity needed. -/
theorem C53_errOptStar_unique (huniq : ∀ y, SumMin n (fun j => (F j).plus (H j)) y → y = xh) (fstar : ℝ) (fh : ℕ → E → ℝ) (eps : ℝ) (he : 0 < eps) :
    ∃ N : ℕ, ∀ (itr : ℕ) (res : PgResult), pgExtra a n itr W G (fun _ => xh) fstar prox grad fh = .ok res →
      ∀ (k : ℕ) (v : ℝ), N ≤ k → res.errOptStar[k]? = some v → |v| < eps := by
  obtain ⟨N, hN⟩ := pg_eventually a n W G prox grad (fun st k => frobDist n (st (k + 1)).x fun _ => xh) (fun st hst => by
      obtain ⟨xl, h1, h2⟩ := C53_iterates a n W G F prox H grad L xh hset 1 one_ne_zero st hst
      rw [huniq xl h1] at h2
      have h3 : Tendsto (fun k => ∑ j ∈ Finset.range n, ‖(st (k + 1)).x j - xh‖ ^ 2) atTop (nhds (∑ j ∈ Finset.range n, ‖xh - xh‖ ^ 2)) :=
        tendsto_finsetSum _ fun j hj => ((((Filter.tendsto_add_atTop_iff_nat 1).2 (h2 j (Finset.mem_range.1 hj))).sub_const xh).norm).pow 2
      have h4 := h3.sqrt
      simpa [frobDist] using h4) eps he
  refine ⟨N, fun itr res hres k v hk hv => ?_⟩
  obtain ⟨st, -, h1, -, h2, -⟩ := pgExtra_ok a n W G prox grad hres
  rw [h2] at hv
  exact hN itr st h1 k v hk hv

end

/-- the optimality condition in `PgExtra.Setting` holds at every minimiser, if the domains have a common interior point -/
theorem C53_opt_of_min {n : ℕ} {F : ℕ → CFun E} {H : ℕ → E → ℝ} {gr : ℕ → E → E} (hF : ∀ j < n, ConvexOn ℝ (F j).dom (F j).f)
    (hH : ∀ j < n, ConvexGradient (H j) (gr j)) {x0 xh : E} (h0 : ∀ j < n, x0 ∈ interior (F j).dom)
    (h : SumMin n (fun j => (F j).plus (H j)) xh) :
    ∃ g : ℕ → E, (∀ j < n, (F j).Sample xh (g j) ((F j).f xh)) ∧ ∑ j ∈ Finset.range n, (g j + gr j xh) = 0 := SumMin.opt_plus hF hH h0 h

/-- the domains of the functions in the example after `C53_metropolis_plain` are everything -/
example : ∀ j < 6, (0 : ℝ) ∈ interior (quadAt j).dom := fun j _ => by simp [quadAt]

end Verif
