import Verif.Proofs.DadmmLimit
import Verif.Proofs.SumRule
import Verif.Props.DadmmConv

/-!
# C52 in finite dimension: the points of decentralized ADMM converge to a minimiser

Axioms of every theorem: propext, Classical.choice, Quot.sound.
-/

namespace Verif
open scoped InnerProductSpace
open Filter (Tendsto atTop)

variable {E : Type} [NormedAddCommGroup E] [InnerProductSpace ℝ E] [FiniteDimensional ℝ E]

/-- **C52**, iterates: the points of all nodes converge to one and the same minimiser of the sum of the functions; no strong convexity needed. -/
theorem C52_iterates (a : Dadmm ℝ) (n itr : ℕ) (G : NxGraph) (F : ℕ → CFun E) (prox : ℕ → E → ℝ → E) (xh : E) (hset : a.Setting n G F prox xh)
    (hs2 : a.usage < 1) (hi : itr ≠ 0) (st : ℕ → Dadmm.State E) (hrun : a.run n itr G prox = .ok st) :
    ∃ xl : E, SumMin n F xl ∧ ∀ j < n, Tendsto (fun k => (st k).x j) atTop (nhds xl) := by
  obtain ⟨deg, adj, hN, rfl, hd, hmem, -, hge⟩ := Dadmm.run_net hset.simple hrun hi
  obtain ⟨g, h1, h2⟩ := hset.opt
  obtain ⟨ih, h3, h4⟩ := flow_exists hset.nodes hN (fun j hj => reach_of_connected hN hmem hge hj (hset.connected j hj 0 hset.nodes)) g h2
  obtain ⟨xl, h5, h6⟩ := Dadmm.converges a hset.capPos hset.step_pos hset.R_pos hN hd hset.convex hset.prox h3
    (fun j hj => by rw [h4 j hj]; exact h1 j hj) hset.nodes
    (fun j hj => reach_of_connected hN hmem hge hset.nodes (hset.connected 0 hset.nodes j hj))
    (Dadmm.usage_lt hset.R_pos hs2)
  exact ⟨xl, h5.min, h6⟩

/-- **C52**, distances: if the minimiser is unique, the distances to it that `dadmm` reports tend to zero; no strong convexity needed. -/
theorem C52_errOptStar_unique (a : Dadmm ℝ) (n : ℕ) (G : NxGraph) (F : ℕ → CFun E) (prox : ℕ → E → ℝ → E) (xh : E)
    (hset : a.Setting n G F prox xh) (hs2 : a.usage < 1) (huniq : ∀ y, SumMin n F y → y = xh) (fstar : ℝ) (f : ℕ → E → ℝ)
    (eps : ℝ) (he : 0 < eps) :
    ∃ N : ℕ, ∀ (itr : ℕ) (res : DadmmResult), dadmm a n itr G (fun _ => xh) fstar prox f = .ok res →
      ∀ (k : ℕ) (v : ℝ), N ≤ k → res.errOptStar[k]? = some v → |v| < eps := by
  obtain ⟨N, hN⟩ := eventually_small (a := a) (n := n) (G := G) (prox := prox)
    (fun st k => frobDist n (st (k + 1)).x fun _ => xh) (fun st hst => by
      obtain ⟨xl, h1, h2⟩ := C52_iterates a n 1 G F prox xh hset hs2 one_ne_zero st hst
      rw [huniq xl h1] at h2
      have h3 : Tendsto (fun k => ∑ j ∈ Finset.range n, ‖(st (k + 1)).x j - xh‖ ^ 2) atTop (nhds (∑ j ∈ Finset.range n, ‖xh - xh‖ ^ 2)) :=
        tendsto_finsetSum _ fun j hj => ((((Filter.tendsto_add_atTop_iff_nat 1).2 (h2 j (Finset.mem_range.1 hj))).sub_const xh).norm).pow 2
      have h4 := h3.sqrt
      simpa [frobDist] using h4) eps he
  refine ⟨N, fun itr res hres k v hk hv => ?_⟩
  obtain ⟨st, h1, h2, -⟩ := dadmm_ok hres
  rw [h2] at hv
  exact hN itr st h1 k v hk hv

/-- the optimality condition in `Dadmm.Setting` holds at every minimiser, if the domains have a common interior point -/
theorem C52_opt_of_min {n : ℕ} {F : ℕ → CFun E} (hF : ∀ j < n, ConvexOn ℝ (F j).dom (F j).f) {x0 xh : E}
    (h0 : ∀ j < n, x0 ∈ interior (F j).dom) (h : SumMin n F xh) : SumOpt n F xh := SumMin.opt hF h0 h

/-- the setting of the example after `C52_errOptStar` is finite-dimensional, its domains are everything and its minimiser is unique -/
example : (∀ j < 6, (0 : ℝ) ∈ interior (quadAt j).dom) ∧ ∀ y, SumMin 6 quadAt y → y = 5 / 2 := by
  refine ⟨fun j _ => by simp [quadAt], fun y hy => ?_⟩
  have h1 := hy.2 (5 / 2) (fun j _ => by simp [quadAt])
  simp only [quadAt, Finset.sum_range_succ, Finset.range_zero, Finset.sum_empty] at h1
  norm_num at h1
  nlinarith [sq_nonneg (y - 5 / 2)]

end Verif
