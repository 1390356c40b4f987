import Verif.Props.DadmmConv

/-!
# C52: the step condition cannot be relaxed

With two nodes and the functions `x` and `-x` the points stay apart as soon as `step_size * R` reaches two.

Axioms of every theorem: propext, Classical.choice, Quot.sound.
-/

namespace Verif
open Filter (Tendsto atTop)

/-- two nodes joined by an edge -/
def pairGraph : NxGraph := NxGraph.empty.addEdges [(1, 2)]

/-- `x` at the first node and `-x` at the second one -/
noncomputable def slope (j : ℕ) : CFun ℝ := ⟨Set.univ, fun x => if j = 0 then x else -x⟩

/-- the proximal operators of `slope` -/
noncomputable def slopeProx (j : ℕ) (z rho : ℝ) : ℝ := if j = 0 then z - rho else z + rho

theorem slope_convex (j : ℕ) : ConvexOn ℝ (slope j).dom (slope j).f := by
  refine ⟨convex_univ, fun x _ y _ a b _ _ _ => ?_⟩
  simp only [slope, smul_eq_mul]
  split <;> linarith

theorem slope_prox (j : ℕ) (z rho : ℝ) (h : 0 < rho) : (slope j).IsProx rho z (slopeProx j z rho) := by
  refine ⟨trivial, fun y _ => ?_⟩
  simp only [slope, slopeProx, Real.norm_eq_abs, sq_abs]
  split
  · have h1 : y + (y - z) ^ 2 / (2 * rho) - (z - rho + (z - rho - z) ^ 2 / (2 * rho)) = (y - z + rho) ^ 2 / (2 * rho) := by
      field_simp
      ring
    have h2 : 0 ≤ (y - z + rho) ^ 2 / (2 * rho) := by positivity
    linarith
  · have h1 : -y + (y - z) ^ 2 / (2 * rho) - (-(z + rho) + (z + rho - z) ^ 2 / (2 * rho)) = (y - z - rho) ^ 2 / (2 * rho) := by
      field_simp
      ring
    have h2 : 0 ≤ (y - z - rho) ^ 2 / (2 * rho) := by positivity
    linarith

theorem slope_opt : SumOpt 2 slope 0 := by
  refine ⟨fun j => if j = 0 then 1 else -1, fun j _ => ⟨trivial, rfl, fun y _ => ?_⟩, by simp [Finset.sum_range_succ]⟩
  simp only [slope]
  split <;> simp

theorem pairGraph_simple : pairGraph.Simple := NxGraph.simple_empty.addEdges (by decide)

theorem pairGraph_connected : pairGraph.Connected 2 := by
  refine NxGraph.connected_of_root pairGraph_simple fun j hj => ?_
  interval_cases j
  · exact .refl
  · exact Relation.ReflTransGen.refl.tail (NxGraph.isEdge_of_nbrs pairGraph_simple (by decide))

theorem slope_setting (a : Dadmm ℝ) (hc : a.CapPos) (hR : 0 < a.R) (hs : 0 < a.stepSize) : a.Setting 2 pairGraph slope slopeProx 0 :=
  ⟨hc, hR, hs, by norm_num, pairGraph_simple, pairGraph_connected, fun j _ => slope_convex j, fun j _ z rho h => slope_prox j z rho h, slope_opt⟩

theorem run_pairGraph (a : Dadmm ℝ) (itr : ℕ) (prox : ℕ → ℝ → ℝ → ℝ) :
    a.run 2 itr pairGraph prox = .ok (a.states ([1, 1].getD · 0) ([[1], [0]].getD · []) prox) := by
  rw [Dadmm.run_iff]
  exact ⟨[[1], [0]], rfl, fun _ => rfl, rfl⟩

theorem newE_pairGraph (a : Dadmm ℝ) (s : Dadmm.State ℝ) (x : ℕ → ℝ) :
    a.newE ([[1], [0]].getD · []) s x 0 0 = (1 / 2 : ℝ) * (x 0 + x 1) ∧ a.newE ([[1], [0]].getD · []) s x 1 0 = (1 / 2 : ℝ) * (x 1 + x 0) := by
  cases a <;> simp [Dadmm.newE, Dadmm.newEAt]

theorem slope_states (a : Dadmm ℝ) (k : ℕ) :
    ((a.states ([1, 1].getD · 0) ([[1], [0]].getD · []) slopeProx k).iL 0 0 = 1 - (1 - a.stepSize * a.R) ^ k ∧
      (a.states ([1, 1].getD · 0) ([[1], [0]].getD · []) slopeProx k).iL 1 0 = -(1 - (1 - a.stepSize * a.R) ^ k) ∧
      (a.states ([1, 1].getD · 0) ([[1], [0]].getD · []) slopeProx k).e 0 0 = 0 ∧
      (a.states ([1, 1].getD · 0) ([[1], [0]].getD · []) slopeProx k).e 1 0 = 0) ∧
      (a.states ([1, 1].getD · 0) ([[1], [0]].getD · []) slopeProx (k + 1)).x 0 = -a.R * (1 - a.stepSize * a.R) ^ k ∧
      (a.states ([1, 1].getD · 0) ([[1], [0]].getD · []) slopeProx (k + 1)).x 1 = a.R * (1 - a.stepSize * a.R) ^ k := by
  have hx : ∀ s : Dadmm.State ℝ, a.newX ([1, 1].getD · 0) slopeProx s 0 = a.R * s.iL 0 0 + s.e 0 0 - a.R ∧
      a.newX ([1, 1].getD · 0) slopeProx s 1 = a.R * s.iL 1 0 + s.e 1 0 + a.R := by
    intro s
    simp [Dadmm.newX, Dadmm.z, slopeProx]
  have main : ∀ k, (a.states ([1, 1].getD · 0) ([[1], [0]].getD · []) slopeProx k).iL 0 0 = 1 - (1 - a.stepSize * a.R) ^ k ∧
      (a.states ([1, 1].getD · 0) ([[1], [0]].getD · []) slopeProx k).iL 1 0 = -(1 - (1 - a.stepSize * a.R) ^ k) ∧
      (a.states ([1, 1].getD · 0) ([[1], [0]].getD · []) slopeProx k).e 0 0 = 0 ∧
      (a.states ([1, 1].getD · 0) ([[1], [0]].getD · []) slopeProx k).e 1 0 = 0 := by
    intro k
    induction k with
    | zero => simp [Dadmm.states, Dadmm.start]
    | succ k ih =>
      obtain ⟨h1, h2, h3, h4⟩ := ih
      simp only [Dadmm.states, Dadmm.step, (newE_pairGraph a _ _).1, (newE_pairGraph a _ _).2, (hx _).1, (hx _).2, h1, h2, h3, h4, smul_eq_mul]
      refine ⟨?_, ?_, ?_, ?_⟩ <;> ring
  refine ⟨main k, ?_⟩
  obtain ⟨h1, h2, h3, h4⟩ := main k
  simp only [Dadmm.states, Dadmm.step, (hx _).1, (hx _).2, h1, h2, h3, h4]
  constructor <;> ring

/-- **C52**, the bound is sharp: for all parameters with `step_size * R ≥ 2` there is a network with convex functions that satisfies everything
else the convergence theorems ask for, and on which the points of the two nodes never come closer than `2 R`. -/
theorem C52_sharp (a : Dadmm ℝ) (hc : a.CapPos) (hR : 0 < a.R) (hs : 0 < a.stepSize) (h2 : 2 ≤ a.stepSize * a.R) :
    ∃ (G : NxGraph) (F : ℕ → CFun ℝ) (prox : ℕ → ℝ → ℝ → ℝ) (xh : ℝ), a.Setting 2 G F prox xh ∧
      ∀ itr, ∃ st, a.run 2 itr G prox = .ok st ∧ ∀ k, 2 * a.R ≤ |(st (k + 1)).x 0 - (st (k + 1)).x 1| := by
  refine ⟨pairGraph, slope, slopeProx, 0, slope_setting a hc hR hs, fun itr => ⟨_, run_pairGraph a itr slopeProx, fun k => ?_⟩⟩
  rw [(slope_states a k).2.1, (slope_states a k).2.2]
  have h3 : 1 ≤ |(1 - a.stepSize * a.R) ^ k| := by
    rw [abs_pow]
    exact one_le_pow₀ (by rw [le_abs]; right; linarith)
  have h4 : -a.R * (1 - a.stepSize * a.R) ^ k - a.R * (1 - a.stepSize * a.R) ^ k = -(2 * a.R) * (1 - a.stepSize * a.R) ^ k := by ring
  rw [h4, abs_mul, abs_neg, abs_of_pos (by linarith : 0 < 2 * a.R)]
  nlinarith

/-- and if `step_size * R` exceeds two, the points diverge -/
theorem C52_diverges (a : Dadmm ℝ) (hc : a.CapPos) (hR : 0 < a.R) (hs : 0 < a.stepSize) (h2 : 2 < a.stepSize * a.R) :
    ∃ (G : NxGraph) (F : ℕ → CFun ℝ) (prox : ℕ → ℝ → ℝ → ℝ) (xh : ℝ), a.Setting 2 G F prox xh ∧
      ∀ itr, ∃ st, a.run 2 itr G prox = .ok st ∧ Tendsto (fun k => |(st k).x 0|) atTop atTop := by
  refine ⟨pairGraph, slope, slopeProx, 0, slope_setting a hc hR hs, fun itr => ⟨_, run_pairGraph a itr slopeProx, ?_⟩⟩
  rw [← Filter.tendsto_add_atTop_iff_nat 1]
  have h3 : Tendsto (fun k => |1 - a.stepSize * a.R| ^ k) atTop atTop :=
    tendsto_pow_atTop_atTop_of_one_lt (by rw [lt_abs]; right; linarith)
  refine (h3.const_mul_atTop hR).congr fun k => ?_
  rw [(slope_states a k).2.1, abs_mul, abs_neg, abs_of_pos hR, abs_pow]

/-- the hypotheses of the two theorems can be met -/
example : (Dadmm.circuit 2 3 1).CapPos ∧ 0 < (Dadmm.circuit 2 3 1 : Dadmm ℝ).R ∧ 0 < (Dadmm.circuit 2 3 1 : Dadmm ℝ).stepSize ∧
    2 < (Dadmm.circuit 2 3 1 : Dadmm ℝ).stepSize * (Dadmm.circuit 2 3 1 : Dadmm ℝ).R :=
  ⟨(fun _ _ _ _ h => by cases h), by norm_num [Dadmm.R], by norm_num [Dadmm.stepSize], by norm_num [Dadmm.R, Dadmm.stepSize]⟩

end Verif
