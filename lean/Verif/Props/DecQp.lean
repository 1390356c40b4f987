import Verif.Proofs.DecQp

/-!
# C62: the decentralised quadratic program, from the generated data to the reported numbers

Axioms of every theorem: propext, Classical.choice, Quot.sound.
-/

namespace Verif
open scoped InnerProductSpace
open Filter (Tendsto atTop)

section
variable {m : ℕ} (n : ℕ) (pNormal : ℕ → Vec m) (sqQ : ℕ → Matrix (Fin m) (Fin m) ℝ) (aNormal : ℕ → Vec m) (bNormal : ℕ → ℝ)

/-- **C62** the quadratic program of the generated data has exactly one solution, if some point satisfies all constraints and the drawn matrices have no
common direction that they map to zero. -/
theorem C62_solution (hn : 0 < n) (hinj : ∀ x : Vec m, (∀ j < n, matMap (sqQ j) x = 0) → x = 0)
    (hfeas : ∃ x, (qpData n pNormal sqQ aNormal bNormal).Feasible n x) :
    ∃ x, (qpData n pNormal sqQ aNormal bNormal).Solves n x ∧ ∀ y, (qpData n pNormal sqQ aNormal bNormal).Solves n y → y = x := by
  obtain ⟨x0, h0⟩ := hfeas
  obtain ⟨c, hc, P, h⟩ := qp_growth n pNormal sqQ aNormal bNormal hn hinj
  obtain ⟨x, hx⟩ := solves_exists _ n hc h h0
  have hn' : (n : ℝ) ≠ 0 := by exact_mod_cast hn.ne'
  refine ⟨x, hx, fun y hy => solves_unique _ n (fun j _ => (C61_qp n pNormal sqQ aNormal bNormal j).1) (fun z hz => hinj z fun j hj => ?_) hx hy⟩
  have h1 := hz j hj
  rw [(C61_qp n pNormal sqQ aNormal bNormal j).2.1] at h1
  have h2 : ‖matMap (sqQ j) z‖ ^ 2 = 0 := by
    rcases mul_eq_zero.1 h1 with h3 | h3
    · exact absurd h3 (one_div_ne_zero hn')
    · exact h3
  exact norm_eq_zero.1 (pow_eq_zero_iff (two_ne_zero)|>.1 h2)

variable (a : PgExtra ℝ) (hrho : 0 < a.rho) (hn : 0 < n) (G : NxGraph) (hG : G.Simple) (hcon : G.Connected n) (W : ℕ → ℕ → ℝ)
    (hW : mhWeights n G = .ok W) (d : ℕ) (hd : ∀ j < n, G.degree (j + 1) ≤ d) (s : ℝ) (hs : 0 ≤ s) (hsq : ∀ j < n, sumSq (sqQ j) ≤ s)
    (hh : 0 < a.h) (hb : a.h < a.b) (hpos : 0 < 1 - a.b * (d / ((d : ℝ) + 1))) (hstep : a.rho * (s / n) < 2 * (1 - a.b * (d / ((d : ℝ) + 1))))
    (hslater : ∃ x : Vec m, ∀ j < n, ∑ i, aNormal j i * x i < bNormal j)
    (xh : Vec m) (hx : (qpData n pNormal sqQ aNormal bNormal).Solves n xh)
include hrho hn hG hcon hW hd hs hsq hh hb hpos hstep hslater hx

theorem qp_setting : a.Setting n W G (qpF (qpData n pNormal sqQ aNormal bNormal)) (qpProx (qpData n pNormal sqQ aNormal bNormal))
    (fun j => quadFun (matMap ((qpData n pNormal sqQ aNormal bNormal).Q j)) ((qpData n pNormal sqQ aNormal bNormal).p j))
    (qpGrad (qpData n pNormal sqQ aNormal bNormal)) (s / n) xh := by
  obtain ⟨x0, h0⟩ := hslater
  have h0' : ∀ j < n, ⟪(qpData n pNormal sqQ aNormal bNormal).a j, x0⟫_ℝ < (qpData n pNormal sqQ aNormal bNormal).b j :=
    fun j hj => by rw [vec_inner]; exact h0 j hj
  have hH := fun j => quadFun_gradient (C61_qp n pNormal sqQ aNormal bNormal j).1 ((qpData n pNormal sqQ aNormal bNormal).p j)
  refine C53_metropolis a hrho n hn G hG hcon W hW d hd _ _ _ _ _ (by positivity) xh (fun j _ => halfspace_convex _ _)
    (fun j hj z r hr => qpProx_isProx _ (h0' j hj).le z r hr) (fun j hj => ⟨hH j, fun x y => ?_⟩)
    (C53_opt_of_min (fun j _ => halfspace_convex _ _) (fun j _ => hH j) (x0 := x0) (fun j hj => interior_halfspace (h0' j hj)) ((solves_iff _ n xh).1 hx))
    hh hb hpos hstep
  simp only [qpGrad, gradQuad, add_sub_add_right_eq_sub, ← map_sub]
  refine ((C61_qp n pNormal sqQ aNormal bNormal j).2.2 (x - y)).trans (mul_le_mul_of_nonneg_right ?_ (norm_nonneg _))
  rw [one_div_mul_eq_div]
  exact div_le_div_of_nonneg_right (hsq j hj) (by positivity)

/-- **C62**, points: with the generated data the points that `pg_extra` computes at all nodes converge to the solution of the quadratic program. -/
theorem C62_iterates (hinj : ∀ x : Vec m, (∀ j < n, matMap (sqQ j) x = 0) → x = 0) (itr : ℕ) (hi : itr ≠ 0) (st : ℕ → PgExtra.State (Vec m))
    (hrun : a.run n itr W G (qpProx (qpData n pNormal sqQ aNormal bNormal)) (qpGrad (qpData n pNormal sqQ aNormal bNormal)) = .ok st) (j : ℕ) (hj : j < n) :
    Tendsto (fun k => (st k).x j) atTop (nhds xh) := by
  have hset := qp_setting n pNormal sqQ aNormal bNormal a hrho hn G hG hcon W hW d hd s hs hsq hh hb hpos hstep hslater xh hx
  obtain ⟨xl, h1, h2⟩ := C53_iterates a n W G _ _ _ _ _ xh hset itr hi st hrun
  obtain ⟨x', -, hu⟩ := C62_solution n pNormal sqQ aNormal bNormal hn hinj ⟨xh, hx.1⟩
  rw [show xh = xl by rw [hu xh hx, hu xl ((solves_iff _ n xl).2 h1)]]
  exact h2 j hj

/-- **C62**, distances: the distances to the solution that `pg_extra` reports tend to zero. -/
theorem C62_distance (hinj : ∀ x : Vec m, (∀ j < n, matMap (sqQ j) x = 0) → x = 0) (fstar : ℝ) (eps : ℝ) (he : 0 < eps) :
    ∃ N : ℕ, ∀ (itr : ℕ) (res : PgResult), pgExtra a n itr W G (fun _ => xh) fstar (qpProx (qpData n pNormal sqQ aNormal bNormal))
        (qpGrad (qpData n pNormal sqQ aNormal bNormal)) (qpValue (qpData n pNormal sqQ aNormal bNormal)) = .ok res →
      ∀ (k : ℕ) (v : ℝ), N ≤ k → res.errOptStar[k]? = some v → |v| < eps := by
  have hset := qp_setting n pNormal sqQ aNormal bNormal a hrho hn G hG hcon W hW d hd s hs hsq hh hb hpos hstep hslater xh hx
  obtain ⟨x', -, hu⟩ := C62_solution n pNormal sqQ aNormal bNormal hn hinj ⟨xh, hx.1⟩
  exact C53_errOptStar_unique a n W G _ _ _ _ _ xh hset (fun y hy => by rw [hu xh hx, hu y ((solves_iff _ n y).2 hy)]) fstar _ eps he

/-- **C62**, values: if the optimal value is not zero, the relative differences between the sum of the values of all nodes and the optimal value, which
`pg_extra` reports, tend to zero.  Neither uniqueness nor the regularity of the matrices is needed. -/
theorem C62_values (_hne : (qpData n pNormal sqQ aNormal bNormal).total n xh ≠ 0) (xstar : ℕ → Vec m) (eps : ℝ) (he : 0 < eps) :
    ∃ N : ℕ, ∀ (itr : ℕ) (res : PgResult), pgExtra a n itr W G xstar ((qpData n pNormal sqQ aNormal bNormal).total n xh)
        (qpProx (qpData n pNormal sqQ aNormal bNormal)) (qpGrad (qpData n pNormal sqQ aNormal bNormal))
        (qpValue (qpData n pNormal sqQ aNormal bNormal)) = .ok res →
      ∀ (k : ℕ) (v : ℝ), N ≤ k → res.fReldiff[k]? = some v → |v| < eps := by
  have hset := qp_setting n pNormal sqQ aNormal bNormal a hrho hn G hG hcon W hW d hd s hs hsq hh hb hpos hstep hslater xh hx
  have h := C53_fReldiff a n W G _ _ _ _ _ xh hset xstar eps he
  have e1 : ∀ (j : ℕ) (x : Vec m), (qpF (qpData n pNormal sqQ aNormal bNormal) j).f x +
      quadFun (matMap ((qpData n pNormal sqQ aNormal bNormal).Q j)) ((qpData n pNormal sqQ aNormal bNormal).p j) x =
      qpValue (qpData n pNormal sqQ aNormal bNormal) j x := fun j x => by rw [qpValue_eq]; simp [qpF, halfspaceFun]
  simp only [e1] at h
  rw [total_eq]
  simp only [← qpValue_eq]
  exact h

end

/-- **C62** in the setting of `decentr_qp_experiment.ipynb`: 20 nodes, the network and the weights of `graph_generation`, the generated data and plain
`pg_extra`.  If the entries of each drawn matrix have squares that sum to at most `s` and `rho * s < 20 / 3`, the run raises no exception, and for every
draw whose constraints have a strict interior and whose matrices have no common null direction, the points of all nodes converge to the only solution. -/
theorem C62_experiment {m : ℕ} (pNormal : ℕ → Vec m) (sqQ : ℕ → Matrix (Fin m) (Fin m) ℝ) (aNormal : ℕ → Vec m) (bNormal : ℕ → ℝ) (rho s : ℝ) (hr : 0 < rho)
    (hs : 0 ≤ s) (hsq : ∀ j < 20, sumSq (sqQ j) ≤ s) (hstep : rho * s < 20 / 3) (hslater : ∃ x : Vec m, ∀ j < 20, ∑ i, aNormal j i * x i < bNormal j)
    (hinj : ∀ x : Vec m, (∀ j < 20, matMap (sqQ j) x = 0) → x = 0) :
    ∃ W : ℕ → ℕ → ℝ, mhWeights 20 (graph20 20) = .ok W ∧ ∃ xh, (qpData 20 pNormal sqQ aNormal bNormal).Solves 20 xh ∧
      (∀ y, (qpData 20 pNormal sqQ aNormal bNormal).Solves 20 y → y = xh) ∧
      ∀ itr ≠ 0, ∃ st : ℕ → PgExtra.State (Vec m), (PgExtra.plain rho).run 20 itr W (graph20 20) (qpProx (qpData 20 pNormal sqQ aNormal bNormal))
          (qpGrad (qpData 20 pNormal sqQ aNormal bNormal)) = .ok st ∧ ∀ j < 20, Tendsto (fun k => (st k).x j) atTop (nhds xh) := by
  obtain ⟨W, hW⟩ : ∃ W : ℕ → ℕ → ℝ, mhWeights 20 (graph20 20) = .ok W := by
    unfold mhWeights
    rw [if_pos (by decide +kernel)]
    exact ⟨_, rfl⟩
  have hfeas : ∃ x, (qpData 20 pNormal sqQ aNormal bNormal).Feasible 20 x := by
    obtain ⟨x, hx⟩ := hslater
    exact ⟨x, fun j hj => (hx j hj).le⟩
  obtain ⟨xh, hx, hu⟩ := C62_solution 20 pNormal sqQ aNormal bNormal (by norm_num) hinj hfeas
  refine ⟨W, hW, xh, hx, hu, fun itr hi => ⟨_, rfl, C62_iterates 20 pNormal sqQ aNormal bNormal (.plain rho) hr (by norm_num) (graph20 20)
    (NxGraph.simple_graph20 20) NxGraph.connected_graph20 W hW 5 (by decide +kernel) s hs hsq ?_ ?_ ?_ ?_ hslater xh hx hinj itr hi _ rfl⟩⟩ <;>
    norm_num [PgExtra.h, PgExtra.b, PgExtra.rho]
  linarith

set_option maxRecDepth 10000 in
/-- both variants run on the 20-node network -/
theorem pgRun_graph20 {m : ℕ} (a : PgExtra ℝ) (itr : ℕ) (W : ℕ → ℕ → ℝ) (prox : ℕ → Vec m → ℝ → Vec m) (grad : ℕ → Vec m → Vec m) :
    ∃ st, a.run 20 itr W (graph20 20) prox grad = .ok st := by
  cases a with
  | plain rho => exact ⟨_, rfl⟩
  | parC R h C => exact ⟨_, PgExtra.run_parC_iff.2 ⟨[[1, 3, 4], [0, 2, 4, 6], [1, 3, 5], [2, 4, 0, 8], [3, 5, 0, 1, 7], [4, 6, 2, 10], [5, 7, 9, 1],
    [6, 8, 4, 12], [7, 9, 11, 3], [8, 10, 6, 14], [9, 11, 13, 5], [10, 12, 8, 16], [11, 13, 15, 7], [12, 14, 10, 18], [13, 15, 17, 9], [14, 16, 12],
    [15, 17, 19, 11], [16, 18, 14], [17, 19, 13], [18, 16]], by rfl, fun _ => by rfl, rfl⟩⟩

/-- the same for the circuit variant with parallel capacitors and the notebook's parameters `R = 0.07`, `h = 0.8`, `Capacitance = 0.3`, for draws with
`sumSq ≤ 23` -/
theorem C62_experiment_parC {m : ℕ} (pNormal : ℕ → Vec m) (sqQ : ℕ → Matrix (Fin m) (Fin m) ℝ) (aNormal : ℕ → Vec m) (bNormal : ℕ → ℝ)
    (hsq : ∀ j < 20, sumSq (sqQ j) ≤ 23) (hslater : ∃ x : Vec m, ∀ j < 20, ∑ i, aNormal j i * x i < bNormal j)
    (hinj : ∀ x : Vec m, (∀ j < 20, matMap (sqQ j) x = 0) → x = 0) (W : ℕ → ℕ → ℝ) (hW : mhWeights 20 (graph20 20) = .ok W) :
    ∃ xh, (qpData 20 pNormal sqQ aNormal bNormal).Solves 20 xh ∧
      ∀ itr ≠ 0, ∃ st : ℕ → PgExtra.State (Vec m), (PgExtra.parC (7 / 100) (4 / 5) (3 / 10)).run 20 itr W (graph20 20)
          (qpProx (qpData 20 pNormal sqQ aNormal bNormal)) (qpGrad (qpData 20 pNormal sqQ aNormal bNormal)) = .ok st ∧
        ∀ j < 20, Tendsto (fun k => (st k).x j) atTop (nhds xh) := by
  have hfeas : ∃ x, (qpData 20 pNormal sqQ aNormal bNormal).Feasible 20 x := by
    obtain ⟨x, hx⟩ := hslater
    exact ⟨x, fun j hj => (hx j hj).le⟩
  obtain ⟨xh, hx, hu⟩ := C62_solution 20 pNormal sqQ aNormal bNormal (by norm_num) hinj hfeas
  refine ⟨xh, hx, fun itr hi => ?_⟩
  obtain ⟨st, hst⟩ := pgRun_graph20 (.parC (7 / 100) (4 / 5) (3 / 10)) itr W (qpProx (qpData 20 pNormal sqQ aNormal bNormal))
    (qpGrad (qpData 20 pNormal sqQ aNormal bNormal))
  refine ⟨st, hst, C62_iterates 20 pNormal sqQ aNormal bNormal (.parC (7 / 100) (4 / 5) (3 / 10)) ?_ (by norm_num) (graph20 20)
    (NxGraph.simple_graph20 20) NxGraph.connected_graph20 W hW 5 (by decide +kernel) 23 (by norm_num) hsq ?_ ?_ ?_ ?_ hslater xh hx hinj itr hi st hst⟩ <;>
    norm_num [PgExtra.h, PgExtra.b, PgExtra.rho]

/-- the hypotheses can be met: the identity at every node, the first unit vector as `p`, and the constraint `x₁ ≤ 1` -/
example : (∀ j < 20, sumSq ((fun _ => 1 : ℕ → Matrix (Fin 2) (Fin 2) ℝ) j) ≤ 2) ∧ (1 : ℝ) * 2 < 20 / 3 ∧
    (∃ x : Vec 2, ∀ j < 20, ∑ i, (fun _ => EuclideanSpace.single 0 1 : ℕ → Vec 2) j i * x i < (fun _ => 1 : ℕ → ℝ) j) ∧
    (∀ x : Vec 2, (∀ j < 20, matMap ((fun _ => 1 : ℕ → Matrix (Fin 2) (Fin 2) ℝ) j) x = 0) → x = 0) := by
  refine ⟨fun _ _ => ?_, by norm_num, ⟨0, fun _ _ => by simp⟩, fun x h => by simpa [matMap_one] using h 0 (by norm_num)⟩
  simp [sumSq, Matrix.one_apply]

/-- the optimal value is not zero: with these data zero is not optimal -/
example (x : Vec 2) (hx : (qpData 20 (fun _ => EuclideanSpace.single 0 1) (fun _ => 1) (fun _ => EuclideanSpace.single 0 1) fun _ => 1).Solves 20 x) :
    (qpData 20 (fun _ => EuclideanSpace.single 0 1) (fun _ => 1) (fun _ => EuclideanSpace.single 0 1) fun _ => 1).total 20 x ≠ 0 := by
  have h := hx.2 (EuclideanSpace.single 0 (-1)) (fun j _ => by simp [qpData])
  simp [QpData.total, qpData, Fin.sum_univ_two, Matrix.one_apply] at h ⊢
  intro h0
  norm_num at h h0
  linarith

end Verif
