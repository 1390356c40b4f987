import Verif.Proofs.PgExtra
import Verif.Props.Dadmm
import Verif.Props.Weights

/-!
# C44, C45: PG-EXTRA and its circuit variant with a parallel capacitor

Axioms of every theorem: propext, Classical.choice, Quot.sound.
-/

namespace Verif
open scoped InnerProductSpace

section algebra
variable {K V : Type} [Field K] [AddCommGroup V] [Module K V]

/-- **C44**, conservation: in `pg_extra` the corrections of all nodes sum to zero after every iteration, if the columns of `W` sum to one. -/
theorem C44_sum (rho : K) (n itr : ℕ) (W : ℕ → ℕ → K) (hW : ∀ l < n, ∑ j ∈ Finset.range n, W j l = 1) (G : NxGraph) (prox : ℕ → V → K → V)
    (grad : ℕ → V → V) (st : ℕ → PgExtra.State V) (hrun : (PgExtra.plain rho).run n itr W G prox grad = .ok st) (k : ℕ) :
    ∑ j ∈ Finset.range n, (st k).w j = 0 := by
  rw [PgExtra.run_plain hrun]
  exact PgExtra.sum_w hW _ _ _ _ k

/-- **C45**, currents: in `pg_extra_par_c` the inductor currents at the two ends of an edge are opposite after every iteration, and so are the
capacitor currents, if `W` is symmetric. -/
theorem C45_antisymmetric (R h C : K) (n itr : ℕ) (W : ℕ → ℕ → K) (hW : ∀ j < n, ∀ l < n, W j l = W l j) (G : NxGraph) (hG : G.Simple)
    (prox : ℕ → V → K → V) (grad : ℕ → V → V) (st : ℕ → PgExtra.State V) (hrun : (PgExtra.parC R h C).run n itr W G prox grad = .ok st) (k : ℕ)
    (hk : k ≤ itr) (j l : ℕ) (hj : j < n) (he : G.IsEdge (j + 1) (l + 1)) :
    (st k).iL j l + (st k).iL l j = 0 ∧ (st k).iC j l + (st k).iC l j = 0 := by
  rcases Nat.eq_zero_or_pos k with rfl | h0
  · obtain ⟨adj, -, -, rfl⟩ := PgExtra.run_parC_iff.1 hrun
    simp [PgExtra.states, PgExtra.start]
  · obtain ⟨deg, adj, hN, rfl, hmem, -⟩ := PgExtra.run_parC_net hG hrun (by omega)
    have hl := (hmem j hj l).2 he
    have hln := hN.lt j hj l hl
    have hl' := hN.symm j hj l hl
    rw [PgExtra.iL_eq _ _ _ _ _ _ _ _ k hl, PgExtra.iL_eq _ _ _ _ _ _ _ _ k hl', PgExtra.iC_eq _ _ _ _ _ _ _ _ k hl,
      PgExtra.iC_eq _ _ _ _ _ _ _ _ k hl', hW l hln j hj]
    constructor <;> module

/-- **C45**, capacitor: the capacitor current of an edge is a multiple of the present voltage, and the inductor current of the sum of the
voltages of all earlier states. -/
theorem C45_closedForm (R h C : K) (n itr : ℕ) (W : ℕ → ℕ → K) (G : NxGraph) (hG : G.Simple)
    (prox : ℕ → V → K → V) (grad : ℕ → V → V) (st : ℕ → PgExtra.State V) (hrun : (PgExtra.parC R h C).run n itr W G prox grad = .ok st) (k : ℕ)
    (hk : k ≤ itr) (j l : ℕ) (hj : j < n) (he : G.IsEdge (j + 1) (l + 1)) :
    (st k).iC j l = (C / h * (W j l / R)) • ((st k).x j - (st k).x l) ∧
      (st k).iL j l = (h * (W j l / R)) • ∑ t ∈ Finset.range k, ((st t).x j - (st t).x l) := by
  rcases Nat.eq_zero_or_pos k with rfl | h0
  · obtain ⟨adj, -, -, rfl⟩ := PgExtra.run_parC_iff.1 hrun
    simp [PgExtra.states, PgExtra.start]
  · obtain ⟨deg, adj, hN, rfl, hmem, -⟩ := PgExtra.run_parC_net hG hrun (by omega)
    have hl := (hmem j hj l).2 he
    refine ⟨PgExtra.iC_eq _ _ _ _ _ _ _ _ k hl, ?_⟩
    rw [PgExtra.iL_eq _ _ _ _ _ _ _ _ k hl, Finset.sum_sub_distrib]
    rfl

/-- on the 6-node network of the experiments there is no exception, whatever the weights and operators -/
theorem pgRun_graph6 (a : PgExtra K) (itr : ℕ) (W : ℕ → ℕ → K) (prox : ℕ → V → K → V) (grad : ℕ → V → V) :
    ∃ st, a.run 6 itr W graph6 prox grad = .ok st := by
  cases a with
  | plain rho => exact ⟨_, rfl⟩
  | parC R h C =>
    refine ⟨_, PgExtra.run_parC_iff.2 ⟨[[1, 2], [0, 2, 3], [0, 1, 3], [1, 2, 4, 5], [3], [3]], by rfl, fun _ => by rfl, rfl⟩⟩

end algebra

variable {E : Type} [NormedAddCommGroup E] [InnerProductSpace ℝ E]

/-- **C44**, fixed points: if an iteration of `pg_extra` changes neither the points nor the corrections, all nodes hold one point, and it
minimises the sum of all functions. -/
theorem C44_fixedPoint (rho : ℝ) (hrho : 0 < rho) (n itr : ℕ) (hn : 0 < n) (W : ℕ → ℕ → ℝ) (hW : DoublyStochastic n W) (hcon : WeightConnected n W)
    (G : NxGraph) (F : ℕ → CFun E) (hF : ∀ j < n, ConvexOn ℝ (F j).dom (F j).f) (prox : ℕ → E → ℝ → E)
    (hp : ∀ j < n, ∀ z r, 0 < r → (F j).IsProx r z (prox j z r)) (h : ℕ → E → ℝ) (grad : ℕ → E → E) (hh : ∀ j < n, ConvexGradient (h j) (grad j))
    (st : ℕ → PgExtra.State E) (hrun : (PgExtra.plain rho).run n itr W G prox grad = .ok st) (k : ℕ)
    (hx : ∀ j < n, (st (k + 1)).x j = (st k).x j) (hw : ∀ j < n, (st (k + 1)).w j = (st k).w j) :
    (∀ j < n, (st k).x j = (st k).x 0) ∧ SumMin n (fun j => (F j).plus (h j)) ((st k).x 0) := by
  have hsum := C44_sum rho n itr W hW.cols G prox grad st hrun k
  rw [PgExtra.run_plain hrun] at hx hw hsum ⊢
  set s := (PgExtra.plain rho).states n W (fun _ => []) prox grad k with hs
  have h1 : ∀ j < n, PgExtra.laplace n W s.x j = 0 := by
    intro j hj
    have := hw j hj
    change s.w j + (1 / 2 : ℝ) • PgExtra.laplace n W s.x j = s.w j at this
    rw [add_eq_left, smul_eq_zero] at this
    exact this.resolve_left (by norm_num)
  have hc : ∀ j < n, s.x j = s.x 0 := fun j hj => PgExtra.consensus_of_laplace hW hcon h1 hj hn
  refine ⟨hc, ?_⟩
  have hsample : ∀ j < n, (F j).Sample (s.x 0) (rho⁻¹ • (-s.w j - rho • grad j (s.x 0))) ((F j).f (s.x 0)) := by
    intro j hj
    have h2 := (hp j hj ((PgExtra.plain rho).eArg n W (fun _ => []) grad s j) rho hrho).sample (hF j hj) hrho
    have h3 : prox j ((PgExtra.plain rho).eArg n W (fun _ => []) grad s j) rho = s.x 0 := (hx j hj).trans (hc j hj)
    rw [h3] at h2
    have h4 : (PgExtra.plain rho).eArg n W (fun _ => []) grad s j - s.x 0 = -s.w j - rho • grad j (s.x 0) := by
      change PgExtra.mix n W s.x j - s.w j - rho • grad j (s.x j) - s.x 0 = _
      rw [PgExtra.mix_const hW.rows hc hj, hc j hj]
      abel
    rwa [h4] at h2
  refine (sumMin_of_samples hh hsample ?_).min
  have h5 : ∀ j, rho⁻¹ • (-s.w j - rho • grad j (s.x 0)) + grad j (s.x 0) = -(rho⁻¹ • s.w j) := by
    intro j
    rw [smul_sub, smul_smul, inv_mul_cancel₀ hrho.ne', one_smul, smul_neg]
    abel
  rw [Finset.sum_congr rfl fun j _ => h5 j, Finset.sum_neg_distrib, ← Finset.smul_sum, hsum, smul_zero, neg_zero]

/-- **C45**, fixed points: the same for `pg_extra_par_c`, on a connected graph whose edges carry nonzero symmetric weights. -/
theorem C45_fixedPoint (R h C : ℝ) (hR : 0 < R) (hh0 : h ≠ 0) (n itr : ℕ) (hn : 0 < n) (W : ℕ → ℕ → ℝ) (hrow : ∀ j < n, ∑ l ∈ Finset.range n, W j l = 1)
    (hsym : ∀ j < n, ∀ l < n, W j l = W l j) (G : NxGraph) (hG : G.Simple) (hcon : G.Connected n)
    (hedge : ∀ j < n, ∀ l, G.IsEdge (j + 1) (l + 1) → W j l ≠ 0) (F : ℕ → CFun E) (hF : ∀ j < n, ConvexOn ℝ (F j).dom (F j).f)
    (prox : ℕ → E → ℝ → E) (hp : ∀ j < n, ∀ z r, 0 < r → (F j).IsProx r z (prox j z r)) (hfun : ℕ → E → ℝ) (grad : ℕ → E → E)
    (hh : ∀ j < n, ConvexGradient (hfun j) (grad j)) (st : ℕ → PgExtra.State E)
    (hrun : (PgExtra.parC R h C).run n itr W G prox grad = .ok st) (k : ℕ) (hk : k < itr)
    (hx : ∀ j < n, (st (k + 1)).x j = (st k).x j)
    (hi : ∀ j < n, ∀ l, G.IsEdge (j + 1) (l + 1) → (st (k + 1)).iL j l = (st k).iL j l) :
    (∀ j < n, (st k).x j = (st k).x 0) ∧ SumMin n (fun j => (F j).plus (hfun j)) ((st k).x 0) := by
  obtain ⟨deg, adj, hN, rfl, hmem, hge⟩ := PgExtra.run_parC_net hG hrun (by omega)
  set s := (PgExtra.parC R h C).states n W adj prox grad k with hs
  have he : ∀ j < n, ∀ l ∈ adj j, s.x j = s.x l := by
    intro j hj l hl
    have h1 := hi j hj l ((hmem j hj l).1 hl)
    change (if l ∈ adj j then s.iL j l + (h * PgExtra.rMatrix R W j l) • (s.x j - s.x l) else s.iL j l) = s.iL j l at h1
    rw [if_pos hl, add_eq_left, smul_eq_zero] at h1
    refine sub_eq_zero.1 (h1.resolve_left (mul_ne_zero hh0 (mul_ne_zero (by positivity) (hedge j hj l ((hmem j hj l).1 hl)))))
  have hc : ∀ j < n, s.x j = s.x 0 := by
    intro j hj
    have h1 := hcon j hj 0 hn
    have : ∀ v, Relation.ReflTransGen G.IsEdge (j + 1) v → 1 ≤ v ∧ v - 1 < n ∧ s.x j = s.x (v - 1) := by
      intro v hv
      induction hv with
      | refl => exact ⟨by omega, hj, rfl⟩
      | @tail u v _ huv ih =>
        obtain ⟨h1, h2, h3⟩ := ih
        obtain ⟨-, h4⟩ := hge u v huv
        have h5 : v - 1 ∈ adj (u - 1) := (hmem _ h2 _).2 (by rwa [Nat.sub_add_cancel h1, Nat.sub_add_cancel h4])
        exact ⟨h4, hN.lt _ h2 _ h5, h3.trans (he _ h2 _ h5)⟩
    exact (this _ h1).2.2
  refine ⟨hc, ?_⟩
  have hL : ∀ j < n, ((adj j).map fun l => s.iL j l + s.iC j l).sum = ∑ l ∈ nb adj j, s.iL j l := by
    intro j hj
    rw [show nb adj j = (adj j).toFinset from rfl, List.sum_toFinset _ (hN.nodup j hj)]
    congr 1
    refine List.map_congr_left fun l hl => ?_
    rw [hs, PgExtra.iC_eq R h C n W adj prox grad k hl, ← hs, he j hj l hl, sub_self, smul_zero, add_zero]
  have hsample : ∀ j < n, (F j).Sample (s.x 0) (-(∑ l ∈ nb adj j, s.iL j l) - grad j (s.x 0)) ((F j).f (s.x 0)) := by
    intro j hj
    have h2 := (hp j hj ((PgExtra.parC R h C).eArg n W adj grad s j) R hR).sample (hF j hj) hR
    have h3 : prox j ((PgExtra.parC R h C).eArg n W adj grad s j) R = s.x 0 := (hx j hj).trans (hc j hj)
    rw [h3] at h2
    have h4 : R⁻¹ • ((PgExtra.parC R h C).eArg n W adj grad s j - s.x 0) = -(∑ l ∈ nb adj j, s.iL j l) - grad j (s.x 0) := by
      change R⁻¹ • (PgExtra.mix n W s.x j - R • ((adj j).map fun l => s.iL j l + s.iC j l).sum - R • grad j (s.x j) - s.x 0) = _
      rw [PgExtra.mix_const hrow hc hj, hc j hj, hL j hj]
      rw [show s.x 0 - R • ∑ l ∈ nb adj j, s.iL j l - R • grad j (s.x 0) - s.x 0 = R • (-(∑ l ∈ nb adj j, s.iL j l) - grad j (s.x 0)) by
        rw [smul_sub, smul_neg]; abel, inv_smul_smul₀ hR.ne']
    rwa [h4] at h2
  refine (sumMin_of_samples hh hsample ?_).min
  have h5 : ∀ j, -(∑ l ∈ nb adj j, s.iL j l) - grad j (s.x 0) + grad j (s.x 0) = -∑ l ∈ nb adj j, s.iL j l := fun j => by abel
  rw [Finset.sum_congr rfl fun j _ => h5 j, Finset.sum_neg_distrib, neg_eq_zero]
  refine hN.sum_anti fun j hj l hl => ?_
  have hl' := hN.symm j hj l hl
  rw [hs, PgExtra.iL_eq _ _ _ _ _ _ _ _ k hl, PgExtra.iL_eq _ _ _ _ _ _ _ _ k hl', hsym l (hN.lt j hj l hl) j hj]
  module

/-- the hypotheses of `C44_sum` and `C44_fixedPoint` can be met: with Metropolis-Hastings weights a fixed point is reached after one iteration,
away from the starting point -/
example (W : ℕ → ℕ → ℝ) (hW : mhWeights 6 graph6 = .ok W) : ∃ st, (PgExtra.plain (1 / 4 : ℝ)).run 6 10 W graph6 (fun _ _ _ => (5 : ℝ)) (fun _ _ => 0) = .ok st ∧
    DoublyStochastic 6 W ∧ WeightConnected 6 W ∧ ConvexGradient (fun _ : ℝ => (0 : ℝ)) (fun _ => 0) ∧ (st 1).x 0 ≠ (st 0).x 0 ∧
    (∀ j < 6, (st 2).x j = (st 1).x j) ∧ (∀ j < 6, (st 2).w j = (st 1).w j) := by
  have hD := C46_doublyStochastic 6 graph6 NxGraph.simple_graph6 W hW
  refine ⟨_, rfl, hD, C46_connected 6 graph6 NxGraph.simple_graph6 NxGraph.connected_graph6 W hW, ?_, ?_, fun j _ => rfl, fun j hj => ?_⟩
  · exact ⟨convexOn_const _ convex_univ, fun x => by simpa using hasFDerivAt_const (0 : ℝ) x⟩
  · change (5 : ℝ) ≠ 0
    norm_num
  · have h1 : PgExtra.laplace 6 W (fun _ => (5 : ℝ)) j = 0 := by
      rw [PgExtra.laplace_eq hD.rows _ hj]
      simp
    change _ + (1 / 2 : ℝ) • PgExtra.laplace 6 W (fun _ => (5 : ℝ)) j = _
    rw [h1, smul_zero, add_zero]

/-- the hypotheses of the C45 theorems can be met in the same way -/
example (W : ℕ → ℕ → ℝ) (hW : mhWeights 6 graph6 = .ok W) :
    ∃ st, (PgExtra.parC (1 / 4 : ℝ) (1 / 2) (1 / 100)).run 6 10 W graph6 (fun _ _ _ => (5 : ℝ)) (fun _ _ => 0) = .ok st ∧
    (∀ j < 6, ∑ l ∈ Finset.range 6, W j l = 1) ∧ (∀ j < 6, ∀ l < 6, W j l = W l j) ∧ graph6.Simple ∧ graph6.Connected 6 ∧
    (∀ j < 6, ∀ l, graph6.IsEdge (j + 1) (l + 1) → W j l ≠ 0) ∧ (st 1).x 0 ≠ (st 0).x 0 ∧
    (∀ j < 6, (st 2).x j = (st 1).x j) ∧ (∀ j < 6, ∀ l, graph6.IsEdge (j + 1) (l + 1) → (st 2).iL j l = (st 1).iL j l) := by
  have hD := C46_doublyStochastic 6 graph6 NxGraph.simple_graph6 W hW
  obtain ⟨st, hst⟩ := pgRun_graph6 (PgExtra.parC (1 / 4 : ℝ) (1 / 2) (1 / 100)) 10 W (fun _ _ _ => (5 : ℝ)) (fun _ _ => 0)
  have hcf := C45_closedForm _ _ _ 6 10 W graph6 NxGraph.simple_graph6 _ _ st hst
  have hx : ∀ k j, (st (k + 1)).x j = 5 := by
    intro k j
    obtain ⟨adj, -, -, rfl⟩ := PgExtra.run_parC_iff.1 hst
    rfl
  have h0 : ∀ j, (st 0).x j = 0 := by
    intro j
    obtain ⟨adj, -, -, rfl⟩ := PgExtra.run_parC_iff.1 hst
    rfl
  refine ⟨st, hst, hD.rows, fun j _ l _ => C46_symmetric 6 graph6 NxGraph.simple_graph6 W hW j l, NxGraph.simple_graph6, NxGraph.connected_graph6,
    fun j hj l he => ?_, ?_, fun j _ => by rw [hx, hx], fun j hj l he => ?_⟩
  · exact (C46_edges 6 graph6 NxGraph.simple_graph6 W hW j l he).ne'
  · rw [hx, h0]
    norm_num
  · rw [(hcf 2 (by norm_num) j l hj he).2, (hcf 1 (by norm_num) j l hj he).2, Finset.sum_range_succ, hx, hx, sub_self, add_zero]

end Verif
