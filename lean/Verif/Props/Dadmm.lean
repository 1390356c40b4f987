import Verif.Proofs.DadmmFixed
import Verif.Proofs.GraphBuild

/-!
# C42, C43: decentralized ADMM conserves the currents of an edge; its fixed points are consensual optima

`st k` is the content of the arrays after `k` iterations of `dadmm`; nodes are counted from 0, so node `j` has the label `j + 1`.

Axioms of every theorem: propext, Classical.choice, Quot.sound.
-/

namespace Verif
open scoped InnerProductSpace

section conserve
variable {K V : Type} [Field K] [AddCommGroup V] [Module K V]

/-- **C42.** After every iteration the two ends of an edge store the same potential, and the two currents of an edge are opposite unless the
edge has a capacitor. -/
theorem C42_edges (a : Dadmm K) (n itr : ℕ) (G : NxGraph) (hG : G.Simple) (h2 : (2 : K) ≠ 0) (prox : ℕ → V → K → V) (st : ℕ → Dadmm.State V)
    (hrun : a.run n itr G prox = .ok st) (k : ℕ) (hk : k ≤ itr) (j l : ℕ) (hj : j < n) (he : G.IsEdge (j + 1) (l + 1)) :
    (st k).e j (G.pos j l) = (st k).e l (G.pos l j) ∧
      (¬ a.CapEdge j l → (st k).iL j (G.pos j l) + (st k).iL l (G.pos l j) = 0) := by
  rcases Nat.eq_zero_or_pos k with rfl | h0
  · obtain ⟨adj, -, rfl, -⟩ := Dadmm.run_ok hrun
    simp [Dadmm.states, Dadmm.start]
  · obtain ⟨deg, adj, hN, rfl, -, hmem, hpos, -⟩ := Dadmm.run_net hG hrun (by omega)
    have hl := (hmem j hj l).2 he
    have hln := hN.lt j hj l hl
    have hl' := hN.symm j hj l hl
    have hc := Dadmm.conserved_states a hN h2 prox k
    rw [← hpos j hj l hl, ← hpos l hln j hl']
    exact ⟨hc.pot j hj l hl, hc.cur j hj l hl⟩

/-- **C42**, for the variants without a capacitor -/
theorem C42_currents (a : Dadmm K) (ha : (∃ R, a = .plain R) ∨ ∃ R h Ind, a = .circuit R h Ind) (n itr : ℕ) (G : NxGraph) (hG : G.Simple)
    (h2 : (2 : K) ≠ 0) (prox : ℕ → V → K → V) (st : ℕ → Dadmm.State V) (hrun : a.run n itr G prox = .ok st) (k : ℕ) (hk : k ≤ itr)
    (j l : ℕ) (hj : j < n) (he : G.IsEdge (j + 1) (l + 1)) :
    (st k).iL j (G.pos j l) + (st k).iL l (G.pos l j) = 0 :=
  (C42_edges a n itr G hG h2 prox st hrun k hk j l hj he).2 (by
    rintro ⟨⟨R, h, Ind, Cap, rfl⟩, -⟩
    rcases ha with ⟨_, h⟩ | ⟨_, _, _, h⟩ <;> cases h)

/-- on the 6-node network of the experiments there is no exception, whatever the operators -/
theorem run_graph6 (a : Dadmm K) (itr : ℕ) (prox : ℕ → V → K → V) : ∃ st, a.run 6 itr graph6 prox = .ok st := by
  have h1 : graph6.adjacency = .ok [[1, 2], [0, 2, 3], [0, 1, 3], [1, 2, 4, 5], [3], [3]] := by rfl
  have h2 : Dadmm.check 6 graph6.nodeDegrees [[1, 2], [0, 2, 3], [0, 1, 3], [1, 2, 4, 5], [3], [3]] = .ok () := by rfl
  refine ⟨a.states (graph6.nodeDegrees.getD · 0) (List.getD [[1, 2], [0, 2, 3], [0, 1, 3], [1, 2, 4, 5], [3], [3]] · []) prox, ?_⟩
  unfold Dadmm.run
  rw [h1]
  simp only [bind, Except.bind]
  split
  · rw [h2]
    rfl
  · rfl

/-- the hypotheses of `C42_edges` can be met: the 6-node network of the experiments, and operators that move the points -/
example : ∃ st, (Dadmm.capacitor 1 2 3 4 : Dadmm ℚ).run 6 10 graph6 (fun j z rho => (z + rho * (j : ℚ)) / (1 + rho)) = .ok st ∧
    graph6.Simple ∧ graph6.IsEdge (3 + 1) (4 + 1) := by
  exact (run_graph6 _ _ _).imp fun st h => ⟨h, NxGraph.simple_graph6, ⟨[2, 3, 5, 6], by decide, by decide⟩⟩

end conserve

section fixed
variable {E : Type} [NormedAddCommGroup E] [InnerProductSpace ℝ E]

/-- **C43.** If an iteration leaves points, currents and potentials unchanged, then all nodes hold the same point and it minimises the sum of
the functions. -/
theorem C43_fixedPoint (a : Dadmm ℝ) (hR : 0 < a.R) (hs : a.stepSize ≠ 0) (hcap : ∀ R h Ind Cap, a = .capacitor R h Ind Cap → h / Cap ≠ 0)
    (n itr : ℕ) (hn : 0 < n) (G : NxGraph) (hG : G.Simple) (hcon : G.Connected n) (F : ℕ → CFun E) (hF : ∀ j < n, ConvexOn ℝ (F j).dom (F j).f)
    (prox : ℕ → E → ℝ → E) (hp : ∀ j < n, ∀ z rho, 0 < rho → (F j).IsProx rho z (prox j z rho)) (st : ℕ → Dadmm.State E)
    (hrun : a.run n itr G prox = .ok st) (k : ℕ) (hk : k < itr) (hx : ∀ j < n, (st (k + 1)).x j = (st k).x j)
    (hi : ∀ j < n, ∀ l, G.IsEdge (j + 1) (l + 1) → (st (k + 1)).iL j (G.pos j l) = (st k).iL j (G.pos j l))
    (he : ∀ j < n, ∀ l, G.IsEdge (j + 1) (l + 1) → (st (k + 1)).e j (G.pos j l) = (st k).e j (G.pos j l)) :
    (∀ j < n, (st k).x j = (st k).x 0) ∧ SumMin n F ((st k).x 0) := by
  obtain ⟨deg, adj, hN, rfl, hd, hmem, hpos, hge⟩ := Dadmm.run_net hG hrun (by omega)
  have hfix : Dadmm.Fixed n adj (a.states deg adj prox k) (a.step deg adj prox (a.states deg adj prox k)) := by
    refine ⟨hx, fun j hj l hl => ?_, fun j hj l hl => ?_⟩
    · have := hi j hj l ((hmem j hj l).1 hl)
      rwa [← hpos j hj l hl] at this
    · have := he j hj l ((hmem j hj l).1 hl)
      rwa [← hpos j hj l hl] at this
  have hc := Dadmm.conserved_states a hN (by norm_num) prox k
  have hall : ∀ j < n, (a.states deg adj prox k).x j = (a.states deg adj prox k).x 0 := by
    intro j hj
    have : ∀ v, Relation.ReflTransGen G.IsEdge (0 + 1) v → v - 1 < n ∧ 1 ≤ v ∧ (a.states deg adj prox k).x (v - 1) = (a.states deg adj prox k).x 0 := by
      intro v hv
      induction hv with
      | refl => exact ⟨hn, le_refl _, rfl⟩
      | @tail u v _ huv ih =>
        obtain ⟨h1, h2, h3⟩ := ih
        obtain ⟨-, h4⟩ := hge u v huv
        have h5 : v - 1 ∈ adj (u - 1) := (hmem _ h1 _).2 (by rwa [Nat.sub_add_cancel h2, Nat.sub_add_cancel h4])
        exact ⟨hN.lt _ h1 _ h5, h4, by rw [← Dadmm.fixed_edge a hs hN hc hfix h1 h5, h3]⟩
    exact (this (j + 1) (hcon 0 hn j hj)).2.2
  exact ⟨hall, (Dadmm.fixed_opt a hR hs hcap hN hd hF hp hc hfix hall).min⟩

/-- the indicator function of the point 5 -/
def five : CFun ℝ := ⟨{5}, fun _ => 0⟩

/-- the hypotheses of `C43_fixedPoint` can be met: a fixed point is reached after one iteration, away from the starting point -/
example (R h Ind : ℝ) (hR : 0 < R) : ∃ st, (Dadmm.circuit R h Ind).run 6 10 graph6 (fun _ _ _ => (5 : ℝ)) = .ok st ∧ graph6.Simple ∧
    graph6.Connected 6 ∧ ConvexOn ℝ five.dom five.f ∧ (∀ z rho : ℝ, 0 < rho → five.IsProx rho z 5) ∧
    (∀ j < 6, (st 2).x j = (st 1).x j) ∧ (∀ j < 6, ∀ l, graph6.IsEdge (j + 1) (l + 1) → (st 2).iL j (graph6.pos j l) = (st 1).iL j (graph6.pos j l)) ∧
    (∀ j < 6, ∀ l, graph6.IsEdge (j + 1) (l + 1) → (st 2).e j (graph6.pos j l) = (st 1).e j (graph6.pos j l)) := by
  obtain ⟨st, hst⟩ := run_graph6 (Dadmm.circuit R h Ind) 10 (fun _ _ _ => (5 : ℝ))
  obtain ⟨deg, adj, hN, h1, hd, hmem, hpos, -⟩ := Dadmm.run_net NxGraph.simple_graph6 hst (by norm_num)
  have hx : ∀ k j, (st (k + 1)).x j = 5 := by intro k j; rw [h1]; rfl
  have hnc : ∀ j l, ¬ (Dadmm.circuit R h Ind).CapEdge j l := by
    rintro j l ⟨⟨_, _, _, _, h⟩, -⟩
    cases h
  have hpot : ∀ k, ∀ j < 6, ∀ l ∈ adj j, (st (k + 1)).e j ((adj j).idxOf l) = 5 := by
    intro k j hj l hl
    have h3 := Dadmm.step_pot_plain (deg := deg) (Dadmm.circuit R h Ind) (fun _ _ _ => (5 : ℝ)) (st k) hl (hnc j l)
    have h4 : st (k + 1) = (Dadmm.circuit R h Ind).step deg adj (fun _ _ _ => (5 : ℝ)) (st k) := by rw [h1]; rfl
    rw [← h4, hx, hx] at h3
    change _ = _ at h3
    unfold Dadmm.State.pot at h3
    rw [h3]
    norm_num
  refine ⟨st, hst, NxGraph.simple_graph6, NxGraph.connected_graph6, ⟨convex_singleton _, fun _ _ _ _ _ _ _ _ _ => by simp [five]⟩, ?_, ?_, ?_, ?_⟩
  · intro z rho _
    refine ⟨rfl, fun y hy => ?_⟩
    rw [Set.mem_singleton_iff.1 hy]
  · intro j _
    rw [hx, hx]
  · intro j hj l hl
    have hl := (hmem j hj l).2 hl
    rw [← hpos j hj l hl]
    have h3 := Dadmm.step_cur (deg := deg) (adj := adj) (Dadmm.circuit R h Ind) (fun _ _ _ => (5 : ℝ)) (st 1) j l
    have h4 : st 2 = (Dadmm.circuit R h Ind).step deg adj (fun _ _ _ => (5 : ℝ)) (st 1) := by rw [h1]; rfl
    rw [← h4, hx] at h3
    unfold Dadmm.State.cur Dadmm.State.pot at h3
    rw [h3, hpot 1 j hj l hl]
    simp
  · intro j hj l hl
    have hl := (hmem j hj l).2 hl
    rw [← hpos j hj l hl, hpot 1 j hj l hl, hpot 0 j hj l hl]

end fixed

end Verif
