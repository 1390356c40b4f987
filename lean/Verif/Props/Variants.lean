import Verif.Props.PgExtra

/-!
# C54: the circuit variants contain the textbook methods

Axioms of every theorem: propext, Classical.choice, Quot.sound.
-/

namespace Verif

section
variable {E : Type} [NormedAddCommGroup E] [InnerProductSpace ℝ E]

theorem Dadmm.states_circuit {K V : Type} [Field K] [AddCommGroup V] [Module K V] (R h : K) (hh : h ≠ 0) (deg : ℕ → ℕ) (adj : ℕ → List ℕ)
    (prox : ℕ → V → K → V) : (Dadmm.circuit R h (h * R)).states deg adj prox = (Dadmm.plain R).states deg adj prox := by
  funext k
  induction k with
  | zero => rfl
  | succ k ih =>
    have hs : (Dadmm.circuit R h (h * R)).stepSize = (Dadmm.plain R).stepSize := by
      change h / (h * R) = 1 / R
      rw [div_mul_eq_div_div, div_self hh]
    change (Dadmm.circuit R h (h * R)).step deg adj prox _ = (Dadmm.plain R).step deg adj prox _
    rw [ih]
    unfold Dadmm.step
    rw [hs]
    rfl

/-- **C54**, decentralised ADMM: `cir_dadmm` with inductance `h R` returns what `dadmm` returns, on every input, the exceptions included. -/
theorem C54_dadmm (R h : ℝ) (hh : h ≠ 0) (n itr : ℕ) (G : NxGraph) (xstar : ℕ → E) (fstar : ℝ) (prox : ℕ → E → ℝ → E) (f : ℕ → E → ℝ) :
    dadmm (.circuit R h (h * R)) n itr G xstar fstar prox f = dadmm (.plain R) n itr G xstar fstar prox f := by
  have h1 : (Dadmm.circuit R h (h * R)).run n itr G prox = (Dadmm.plain R).run n itr G prox := by
    unfold Dadmm.run
    simp only [Dadmm.states_circuit R h hh]
  unfold dadmm
  rw [h1]

theorem PgExtra.states_parC {n : ℕ} {W : ℕ → ℕ → ℝ} {adj : ℕ → List ℕ} {deg : ℕ → ℕ} (hN : Net n deg adj)
    (hr : ∀ j < n, ∑ l ∈ Finset.range n, W j l = 1) (hoff : ∀ j < n, ∀ l < n, j ≠ l → l ∉ adj j → W j l = 0) {R : ℝ} (hR : R ≠ 0) (adj' : ℕ → List ℕ)
    (prox : ℕ → E → ℝ → E) (grad : ℕ → E → E) (k : ℕ) :
    ∀ j < n, ((PgExtra.parC R (1 / 2) 0).states n W adj prox grad k).x j = ((PgExtra.plain R).states n W adj' prox grad k).x j := by
  induction k using Nat.strong_induction_on with
  | _ k ih =>
    cases k with
    | zero => exact fun _ _ => rfl
    | succ k =>
      intro j hj
      rw [PgExtra.parC_step hN hr hoff hR (1 / 2) 0 prox grad k hj, PgExtra.plain_step n W R adj' prox grad k hj]
      congr 1
      have hb : (PgExtra.parC R (1 / 2) 0).coefB = (PgExtra.plain R).coefB := by norm_num [PgExtra.coefB]
      have hL : ∀ x y : ℕ → E, (∀ j < n, x j = y j) → PgExtra.laplace n W x j = PgExtra.laplace n W y j := fun x y h =>
        Finset.sum_congr rfl fun l hl => by rw [h l (Finset.mem_range.1 hl)]
      unfold PgExtra.schemeArg
      rw [hb, ih k (by omega) j hj, hL _ _ (ih k (by omega)), hL (PgExtra.total ((PgExtra.parC R (1 / 2) 0).states n W adj prox grad) (k + 1))
        (PgExtra.total ((PgExtra.plain R).states n W adj' prox grad) (k + 1)) fun l hl => by
          unfold PgExtra.total
          exact Finset.sum_congr rfl fun t ht => ih t (Finset.mem_range.1 ht) l hl]
      rfl

/-- **C54**, PG-EXTRA: with resistance `rho`, `h = 1/2` and no capacitor, a run of `pg_extra_par_c` that raises no exception returns what
`pg_extra` returns, if the rows of `W` sum to one and `W` has nonzero entries only on the diagonal and at edges. -/
theorem C54_pgExtra (rho : ℝ) (hrho : rho ≠ 0) (n itr : ℕ) (W : ℕ → ℕ → ℝ) (G : NxGraph) (hG : G.Simple)
    (hr : ∀ j < n, ∑ l ∈ Finset.range n, W j l = 1) (hoff : ∀ j < n, ∀ l < n, j ≠ l → ¬ G.IsEdge (j + 1) (l + 1) → W j l = 0)
    (xstar : ℕ → E) (fstar : ℝ) (prox : ℕ → E → ℝ → E) (grad : ℕ → E → E) (fh : ℕ → E → ℝ) (r : PgResult)
    (hrun : pgExtra (.parC rho (1 / 2) 0) n itr W G xstar fstar prox grad fh = .ok r) :
    pgExtra (.plain rho) n itr W G xstar fstar prox grad fh = .ok r := by
  unfold pgExtra at hrun ⊢
  cases hst : (PgExtra.parC rho (1 / 2) 0).run n itr W G prox grad with
  | error e => rw [hst] at hrun; cases hrun
  | ok st =>
  rw [hst] at hrun
  cases hrun
  change Except.ok _ = Except.ok _
  rcases Nat.eq_zero_or_pos itr with rfl | h0
  · rfl
  · obtain ⟨deg, adj, hN, rfl, hmem, -⟩ := PgExtra.run_parC_net hG hst (by omega)
    have hx := PgExtra.states_parC hN hr (fun j hj l hl hjl hn => hoff j hj l hl hjl fun he => hn ((hmem j hj l).2 he)) hrho (fun _ => []) prox grad
    refine congrArg Except.ok ?_
    have hd : ∀ k, frobDist n ((PgExtra.plain rho).states n W (fun _ => []) prox grad k).x xstar =
        frobDist n ((PgExtra.parC rho (1 / 2) 0).states n W adj prox grad k).x xstar := by
      intro k
      unfold frobDist
      congr 1
      exact Finset.sum_congr rfl fun j hj => by rw [hx k j (Finset.mem_range.1 hj)]
    simp only [hd, PgResult.mk.injEq, and_true, true_and]
    refine ⟨?_, ?_⟩
    · refine List.map_congr_left fun k _ => Finset.sum_congr rfl fun j hj => ?_
      rw [hx k j (Finset.mem_range.1 hj), hx (k + 1) j (Finset.mem_range.1 hj)]
    · refine List.map_congr_left fun k _ => ?_
      rw [Finset.sum_congr rfl fun j hj => by rw [← hx (k + 1) j (Finset.mem_range.1 hj)]]

/-- the hypotheses of `C54_pgExtra` can be met -/
example (W : ℕ → ℕ → ℝ) (hW : mhWeights 6 graph6 = .ok W) (itr : ℕ) (xstar : ℕ → E) (fstar : ℝ) (prox : ℕ → E → ℝ → E) (grad : ℕ → E → E) (fh : ℕ → E → ℝ) :
    (∃ r, pgExtra (.parC 3 (1 / 2) 0) 6 itr W graph6 xstar fstar prox grad fh = .ok r) ∧ graph6.Simple ∧
    (∀ j < 6, ∑ l ∈ Finset.range 6, W j l = 1) ∧ (∀ j < 6, ∀ l < 6, j ≠ l → ¬ graph6.IsEdge (j + 1) (l + 1) → W j l = 0) := by
  obtain ⟨st, hst⟩ := pgRun_graph6 (PgExtra.parC 3 (1 / 2) 0) itr W prox grad
  refine ⟨⟨_, by unfold pgExtra; rw [hst]; rfl⟩, NxGraph.simple_graph6, (C46_doublyStochastic 6 graph6 NxGraph.simple_graph6 W hW).rows,
    fun j _ l _ hjl he => C46_support 6 graph6 NxGraph.simple_graph6 W hW j l hjl he⟩

end

end Verif
