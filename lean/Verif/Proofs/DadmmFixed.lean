import Verif.Proofs.Dadmm

/-!
# Fixed points of decentralized ADMM; the subgradients behind an iteration
-/

namespace Verif
open scoped InnerProductSpace

namespace Dadmm
variable {E : Type} [NormedAddCommGroup E] [InnerProductSpace ℝ E] {n : ℕ} {deg : ℕ → ℕ} {adj : ℕ → List ℕ}

/-- the subgradient of node `j` behind the new point of an iteration -/
theorem step_sample (a : Dadmm ℝ) (hR : 0 < a.R) (hN : Net n deg adj) (hd : ∀ j < n, deg j ≠ 0) {F : ℕ → CFun E}
    (hF : ∀ j < n, ConvexOn ℝ (F j).dom (F j).f) {prox : ℕ → E → ℝ → E} (hp : ∀ j < n, ∀ z rho, 0 < rho → (F j).IsProx rho z (prox j z rho))
    (s : State E) {j : ℕ} (hj : j < n) :
    (F j).Sample ((a.step deg adj prox s).x j)
      (∑ l ∈ nb adj j, (s.cur adj j l + a.R⁻¹ • (s.pot adj j l - (a.step deg adj prox s).x j))) ((F j).f ((a.step deg adj prox s).x j)) := by
  have hdj : (0 : ℝ) < deg j := by exact_mod_cast Nat.pos_of_ne_zero (hd j hj)
  have h1 := (hp j hj (a.z deg s j) (a.R / deg j) (by positivity)).sample (hF j hj) (by positivity)
  change (F j).Sample ((a.step deg adj prox s).x j) _ ((F j).f ((a.step deg adj prox s).x j)) at h1
  convert h1 using 1
  have hx : prox j (a.z deg s j) (a.R / deg j) = (a.step deg adj prox s).x j := rfl
  rw [hx, a.z_eq hN s hj]
  generalize (a.step deg adj prox s).x j = x
  rw [Finset.sum_add_distrib, ← Finset.smul_sum, Finset.sum_sub_distrib, Finset.sum_const, hN.card hj, Finset.sum_add_distrib, ← Finset.smul_sum,
    ← Nat.cast_smul_eq_nsmul ℝ]
  generalize ∑ l ∈ nb adj j, s.cur adj j l = I
  generalize ∑ l ∈ nb adj j, s.pot adj j l = P
  have hR' := hR.ne'
  have hd' := hdj.ne'
  rw [smul_sub, smul_smul, smul_add, smul_smul, inv_div, smul_sub]
  have e1 : (deg j : ℝ) / a.R * (1 / deg j * a.R) = 1 := by field_simp
  have e2 : (deg j : ℝ) / a.R * (1 / deg j) = a.R⁻¹ := by field_simp
  rw [smul_add, smul_smul, smul_smul, e1, e2, one_smul, div_eq_inv_mul]
  abel

/-- a state that an iteration leaves unchanged (on nodes and edges) -/
structure Fixed (n : ℕ) (adj : ℕ → List ℕ) (s t : State E) : Prop where
  x : ∀ j < n, t.x j = s.x j
  cur : ∀ j < n, ∀ l ∈ adj j, t.cur adj j l = s.cur adj j l
  pot : ∀ j < n, ∀ l ∈ adj j, t.pot adj j l = s.pot adj j l

/-- at a fixed point the potential of an edge is the value of its ends -/
theorem fixed_pot (a : Dadmm ℝ) (hs0 : a.stepSize ≠ 0) {prox : ℕ → E → ℝ → E} {s : State E}
    (hfix : Fixed n adj s (a.step deg adj prox s)) {j l : ℕ} (hj : j < n) (hl : l ∈ adj j) : s.pot adj j l = s.x j := by
  have h1 := hfix.cur j hj l hl
  rw [step_cur, add_eq_left, smul_eq_zero] at h1
  have h2 := sub_eq_zero.1 (h1.resolve_left hs0)
  rw [hfix.pot j hj l hl, hfix.x j hj] at h2
  exact h2

theorem fixed_edge (a : Dadmm ℝ) (hs0 : a.stepSize ≠ 0) (hN : Net n deg adj) {prox : ℕ → E → ℝ → E} {s : State E} (hc : Conserved a n adj s)
    (hfix : Fixed n adj s (a.step deg adj prox s)) {j l : ℕ} (hj : j < n) (hl : l ∈ adj j) : s.x j = s.x l := by
  rw [← fixed_pot a hs0 hfix hj hl, ← fixed_pot a hs0 hfix (hN.lt j hj l hl) (hN.symm j hj l hl), hc.pot j hj l hl]

/-- at a fixed point the currents of every edge are opposite, also on the edge with a capacitor -/
theorem fixed_cur (a : Dadmm ℝ) (hs0 : a.stepSize ≠ 0) (hcap : ∀ R h Ind Cap, a = .capacitor R h Ind Cap → h / Cap ≠ 0) (hN : Net n deg adj)
    {prox : ℕ → E → ℝ → E} {s : State E} (hc : Conserved a n adj s) (hfix : Fixed n adj s (a.step deg adj prox s)) {j l : ℕ} (hj : j < n)
    (hl : l ∈ adj j) : s.cur adj j l + s.cur adj l j = 0 := by
  by_cases hcap' : a.CapEdge j l
  · have h1 := hfix.pot j hj l hl
    rw [step_pot a prox s hl] at h1
    have h2 : (a.step deg adj prox s).x j = s.x j := hfix.x j hj
    have h3 : (a.step deg adj prox s).x l = s.x l := hfix.x l (hN.lt j hj l hl)
    have h4 := fixed_pot a hs0 hfix hj hl
    have h5 := fixed_edge a hs0 hN hc hfix hj hl
    revert h1 h2 h3
    generalize (a.step deg adj prox s).x = x
    obtain ⟨⟨R, h, Ind, Cap, rfl⟩, hjl⟩ := hcap'
    intro h1 h2 h3
    simp only [newEAt, if_pos hjl] at h1
    unfold State.pot at h1 h4
    rw [h2, h3, h4, ← h5, sub_eq_self, smul_eq_zero] at h1
    have h6 := h1.resolve_left (hcap _ _ _ _ rfl)
    have h7 : (2 : ℝ) • s.x j - s.x j - s.x j = 0 := by module
    rw [h7, smul_zero, add_zero] at h6
    exact h6
  · exact hc.cur j hj l hl hcap'

theorem fixed_opt (a : Dadmm ℝ) (hR : 0 < a.R) (hs0 : a.stepSize ≠ 0) (hcap : ∀ R h Ind Cap, a = .capacitor R h Ind Cap → h / Cap ≠ 0)
    (hN : Net n deg adj) (hd : ∀ j < n, deg j ≠ 0) {F : ℕ → CFun E} (hF : ∀ j < n, ConvexOn ℝ (F j).dom (F j).f) {prox : ℕ → E → ℝ → E}
    (hp : ∀ j < n, ∀ z rho, 0 < rho → (F j).IsProx rho z (prox j z rho)) {s : State E} (hc : Conserved a n adj s)
    (hfix : Fixed n adj s (a.step deg adj prox s)) {x : E} (hx : ∀ j < n, s.x j = x) : SumOpt n F x := by
  refine ⟨fun j => ∑ l ∈ nb adj j, s.cur adj j l, fun j hj => ?_, hN.sum_anti fun j hj l hl => fixed_cur a hs0 hcap hN hc hfix hj hl⟩
  have h1 := step_sample a hR hN hd hF hp s hj
  rw [hfix.x j hj, hx j hj] at h1
  have h2 : ∑ l ∈ nb adj j, (s.cur adj j l + a.R⁻¹ • (s.pot adj j l - x)) = ∑ l ∈ nb adj j, s.cur adj j l := by
    refine Finset.sum_congr rfl fun l hl => ?_
    rw [fixed_pot a hs0 hfix hj (mem_nb.1 hl), hx j hj, sub_self, smul_zero, add_zero]
  rw [h2] at h1
  exact h1

end Dadmm
end Verif
