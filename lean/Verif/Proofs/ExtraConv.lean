import Verif.Proofs.PgLimit
import Verif.Props.PgConv
import Verif.Model.OptProblems

/-!
# The loops of the example problems follow the recursion of `Proofs/PgConv`
-/

namespace Verif
open scoped InnerProductSpace
open Filter (Tendsto atTop)

variable {E : Type} [NormedAddCommGroup E] [InnerProductSpace ℝ E]

/-- what the loops need: weights, smooth parts, a solution and a step size -/
structure ExtraSetting (n : ℕ) (W : ℕ → ℕ → ℝ) (alpha : ℝ) (F : ℕ → CFun E) (H : ℕ → E → ℝ) (gr : ℕ → E → E) (L : ℝ) (xh : E) : Prop where
  nodes : 0 < n
  alpha_pos : 0 < alpha
  stochastic : DoublyStochastic n W
  symm : ∀ j < n, ∀ l < n, W j l = W l j
  connected : WeightConnected n W
  smooth : ∀ j < n, ConvexGradient (H j) (gr j) ∧ ∀ x y, ‖gr j x - gr j y‖ ≤ L * ‖x - y‖
  L_nonneg : 0 ≤ L
  opt : ∃ g : ℕ → E, (∀ j < n, (F j).Sample xh (g j) ((F j).f xh)) ∧ ∑ j ∈ Finset.range n, (g j + gr j xh) = 0
  step : ∃ kap, alpha * L / 2 < kap ∧ 0 < kap ∧ ∀ y : ℕ → E, kap * ∑ j ∈ Finset.range n, ‖y j‖ ^ 2 ≤
      ∑ j ∈ Finset.range n, ⟪y j, y j - (1 / 2 : ℝ) • (y j - ∑ l ∈ Finset.range n, W j l • y l)⟫_ℝ

theorem allSome_some {n : ℕ} {f : ℕ → Option E} {x : ℕ → E} (h : allSome n f = some x) : ∀ j < n, f j = some (x j) := by
  unfold allSome at h
  split at h
  · rename_i h1
    cases h
    intro j hj
    have := List.all_eq_true.1 h1 j (List.mem_range.2 hj)
    obtain ⟨v, hv⟩ := Option.isSome_iff_exists.1 this
    simp only [hv, Option.getD_some]
  · cases h

theorem extra_step {n : ℕ} {W : ℕ → ℕ → ℝ} {prox : ℕ → E → Option E} {g : ℕ → E → E} {x0 : ℕ → E} {st : ℕ → ExtraState E}
    (hst : ∀ k, extraStates n W prox g x0 k = some (st k)) (k : ℕ) :
    (∀ j < n, prox j (PgExtra.mix n W (st k).x j - g j ((st k).x j) - (st k).w j) = some ((st (k + 1)).x j)) ∧
      ∀ j, (st (k + 1)).w j = (st k).w j + (1 / 2 : ℝ) • PgExtra.laplace n W (st k).x j := by
  have h1 := hst (k + 1)
  simp only [extraStates, hst k, Option.bind_some, extraStep', Option.map_eq_some_iff] at h1
  obtain ⟨x, h2, h3⟩ := h1
  rw [← h3]
  exact ⟨fun j hj => allSome_some h2 j hj, fun _ => rfl⟩

theorem extra_w {n : ℕ} {W : ℕ → ℕ → ℝ} {prox : ℕ → E → Option E} {g : ℕ → E → E} {x0 : ℕ → E} {st : ℕ → ExtraState E}
    (hst : ∀ k, extraStates n W prox g x0 k = some (st k)) (k j : ℕ) :
    (st k).w j = (1 / 2 : ℝ) • PgExtra.laplace n W (fun l => ∑ t ∈ Finset.range k, (st t).x l) j := by
  induction k with
  | zero =>
    have h0 := hst 0
    simp only [extraStates, Option.some.injEq] at h0
    rw [← h0]
    simp [PgExtra.laplace]
  | succ k ih =>
    rw [(extra_step hst k).2 j, ih]
    have : (fun l => ∑ t ∈ Finset.range (k + 1), (st t).x l) = fun l => (∑ t ∈ Finset.range k, (st t).x l) + (st k).x l :=
      funext fun l => Finset.sum_range_succ _ _
    rw [this, PgExtra.laplace_add, smul_add]

theorem extra_arg {n : ℕ} {W : ℕ → ℕ → ℝ} {prox : ℕ → E → Option E} {g : ℕ → E → E} {x0 : ℕ → E} {st : ℕ → ExtraState E}
    (hst : ∀ k, extraStates n W prox g x0 k = some (st k)) (k : ℕ) {j : ℕ} (hj : j < n) :
    PgExtra.mix n W (st k).x j - g j ((st k).x j) - (st k).w j = (st k).x j - ((1 : ℝ) / 2) • PgExtra.laplace n W (st k).x j -
      (1 / 2 : ℝ) • PgExtra.laplace n W (fun l => ∑ t ∈ Finset.range (k + 1), (st t).x l) j - g j ((st k).x j) := by
  rw [extra_w hst k j, PgExtra.mix_eq _ hj]
  have : (fun l => ∑ t ∈ Finset.range (k + 1), (st t).x l) = fun l => (∑ t ∈ Finset.range k, (st t).x l) + (st k).x l :=
    funext fun l => Finset.sum_range_succ _ _
  rw [this, PgExtra.laplace_add]
  generalize PgExtra.laplace n W (st k).x j = u
  generalize PgExtra.laplace n W (fun l => ∑ t ∈ Finset.range k, (st t).x l) j = v
  have h2 : u = (1 / 2 : ℝ) • u + (1 / 2 : ℝ) • u := by rw [← add_smul, add_halves, one_smul]
  nth_rewrite 1 [h2]
  rw [smul_add]
  abel

/-- `wsq` of the differences, as a quadratic form -/
theorem form_eq {n : ℕ} {W : ℕ → ℕ → ℝ} (hW : DoublyStochastic n W) (y : ℕ → E) :
    ∑ j ∈ Finset.range n, ⟪y j, y j - (1 / 2 : ℝ) • (y j - ∑ l ∈ Finset.range n, W j l • y l)⟫_ℝ =
      ∑ j ∈ Finset.range n, ‖y j‖ ^ 2 - wsq (PgExtra.pairs n) (PgExtra.pw W) (PgExtra.diff y) := by
  have h6 := PgExtra.inner_laplace hW y
  have h7 : wsq (PgExtra.pairs n) (PgExtra.pw W) (PgExtra.diff y) = 1 / 4 * ∑ j ∈ Finset.range n, ∑ l ∈ Finset.range n, W j l * ‖y j - y l‖ ^ 2 := by
    unfold wsq PgExtra.pairs PgExtra.pw PgExtra.diff
    rw [Finset.sum_product, Finset.mul_sum]
    refine Finset.sum_congr rfl fun j _ => ?_
    rw [Finset.mul_sum]
    refine Finset.sum_congr rfl fun l _ => ?_
    simp only
    ring
  have h8 : ∑ j ∈ Finset.range n, ⟪y j, y j - (1 / 2 : ℝ) • (y j - ∑ l ∈ Finset.range n, W j l • y l)⟫_ℝ =
      ∑ j ∈ Finset.range n, ‖y j‖ ^ 2 - 1 / 2 * ∑ j ∈ Finset.range n, ⟪y j, PgExtra.laplace n W y j⟫_ℝ := by
    rw [Finset.mul_sum, ← Finset.sum_sub_distrib]
    refine Finset.sum_congr rfl fun j hj => ?_
    have : PgExtra.laplace n W y j = y j - PgExtra.mix n W y j := by rw [PgExtra.mix_eq y (Finset.mem_range.1 hj)]; abel
    rw [this, PgExtra.mix, inner_sub_right, real_inner_self_eq_norm_sq, real_inner_smul_right]
  rw [h8, h7, ← h6]
  ring

theorem extra_conv {n : ℕ} {W : ℕ → ℕ → ℝ} {alpha L : ℝ} {F : ℕ → CFun E} {H : ℕ → E → ℝ} {gr : ℕ → E → E} {xh : E}
    (hset : ExtraSetting n W alpha F H gr L xh) {prox : ℕ → E → Option E} {g : ℕ → E → E} {x0 : ℕ → E} {st : ℕ → ExtraState E}
    (hst : ∀ k, extraStates n W prox g x0 k = some (st k))
    (hp : ∀ j < n, ∀ z p, prox j z = some p → (F j).Sample p (alpha⁻¹ • (z - p)) ((F j).f p)) (hg : ∀ j < n, ∀ x, g j x = alpha • gr j x) :
    ∃ L' kap gh Ih, alpha * L / 2 < kap ∧ PgExtra.Conv n W 1 (1 / 2) alpha L' kap F H gr (fun k => (st k).x) xh gh Ih := by
  obtain ⟨gh, h1, h2⟩ := hset.opt
  obtain ⟨kap, hk1, hk2, hform⟩ := hset.step
  obtain ⟨Ih, h3, h4⟩ := weighted_flow hset.nodes hset.symm hset.connected (fun j => -(alpha / (2 * (1 / 2))) • (gh j + gr j xh))
    (by rw [← Finset.smul_sum, h2, smul_zero])
  have hr := hset.alpha_pos
  refine ⟨(L + 2 * kap / alpha) / 2, kap, gh, Ih, hk1, ⟨hset.stochastic.nonneg, hset.symm, hset.stochastic.rows, by norm_num, hr, ?_,
    fun j hj => (hset.smooth j hj).1, ?_, ?_, h1, h3, h4, ?_, ?_, by norm_num⟩⟩
  · have : 0 < 2 * kap / alpha := by positivity
    linarith [hset.L_nonneg]
  · intro j hj x y
    refine ((hset.smooth j hj).2 x y).trans (mul_le_mul_of_nonneg_right ?_ (norm_nonneg _))
    have : L ≤ 2 * kap / alpha := by
      rw [le_div_iff₀ hr]
      linarith
    linarith
  · intro k j hj
    have h5 := hp j hj _ _ ((extra_step hst k).1 j hj)
    rw [extra_arg hst k hj, hg j hj] at h5
    exact h5
  · have : alpha * ((L + 2 * kap / alpha) / 2) / 2 = (alpha * L / 2 + kap) / 2 := by
      field_simp
    rw [this]
    linarith
  · intro y
    have h5 := hform y
    rw [form_eq hset.stochastic] at h5
    linarith

/-- if no state is NaN there is a sequence of states; otherwise all late states are NaN -/
theorem extra_cases {n : ℕ} {W : ℕ → ℕ → ℝ} {prox : ℕ → E → Option E} {g : ℕ → E → E} {x0 : ℕ → E} :
    (∃ st : ℕ → ExtraState E, ∀ k, extraStates n W prox g x0 k = some (st k)) ∨ ∃ N, ∀ k, N ≤ k → extraStates n W prox g x0 k = none := by
  by_cases h : ∃ N, extraStates n W prox g x0 N = none
  · obtain ⟨N, hN⟩ := h
    right
    refine ⟨N, fun k hk => ?_⟩
    induction k, hk using Nat.le_induction with
    | base => exact hN
    | succ k _ ih => simp only [extraStates, ih, Option.bind_none]
  · left
    push Not at h
    have : ∀ k, ∃ s, extraStates n W prox g x0 k = some s := fun k => Option.ne_none_iff_exists'.1 (h k)
    exact ⟨fun k => (this k).choose, fun k => (this k).choose_spec⟩

omit [NormedAddCommGroup E] [InnerProductSpace ℝ E] in
/-- entries of a list made from states -/
theorem extra_eventually {S : ℕ → Option (ExtraState E)}
    (hS : (∃ st : ℕ → ExtraState E, ∀ k, S k = some (st k)) ∨ ∃ N, ∀ k, N ≤ k → S k = none) (u : ExtraState E → ℝ)
    (h : ∀ st : ℕ → ExtraState E, (∀ k, S k = some (st k)) → Tendsto (fun k => u (st (k + 1))) atTop (nhds 0)) (eps : ℝ) (he : 0 < eps) :
    ∃ N : ℕ, ∀ (itr k : ℕ) (v : ℝ), N ≤ k → ((List.range itr).map fun k => (S (k + 1)).map u)[k]? = some (some v) → |v| < eps := by
  have get : ∀ (itr k : ℕ) (v : ℝ), ((List.range itr).map fun k => (S (k + 1)).map u)[k]? = some (some v) → (S (k + 1)).map u = some v := by
    intro itr k v h
    rw [List.getElem?_map, Option.map_eq_some_iff] at h
    obtain ⟨k', h1, h4⟩ := h
    rw [List.getElem?_eq_some_iff] at h1
    obtain ⟨h2, h3⟩ := h1
    rw [List.getElem_range] at h3
    subst h3
    exact h4
  rcases hS with ⟨st, hst⟩ | ⟨N, hN⟩
  · obtain ⟨N, hN⟩ := (Metric.tendsto_atTop.1 (h st hst)) eps he
    refine ⟨N, fun itr k v hk hv => ?_⟩
    have h1 := get itr k v hv
    rw [hst, Option.map_some, Option.some.injEq] at h1
    subst h1
    have := hN k hk
    rwa [Real.dist_eq, sub_zero] at this
  · refine ⟨N, fun itr k v hk hv => ?_⟩
    have h1 := get itr k v hv
    rw [hN (k + 1) (by omega)] at h1
    cases h1

/-- Metropolis-Hastings weights on a connected simple graph of degree at most `d` -/
theorem extra_metropolis {n : ℕ} (hn : 0 < n) {G : NxGraph} (hG : G.Simple) (hcon : G.Connected n) {W : ℕ → ℕ → ℝ} (hW : mhWeights n G = .ok W) {d : ℕ}
    (hd : ∀ j < n, G.degree (j + 1) ≤ d) {alpha L : ℝ} (ha : 0 < alpha) (hL : 0 ≤ L) (hstep : alpha * L < 2 / ((d : ℝ) + 1)) {F : ℕ → CFun E}
    {H : ℕ → E → ℝ} {gr : ℕ → E → E} {xh : E} (hH : ∀ j < n, ConvexGradient (H j) (gr j) ∧ ∀ x y, ‖gr j x - gr j y‖ ≤ L * ‖x - y‖)
    (hopt : ∃ g : ℕ → E, (∀ j < n, (F j).Sample xh (g j) ((F j).f xh)) ∧ ∑ j ∈ Finset.range n, (g j + gr j xh) = 0) :
    ExtraSetting n W alpha F H gr L xh := by
  have hD := C46_doublyStochastic n G hG W hW
  refine ⟨hn, ha, hD, fun j _ l _ => C46_symmetric n G hG W hW j l, C46_connected n G hG hcon W hW, hH, hL, hopt, 1 / ((d : ℝ) + 1), ?_, by positivity,
    fun y => ?_⟩
  · have : 2 / ((d : ℝ) + 1) = 2 * (1 / ((d : ℝ) + 1)) := by ring
    linarith
  · have h1 := diagonal_bound (b := 1) (δ := 1 / ((d : ℝ) + 1)) hD (by norm_num) (fun j hj => by
        refine le_trans (one_div_le_one_div_of_le (by positivity) ?_) (C46_diagonal n G hG W hW j hj).1
        have : (G.degree (j + 1) : ℝ) ≤ d := by exact_mod_cast hd j hj
        linarith) y
    rwa [show (1 : ℝ) - 1 * (1 - 1 / ((d : ℝ) + 1)) = 1 / ((d : ℝ) + 1) by ring] at h1

end Verif
