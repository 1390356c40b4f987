import Verif.Proofs.PgConv
import Verif.Props.PgExtra
import Verif.Props.DadmmConv

/-!
# C53: PG-EXTRA converges

Both variants, for convex functions plus convex functions with Lipschitz gradients, under a condition on the step and the mixing matrix.

Axioms of every theorem: propext, Classical.choice, Quot.sound.
-/

namespace Verif
open scoped InnerProductSpace
open Filter (Tendsto atTop)

variable {E : Type} [NormedAddCommGroup E] [InnerProductSpace ℝ E]

/-- `2 + 2 C / h - 2 h` for `pg_extra_par_c`; `1` for `pg_extra`, which is the case `C = 0`, `h = 1 / 2` -/
noncomputable def PgExtra.b : PgExtra ℝ → ℝ
  | .plain _ => 1
  | .parC _ h C => 2 + 2 * C / h - 2 * h

/-- `h`, and `1 / 2` for `pg_extra` -/
noncomputable def PgExtra.h : PgExtra ℝ → ℝ
  | .plain _ => 1 / 2
  | .parC _ h _ => h

/-- what the convergence theorems assume about the problem -/
structure PgExtra.Setting (a : PgExtra ℝ) (n : ℕ) (W : ℕ → ℕ → ℝ) (G : NxGraph) (F : ℕ → CFun E) (prox : ℕ → E → ℝ → E) (H : ℕ → E → ℝ)
    (grad : ℕ → E → E) (L : ℝ) (xh : E) : Prop where
  nodes : 0 < n
  rho_pos : 0 < a.rho
  /-- the matrix -/
  stochastic : DoublyStochastic n W
  symm : ∀ j < n, ∀ l < n, W j l = W l j
  connected : WeightConnected n W
  /-- the variant with capacitors reads the graph: it must have an edge for every nonzero weight -/
  graph : (∃ R h C, a = .parC R h C) → G.Simple ∧ ∀ j < n, ∀ l < n, j ≠ l → W j l ≠ 0 → G.IsEdge (j + 1) (l + 1)
  /-- the functions -/
  convex : ∀ j < n, ConvexOn ℝ (F j).dom (F j).f
  prox : ∀ j < n, ∀ z r, 0 < r → (F j).IsProx r z (prox j z r)
  smooth : ∀ j < n, ConvexGradient (H j) (grad j) ∧ ∀ x y, ‖grad j x - grad j y‖ ≤ L * ‖x - y‖
  L_nonneg : 0 ≤ L
  /-- subgradients and gradients at `xh` cancel -/
  opt : ∃ g : ℕ → E, (∀ j < n, (F j).Sample xh (g j) ((F j).f xh)) ∧ ∑ j ∈ Finset.range n, (g j + grad j xh) = 0
  /-- the steps: `I - b (I - W) / 2` is bounded below by a number above `rho L / 2` -/
  step : 0 < a.h ∧ a.h < a.b ∧ ∃ kap, a.rho * L / 2 < kap ∧ 0 < kap ∧
    ∀ y : ℕ → E, kap * ∑ j ∈ Finset.range n, ‖y j‖ ^ 2 ≤
      ∑ j ∈ Finset.range n, ⟪y j, y j - (a.b / 2) • (y j - ∑ l ∈ Finset.range n, W j l • y l)⟫_ℝ

/-- a flow through the nonzero weights with given divergence -/
theorem weighted_flow {n : ℕ} {W : ℕ → ℕ → ℝ} (hn : 0 < n) (hs : ∀ j < n, ∀ l < n, W j l = W l j) (hcon : WeightConnected n W) (g : ℕ → E)
    (hg : ∑ j ∈ Finset.range n, g j = 0) : ∃ I : ℕ → ℕ → E, (∀ j < n, ∀ l < n, I j l + I l j = 0) ∧
      ∀ j < n, (1 / 2 : ℝ) • ∑ l ∈ Finset.range n, W j l • I j l = g j := by
  classical
  let adj : ℕ → List ℕ := fun j => (List.range n).filter fun l => decide (W j l ≠ 0 ∧ l ≠ j)
  have mem : ∀ j l, l ∈ adj j ↔ l < n ∧ W j l ≠ 0 ∧ l ≠ j := by
    intro j l
    simp [adj, List.mem_filter]
  have hN : Net n (fun j => (adj j).length) adj := by
    refine ⟨fun _ _ => rfl, fun j _ => (List.nodup_range).filter _, fun j _ l hl => ((mem j l).1 hl).1, fun j hj l hl => ?_, fun j _ hl => ((mem j j).1 hl).2.2 rfl⟩
    obtain ⟨h1, h2, h3⟩ := (mem j l).1 hl
    exact (mem l j).2 ⟨hj, by rwa [hs l h1 j hj], Ne.symm h3⟩
  have hreach : ∀ j m, Relation.ReflTransGen (fun a b => b < n ∧ W a b ≠ 0) j m → Relation.ReflTransGen (fun j l => l ∈ adj j) j m := by
    intro j m h
    induction h with
    | refl => exact .refl
    | @tail u v _ huv ih =>
      by_cases huv' : v = u
      · rwa [huv']
      · exact ih.tail ((mem u v).2 ⟨huv.1, huv.2, huv'⟩)
  obtain ⟨i, h1, h2⟩ := flow_exists hn hN (fun j hj => hreach j 0 (hcon j hj 0 hn)) g hg
  refine ⟨fun j l => if W j l ≠ 0 ∧ l ≠ j then (2 / W j l) • i j l else 0, fun j hj l hl => ?_, fun j hj => ?_⟩
  · have e : (W l j ≠ 0 ∧ j ≠ l) ↔ (W j l ≠ 0 ∧ l ≠ j) := by rw [hs l hl j hj, ne_comm (a := j)]
    simp only [e]
    split
    · rw [hs l hl j hj, ← smul_add, h1, smul_zero]
    · rw [add_zero]
  · rw [← h2 j hj, Finset.smul_sum]
    have h3 : nb adj j = (Finset.range n).filter fun l => W j l ≠ 0 ∧ l ≠ j := by
      ext l
      rw [show nb adj j = (adj j).toFinset from rfl, List.mem_toFinset, mem, Finset.mem_filter, Finset.mem_range]
    rw [h3, Finset.sum_filter]
    refine Finset.sum_congr rfl fun l _ => ?_
    by_cases h4 : W j l ≠ 0 ∧ l ≠ j
    · have := h4.1
      simp only [if_pos h4]
      rw [smul_smul, smul_smul]
      rw [show 1 / 2 * W j l * (2 / W j l) = 1 by field_simp, one_smul]
    · simp only [if_neg h4, smul_zero]

/-- the points of a run follow the recursion of `Proofs/PgConv` -/
theorem pgExtra_conv {a : PgExtra ℝ} {n itr : ℕ} {W : ℕ → ℕ → ℝ} {G : NxGraph} {F : ℕ → CFun E} {prox : ℕ → E → ℝ → E} {H : ℕ → E → ℝ}
    {grad : ℕ → E → E} {L : ℝ} {xh : E} (hset : a.Setting n W G F prox H grad L xh) (hi : itr ≠ 0) {st : ℕ → PgExtra.State E}
    (hrun : a.run n itr W G prox grad = .ok st) : ∃ L' kap gh Ih, PgExtra.Conv n W a.b a.h a.rho L' kap F H grad (fun k => (st k).x) xh gh Ih := by
  obtain ⟨g, h1, h2⟩ := hset.opt
  obtain ⟨hh, hgain, kap, hk1, hk2, hform⟩ := hset.step
  obtain ⟨Ih, h3, h4⟩ := weighted_flow hset.nodes hset.symm hset.connected (fun j => -(a.rho / (2 * a.h)) • (g j + grad j xh))
    (by rw [← Finset.smul_sum, h2, smul_zero])
  have hr := hset.rho_pos
  have hstep : ∀ k, ∀ j < n, (st (k + 1)).x j = prox j ((st k).x j - (a.b / 2) • PgExtra.laplace n W (st k).x j -
      a.h • PgExtra.laplace n W (fun l => ∑ t ∈ Finset.range (k + 1), (st t).x l) j - a.rho • grad j ((st k).x j)) a.rho := by
    intro k j hj
    cases a with
    | plain rho =>
      rw [PgExtra.run_plain hrun]
      exact PgExtra.plain_step n W rho (fun _ => []) prox grad k hj
    | parC R h C =>
      obtain ⟨hG, hE⟩ := hset.graph ⟨_, _, _, rfl⟩
      obtain ⟨deg, adj, hN, rfl, hmem, -⟩ := PgExtra.run_parC_net hG hrun hi
      exact PgExtra.parC_step hN hset.stochastic.rows (fun j hj l hl hjl hna => by
        by_contra hW
        exact hna ((hmem j hj l).2 (hE j hj l hl hjl hW))) hr.ne' h C prox grad k hj
  refine ⟨(L + 2 * kap / a.rho) / 2, kap, g, Ih, ⟨hset.stochastic.nonneg, hset.symm, hset.stochastic.rows, hh, hr, ?_, fun j hj => (hset.smooth j hj).1, ?_, ?_,
    h1, h3, h4, ?_, ?_, hgain⟩⟩
  · have : 0 < 2 * kap / a.rho := by positivity
    linarith [hset.L_nonneg]
  · intro j hj x y
    refine ((hset.smooth j hj).2 x y).trans (mul_le_mul_of_nonneg_right ?_ (norm_nonneg _))
    have : L ≤ 2 * kap / a.rho := by
      rw [le_div_iff₀ hr]
      linarith
    linarith
  · intro k j hj
    have h5 := (hset.prox j hj ((st k).x j - (a.b / 2) • PgExtra.laplace n W (st k).x j -
      a.h • PgExtra.laplace n W (fun l => ∑ t ∈ Finset.range (k + 1), (st t).x l) j - a.rho • grad j ((st k).x j)) a.rho hr).sample (hset.convex j hj) hr
    rwa [← hstep k j hj] at h5
  · have : a.rho * ((L + 2 * kap / a.rho) / 2) / 2 = (a.rho * L / 2 + kap) / 2 := by
      field_simp
    rw [this]
    linarith
  · intro y
    have h5 := hform y
    have h6 := PgExtra.inner_laplace hset.stochastic y
    have h7 : wsq (PgExtra.pairs n) (PgExtra.pw W) (PgExtra.diff y) = 1 / 4 * ∑ j ∈ Finset.range n, ∑ l ∈ Finset.range n, W j l * ‖y j - y l‖ ^ 2 := by
      unfold wsq PgExtra.pairs PgExtra.pw PgExtra.diff
      rw [Finset.sum_product, Finset.mul_sum]
      refine Finset.sum_congr rfl fun j _ => ?_
      rw [Finset.mul_sum]
      refine Finset.sum_congr rfl fun l _ => ?_
      simp only
      ring
    have h8 : ∑ j ∈ Finset.range n, ⟪y j, y j - (a.b / 2) • (y j - ∑ l ∈ Finset.range n, W j l • y l)⟫_ℝ =
        ∑ j ∈ Finset.range n, ‖y j‖ ^ 2 - a.b / 2 * ∑ j ∈ Finset.range n, ⟪y j, PgExtra.laplace n W y j⟫_ℝ := by
      rw [Finset.mul_sum, ← Finset.sum_sub_distrib]
      refine Finset.sum_congr rfl fun j hj => ?_
      have : PgExtra.laplace n W y j = y j - PgExtra.mix n W y j := by rw [PgExtra.mix_eq y (Finset.mem_range.1 hj)]; abel
      rw [this, PgExtra.mix, inner_sub_right, real_inner_self_eq_norm_sq, real_inner_smul_right]
    rw [h8] at h5
    rw [h7, ← h6]
    linarith

section theorems
variable (a : PgExtra ℝ) (n : ℕ) (W : ℕ → ℕ → ℝ) (G : NxGraph) (F : ℕ → CFun E) (prox : ℕ → E → ℝ → E) (H : ℕ → E → ℝ)
    (grad : ℕ → E → E) (L : ℝ) (xh : E) (hset : a.Setting n W G F prox H grad L xh)
include hset

/-- **C53**, values: the sum of all functions at the points of the iterations tends to the minimum. -/
theorem C53_values (itr : ℕ) (hi : itr ≠ 0) (st : ℕ → PgExtra.State E) (hrun : a.run n itr W G prox grad = .ok st) :
    Tendsto (fun k => ∑ j ∈ Finset.range n, ((F j).f ((st (k + 1)).x j) + H j ((st (k + 1)).x j))) atTop
      (nhds (∑ j ∈ Finset.range n, ((F j).f xh + H j xh))) ∧ SumMin n (fun j => (F j).plus (H j)) xh := by
  obtain ⟨L', kap, gh, Ih, hC⟩ := pgExtra_conv hset hi hrun
  obtain ⟨g, h1, h2⟩ := hset.opt
  exact ⟨hC.values_tendsto, (sumMin_of_samples (fun j hj => (hset.smooth j hj).1) h1 h2).min⟩

/-- **C53**, agreement: the points of any two nodes approach each other. -/
theorem C53_consensus (itr : ℕ) (hi : itr ≠ 0) (st : ℕ → PgExtra.State E) (hrun : a.run n itr W G prox grad = .ok st) (j l : ℕ)
    (hj : j < n) (hl : l < n) : Tendsto (fun k => (st (k + 1)).x j - (st (k + 1)).x l) atTop (nhds 0) := by
  obtain ⟨L', kap, gh, Ih, hC⟩ := pgExtra_conv hset hi hrun
  have edge : ∀ u < n, ∀ v < n, W u v ≠ 0 → Tendsto (fun k => (st (k + 1)).x u - (st (k + 1)).x v) atTop (nhds 0) := by
    intro u hu v hv huv
    have hpos : 0 < W u v / 4 := by
      have := lt_of_le_of_ne (hset.stochastic.nonneg u hu v hv) (Ne.symm huv)
      positivity
    have h1 : Tendsto (fun k => (W u v / 4)⁻¹ * PgExtra.esq n W (PgExtra.diff (st (k + 1)).x)) atTop (nhds 0) := by
      simpa using hC.esq_tendsto.const_mul (W u v / 4)⁻¹
    refine squeeze_zero_norm (fun k => ?_) (by simpa using h1.sqrt)
    refine Real.le_sqrt_of_sq_le ?_
    rw [show (4 : ℝ) / W u v = (W u v / 4)⁻¹ by rw [inv_div], inv_mul_eq_div, le_div_iff₀ hpos, mul_comm]
    have h2 : (u, v) ∈ PgExtra.pairs n := Finset.mem_product.2 ⟨Finset.mem_range.2 hu, Finset.mem_range.2 hv⟩
    exact Finset.single_le_sum (f := fun p => PgExtra.pw W p * ‖PgExtra.diff (st (k + 1)).x p‖ ^ 2)
      (fun p hp => mul_nonneg (hC.pw_nonneg p hp) (by positivity)) h2
  have : ∀ b, Relation.ReflTransGen (fun a b => b < n ∧ W a b ≠ 0) j b →
      b < n ∧ Tendsto (fun k => (st (k + 1)).x j - (st (k + 1)).x b) atTop (nhds 0) := by
    intro b hb
    induction hb with
    | refl => exact ⟨hj, by simp⟩
    | tail _ hbc ih => exact ⟨hbc.1, by simpa using ih.2.add (edge _ ih.1 _ hbc.1 hbc.2)⟩
  exact (this l (hset.connected j hj l hl)).2

omit hset in
/-- the lists returned by `pg_extra` do not depend on the number of iterations but for their length -/
theorem pgExtra_ok {itr : ℕ} {xstar : ℕ → E} {fstar : ℝ} {fh : ℕ → E → ℝ} {res : PgResult}
    (h : pgExtra a n itr W G xstar fstar prox grad fh = .ok res) : ∃ st, a.run n itr W G prox grad = .ok st ∧ (itr ≠ 0 → a.run n 1 W G prox grad = .ok st) ∧
      res.opNorm = (List.range itr).map (fun k => ∑ j ∈ Finset.range n, ‖(st (k + 1)).x j - (st k).x j‖ ^ 2) ∧
      res.errOptStar = (List.range itr).map (fun k => frobDist n (st (k + 1)).x xstar) ∧
      res.fReldiff = (List.range itr).map (fun k => |(∑ j ∈ Finset.range n, fh j ((st (k + 1)).x j) - fstar) / fstar|) := by
  unfold pgExtra at h
  cases hr : a.run n itr W G prox grad with
  | error e => rw [hr] at h; simp [bind, Except.bind] at h
  | ok st =>
    rw [hr] at h
    simp only [bind, Except.bind, pure, Except.pure, Except.ok.injEq] at h
    subst h
    refine ⟨st, rfl, fun hi => ?_, rfl, rfl, rfl⟩
    cases a with
    | plain rho => exact hr
    | parC R h C =>
      obtain ⟨adj, h5, h6, h7⟩ := PgExtra.run_parC_iff.1 hr
      exact PgExtra.run_parC_iff.2 ⟨adj, h5, fun _ => h6 hi, h7⟩

omit hset in
theorem pg_eventually (u : (ℕ → PgExtra.State E) → ℕ → ℝ) (h : ∀ st, a.run n 1 W G prox grad = .ok st → Tendsto (u st) atTop (nhds 0)) (eps : ℝ)
    (he : 0 < eps) : ∃ N : ℕ, ∀ (itr : ℕ) (st : ℕ → PgExtra.State E), (itr ≠ 0 → a.run n 1 W G prox grad = .ok st) → ∀ (k : ℕ) (v : ℝ), N ≤ k →
      ((List.range itr).map (u st))[k]? = some v → |v| < eps := by
  by_cases hrun : ∃ st, a.run n 1 W G prox grad = .ok st
  · obtain ⟨st, hst⟩ := hrun
    obtain ⟨N, hN⟩ := (Metric.tendsto_atTop.1 (h st hst)) eps he
    refine ⟨N, fun itr st' hst' k v hk hv => ?_⟩
    obtain ⟨h1, rfl⟩ := get_range_map hv
    have h2 := hst' (by omega)
    rw [hst] at h2
    cases h2
    have := hN k hk
    rwa [Real.dist_eq, sub_zero] at this
  · refine ⟨0, fun itr st' hst' k v hk hv => ?_⟩
    obtain ⟨h1, -⟩ := get_range_map hv
    exact absurd ⟨st', hst' (by omega)⟩ hrun

omit hset in
theorem pg_bounded (u : (ℕ → PgExtra.State E) → ℕ → ℝ) (h : ∀ st, a.run n 1 W G prox grad = .ok st → ∃ B, 0 ≤ B ∧ ∀ m, ∑ k ∈ Finset.range m, u st k ≤ B) :
    ∃ B : ℝ, ∀ (itr : ℕ) (st : ℕ → PgExtra.State E), (itr ≠ 0 → a.run n 1 W G prox grad = .ok st) → ((List.range itr).map (u st)).sum ≤ B := by
  by_cases hrun : ∃ st, a.run n 1 W G prox grad = .ok st
  · obtain ⟨st, hst⟩ := hrun
    obtain ⟨B, hB0, hB⟩ := h st hst
    refine ⟨B, fun itr st' hst' => ?_⟩
    rcases Nat.eq_zero_or_pos itr with rfl | h0
    · simpa using hB0
    · have h2 := hst' (by omega)
      rw [hst] at h2
      cases h2
      rw [list_sum_range]
      exact hB itr
  · refine ⟨0, fun itr st' hst' => ?_⟩
    rcases Nat.eq_zero_or_pos itr with rfl | h0
    · simp
    · exact absurd ⟨st', hst' (by omega)⟩ hrun

/-- **C53**, movement: the sum of the squared changes of the points that `pg_extra` returns is bounded, whatever the number of iterations. -/
theorem C53_opNorm_sum : ∃ B : ℝ, ∀ (itr : ℕ) (xstar : ℕ → E) (fstar : ℝ) (fh : ℕ → E → ℝ) (res : PgResult),
    pgExtra a n itr W G xstar fstar prox grad fh = .ok res → res.opNorm.sum ≤ B := by
  obtain ⟨B, hB⟩ := pg_bounded a n W G prox grad (fun st k => ∑ j ∈ Finset.range n, ‖(st (k + 1)).x j - (st k).x j‖ ^ 2) fun st hst => by
    obtain ⟨L', kap, gh, Ih, hC⟩ := pgExtra_conv hset one_ne_zero hst
    have hpos : 0 < 1 / 2 * (kap - a.rho * L' / 2) := by linarith [hC.kap_pos]
    refine ⟨PgExtra.energy n W a.b a.h (fun k => (st k).x) xh Ih 0 / (1 / 2 * (kap - a.rho * L' / 2)), div_nonneg (hC.energy_nonneg 0) hpos.le, fun m => ?_⟩
    have h5 := hC.sum_part (u := fun k => 1 / 2 * (kap - a.rho * L' / 2) * PgExtra.nsq n ((st k).x - (st (k + 1)).x)) (fun k => by
      obtain ⟨h3, h4, h5⟩ := hC.terms_nonneg k
      linarith) m
    rw [le_div_iff₀ hpos, mul_comm]
    rw [← Finset.mul_sum] at h5
    refine le_trans (le_of_eq ?_) h5
    congr 1
    refine Finset.sum_congr rfl fun k _ => ?_
    rw [PgExtra.nsq_eq]
    refine Finset.sum_congr rfl fun j _ => ?_
    rw [Pi.sub_apply, norm_sub_rev]
  refine ⟨B, fun itr xstar fstar fh res h => ?_⟩
  obtain ⟨st, -, h1, h2, -, -⟩ := pgExtra_ok a n W G prox grad h
  rw [h2]
  exact hB itr st h1

/-- **C53**, reported values: the relative differences of values that `pg_extra` returns tend to zero. -/
theorem C53_fReldiff (xstar : ℕ → E) (eps : ℝ) (he : 0 < eps) :
    ∃ N : ℕ, ∀ (itr : ℕ) (res : PgResult), pgExtra a n itr W G xstar (∑ j ∈ Finset.range n, ((F j).f xh + H j xh)) prox grad
      (fun j x => (F j).f x + H j x) = .ok res → ∀ (k : ℕ) (v : ℝ), N ≤ k → res.fReldiff[k]? = some v → |v| < eps := by
  set fs := ∑ j ∈ Finset.range n, ((F j).f xh + H j xh) with hfs
  obtain ⟨N, hN⟩ := pg_eventually a n W G prox grad
    (fun st k => |(∑ j ∈ Finset.range n, ((F j).f ((st (k + 1)).x j) + H j ((st (k + 1)).x j)) - fs) / fs|) (fun st hst => by
      have h1 := (C53_values a n W G F prox H grad L xh hset 1 one_ne_zero st hst).1
      have h2 := ((h1.sub_const fs).div_const fs).abs
      rwa [← hfs, sub_self, zero_div, abs_zero] at h2) eps he
  refine ⟨N, fun itr res hres k v hk hv => ?_⟩
  obtain ⟨st, -, h1, -, -, h2⟩ := pgExtra_ok a n W G prox grad hres
  rw [h2] at hv
  exact hN itr st h1 k v hk hv

/-- **C53**, distances: if the nonsmooth parts are strongly convex, the squared distances to the solution that `pg_extra` reports have a bounded
sum, whatever the number of iterations. -/
theorem C53_errOptStar_sum (mu : ℝ) (hmu : 0 < mu) (hF : ∀ j < n, StrongConvexOn (F j).dom mu (F j).f) (fstar : ℝ) (fh : ℕ → E → ℝ) :
    ∃ B : ℝ, ∀ (itr : ℕ) (res : PgResult), pgExtra a n itr W G (fun _ => xh) fstar prox grad fh = .ok res →
      (res.errOptStar.map (· ^ 2)).sum ≤ B := by
  obtain ⟨B, hB⟩ := pg_bounded a n W G prox grad (fun st k => frobDist n (st (k + 1)).x (fun _ => xh) ^ 2) fun st hst => by
    obtain ⟨L', kap, gh, Ih, hC⟩ := pgExtra_conv hset one_ne_zero hst
    have hpos : 0 < a.rho * mu := mul_pos hset.rho_pos hmu
    refine ⟨PgExtra.energy n W a.b a.h (fun k => (st k).x) xh Ih 0 / (a.rho * mu), div_nonneg (hC.energy_nonneg 0) hpos.le, fun m => ?_⟩
    have h5 := hC.sum_part (u := fun k => a.rho * mu * PgExtra.nsq n ((st (k + 1)).x - fun _ => xh)) (fun k => by
      obtain ⟨h3, h4, h5⟩ := hC.terms_nonneg k
      have h6 := mul_le_mul_of_nonneg_left (hC.mono_strong hF k) hset.rho_pos.le
      rw [← mul_assoc] at h6
      linarith) m
    rw [le_div_iff₀ hpos, mul_comm]
    rw [← Finset.mul_sum] at h5
    refine le_trans (le_of_eq ?_) h5
    congr 1
    refine Finset.sum_congr rfl fun k _ => ?_
    rw [frobDist, Real.sq_sqrt (Finset.sum_nonneg fun _ _ => by positivity), PgExtra.nsq_eq]
    rfl
  refine ⟨B, fun itr res h => ?_⟩
  obtain ⟨st, -, h1, -, h2, -⟩ := pgExtra_ok a n W G prox grad h
  rw [h2, List.map_map]
  exact hB itr st h1

/-- **C53**, distances: they tend to zero. -/
theorem C53_errOptStar (mu : ℝ) (hmu : 0 < mu) (hF : ∀ j < n, StrongConvexOn (F j).dom mu (F j).f) (fstar : ℝ) (fh : ℕ → E → ℝ)
    (eps : ℝ) (he : 0 < eps) :
    ∃ N : ℕ, ∀ (itr : ℕ) (res : PgResult), pgExtra a n itr W G (fun _ => xh) fstar prox grad fh = .ok res →
      ∀ (k : ℕ) (v : ℝ), N ≤ k → res.errOptStar[k]? = some v → |v| < eps := by
  obtain ⟨N, hN⟩ := pg_eventually a n W G prox grad (fun st k => frobDist n (st (k + 1)).x fun _ => xh) (fun st hst => by
      obtain ⟨L', kap, gh, Ih, hC⟩ := pgExtra_conv hset one_ne_zero hst
      have hpos : 0 < a.rho * mu := mul_pos hset.rho_pos hmu
      have h1 : Tendsto (fun k => a.rho * mu * PgExtra.nsq n ((st (k + 1)).x - fun _ => xh)) atTop (nhds 0) :=
        Dadmm.tendsto_zero_of_sum_le (fun k => mul_nonneg hpos.le (PgExtra.nsq_nonneg _)) (hC.sum_part fun k => by
          obtain ⟨h3, h4, h5⟩ := hC.terms_nonneg k
          have h6 := mul_le_mul_of_nonneg_left (hC.mono_strong hF k) hset.rho_pos.le
          rw [← mul_assoc] at h6
          linarith)
      have h2 := (h1.const_mul (a.rho * mu)⁻¹).sqrt
      rw [mul_zero, Real.sqrt_zero] at h2
      refine h2.congr fun k => ?_
      rw [inv_mul_cancel_left₀ hpos.ne', PgExtra.nsq_eq]
      rfl) eps he
  refine ⟨N, fun itr res hres k v hk hv => ?_⟩
  obtain ⟨st, -, h1, -, h2, -⟩ := pgExtra_ok a n W G prox grad hres
  rw [h2] at hv
  exact hN itr st h1 k v hk hv

end theorems

/-- a lower bound `δ` of the diagonal of `W` gives the bound `1 - b (1 - δ)` for `I - b (I - W) / 2` -/
theorem diagonal_bound {n : ℕ} {W : ℕ → ℕ → ℝ} (hW : DoublyStochastic n W) {b δ : ℝ} (hb : 0 ≤ b) (hδ : ∀ j < n, δ ≤ W j j) (y : ℕ → E) :
    (1 - b * (1 - δ)) * ∑ j ∈ Finset.range n, ‖y j‖ ^ 2 ≤
      ∑ j ∈ Finset.range n, ⟪y j, y j - (b / 2) • (y j - ∑ l ∈ Finset.range n, W j l • y l)⟫_ℝ := by
  have h8 : ∑ j ∈ Finset.range n, ⟪y j, y j - (b / 2) • (y j - ∑ l ∈ Finset.range n, W j l • y l)⟫_ℝ =
      ∑ j ∈ Finset.range n, ‖y j‖ ^ 2 - b / 2 * ∑ j ∈ Finset.range n, ⟪y j, PgExtra.laplace n W y j⟫_ℝ := by
    rw [Finset.mul_sum, ← Finset.sum_sub_distrib]
    refine Finset.sum_congr rfl fun j hj => ?_
    have : PgExtra.laplace n W y j = y j - PgExtra.mix n W y j := by rw [PgExtra.mix_eq y (Finset.mem_range.1 hj)]; abel
    rw [this, PgExtra.mix, inner_sub_right, real_inner_self_eq_norm_sq, real_inner_smul_right]
  have h6 := PgExtra.inner_laplace hW y
  have h9 : ∑ j ∈ Finset.range n, ∑ l ∈ Finset.range n, W j l * ‖y j - y l‖ ^ 2 ≤ 4 * (1 - δ) * ∑ j ∈ Finset.range n, ‖y j‖ ^ 2 := by
    have h1 : ∀ j ∈ Finset.range n, ∀ l ∈ Finset.range n, W j l * ‖y j - y l‖ ^ 2 ≤
        2 * (W j l * ‖y j‖ ^ 2) + 2 * (W j l * ‖y l‖ ^ 2) - if j = l then 4 * (W j j * ‖y j‖ ^ 2) else 0 := by
      intro j hj l hl
      have hw := hW.nonneg j (Finset.mem_range.1 hj) l (Finset.mem_range.1 hl)
      split
      · rename_i h; subst h
        simp
        linarith
      · have h2 : ‖y j - y l‖ ^ 2 ≤ 2 * ‖y j‖ ^ 2 + 2 * ‖y l‖ ^ 2 := by
          have h3 := norm_sub_sq_real (y j) (y l)
          have h4 := norm_add_sq_real (y j) (y l)
          have h5 : 0 ≤ ‖y j + y l‖ ^ 2 := by positivity
          linarith
        have := mul_le_mul_of_nonneg_left h2 hw
        linarith
    refine (Finset.sum_le_sum fun j hj => Finset.sum_le_sum fun l hl => h1 j hj l hl).trans ?_
    simp only [Finset.sum_sub_distrib, Finset.sum_add_distrib, Finset.sum_ite_eq]
    have e1 : ∑ j ∈ Finset.range n, ∑ l ∈ Finset.range n, W j l * ‖y j‖ ^ 2 = ∑ j ∈ Finset.range n, ‖y j‖ ^ 2 :=
      Finset.sum_congr rfl fun j hj => by rw [← Finset.sum_mul, hW.rows j (Finset.mem_range.1 hj), one_mul]
    have e2 : ∑ j ∈ Finset.range n, ∑ l ∈ Finset.range n, W j l * ‖y l‖ ^ 2 = ∑ j ∈ Finset.range n, ‖y j‖ ^ 2 := by
      rw [Finset.sum_comm]
      exact Finset.sum_congr rfl fun j hj => by rw [← Finset.sum_mul, hW.cols j (Finset.mem_range.1 hj), one_mul]
    have e3 : δ * ∑ j ∈ Finset.range n, ‖y j‖ ^ 2 ≤ ∑ j ∈ Finset.range n, W j j * ‖y j‖ ^ 2 := by
      rw [Finset.mul_sum]
      exact Finset.sum_le_sum fun j hj => mul_le_mul_of_nonneg_right (hδ j (Finset.mem_range.1 hj)) (by positivity)
    have e4 : ∑ j ∈ Finset.range n, (if j ∈ Finset.range n then 4 * (W j j * ‖y j‖ ^ 2) else 0) = 4 * ∑ j ∈ Finset.range n, W j j * ‖y j‖ ^ 2 := by
      rw [Finset.mul_sum]
      exact Finset.sum_congr rfl fun j hj => if_pos hj
    have e5 : ∀ f : ℕ → ℕ → ℝ, ∑ j ∈ Finset.range n, ∑ l ∈ Finset.range n, 2 * f j l = 2 * ∑ j ∈ Finset.range n, ∑ l ∈ Finset.range n, f j l := by
      intro f
      simp only [Finset.mul_sum]
    rw [e5, e5, e4, e1, e2]
    linarith
  rw [h8]
  nlinarith [mul_le_mul_of_nonneg_left h9 hb]

/-- **C53** for the code's own matrices: on a connected simple graph of degree at most `d`, with Metropolis-Hastings weights, the assumptions of
the C53 theorems hold as soon as `rho L < 2 (1 - b d / (d + 1))` and `0 < h < b`. -/
theorem C53_metropolis (a : PgExtra ℝ) (hrho : 0 < a.rho) (n : ℕ) (hn : 0 < n) (G : NxGraph) (hG : G.Simple) (hcon : G.Connected n) (W : ℕ → ℕ → ℝ)
    (hW : mhWeights n G = .ok W) (d : ℕ) (hd : ∀ j < n, G.degree (j + 1) ≤ d) (F : ℕ → CFun E) (prox : ℕ → E → ℝ → E) (H : ℕ → E → ℝ)
    (grad : ℕ → E → E) (L : ℝ) (hL : 0 ≤ L) (xh : E) (hF : ∀ j < n, ConvexOn ℝ (F j).dom (F j).f)
    (hp : ∀ j < n, ∀ z r, 0 < r → (F j).IsProx r z (prox j z r))
    (hH : ∀ j < n, ConvexGradient (H j) (grad j) ∧ ∀ x y, ‖grad j x - grad j y‖ ≤ L * ‖x - y‖)
    (hopt : ∃ g : ℕ → E, (∀ j < n, (F j).Sample xh (g j) ((F j).f xh)) ∧ ∑ j ∈ Finset.range n, (g j + grad j xh) = 0)
    (hh : 0 < a.h) (hb : a.h < a.b) (hpos : 0 < 1 - a.b * (d / ((d : ℝ) + 1))) (hstep : a.rho * L < 2 * (1 - a.b * (d / ((d : ℝ) + 1)))) :
    a.Setting n W G F prox H grad L xh := by
  have hD := C46_doublyStochastic n G hG W hW
  refine ⟨hn, hrho, hD, fun j _ l _ => C46_symmetric n G hG W hW j l, C46_connected n G hG hcon W hW, fun _ => ⟨hG, fun j _ l _ hjl hw => ?_⟩, hF, hp,
    hH, hL, hopt, ?_⟩
  · by_contra he
    exact hw (C46_support n G hG W hW j l hjl he)
  · refine ⟨hh, hb, 1 - a.b * (d / ((d : ℝ) + 1)), by linarith, hpos, fun y => ?_⟩
    have h1 := diagonal_bound (b := a.b) (δ := 1 / ((d : ℝ) + 1)) hD (by linarith) (fun j hj => by
        refine le_trans (one_div_le_one_div_of_le (by positivity) ?_) (C46_diagonal n G hG W hW j hj).1
        have : (G.degree (j + 1) : ℝ) ≤ d := by exact_mod_cast hd j hj
        linarith) y
    rwa [show (1 : ℝ) - 1 / ((d : ℝ) + 1) = d / ((d : ℝ) + 1) by field_simp; ring] at h1

/-- for `pg_extra` the condition is `rho L < 2 / (d + 1)`; without smooth parts every positive `rho` will do -/
theorem C53_metropolis_plain (rho : ℝ) (hrho : 0 < rho) (n : ℕ) (hn : 0 < n) (G : NxGraph) (hG : G.Simple) (hcon : G.Connected n) (W : ℕ → ℕ → ℝ)
    (hW : mhWeights n G = .ok W) (d : ℕ) (hd : ∀ j < n, G.degree (j + 1) ≤ d) (F : ℕ → CFun E) (prox : ℕ → E → ℝ → E) (H : ℕ → E → ℝ)
    (grad : ℕ → E → E) (L : ℝ) (hL : 0 ≤ L) (xh : E) (hF : ∀ j < n, ConvexOn ℝ (F j).dom (F j).f)
    (hp : ∀ j < n, ∀ z r, 0 < r → (F j).IsProx r z (prox j z r))
    (hH : ∀ j < n, ConvexGradient (H j) (grad j) ∧ ∀ x y, ‖grad j x - grad j y‖ ≤ L * ‖x - y‖)
    (hopt : ∃ g : ℕ → E, (∀ j < n, (F j).Sample xh (g j) ((F j).f xh)) ∧ ∑ j ∈ Finset.range n, (g j + grad j xh) = 0)
    (hstep : rho * L < 2 / ((d : ℝ) + 1)) : (PgExtra.plain rho).Setting n W G F prox H grad L xh := by
  have e : 1 - (PgExtra.plain rho).b * (d / ((d : ℝ) + 1)) = 1 / ((d : ℝ) + 1) := by
    simp only [PgExtra.b]
    field_simp
    ring
  refine C53_metropolis (.plain rho) hrho n hn G hG hcon W hW d hd F prox H grad L hL xh hF hp hH hopt (by norm_num [PgExtra.h])
    (by norm_num [PgExtra.h, PgExtra.b]) ?_ ?_
  · rw [e]; positivity
  · rw [e, mul_one_div]
    exact hstep

/-! ### A concrete case: node `j` holds `(x - j)² / 2` and, as its smooth part, `x² / 2` -/

theorem halfSq_gradient : ConvexGradient (fun x : ℝ => x ^ 2 / 2) (fun x => x) := by
  refine ⟨?_, fun x => ?_⟩
  · refine ⟨convex_univ, fun x _ y _ p q hp hq hpq => ?_⟩
    have hq' : q = 1 - p := by linarith
    subst hq'
    simp only [smul_eq_mul]
    nlinarith [sq_nonneg (x - y), mul_nonneg hp hq]
  · have h1 : HasDerivAt (fun x : ℝ => x ^ 2 / 2) x x := by
      have := (hasDerivAt_pow 2 x).div_const 2
      simpa using this
    refine h1.hasFDerivAt.congr_fderiv ?_
    ext
    simp

/-- the hypotheses of the C53 theorems can be met by both variants -/
example (W : ℕ → ℕ → ℝ) (hW : mhWeights 6 graph6 = .ok W) :
    (PgExtra.plain (1 / 4)).Setting 6 W graph6 quadAt (fun j z r => (z + r * j) / (1 + r)) (fun _ x => x ^ 2 / 2) (fun _ x => x) 1 (5 / 4) ∧
    (PgExtra.parC (1 / 4) (1 / 2) (1 / 100)).Setting 6 W graph6 quadAt (fun j z r => (z + r * j) / (1 + r)) (fun _ x => x ^ 2 / 2) (fun _ x => x) 1
      (5 / 4) ∧
    (∃ st, (PgExtra.parC (1 / 4) (1 / 2) (1 / 100) : PgExtra ℝ).run 6 1000 W graph6 (fun j z r => (z + r * (j : ℝ)) / (1 + r)) (fun _ x => x) = .ok st) ∧
    (∀ j < 6, StrongConvexOn (quadAt j).dom (1 : ℝ) (quadAt j).f) := by
  have hd : ∀ j < 6, graph6.degree (j + 1) ≤ 4 := by decide
  have hopt : ∃ g : ℕ → ℝ, (∀ j < 6, (quadAt j).Sample (5 / 4) (g j) ((quadAt j).f (5 / 4))) ∧ ∑ j ∈ Finset.range 6, (g j + 5 / 4) = 0 := by
    refine ⟨fun j => 5 / 4 - j, fun j _ => ⟨trivial, rfl, fun y _ => ?_⟩, ?_⟩
    · simp only [quadAt]
      change (5 / 4 - (j : ℝ)) ^ 2 / 2 + (y - 5 / 4) * (5 / 4 - (j : ℝ)) ≤ (y - j) ^ 2 / 2
      nlinarith [sq_nonneg (y - 5 / 4)]
    · simp [Finset.sum_range_succ]
      norm_num
  have hH : ∀ j < 6, ConvexGradient ((fun (_ : ℕ) (x : ℝ) => x ^ 2 / 2) j) ((fun (_ : ℕ) (x : ℝ) => x) j) ∧
      ∀ x y : ℝ, ‖(fun (_ : ℕ) (x : ℝ) => x) j x - (fun (_ : ℕ) (x : ℝ) => x) j y‖ ≤ 1 * ‖x - y‖ := fun j _ => ⟨halfSq_gradient, fun x y => by simp⟩
  have hF : ∀ j < 6, ConvexOn ℝ (quadAt j).dom (quadAt j).f := fun j _ => (quadAt_strong j).convexOn (fun r => by positivity)
  refine ⟨?_, ?_, pgRun_graph6 _ _ _ _ _, fun j _ => quadAt_strong j⟩
  · exact C53_metropolis_plain (1 / 4) (by norm_num) 6 (by norm_num) graph6 NxGraph.simple_graph6 NxGraph.connected_graph6 W hW 4 hd _ _ _ _ 1 zero_le_one _
      hF (fun j _ z r h => quadAt_prox j z r h) hH hopt (by norm_num)
  · exact C53_metropolis (.parC (1 / 4) (1 / 2) (1 / 100)) (by norm_num [PgExtra.rho]) 6 (by norm_num) graph6 NxGraph.simple_graph6 NxGraph.connected_graph6 W hW 4 hd
      _ _ _ _ 1 zero_le_one _ hF (fun j _ z r h => quadAt_prox j z r h) hH hopt (by norm_num [PgExtra.h]) (by norm_num [PgExtra.h, PgExtra.b])
      (by norm_num [PgExtra.b]) (by norm_num [PgExtra.b, PgExtra.rho])

end Verif
