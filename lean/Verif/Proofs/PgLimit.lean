import Verif.Proofs.PgConv
import Mathlib.Topology.MetricSpace.Sequences

/-!
# In finite dimension the points of PG-EXTRA converge

The energy decreases for every solution and every flow that goes with it.  A limit point of the iteration is such a solution, so the energy relative
to it tends to zero.
-/

namespace Verif
open scoped InnerProductSpace
open Filter (Tendsto atTop)

variable {E : Type} [NormedAddCommGroup E] [InnerProductSpace ℝ E]

/-- the subdifferential of a function with proximal operators is closed -/
theorem sample_closed {F : CFun E} {rho : ℝ} (hrho : 0 < rho) (hmax : ∀ z, ∃ p, F.Sample p (rho⁻¹ • (z - p)) (F.f p)) {u g : ℕ → E} {u0 g0 : E}
    (hs : ∀ k, F.Sample (u k) (g k) (F.f (u k))) (hu : Tendsto u atTop (nhds u0)) (hg : Tendsto g atTop (nhds g0)) : F.Sample u0 g0 (F.f u0) := by
  obtain ⟨p, hp⟩ := hmax (u0 + rho • g0)
  set q := rho⁻¹ • (u0 + rho • g0 - p) with hq
  have h1 : ∀ k, 0 ≤ ⟪g k - q, u k - p⟫_ℝ := by
    intro k
    have h2 := (hs k).2.2 p hp.1
    have h3 := hp.2.2 (u k) (hs k).1
    rw [inner_sub_left]
    rw [← neg_sub (u k) p, inner_neg_right] at h2
    linarith
  have h2 : 0 ≤ ⟪g0 - q, u0 - p⟫_ℝ :=
    ge_of_tendsto' ((hg.sub_const q).inner (hu.sub_const p)) h1
  have h3 : g0 - q = -(rho⁻¹ • (u0 - p)) := by
    rw [hq, add_sub_right_comm, smul_add, inv_smul_smul₀ hrho.ne']
    abel
  rw [h3, inner_neg_left, real_inner_smul_left, real_inner_self_eq_norm_sq] at h2
  have h4 : ‖u0 - p‖ ^ 2 ≤ 0 := by
    have : 0 < rho⁻¹ := by positivity
    nlinarith
  have h5 : u0 = p := by
    have : ‖u0 - p‖ = 0 := by nlinarith [norm_nonneg (u0 - p)]
    exact sub_eq_zero.1 (norm_eq_zero.1 this)
  have h6 : g0 = q := by
    rw [← sub_eq_zero, h3, h5]
    simp
  rw [h6, h5]
  exact hp

namespace PgExtra
variable {n : ℕ} {W : ℕ → ℕ → ℝ} {b c rho L kap : ℝ} {F : ℕ → CFun E} {H : ℕ → E → ℝ} {gr : ℕ → E → E} {x : ℕ → ℕ → E} {xh : E} {gh : ℕ → E}
  {Ih : ℕ → ℕ → E} (hC : Conv n W b c rho L kap F H gr x xh gh Ih)
include hC

/-- the points of any two nodes approach each other -/
theorem Conv.consensus (hcon : WeightConnected n W) {j l : ℕ} (hj : j < n) (hl : l < n) :
    Tendsto (fun k => x (k + 1) j - x (k + 1) l) atTop (nhds 0) := by
  have edge : ∀ u < n, ∀ v < n, W u v ≠ 0 → Tendsto (fun k => x (k + 1) u - x (k + 1) v) atTop (nhds 0) := by
    intro u hu v hv huv
    have hpos : 0 < W u v / 4 := by
      have := lt_of_le_of_ne (hC.nonneg u hu v hv) (Ne.symm huv)
      positivity
    have h1 : Tendsto (fun k => (W u v / 4)⁻¹ * esq n W (diff (x (k + 1)))) atTop (nhds 0) := by
      simpa using hC.esq_tendsto.const_mul (W u v / 4)⁻¹
    refine squeeze_zero_norm (fun k => ?_) (by simpa using h1.sqrt)
    refine Real.le_sqrt_of_sq_le ?_
    rw [show (4 : ℝ) / W u v = (W u v / 4)⁻¹ by rw [inv_div], inv_mul_eq_div, le_div_iff₀ hpos, mul_comm]
    have h2 : (u, v) ∈ pairs n := Finset.mem_product.2 ⟨Finset.mem_range.2 hu, Finset.mem_range.2 hv⟩
    exact Finset.single_le_sum (f := fun p => pw W p * ‖diff (x (k + 1)) p‖ ^ 2)
      (fun p hp => mul_nonneg (hC.pw_nonneg p hp) (by positivity)) h2
  have : ∀ b, Relation.ReflTransGen (fun a b => b < n ∧ W a b ≠ 0) j b →
      b < n ∧ Tendsto (fun k => x (k + 1) j - x (k + 1) b) atTop (nhds 0) := by
    intro b hb
    induction hb with
    | refl => exact ⟨hj, by simp⟩
    | tail _ hbc ih => exact ⟨hbc.1, by simpa using ih.2.add (edge _ ih.1 _ hbc.1 hbc.2)⟩
  exact (this l (hcon j hj l hl)).2

theorem Conv.step_tendsto {j : ℕ} (hj : j < n) : Tendsto (fun k => x k j - x (k + 1) j) atTop (nhds 0) := by
  refine squeeze_zero_norm (fun k => ?_) (by simpa using hC.nsq_tendsto.sqrt)
  refine Real.le_sqrt_of_sq_le ?_
  rw [nsq_eq]
  exact Finset.single_le_sum (f := fun j => ‖(x k - x (k + 1)) j‖ ^ 2) (fun _ _ => by positivity) (Finset.mem_range.2 hj)

/-- the differences of the sums along the edges -/
noncomputable def flowAt (W : ℕ → ℕ → ℝ) (x : ℕ → ℕ → E) (k : ℕ) (p : ℕ × ℕ) : E := if W p.1 p.2 ≠ 0 then cur x (k + 1) p else 0

theorem Conv.bounded : ∃ B, ∀ k, (∀ j < n, ‖x k j‖ ≤ B) ∧ ∀ j < n, ∀ l < n, ‖flowAt W x k (j, l)‖ ≤ B := by
  set e := energy n W b c x xh Ih 0 with he
  have hk := hC.kap_pos'
  have hc := hC.c_pos
  -- a bound for every pair
  have h1 : ∀ k, ∀ j < n, ‖x k j‖ ≤ Real.sqrt (2 / kap * e) + ‖xh‖ := by
    intro k j hj
    have h2 := (hC.energy_ge k).trans (hC.energy_le k)
    have h3 : 0 ≤ c * esq n W (cur x (k + 1) - fun p => Ih p.1 p.2) := mul_nonneg hc.le (hC.esq_nonneg _)
    have h4 : ‖x k j - xh‖ ^ 2 ≤ nsq n (x k - fun _ => xh) := by
      rw [nsq_eq]
      exact Finset.single_le_sum (f := fun j => ‖(x k - fun _ => xh : ℕ → E) j‖ ^ 2) (fun _ _ => by positivity) (Finset.mem_range.2 hj)
    have h5 : ‖x k j - xh‖ ≤ Real.sqrt (2 / kap * e) := by
      refine Real.le_sqrt_of_sq_le ?_
      rw [div_mul_eq_mul_div, le_div_iff₀ hk]
      nlinarith
    calc ‖x k j‖ = ‖(x k j - xh) + xh‖ := by rw [sub_add_cancel]
      _ ≤ _ := (norm_add_le _ _).trans (by linarith)
  have h2 : ∀ k, ∀ j < n, ∀ l < n, ‖flowAt W x k (j, l)‖ ≤ Real.sqrt (4 / (W j l * c) * e) + ‖Ih j l‖ := by
    intro k j hj l hl
    unfold flowAt
    split
    · rename_i hW
      have hW : 0 < W j l := lt_of_le_of_ne (hC.nonneg j hj l hl) (Ne.symm hW)
      have h2 := (hC.energy_ge k).trans (hC.energy_le k)
      have h3 : 0 ≤ kap / 2 * nsq n (x k - fun _ => xh) := mul_nonneg (by linarith) (nsq_nonneg _)
      have h4 : W j l / 4 * ‖cur x (k + 1) (j, l) - Ih j l‖ ^ 2 ≤ esq n W (cur x (k + 1) - fun p => Ih p.1 p.2) :=
        Finset.single_le_sum (f := fun p => pw W p * ‖(cur x (k + 1) - fun p => Ih p.1 p.2 : ℕ × ℕ → E) p‖ ^ 2)
          (fun p hp => mul_nonneg (hC.pw_nonneg p hp) (by positivity))
          (show (j, l) ∈ pairs n from Finset.mem_product.2 ⟨Finset.mem_range.2 hj, Finset.mem_range.2 hl⟩)
      have h5 : ‖cur x (k + 1) (j, l) - Ih j l‖ ≤ Real.sqrt (4 / (W j l * c) * e) := by
        refine Real.le_sqrt_of_sq_le ?_
        rw [div_mul_eq_mul_div, le_div_iff₀ (by positivity)]
        nlinarith [mul_le_mul_of_nonneg_left h4 hc.le]
      calc ‖cur x (k + 1) (j, l)‖ = ‖(cur x (k + 1) (j, l) - Ih j l) + Ih j l‖ := by rw [sub_add_cancel]
        _ ≤ _ := (norm_add_le _ _).trans (by linarith)
    · rw [norm_zero]
      positivity
  have h3 : ∀ j < n, ∀ l < n, Real.sqrt (4 / (W j l * c) * e) + ‖Ih j l‖ ≤
      ∑ p ∈ pairs n, (Real.sqrt (4 / (W p.1 p.2 * c) * e) + ‖Ih p.1 p.2‖) := fun j hj l hl =>
    Finset.single_le_sum (f := fun p : ℕ × ℕ => Real.sqrt (4 / (W p.1 p.2 * c) * e) + ‖Ih p.1 p.2‖) (fun _ _ => by positivity)
      (show (j, l) ∈ pairs n from Finset.mem_product.2 ⟨Finset.mem_range.2 hj, Finset.mem_range.2 hl⟩)
  refine ⟨Real.sqrt (2 / kap * e) + ‖xh‖ + ∑ p ∈ pairs n, (Real.sqrt (4 / (W p.1 p.2 * c) * e) + ‖Ih p.1 p.2‖), fun k => ⟨fun j hj => ?_, fun j hj l hl => ?_⟩⟩
  · have : 0 ≤ ∑ p ∈ pairs n, (Real.sqrt (4 / (W p.1 p.2 * c) * e) + ‖Ih p.1 p.2‖) := Finset.sum_nonneg fun _ _ => by positivity
    linarith [h1 k j hj]
  · have : 0 ≤ Real.sqrt (2 / kap * e) + ‖xh‖ := by positivity
    linarith [h2 k j hj l hl, h3 j hj l hl]

/-- **the points converge to one solution** -/
theorem Conv.converges [FiniteDimensional ℝ E] (hn : 0 < n) (hcon : WeightConnected n W)
    (hmax : ∀ j < n, ∀ z, ∃ p, (F j).Sample p (rho⁻¹ • (z - p)) ((F j).f p)) :
    ∃ xl : E, (∀ j < n, Tendsto (fun k => x k j) atTop (nhds xl)) ∧ ∃ gl : ℕ → E, (∀ j < n, (F j).Sample xl (gl j) ((F j).f xl)) ∧
      ∑ j ∈ Finset.range n, (gl j + gr j xl) = 0 := by
  haveI : ProperSpace E := FiniteDimensional.proper ℝ E
  obtain ⟨B, hB⟩ := hC.bounded
  have hB0 : 0 ≤ B := (norm_nonneg _).trans ((hB 0).1 0 hn)
  -- a convergent subsequence
  let z : ℕ → (Fin n → E) × (Fin n × Fin n → E) := fun k => (fun j => x k j, fun p => flowAt W x k (p.1, p.2))
  have hz : ∀ k, z k ∈ Metric.closedBall (0 : (Fin n → E) × (Fin n × Fin n → E)) B := by
    intro k
    rw [mem_closedBall_zero_iff, Prod.norm_def, max_le_iff, pi_norm_le_iff_of_nonneg hB0, pi_norm_le_iff_of_nonneg hB0]
    exact ⟨fun j => (hB k).1 j j.2, fun p => (hB k).2 p.1 p.1.2 p.2 p.2.2⟩
  obtain ⟨zl, -, φ, hφ, hlim⟩ := tendsto_subseq_of_bounded Metric.isBounded_closedBall hz
  have hφt := hφ.tendsto_atTop
  have hx0 : ∀ (j : ℕ) (hj : j < n), Tendsto (fun k => x (φ k) j) atTop (nhds (zl.1 ⟨j, hj⟩)) := fun j hj =>
    ((continuous_apply (⟨j, hj⟩ : Fin n)).comp continuous_fst).continuousAt.tendsto.comp hlim
  have hI0 : ∀ (j l : ℕ) (hj : j < n) (hl : l < n), Tendsto (fun k => flowAt W x (φ k) (j, l)) atTop (nhds (zl.2 (⟨j, hj⟩, ⟨l, hl⟩))) :=
    fun j l hj hl => ((continuous_apply ((⟨j, hj⟩, ⟨l, hl⟩) : Fin n × Fin n)).comp continuous_snd).continuousAt.tendsto.comp hlim
  have hx1 : ∀ (j : ℕ) (hj : j < n), Tendsto (fun k => x (φ k + 1) j) atTop (nhds (zl.1 ⟨j, hj⟩)) := by
    intro j hj
    have h1 := (hx0 j hj).sub ((hC.step_tendsto hj).comp hφt)
    simpa using h1
  have heq : ∀ (j : ℕ) (hj : j < n), zl.1 ⟨j, hj⟩ = zl.1 ⟨0, hn⟩ := by
    intro j hj
    have h1 := (hC.consensus hcon hj hn).comp hφt
    have h2 := (hx1 j hj).sub (hx1 0 hn)
    exact sub_eq_zero.1 (tendsto_nhds_unique h2 h1)
  set xl := zl.1 ⟨0, hn⟩ with hxl
  have hx0 : ∀ j < n, Tendsto (fun k => x (φ k) j) atTop (nhds xl) := fun j hj => heq j hj ▸ hx0 j hj
  have hx1 : ∀ j < n, Tendsto (fun k => x (φ k + 1) j) atTop (nhds xl) := fun j hj => heq j hj ▸ hx1 j hj
  let Il : ℕ → ℕ → E := fun j l => if h : j < n ∧ l < n then zl.2 (⟨j, h.1⟩, ⟨l, h.2⟩) else 0
  have hIl : ∀ j < n, ∀ l < n, Tendsto (fun k => flowAt W x (φ k) (j, l)) atTop (nhds (Il j l)) := by
    intro j hj l hl
    simp only [Il, hj, hl, and_self, dif_pos]
    exact hI0 j l hj hl
  -- the subgradients converge
  let gl : ℕ → E := fun j => rho⁻¹ • (-(c • ∑ l ∈ Finset.range n, W j l • Il j l)) - gr j xl
  have hgc : ∀ j < n, Continuous (gr j) := fun j hj =>
    (LipschitzWith.of_dist_le_mul (K := ⟨L, hC.L_pos.le⟩) fun u v => by rw [dist_eq_norm, dist_eq_norm]; exact hC.lip j hj u v).continuous
  have hlap0 : ∀ j < n, Tendsto (fun k => laplace n W (x (φ k)) j) atTop (nhds 0) := by
    intro j hj
    have h1 : Tendsto (fun k => ∑ l ∈ Finset.range n, W j l • (x (φ k) j - x (φ k) l)) atTop (nhds (∑ l ∈ Finset.range n, W j l • (xl - xl))) :=
      tendsto_finsetSum _ fun l hl => ((hx0 j hj).sub (hx0 l (Finset.mem_range.1 hl))).const_smul _
    simp only [sub_self, smul_zero, Finset.sum_const_zero] at h1
    exact h1.congr fun k => (laplace_eq hC.rows _ hj).symm
  have hlap1 : ∀ j < n, Tendsto (fun k => laplace n W (fun l => ∑ t ∈ Finset.range (φ k + 1), x t l) j) atTop
      (nhds (∑ l ∈ Finset.range n, W j l • Il j l)) := by
    intro j hj
    have h1 : Tendsto (fun k => ∑ l ∈ Finset.range n, W j l • flowAt W x (φ k) (j, l)) atTop (nhds (∑ l ∈ Finset.range n, W j l • Il j l)) :=
      tendsto_finsetSum _ fun l hl => (hIl j hj l (Finset.mem_range.1 hl)).const_smul _
    refine h1.congr fun k => ?_
    rw [laplace_eq hC.rows _ hj]
    refine Finset.sum_congr rfl fun l _ => ?_
    unfold flowAt
    by_cases hW : W j l ≠ 0
    · rw [if_pos hW]
      rfl
    · push Not at hW
      rw [hW, zero_smul, zero_smul]
  have hg : ∀ j < n, Tendsto (fun k => rho⁻¹ • (x (φ k) j - (b / 2) • laplace n W (x (φ k)) j -
      c • laplace n W (fun l => ∑ t ∈ Finset.range (φ k + 1), x t l) j - rho • gr j (x (φ k) j) - x (φ k + 1) j)) atTop (nhds (gl j)) := by
    intro j hj
    have h1 := (((((hx0 j hj).sub ((hlap0 j hj).const_smul (b / 2))).sub ((hlap1 j hj).const_smul c)).sub
      ((((hgc j hj).tendsto xl).comp (hx0 j hj)).const_smul rho)).sub (hx1 j hj)).const_smul rho⁻¹
    have e : rho⁻¹ • (xl - (b / 2) • (0 : E) - c • ∑ l ∈ Finset.range n, W j l • Il j l - rho • gr j xl - xl) = gl j := by
      simp only [gl]
      rw [smul_zero, sub_zero, show xl - c • ∑ l ∈ Finset.range n, W j l • Il j l - rho • gr j xl - xl =
        -(c • ∑ l ∈ Finset.range n, W j l • Il j l) - rho • gr j xl by abel, smul_sub, inv_smul_smul₀ hC.rho_pos.ne']
    rw [← e]
    exact h1
  have hopt : ∀ j < n, (F j).Sample xl (gl j) ((F j).f xl) := fun j hj =>
    sample_closed hC.rho_pos (hmax j hj) (fun k => hC.step (φ k) j hj) (hx1 j hj) (hg j hj)
  have hanti : ∀ j < n, ∀ l < n, Il j l + Il l j = 0 := by
    intro j hj l hl
    have h1 := (hIl j hj l hl).add (hIl l hl j hj)
    refine tendsto_nhds_unique h1 ?_
    refine tendsto_const_nhds.congr fun k => ?_
    unfold flowAt
    simp only [hC.symm l hl j hj]
    split
    · simp [cur, diff]
    · simp
  have hflow : ∀ j < n, (1 / 2 : ℝ) • ∑ l ∈ Finset.range n, W j l • Il j l = -(rho / (2 * c)) • (gl j + gr j xl) := by
    intro j _
    have hr := hC.rho_pos.ne'
    have hc := hC.c_pos.ne'
    simp only [gl]
    rw [sub_add_cancel, smul_smul, smul_neg, smul_smul, ← neg_smul]
    congr 1
    field_simp
  -- the energy relative to the limit point
  have hC' : Conv n W b c rho L kap F H gr x xl gl Il := { hC with opt := hopt, anti := hanti, flow := hflow }
  have hsub : Tendsto (fun k => energy n W b c x xl Il (φ k)) atTop (nhds 0) := by
    have h1 : Tendsto (fun k => nsq n (x (φ k) - fun _ => xl)) atTop (nhds 0) := by
      have : Tendsto (fun k => ∑ j ∈ Finset.range n, ‖x (φ k) j - xl‖ ^ 2) atTop (nhds (∑ j ∈ Finset.range n, ‖xl - xl‖ ^ 2)) :=
        tendsto_finsetSum _ fun j hj => (((hx0 j (Finset.mem_range.1 hj)).sub_const xl).norm).pow 2
      simpa [nsq_eq] using this
    have h2 : Tendsto (fun k => esq n W (diff (x (φ k)))) atTop (nhds 0) := by
      have : Tendsto (fun k => ∑ p ∈ pairs n, pw W p * ‖x (φ k) p.1 - x (φ k) p.2‖ ^ 2) atTop (nhds (∑ p ∈ pairs n, pw W p * ‖xl - xl‖ ^ 2)) :=
        tendsto_finsetSum _ fun p hp => ((((hx0 p.1 (Finset.mem_range.1 (Finset.mem_product.1 hp).1)).sub
          (hx0 p.2 (Finset.mem_range.1 (Finset.mem_product.1 hp).2))).norm).pow 2).const_mul _
      simpa [esq, wsq, diff] using this
    have h3 : Tendsto (fun k => esq n W (cur x (φ k + 1) - fun p => Il p.1 p.2)) atTop (nhds 0) := by
      have : Tendsto (fun k => ∑ p ∈ pairs n, pw W p * ‖flowAt W x (φ k) p - Il p.1 p.2‖ ^ 2) atTop
          (nhds (∑ p ∈ pairs n, pw W p * ‖Il p.1 p.2 - Il p.1 p.2‖ ^ 2)) :=
        tendsto_finsetSum _ fun p hp => ((((hIl p.1 (Finset.mem_range.1 (Finset.mem_product.1 hp).1) p.2
          (Finset.mem_range.1 (Finset.mem_product.1 hp).2)).sub_const _).norm).pow 2).const_mul _
      simp only [sub_self, norm_zero, zero_pow two_ne_zero, mul_zero, Finset.sum_const_zero] at this
      refine this.congr fun k => Finset.sum_congr rfl fun p _ => ?_
      unfold flowAt
      by_cases hW : W p.1 p.2 ≠ 0
      · rw [if_pos hW]
        rfl
      · push Not at hW
        simp [pw, hW]
    have h4 := ((h1.const_mul (1 / 2)).sub (h2.const_mul (b / 2))).add (h3.const_mul c)
    simpa [energy] using h4
  have hanti' : Antitone (energy n W b c x xl Il) := by
    refine antitone_nat_of_succ_le fun k => ?_
    have h1 := hC'.energy_step k
    obtain ⟨h3, h4, h5⟩ := hC'.terms_nonneg k
    linarith
  have hen : Tendsto (energy n W b c x xl Il) atTop (nhds 0) := by
    refine Metric.tendsto_atTop.2 fun ε hε => ?_
    obtain ⟨N, hN⟩ := Metric.tendsto_atTop.1 hsub ε hε
    refine ⟨φ N, fun m hm => ?_⟩
    have h1 := hN N le_rfl
    rw [Real.dist_eq, sub_zero, abs_of_nonneg (hC'.energy_nonneg _)] at h1 ⊢
    exact (hanti' hm).trans_lt h1
  refine ⟨xl, fun j hj => ?_, gl, hopt, ?_⟩
  · have hk := hC.kap_pos'
    rw [← tendsto_sub_nhds_zero_iff]
    have h1 := (hen.const_mul (2 / kap)).sqrt
    rw [mul_zero, Real.sqrt_zero] at h1
    refine squeeze_zero_norm (fun k => ?_) h1
    refine Real.le_sqrt_of_sq_le ?_
    have h2 := hC'.energy_ge k
    have h3 : 0 ≤ c * esq n W (cur x (k + 1) - fun p => Il p.1 p.2) := mul_nonneg hC.c_pos.le (hC.esq_nonneg _)
    have h4 : ‖x k j - xl‖ ^ 2 ≤ nsq n (x k - fun _ => xl) := by
      rw [nsq_eq]
      exact Finset.single_le_sum (f := fun j => ‖(x k - fun _ => xl : ℕ → E) j‖ ^ 2) (fun _ _ => by positivity) (Finset.mem_range.2 hj)
    rw [div_mul_eq_mul_div, le_div_iff₀ hk]
    nlinarith
  · have h1 : ∀ j ∈ Finset.range n, gl j + gr j xl = -((c / rho) • ∑ l ∈ Finset.range n, W j l • Il j l) := by
      intro j _
      simp only [gl]
      rw [sub_add_cancel, smul_neg, smul_smul, inv_mul_eq_div]
    rw [Finset.sum_congr rfl h1, Finset.sum_neg_distrib, ← Finset.smul_sum]
    have h2 : ∑ j ∈ Finset.range n, ∑ l ∈ Finset.range n, W j l • Il j l = 0 := by
      have h3 : ∑ j ∈ Finset.range n, ∑ l ∈ Finset.range n, W j l • Il j l = -∑ j ∈ Finset.range n, ∑ l ∈ Finset.range n, W j l • Il j l := by
        conv_lhs => rw [Finset.sum_comm]
        rw [← Finset.sum_neg_distrib]
        refine Finset.sum_congr rfl fun l hl => ?_
        rw [← Finset.sum_neg_distrib]
        refine Finset.sum_congr rfl fun j hj => ?_
        have hl := Finset.mem_range.1 hl
        have hj := Finset.mem_range.1 hj
        rw [hC.symm j hj l hl, ← smul_neg, eq_neg_of_add_eq_zero_left (hanti j hj l hl)]
      have h4 : (2 : ℝ) • ∑ j ∈ Finset.range n, ∑ l ∈ Finset.range n, W j l • Il j l = 0 := by
        rw [two_smul]
        nth_rewrite 1 [h3]
        exact neg_add_cancel _
      exact (smul_eq_zero.1 h4).resolve_left two_ne_zero
    rw [h2, smul_zero, neg_zero]

end PgExtra
end Verif
