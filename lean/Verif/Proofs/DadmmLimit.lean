import Verif.Proofs.DadmmConv
import Verif.Proofs.PgLimit

/-!
# In finite dimension the points of decentralized ADMM converge
-/

namespace Verif
open scoped InnerProductSpace
open Filter (Tendsto atTop)

variable {E : Type} [NormedAddCommGroup E] [InnerProductSpace ℝ E] {n : ℕ} {deg : ℕ → ℕ} {adj : ℕ → List ℕ}

theorem ends_single_le {F : ℕ → ℕ → ℝ} (h : ∀ j l, 0 ≤ F j l) {j l : ℕ} (hj : j < n) (hl : l ∈ adj j) : F j l ≤ ends n adj F :=
  calc F j l ≤ ∑ l ∈ nb adj j, F j l := Finset.single_le_sum (f := fun l => F j l) (fun _ _ => h _ _) (mem_nb.2 hl)
    _ ≤ _ := Finset.single_le_sum (f := fun j => ∑ l ∈ nb adj j, F j l) (fun _ _ => Finset.sum_nonneg fun _ _ => h _ _) (Finset.mem_range.2 hj)

theorem ends_tendsto {F : ℕ → ℕ → ℕ → ℝ} {G : ℕ → ℕ → ℝ} (h : ∀ j < n, ∀ l ∈ adj j, Tendsto (fun k => F k j l) atTop (nhds (G j l))) :
    Tendsto (fun k => ends n adj (F k)) atTop (nhds (ends n adj G)) :=
  tendsto_finsetSum _ fun j hj => tendsto_finsetSum _ fun l hl => h j (Finset.mem_range.1 hj) l (mem_nb.1 hl)

namespace Dadmm
variable {F : ℕ → CFun E} {prox : ℕ → E → ℝ → E} {xh : E} {ih : ℕ → ℕ → E}

section limits
variable (a : Dadmm ℝ) (hcap : a.CapPos) (hs : 0 < a.stepSize) (hR : 0 < a.R) (hN : Net n deg adj)
  (hd : ∀ j < n, deg j ≠ 0) (hF : ∀ j < n, ConvexOn ℝ (F j).dom (F j).f) (hp : ∀ j < n, ∀ z rho, 0 < rho → (F j).IsProx rho z (prox j z rho))
  (hih : ∀ j l, ih j l + ih l j = 0) (hopt : ∀ j < n, (F j).Sample xh (∑ l ∈ nb adj j, ih j l) ((F j).f xh))

include hcap hs hR hN hd hF hp hih hopt

theorem energy_antitone (hs2 : a.stepSize + a.loss ≤ 2 * a.R⁻¹) : Antitone fun k => energy a n adj xh ih (a.states deg adj prox k) := by
  refine antitone_nat_of_succ_le fun k => ?_
  have h1 := energy_step (prox := prox) (xh := xh) a hcap hs hR hN hih (conserved_states a hN (by norm_num) prox k)
  have h2 := gap_states a hR hN hd hF hp hih hopt k
  have h3 : 0 ≤ (2 * a.R⁻¹ - a.stepSize - a.loss) * resid n adj (a.step deg adj prox (a.states deg adj prox k)) :=
    mul_nonneg (by linarith) (resid_nonneg _)
  have h4 := moved_nonneg (n := n) (adj := adj) hR hcap (a.states deg adj prox k) (a.step deg adj prox (a.states deg adj prox k))
  change 0 ≤ gap n adj a.R xh ih (a.states deg adj prox k) (a.step deg adj prox (a.states deg adj prox k)) at h2
  change energy a n adj xh ih (a.step deg adj prox (a.states deg adj prox k)) ≤ _
  linarith

theorem end_tendsto (hs2 : a.stepSize + a.loss < 2 * a.R⁻¹) {j l : ℕ} (hj : j < n) (hl : l ∈ adj j) :
    Tendsto (fun k => (a.states deg adj prox (k + 1)).x j - (a.states deg adj prox (k + 1)).pot adj j l) atTop (nhds 0) := by
  have hres := resid_tendsto a hcap hs hR hN hd hF hp hih hopt hs2
  refine squeeze_zero_norm (fun k => ?_) (by simpa using hres.sqrt)
  refine Real.le_sqrt_of_sq_le ?_
  exact ends_single_le (F := fun j l => ‖(a.states deg adj prox (k + 1)).x j - (a.states deg adj prox (k + 1)).pot adj j l‖ ^ 2)
    (fun _ _ => by positivity) hj hl

theorem move_tendsto (hs2 : a.stepSize + a.loss < 2 * a.R⁻¹) {j l : ℕ} (hj : j < n) (hl : l ∈ adj j) :
    Tendsto (fun k => (a.states deg adj prox k).pot adj j l - (a.states deg adj prox (k + 1)).pot adj j l) atTop (nhds 0) := by
  have h0 := moved_tendsto a hcap hs hR hN hd hF hp hih hopt hs2.le
  have hw := wt_pos hR hcap j l
  have h1 := (h0.const_mul (a.wt j l)⁻¹).sqrt
  rw [mul_zero, Real.sqrt_zero] at h1
  have h2 : Tendsto (fun k => ((a.states deg adj prox k).pot adj j l - (a.states deg adj prox (k + 1)).pot adj j l) -
      a.slip j l • ((a.states deg adj prox (k + 1)).x j - (a.states deg adj prox (k + 1)).pot adj j l)) atTop (nhds 0) := by
    refine squeeze_zero_norm (fun k => ?_) h1
    refine Real.le_sqrt_of_sq_le ?_
    rw [le_inv_mul_iff₀ hw]
    exact ends_single_le (F := fun j l => a.wt j l * ‖((a.states deg adj prox k).pot adj j l - (a.states deg adj prox (k + 1)).pot adj j l) -
      a.slip j l • ((a.states deg adj prox (k + 1)).x j - (a.states deg adj prox (k + 1)).pot adj j l)‖ ^ 2)
      (fun j l => mul_nonneg (wt_pos hR hcap j l).le (by positivity)) hj hl
  have h3 := h2.add ((end_tendsto a hcap hs hR hN hd hF hp hih hopt hs2 hj hl).const_smul (a.slip j l))
  simpa using h3

theorem bounded (hs2 : a.stepSize + a.loss ≤ 2 * a.R⁻¹) : ∃ B, 0 ≤ B ∧ ∀ k, ∀ j < n, ∀ l ∈ adj j,
    ‖(a.states deg adj prox k).cur adj j l‖ ≤ B ∧ ‖(a.states deg adj prox k).pot adj j l‖ ≤ B := by
  obtain ⟨e, he⟩ : ∃ e, e = energy a n adj xh ih (a.states deg adj prox 0) := ⟨_, rfl⟩
  have h1 : ∀ k, energy a n adj xh ih (a.states deg adj prox k) ≤ e := fun k => by
    rw [he]
    exact energy_antitone a hcap hs hR hN hd hF hp hih hopt hs2 (Nat.zero_le k)
  have hI : ∀ j < n, ∀ l ∈ adj j, ‖ih j l‖ ≤ ends n adj fun j l => ‖ih j l‖ := fun j hj l hl =>
    ends_single_le (F := fun j l => ‖ih j l‖) (fun _ _ => norm_nonneg _) hj hl
  have hI0 : 0 ≤ ends n adj fun j l => ‖ih j l‖ := ends_nonneg fun _ _ _ _ => norm_nonneg _
  refine ⟨Real.sqrt (a.stepSize * e) + (ends n adj fun j l => Real.sqrt ((a.wt j l)⁻¹ * e)) + (ends n adj fun j l => ‖ih j l‖) + ‖xh‖,
    by have : 0 ≤ ends n adj fun j l => Real.sqrt ((a.wt j l)⁻¹ * e) := ends_nonneg fun _ _ _ _ => Real.sqrt_nonneg _
       positivity, fun k j hj l hl => ?_⟩
  have h2 := h1 k
  unfold energy at h2
  have h3 : ‖(a.states deg adj prox k).cur adj j l - ih j l‖ ^ 2 ≤ ends n adj (fun j l => ‖(a.states deg adj prox k).cur adj j l - ih j l‖ ^ 2) :=
    ends_single_le (F := fun j l => ‖(a.states deg adj prox k).cur adj j l - ih j l‖ ^ 2) (fun _ _ => by positivity) hj hl
  have h4 : a.wt j l * ‖(a.states deg adj prox k).pot adj j l - xh‖ ^ 2 ≤ ends n adj (fun j l => a.wt j l * ‖(a.states deg adj prox k).pot adj j l - xh‖ ^ 2) :=
    ends_single_le (F := fun j l => a.wt j l * ‖(a.states deg adj prox k).pot adj j l - xh‖ ^ 2)
      (fun j l => mul_nonneg (wt_pos hR hcap j l).le (by positivity)) hj hl
  have h5 : 0 ≤ a.stepSize⁻¹ * ends n adj (fun j l => ‖(a.states deg adj prox k).cur adj j l - ih j l‖ ^ 2) :=
    mul_nonneg (inv_nonneg.2 hs.le) (ends_nonneg fun _ _ _ _ => by positivity)
  have h6 : 0 ≤ ends n adj (fun j l => a.wt j l * ‖(a.states deg adj prox k).pot adj j l - xh‖ ^ 2) :=
    ends_nonneg fun j _ l _ => mul_nonneg (wt_pos hR hcap j l).le (by positivity)
  have h7 : ‖(a.states deg adj prox k).cur adj j l - ih j l‖ ≤ Real.sqrt (a.stepSize * e) := by
    refine Real.le_sqrt_of_sq_le (h3.trans ?_)
    rw [← inv_mul_le_iff₀ hs]
    linarith
  have h8 : ‖(a.states deg adj prox k).pot adj j l - xh‖ ≤ Real.sqrt ((a.wt j l)⁻¹ * e) := by
    refine Real.le_sqrt_of_sq_le ?_
    rw [le_inv_mul_iff₀ (wt_pos hR hcap j l)]
    linarith
  have h9 := Real.sqrt_nonneg (a.stepSize * e)
  have h10 : Real.sqrt ((a.wt j l)⁻¹ * e) ≤ ends n adj fun j l => Real.sqrt ((a.wt j l)⁻¹ * e) :=
    ends_single_le (F := fun j l => Real.sqrt ((a.wt j l)⁻¹ * e)) (fun _ _ => Real.sqrt_nonneg _) hj hl
  have h12 := Real.sqrt_nonneg ((a.wt j l)⁻¹ * e)
  have h11 := norm_nonneg xh
  constructor
  · calc _ = ‖((a.states deg adj prox k).cur adj j l - ih j l) + ih j l‖ := by rw [sub_add_cancel]
      _ ≤ _ := (norm_add_le _ _).trans (by linarith [hI j hj l hl])
  · calc _ = ‖((a.states deg adj prox k).pot adj j l - xh) + xh‖ := by rw [sub_add_cancel]
      _ ≤ _ := (norm_add_le _ _).trans (by linarith)

/-- **the points converge to one solution** -/
theorem converges [FiniteDimensional ℝ E] (hn : 0 < n) (hcon : ∀ j < n, Relation.ReflTransGen (fun j l => l ∈ adj j) 0 j)
    (hs2 : a.stepSize + a.loss < 2 * a.R⁻¹) :
    ∃ xl : E, SumOpt n F xl ∧ ∀ j < n, Tendsto (fun k => (a.states deg adj prox k).x j) atTop (nhds xl) := by
  have : ProperSpace E := FiniteDimensional.proper ℝ E
  set st := a.states deg adj prox with hst
  obtain ⟨B, hB0, hB⟩ := bounded a hcap hs hR hN hd hF hp hih hopt hs2.le
  -- a convergent subsequence of currents and potentials
  let z : ℕ → (Fin n × Fin n → E) × (Fin n × Fin n → E) := fun k =>
    (fun p => if (p.2 : ℕ) ∈ adj p.1 then (st k).cur adj p.1 p.2 else 0, fun p => if (p.2 : ℕ) ∈ adj p.1 then (st k).pot adj p.1 p.2 else 0)
  have hz : ∀ k, z k ∈ Metric.closedBall (0 : (Fin n × Fin n → E) × (Fin n × Fin n → E)) B := by
    intro k
    rw [mem_closedBall_zero_iff, Prod.norm_def, max_le_iff, pi_norm_le_iff_of_nonneg hB0, pi_norm_le_iff_of_nonneg hB0]
    refine ⟨fun p => ?_, fun p => ?_⟩
    · simp only [z]
      split
      · rename_i h; exact (hB k p.1 p.1.2 p.2 h).1
      · simpa using hB0
    · simp only [z]
      split
      · rename_i h; exact (hB k p.1 p.1.2 p.2 h).2
      · simpa using hB0
  obtain ⟨zl, -, φ, hφ, hlim⟩ := tendsto_subseq_of_bounded Metric.isBounded_closedBall hz
  have hφt := hφ.tendsto_atTop
  let Il : ℕ → ℕ → E := fun j l => if h : (j < n ∧ l < n) ∧ l ∈ adj j then zl.1 (⟨j, h.1.1⟩, ⟨l, h.1.2⟩) else 0
  let el : ℕ → ℕ → E := fun j l => if h : j < n ∧ l < n then zl.2 (⟨j, h.1⟩, ⟨l, h.2⟩) else 0
  have hI : ∀ j < n, ∀ l ∈ adj j, Tendsto (fun k => (st (φ k)).cur adj j l) atTop (nhds (Il j l)) := by
    intro j hj l hl
    have hln := hN.lt j hj l hl
    have h1 := ((continuous_apply ((⟨j, hj⟩, ⟨l, hln⟩) : Fin n × Fin n)).comp continuous_fst).continuousAt.tendsto.comp hlim
    simp only [Il, hj, hln, hl, and_self, dif_pos]
    refine h1.congr fun k => ?_
    simp [z, hl]
  have he : ∀ j < n, ∀ l ∈ adj j, Tendsto (fun k => (st (φ k)).pot adj j l) atTop (nhds (el j l)) := by
    intro j hj l hl
    have hln := hN.lt j hj l hl
    have h1 := ((continuous_apply ((⟨j, hj⟩, ⟨l, hln⟩) : Fin n × Fin n)).comp continuous_snd).continuousAt.tendsto.comp hlim
    simp only [el, hj, hln, and_self, dif_pos]
    refine h1.congr fun k => ?_
    simp [z, hl]
  have hx : ∀ j < n, ∀ l ∈ adj j, Tendsto (fun k => (st (φ k + 1)).x j) atTop (nhds (el j l)) := by
    intro j hj l hl
    have h1 := ((end_tendsto a hcap hs hR hN hd hF hp hih hopt hs2 hj hl).comp hφt).add ((he j hj l hl).sub
      ((move_tendsto a hcap hs hR hN hd hF hp hih hopt hs2 hj hl).comp hφt))
    rw [sub_zero, zero_add] at h1
    refine h1.congr fun k => ?_
    simp only [Function.comp_apply, ← hst]
    abel
  -- all nodes agree
  have hsym : ∀ j < n, ∀ l ∈ adj j, el j l = el l j := by
    intro j hj l hl
    refine tendsto_nhds_unique (he j hj l hl) ((he l (hN.lt j hj l hl) j (hN.symm j hj l hl)).congr fun k => ?_)
    exact ((conserved_states a hN (by norm_num) prox (φ k)).pot j hj l hl).symm
  have hne : ∀ j < n, ∃ l, l ∈ adj j := by
    intro j hj
    have := hd j hj
    rw [hN.deg j hj] at this
    exact List.exists_mem_of_ne_nil _ fun h => this (by rw [h]; rfl)
  obtain ⟨l0, hl0⟩ := hne 0 hn
  set xl := el 0 l0 with hxl
  have hagree : ∀ j < n, ∀ l ∈ adj j, el j l = xl := by
    have main : ∀ j, Relation.ReflTransGen (fun j l => l ∈ adj j) 0 j → j < n ∧ ∀ l ∈ adj j, el j l = xl := by
      intro j hj
      induction hj with
      | refl => exact ⟨hn, fun l hl => tendsto_nhds_unique (hx 0 hn l hl) (hx 0 hn l0 hl0)⟩
      | @tail u v _ huv ih' =>
        have hv := hN.lt u ih'.1 v huv
        refine ⟨hv, fun l hl => ?_⟩
        have hvu := hN.symm u ih'.1 v huv
        rw [tendsto_nhds_unique (hx v hv l hl) (hx v hv u hvu), ← hsym u ih'.1 v huv]
        exact ih'.2 v huv
    exact fun j hj => (main j (hcon j hj)).2
  have hx : ∀ j < n, Tendsto (fun k => (st (φ k + 1)).x j) atTop (nhds xl) := by
    intro j hj
    obtain ⟨l, hl⟩ := hne j hj
    exact hagree j hj l hl ▸ hx j hj l hl
  have he : ∀ j < n, ∀ l ∈ adj j, Tendsto (fun k => (st (φ k)).pot adj j l) atTop (nhds xl) := fun j hj l hl => hagree j hj l hl ▸ he j hj l hl
  -- the limit currents
  have hanti : ∀ j l, Il j l + Il l j = 0 := by
    intro j l
    by_cases h : (j < n ∧ l < n) ∧ l ∈ adj j
    · obtain ⟨⟨hj, hl⟩, hjl⟩ := h
      have h1 := (hI j hj l hjl).add (hI l hl j (hN.symm j hj l hjl))
      have hm := (move_tendsto a hcap hs hR hN hd hF hp hih hopt hs2 hj hjl).comp hφt
      have h3 := (end_tendsto a hcap hs hR hN hd hF hp hih hopt hs2 hj hjl).comp hφt
      have h4 := (end_tendsto a hcap hs hR hN hd hF hp hih hopt hs2 hl (hN.symm j hj l hjl)).comp hφt
      have h2 := (hm.const_smul (2 * (a.wt j l - a.R⁻¹))).add ((h3.add h4).const_smul a.R⁻¹)
      rw [add_zero, smul_zero, smul_zero, add_zero] at h2
      refine tendsto_nhds_unique h1 (h2.congr fun k => ?_)
      rw [(pair_cur a hR hcap prox (conserved_states a hN (by norm_num) prox (φ k)) hj hjl (deg := deg)).1]
      simp only [Function.comp_apply]
      rw [← (conserved_states a hN (by norm_num) prox (φ k + 1)).pot j hj l hjl]
      rfl
    · have h' : ¬((l < n ∧ j < n) ∧ j ∈ adj l) := fun ⟨⟨hl, hj⟩, hlj⟩ => h ⟨⟨hj, hl⟩, hN.symm l hl j hlj⟩
      simp only [Il, dif_neg h, dif_neg h', add_zero]
  have hopt' : ∀ j < n, (F j).Sample xl (∑ l ∈ nb adj j, Il j l) ((F j).f xl) := by
    intro j hj
    have h1 : Tendsto (fun k => ∑ l ∈ nb adj j, ((st (φ k)).cur adj j l + a.R⁻¹ • ((st (φ k)).pot adj j l - (st (φ k + 1)).x j))) atTop
        (nhds (∑ l ∈ nb adj j, (Il j l + a.R⁻¹ • (xl - xl)))) :=
      tendsto_finsetSum _ fun l hl => (hI j hj l (mem_nb.1 hl)).add (((he j hj l (mem_nb.1 hl)).sub (hx j hj)).const_smul a.R⁻¹)
    simp only [sub_self, smul_zero, add_zero] at h1
    refine sample_closed hR (fun z => ⟨_, (hp j hj z a.R hR).sample (hF j hj) hR⟩) (fun k => ?_) (hx j hj) h1
    exact step_sample a hR hN hd hF hp (st (φ k)) hj
  -- the energy relative to the limit
  have hsub : Tendsto (fun k => energy a n adj xl Il (st (φ k))) atTop (nhds 0) := by
    have h1 : Tendsto (fun k => ends n adj (fun j l => ‖(st (φ k)).cur adj j l - Il j l‖ ^ 2)) atTop (nhds (ends n adj fun j l => ‖Il j l - Il j l‖ ^ 2)) :=
      ends_tendsto fun j hj l hl => (((hI j hj l hl).sub_const _).norm).pow 2
    have h2 : Tendsto (fun k => ends n adj (fun j l => a.wt j l * ‖(st (φ k)).pot adj j l - xl‖ ^ 2)) atTop
        (nhds (ends n adj fun j l => a.wt j l * ‖xl - xl‖ ^ 2)) :=
      ends_tendsto fun j hj l hl => ((((he j hj l hl).sub_const _).norm).pow 2).const_mul _
    have h3 := (h1.const_mul a.stepSize⁻¹).add h2
    simpa [energy, ends] using h3
  have hmono := energy_antitone a hcap hs hR hN hd hF hp hanti hopt' hs2.le
  have hen : Tendsto (fun k => energy a n adj xl Il (st k)) atTop (nhds 0) := by
    refine Metric.tendsto_atTop.2 fun ε hε => ?_
    obtain ⟨N, hN'⟩ := Metric.tendsto_atTop.1 hsub ε hε
    refine ⟨φ N, fun m hm => ?_⟩
    have h1 := hN' N le_rfl
    rw [Real.dist_eq, sub_zero, abs_of_nonneg (energy_nonneg hcap hs hR _)] at h1 ⊢
    exact (hmono hm).trans_lt h1
  refine ⟨xl, ⟨fun j => ∑ l ∈ nb adj j, Il j l, hopt', ?_⟩, fun j hj => ?_⟩
  · exact hN.sum_anti fun j _ l _ => hanti j l
  · obtain ⟨l, hl⟩ := hne j hj
    have hpot : Tendsto (fun k => (st k).pot adj j l - xl) atTop (nhds 0) := by
      have hw := wt_pos hR hcap j l
      have h1 := (hen.const_mul (a.wt j l)⁻¹).sqrt
      rw [mul_zero, Real.sqrt_zero] at h1
      refine squeeze_zero_norm (fun k => ?_) h1
      refine Real.le_sqrt_of_sq_le ?_
      have h2 : a.wt j l * ‖(st k).pot adj j l - xl‖ ^ 2 ≤ ends n adj (fun j l => a.wt j l * ‖(st k).pot adj j l - xl‖ ^ 2) :=
        ends_single_le (F := fun j l => a.wt j l * ‖(st k).pot adj j l - xl‖ ^ 2) (fun j l => mul_nonneg (wt_pos hR hcap j l).le (by positivity)) hj hl
      have h3 : 0 ≤ a.stepSize⁻¹ * ends n adj (fun j l => ‖(st k).cur adj j l - Il j l‖ ^ 2) :=
        mul_nonneg (inv_nonneg.2 hs.le) (ends_nonneg fun _ _ _ _ => by positivity)
      rw [le_inv_mul_iff₀ hw]
      refine h2.trans ?_
      unfold energy
      linarith
    have h4 := (end_tendsto a hcap hs hR hN hd hF hp hih hopt hs2 hj hl).add ((Filter.tendsto_add_atTop_iff_nat 1).2 hpot)
    rw [← tendsto_sub_nhds_zero_iff, ← Filter.tendsto_add_atTop_iff_nat 1]
    simpa [← hst] using h4

end limits
end Dadmm
end Verif
