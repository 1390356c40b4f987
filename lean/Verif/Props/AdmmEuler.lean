import Verif.Props.CompleteDual
import Verif.Props.ProximalPoint
import Verif.Props.Lower

/-!
# C82: the weights and step sizes that the Euler discretization of the consensus circuit admits, in closed form
-/

namespace Verif
open Build
open scoped InnerProductSpace

section
variable {E : Type} [NormedAddCommGroup E] [InnerProductSpace ℝ E]

/-- the inequality of strong convexity between two samples -/
theorem euler_sample_strong {mu : ℚ} {L : Option ℚ} (hmu : 0 ≤ mu) {F : CFun E} (h : (defDecl mu L).Holds F) {x g y g' : E} {v v' : ℝ}
    (s : F.Sample x g v) (s' : F.Sample y g' v') : v' + ⟪g', x - y⟫_ℝ + mu / 2 * ‖x - y‖ ^ 2 ≤ v := by
  have hF : (FnDecl.strongly mu false).Holds F := ⟨((C12_members mu L F).1 h).1, by simp⟩
  have h1 := lhs_nonpos (d := .strongly mu false) hmu hF s s'
  simp only [FnDecl.cls, FnClass.lhs] at h1
  linarith

/-- one Euler step of the current of one inductor -/
theorem euler_term {R Ind h : ℝ} (hR : 0 < R) (hI : 0 < Ind) {i1 g x e y : E} (hp : x + R • g = R • i1 + e) :
    Ind / 2 * ‖i1 + (h / Ind) • (e - x) - y‖ ^ 2 = Ind / 2 * ‖i1 - y‖ ^ 2 + h * ⟪g - y, e - x⟫_ℝ + (h ^ 2 / (2 * Ind) - h / R) * ‖e - x‖ ^ 2 ∧
      ‖g - i1‖ ^ 2 = R⁻¹ ^ 2 * ‖e - x‖ ^ 2 := by
  have hg : g - i1 = R⁻¹ • (e - x) := by
    have : R • (g - i1) = e - x := by
      rw [smul_sub, sub_eq_sub_iff_add_eq_add, add_comm, hp, add_comm]
    rw [← this, smul_smul, inv_mul_cancel₀ hR.ne', one_smul]
  have hi : i1 - y = (g - y) - R⁻¹ • (e - x) := by rw [← hg]; abel
  constructor
  · rw [show i1 + (h / Ind) • (e - x) - y = (i1 - y) + (h / Ind) • (e - x) by abel, norm_add_sq_real, inner_smul_right, norm_smul, mul_pow, Real.norm_eq_abs, sq_abs]
    have : ⟪i1 - y, e - x⟫_ℝ = ⟪g - y, e - x⟫_ℝ - R⁻¹ * ‖e - x‖ ^ 2 := by
      rw [hi, inner_sub_left, real_inner_smul_left, real_inner_self_eq_norm_sq]
    rw [this]
    field_simp
    ring
  · rw [hg, norm_smul, mul_pow, Real.norm_eq_abs, sq_abs]
end

/-- the bound on `rho` -/
theorem admmEulerStep_of {n : ℕ} (hn : 0 < n) {mu : ℚ} {L : Option ℚ} {R Ind : ℚ} (hmu : 0 ≤ mu) (hR : 0 < R) (hI : 0 < Ind) {p : Name → ℝ} (hh : 0 ≤ p "h")
    (he : p "eta" ≤ p "h") (hr : p "rho" ≤ p "h" - R * p "h" ^ 2 / (2 * Ind) + R * mu * (2 * p "h" - p "eta") / 2) : AdmmEulerConsensusStep n mu L R Ind p := by
  intro E _ _ f hf xs e y i1 x g i2 vs v h1 hy hi h2 h3 h4 h5
  have hR' : (0 : ℝ) < R := by exact_mod_cast hR
  have hI' : (0 : ℝ) < Ind := by exact_mod_cast hI
  have hmu' : (0 : ℝ) ≤ mu := by exact_mod_cast hmu
  have hn' : (n : ℝ) ≠ 0 := by positivity
  have hd : ∑ i ∈ Finset.range n, (e - x i) = 0 := by
    rw [Finset.sum_sub_distrib, Finset.sum_const, Finset.card_range, h5, ← Nat.cast_smul_eq_nsmul ℝ, smul_smul, mul_inv_cancel₀ hn', one_smul, sub_self]
  have hg : ∑ i ∈ Finset.range n, (g i - y i) = 0 := by
    have h6 : ∀ i ∈ Finset.range n, (R : ℝ) • (g i - y i) = (R : ℝ) • i1 i + (e - x i) - (R : ℝ) • y i := fun i hi => by
      rw [smul_sub, ← add_sub_assoc, ← h3 i (Finset.mem_range.1 hi)]; abel
    have h7 : (R : ℝ) • ∑ i ∈ Finset.range n, (g i - y i) = 0 := by
      rw [Finset.smul_sum, Finset.sum_congr rfl h6, Finset.sum_sub_distrib, Finset.sum_add_distrib, ← Finset.smul_sum, ← Finset.smul_sum, hi, hd, hy]
      simp
    exact (smul_eq_zero.1 h7).resolve_left hR'.ne'
  -- the sums
  obtain ⟨D, hD⟩ : ∃ D, D = ∑ i ∈ Finset.range n, ‖e - x i‖ ^ 2 := ⟨_, rfl⟩
  obtain ⟨M, hM⟩ : ∃ M, M = ∑ i ∈ Finset.range n, ⟪g i - y i, x i - xs⟫_ℝ := ⟨_, rfl⟩
  obtain ⟨Gp, hGp⟩ : ∃ M, M = ∑ i ∈ Finset.range n, (v i - vs i - ⟪y i, x i - xs⟫_ℝ) := ⟨_, rfl⟩
  obtain ⟨S, hS⟩ : ∃ M, M = ∑ i ∈ Finset.range n, ‖x i - xs‖ ^ 2 := ⟨_, rfl⟩
  have hMd : ∑ i ∈ Finset.range n, ⟪g i - y i, e - x i⟫_ℝ = -M := by
    have : ∀ i ∈ Finset.range n, ⟪g i - y i, e - x i⟫_ℝ = ⟪g i - y i, e - xs⟫_ℝ - ⟪g i - y i, x i - xs⟫_ℝ := fun i _ => by
      rw [← inner_sub_right]; congr 1; abel
    rw [Finset.sum_congr rfl this, Finset.sum_sub_distrib, ← sum_inner, hg, inner_zero_left, zero_sub, hM]
  have hDS : D ≤ S := by
    have : ∀ i ∈ Finset.range n, ‖x i - xs‖ ^ 2 = ‖e - x i‖ ^ 2 - 2 * ⟪e - x i, e - xs⟫_ℝ + ‖e - xs‖ ^ 2 := fun i _ => by
      rw [show x i - xs = (e - xs) - (e - x i) by abel, norm_sub_sq_real, real_inner_comm]; ring
    rw [hS, Finset.sum_congr rfl this, Finset.sum_add_distrib, Finset.sum_sub_distrib, ← Finset.mul_sum, ← sum_inner, hd, inner_zero_left, ← hD]
    simp
    positivity
  have hMG : Gp + mu / 2 * S ≤ M := by
    rw [hM, hGp, hS, Finset.mul_sum, ← Finset.sum_add_distrib]
    refine Finset.sum_le_sum fun i hi => ?_
    have := euler_sample_strong hmu (hf i (Finset.mem_range.1 hi)) (h1 i (Finset.mem_range.1 hi)) (h2 i (Finset.mem_range.1 hi))
    rw [← neg_sub (x i), inner_neg_right, norm_neg] at this
    rw [inner_sub_left]
    linarith
  have hG : mu / 2 * S ≤ Gp := by
    rw [hGp, hS, Finset.mul_sum]
    refine Finset.sum_le_sum fun i hi => ?_
    have := euler_sample_strong hmu (hf i (Finset.mem_range.1 hi)) (h2 i (Finset.mem_range.1 hi)) (h1 i (Finset.mem_range.1 hi))
    linarith
  have hD0 : 0 ≤ D := by rw [hD]; exact Finset.sum_nonneg fun i _ => sq_nonneg _
  have e1 : ∑ i ∈ Finset.range n, (Ind : ℝ) / 2 * ‖i2 i - y i‖ ^ 2 =
      ∑ i ∈ Finset.range n, (Ind : ℝ) / 2 * ‖i1 i - y i‖ ^ 2 - p "h" * M + (p "h" ^ 2 / (2 * Ind) - p "h" / R) * D := by
    rw [Finset.sum_congr rfl fun i hi => by rw [h4 i (Finset.mem_range.1 hi), (euler_term hR' hI' (h3 i (Finset.mem_range.1 hi))).1],
      Finset.sum_add_distrib, Finset.sum_add_distrib, ← Finset.mul_sum (f := fun i => ⟪g i - y i, e - x i⟫_ℝ), hMd, ← Finset.mul_sum (f := fun i => ‖e - x i‖ ^ 2), ← hD]
    ring
  have e2 : ∑ i ∈ Finset.range n, ‖g i - i1 i‖ ^ 2 = (R : ℝ)⁻¹ ^ 2 * D := by
    rw [Finset.sum_congr rfl fun i hi => (euler_term hR' hI' (h := 0) (y := 0) (h3 i (Finset.mem_range.1 hi))).2, ← Finset.mul_sum, hD]
  rw [e1, e2, ← hGp]
  have e3 : p "rho" * R * ((R : ℝ)⁻¹ ^ 2 * D) = p "rho" / R * D := by field_simp
  rw [e3]
  have k1 : p "rho" / R * D ≤ (p "h" / R - p "h" ^ 2 / (2 * Ind) + mu * (2 * p "h" - p "eta") / 2) * D := by
    refine mul_le_mul_of_nonneg_right ?_ hD0
    rw [div_le_iff₀ hR']
    refine hr.trans (le_of_eq ?_)
    field_simp
  have k2 : mu / 2 * D ≤ mu / 2 * S := mul_le_mul_of_nonneg_left hDS (by positivity)
  have k3 : p "h" * (Gp + mu / 2 * S) ≤ p "h" * M := mul_le_mul_of_nonneg_left hMG hh
  have k4 : (p "h" - p "eta") * (mu / 2 * D) ≤ (p "h" - p "eta") * Gp := mul_le_mul_of_nonneg_left (k2.trans hG) (by linarith)
  have k5 : p "h" * (mu / 2 * D) ≤ p "h" * (mu / 2 * S) := mul_le_mul_of_nonneg_left k2 hh
  linarith

/-! ### Runs that show the bounds are sharp -/

/-- the points of the run: `1`, `-1`, `0`, `0`, ... -/
def pmOne (i : ℕ) : ℝ := if i = 0 then 1 else if i = 1 then -1 else 0

theorem sum_pmOne (k : ℕ) : ∑ i ∈ Finset.range (k + 2), pmOne i = 0 := by
  rw [Finset.sum_range_succ', Finset.sum_range_succ']
  simp [pmOne]

theorem sum_pmOne_sq (k : ℕ) : ∑ i ∈ Finset.range (k + 2), pmOne i ^ 2 = 2 := by
  rw [Finset.sum_range_succ', Finset.sum_range_succ']
  simp [pmOne]
  norm_num

theorem admmEuler_run {k : ℕ} {mu : ℚ} {L : Option ℚ} {R Ind : ℚ} (hR : 0 < R) (hI : 0 < Ind) {p : Name → ℝ} (hs : AdmmEulerConsensusStep (k + 2) mu L R Ind p)
    {F : CFun ℝ} (hF : (defDecl mu L).Holds F) {a b : ℝ} (h : ∀ s, s = 0 ∨ s = 1 ∨ s = -1 → F.Sample s (a * s) (b * s ^ 2)) :
    p "rho" / R + p "eta" * b ≤ p "h" * (a + 1 / R) - p "h" ^ 2 / (2 * Ind) := by
  have hR' : (0 : ℝ) < R := by exact_mod_cast hR
  have hI' : (0 : ℝ) < Ind := by exact_mod_cast hI
  have hpm : ∀ i, pmOne i = 0 ∨ pmOne i = 1 ∨ pmOne i = -1 := fun i => by
    unfold pmOne; split_ifs <;> simp
  have key := hs ℝ (fun _ => F) (fun _ _ => hF) 0 0 (fun _ => 0) (fun i => (a + 1 / R) * pmOne i) pmOne (fun i => a * pmOne i) (fun i => (a + 1 / R - p "h" / Ind) * pmOne i)
    (fun _ => 0) (fun i => b * pmOne i ^ 2) (fun i _ => by simpa using h 0 (.inl rfl)) (by simp) (by rw [← Finset.mul_sum, sum_pmOne, mul_zero]) (fun i _ => h _ (hpm i))
    (fun i _ => by simp; field_simp; ring) (fun i _ => by simp; ring) (by rw [sum_pmOne]; simp)
  have e : ∀ c : ℝ, ∑ i ∈ Finset.range (k + 2), ‖c * pmOne i‖ ^ 2 = c ^ 2 * 2 := fun c => by
    rw [← sum_pmOne_sq k, Finset.mul_sum]
    exact Finset.sum_congr rfl fun i _ => by rw [Real.norm_eq_abs, sq_abs, mul_pow]
  have e' : ∀ i, a * pmOne i - (a + 1 / R) * pmOne i = (-(1 / R) : ℝ) * pmOne i := fun i => by ring
  simp only [sub_zero, inner_zero_left, ← Finset.mul_sum, e, e', sum_pmOne_sq] at key
  have k1 : (p "rho" : ℝ) * R * ((-(1 / R)) ^ 2 * 2) = 2 * (p "rho" / R) := by field_simp
  have k2 : (Ind : ℝ) / 2 * ((a + 1 / R - p "h" / Ind) ^ 2 * 2) = Ind / 2 * ((a + 1 / R) ^ 2 * 2) - 2 * (p "h" * (a + 1 / R) - p "h" ^ 2 / (2 * Ind)) := by
    field_simp
    ring
  rw [k1, k2] at key
  linarith

/-- the bound on `rho` is necessary in every class -/
theorem admmEulerStep_rho {k : ℕ} {mu : ℚ} {L : Option ℚ} {R Ind : ℚ} (hok : (defDecl mu L).Ok) (hmu : 0 ≤ mu) (hR : 0 < R) (hI : 0 < Ind) {p : Name → ℝ}
    (hs : AdmmEulerConsensusStep (k + 2) mu L R Ind p) : p "rho" ≤ p "h" - R * p "h" ^ 2 / (2 * Ind) + R * mu * (2 * p "h" - p "eta") / 2 := by
  have hR' : (0 : ℝ) < R := by exact_mod_cast hR
  have hI' : (0 : ℝ) < Ind := by exact_mod_cast hI
  obtain ⟨c0, hc0⟩ := (inside_infinite hok).nonempty
  have hlin : ∀ t : ℝ, 0 < t → t < 1 → p "rho" ≤ p "h" - R * p "h" ^ 2 / (2 * Ind) + R * (mu + t * (c0 - mu)) * (2 * p "h" - p "eta") / 2 := by
    intro t ht0 ht1
    have hin : Inside mu L (mu + t * (c0 - mu)) := by
      have h1 : 0 < c0 - mu := sub_pos.2 hc0.1
      refine ⟨by nlinarith, fun l hl => lt_trans ?_ (hc0.2 l hl)⟩
      nlinarith
    obtain ⟨c, hc⟩ : ∃ c, c = mu + t * (c0 - mu) := ⟨_, rfl⟩
    rw [← hc] at hin ⊢
    have hpos : 0 < c := lt_of_le_of_lt (by exact_mod_cast hmu) hin.1
    have := admmEuler_run hR hI hs (quadF_holds hmu hin 0) (a := c) (b := c / 2) (fun s _ => quadF_smp hpos s)
    have h2 : p "rho" / R ≤ p "h" * (c + 1 / R) - p "h" ^ 2 / (2 * Ind) - p "eta" * (c / 2) := by linarith
    rw [div_le_iff₀ hR'] at h2
    refine h2.trans (le_of_eq ?_)
    field_simp
    ring
  by_contra hcon
  push Not at hcon
  obtain ⟨K, hK⟩ : ∃ K, K = R * (c0 - mu) * (2 * p "h" - p "eta") / 2 := ⟨_, rfl⟩
  obtain ⟨d, hd⟩ : ∃ d, d = p "rho" - (p "h" - R * p "h" ^ 2 / (2 * Ind) + R * mu * (2 * p "h" - p "eta") / 2) := ⟨_, rfl⟩
  have hd0 : 0 < d := by rw [hd]; linarith
  have hK' : ∀ t : ℝ, 0 < t → t < 1 → d ≤ t * K := fun t h0 h1 => by
    have := hlin t h0 h1
    rw [hd, hK]
    linarith
  have hKpos : 0 < K := by
    have := hK' (1 / 2) (by norm_num) (by norm_num)
    linarith
  have hdK : d < K := by
    have := hK' (1 / 2) (by norm_num) (by norm_num)
    linarith
  have := hK' (d / (2 * K)) (by positivity) (by rw [div_lt_one (by positivity)]; linarith)
  rw [show d / (2 * K) * K = d / 2 by field_simp] at this
  linarith

/-- `c |x| + m / 2 x ^ 2` -/
noncomputable def absQ (c m : ℝ) : CFun ℝ := ⟨Set.univ, fun x => c * |x| + m / 2 * x ^ 2⟩

theorem absQ_holds {mu : ℚ} {c : ℝ} (hc : 0 ≤ c) : (defDecl mu none).Holds (absQ c mu) := by
  rw [C12_members]
  refine ⟨?_, by simp⟩
  rw [strongConvexOn_iff_convex]
  have := ((C12_members 0 none (absF c)).1 (absF_holds hc)).1
  rw [Rat.cast_zero, strongConvexOn_zero] at this
  refine this.congr fun x _ => ?_
  simp [absQ, absF]

theorem absQ_sample {c m : ℝ} (hc : 0 ≤ c) (hm : 0 ≤ m) {s : ℝ} (hs : s = 0 ∨ s = 1 ∨ s = -1) : (absQ c m).Sample s ((c + m) * s) ((c + m / 2) * s ^ 2) := by
  refine ⟨trivial, by rcases hs with rfl | rfl | rfl <;> simp [absQ], fun y _ => ?_⟩
  show (c + m / 2) * s ^ 2 + (y - s) * ((c + m) * s) ≤ c * |y| + m / 2 * y ^ 2
  have h1 := mul_le_mul_of_nonneg_left (le_abs_self y) hc
  have h2 := mul_le_mul_of_nonneg_left (neg_le_abs y) hc
  have h3 := mul_nonneg hc (abs_nonneg y)
  rcases hs with rfl | rfl | rfl
  · nlinarith [mul_nonneg hm (sq_nonneg y)]
  · nlinarith [mul_nonneg hm (sq_nonneg (y - 1))]
  · nlinarith [mul_nonneg hm (sq_nonneg (y + 1))]

/-- without smoothness the bound on `eta` is necessary -/
theorem admmEulerStep_eta {k : ℕ} {mu : ℚ} {R Ind : ℚ} (hmu : 0 ≤ mu) (hR : 0 < R) (hI : 0 < Ind) {p : Name → ℝ}
    (hs : AdmmEulerConsensusStep (k + 2) mu none R Ind p) : p "eta" ≤ p "h" := by
  have hmu' : (0 : ℝ) ≤ mu := by exact_mod_cast hmu
  by_contra hcon
  push Not at hcon
  obtain ⟨B, hB⟩ : ∃ B, B = p "h" * (mu + 1 / R) - p "h" ^ 2 / (2 * Ind) - p "rho" / R - p "eta" * (mu / 2) := ⟨_, rfl⟩
  have hlin : ∀ c : ℝ, 0 ≤ c → (p "eta" - p "h") * c ≤ B := fun c hc => by
    have := admmEuler_run hR hI hs (absQ_holds hc) (a := c + mu) (b := c + mu / 2) (fun s h => absQ_sample hc hmu' h)
    rw [hB]
    linarith
  have h1 := hlin ((|B| + 1) / (p "eta" - p "h")) (div_nonneg (by positivity) (by linarith))
  rw [mul_div_cancel₀ _ (by linarith : p "eta" - p "h" ≠ 0)] at h1
  linarith [le_abs_self B]

/-! ### The property -/

/-- **C82.** `admm_euler_consensus` (`classical_central_vi.py` 529-588) with any number `n = k + 2` of (strongly) convex functions, in verification mode: PEPit's worst case at a
dictionary with `h ≥ 0` is 0 exactly if `eta ≤ h` and `rho ≤ h - R h² / (2 Inductance) + R mu (2 h - eta) / 2`, and infinite otherwise.  The number of functions does not matter. -/
theorem C82_admmEulerConsensus {k : ℕ} {mu R Ind : ℚ} (hmu : 0 ≤ mu) (hR : 0 < R) (hI : 0 < Ind) {res : Dict Name ℝ} {P : PepProblem}
    (hP : (Circuit.admmEulerConsensus k mu none R Ind).verify res = .ok P) (hh : 0 ≤ P.value "h") :
    P.worstCase = 0 ↔ P.value "eta" ≤ P.value "h" ∧
      P.value "rho" ≤ P.value "h" - R * P.value "h" ^ 2 / (2 * Ind) + R * mu * (2 * P.value "h" - P.value "eta") / 2 := by
  have hok : (defDecl mu none).Ok := by by_cases h0 : mu = 0 <;> simp [defDecl, h0, FnDecl.Ok, hmu]
  rw [C73_admmEulerConsensus hok hP]
  exact ⟨fun hs => ⟨admmEulerStep_eta hmu hR hI hs, admmEulerStep_rho hok hmu hR hI hs⟩, fun h => admmEulerStep_of (by omega) hmu hR hI hh h.1 h.2⟩

/-- **C82.** With smooth functions the same values are accepted, and the bound on `rho` is still necessary. -/
theorem C82_admmEulerConsensus_smooth {k : ℕ} {mu L R Ind : ℚ} (hmu : 0 ≤ mu) (hL : mu < L) (hR : 0 < R) (hI : 0 < Ind) {res : Dict Name ℝ} {P : PepProblem}
    (hP : (Circuit.admmEulerConsensus k mu (some L) R Ind).verify res = .ok P) (hh : 0 ≤ P.value "h") :
    (P.value "eta" ≤ P.value "h" → P.value "rho" ≤ P.value "h" - R * P.value "h" ^ 2 / (2 * Ind) + R * mu * (2 * P.value "h" - P.value "eta") / 2 → P.worstCase = 0) ∧
      (P.worstCase = 0 → P.value "rho" ≤ P.value "h" - R * P.value "h" ^ 2 / (2 * Ind) + R * mu * (2 * P.value "h" - P.value "eta") / 2) := by
  have hok := defDecl_ok hmu hL
  rw [C73_admmEulerConsensus hok hP]
  exact ⟨fun h1 h2 => admmEulerStep_of (by omega) hmu hR hI hh h1 h2, fun hs => admmEulerStep_rho hok hmu hR hI hs⟩

/-- **C82.** Every feasible point of the nonlinear program of `solve_ipopt` for `admm_euler_consensus`, with any number of functions of any class, satisfies the bound on `rho`, and
without smoothness the bound on `eta`: no solver can find a larger weight. -/
theorem C82_admmEulerConsensus_feasible {C : CAS} (hC : C.Lawful) {k : ℕ} {mu : ℚ} {L : Option ℚ} {R Ind : ℚ} (hok : (defDecl mu L).Ok) (hmu : 0 ≤ mu) (hR : 0 < R) (hI : 0 < Ind)
    {p : Name → ℝ} (hp : IpoptFeasible C (admmEulerConsensus k mu L R Ind).prog stdParams p) :
    p "rho" ≤ p "h" - R * p "h" ^ 2 / (2 * Ind) + R * mu * (2 * p "h" - p "eta") / 2 ∧ (L = none → p "eta" ≤ p "h") := by
  have hs : AdmmEulerConsensusStep (k + 2) mu L R Ind p := by
    intro E _ _ f hf xs e y i1 x g i2 vs v h1 hy hi h2 h3 h4 h5
    have := C34_admmEulerConsensus hC k mu L R Ind hok hp f hf h1 hy hi (fun i hi => ⟨h2 i hi, h3 i hi⟩) (by rw [h5]; push_cast; rfl) h4
    rw [← Finset.mul_sum (a := p "rho" * R)] at this
    linarith
  exact ⟨admmEulerStep_rho hok hmu hR hI hs, fun hL => by subst hL; exact admmEulerStep_eta hmu hR hI hs⟩

/-- a dictionary with the largest step that is certified for three convex functions: `R = Inductance = 1`, `h = 2`, `rho = 0` -/
example : ∃ P, (Circuit.admmEulerConsensus 1 0 none 1 1).verify [("h", 2), ("eta", 2), ("rho", 0)] = .ok P ∧ P.worstCase = 0 := by
  obtain ⟨⟨r, h⟩, hr⟩ := (C04_errors refCAS_lawful _ Heap.empty).2 (safe_admmEulerConsensus 1 0 none 1 1)
  obtain ⟨P, hP, -, hv⟩ := C73_builds (c := .admmEulerConsensus 1 0 none 1 1) (params := [("h", 2), ("eta", 2), ("rho", 0)]) hr (by simp [Circuit.IsDual])
    (by simp [Circuit.keys, Dict.get?])
  simp [Circuit.keys, Dict.get?] at hv
  refine ⟨P, hP, (C82_admmEulerConsensus (by norm_num) (by norm_num) (by norm_num) hP (by rw [← hv.1]; norm_num)).2 ⟨by rw [← hv.1, ← hv.2.1], ?_⟩⟩
  rw [← hv.1, ← hv.2.1, ← hv.2.2]
  norm_num

/-- a larger step is refused -/
example : ∃ P, (Circuit.admmEulerConsensus 1 0 none 1 1).verify [("h", 21 / 10), ("eta", 0), ("rho", 0)] = .ok P ∧ P.worstCase ≠ 0 := by
  obtain ⟨⟨r, h⟩, hr⟩ := (C04_errors refCAS_lawful _ Heap.empty).2 (safe_admmEulerConsensus 1 0 none 1 1)
  obtain ⟨P, hP, -, hv⟩ := C73_builds (c := .admmEulerConsensus 1 0 none 1 1) (params := [("h", 21 / 10), ("eta", 0), ("rho", 0)]) hr (by simp [Circuit.IsDual])
    (by simp [Circuit.keys, Dict.get?])
  simp [Circuit.keys, Dict.get?] at hv
  refine ⟨P, hP, fun h0 => ?_⟩
  have := ((C82_admmEulerConsensus (by norm_num) (by norm_num) (by norm_num) hP (by rw [← hv.1]; norm_num)).1 h0).2
  rw [← hv.1, ← hv.2.1, ← hv.2.2] at this
  norm_num at this

/-- the certified point satisfies the bounds, as it must -/
example : ∃ p, IpoptFeasible refCAS (admmEulerConsensus 1 (1 / 2) (some 1) 1 1).prog stdParams p ∧
    p "rho" ≤ p "h" - (1 : ℚ) * p "h" ^ 2 / (2 * (1 : ℚ)) + (1 : ℚ) * (1 / 2 : ℚ) * (2 * p "h" - p "eta") / 2 := by
  obtain ⟨p, hp, -⟩ := C34_admmEulerConsensus_feasible
  exact ⟨p, hp, (C82_admmEulerConsensus_feasible refCAS_lawful (defDecl_ok (by norm_num) (by norm_num)) (by norm_num) (by norm_num) (by norm_num) hp).1⟩

end Verif
