import Verif.Props.HelloWorld
import Verif.Spec.HelloWorld
import Verif.Proofs.Dadmm
import Verif.Proofs.PgLimit
import Mathlib.Topology.Sequences

/-!
# C74: the algorithm of the documentation converges
-/

namespace Verif
open Filter
open scoped InnerProductSpace

variable {E : Type} [NormedAddCommGroup E] [InnerProductSpace ℝ E]

namespace HelloRun

variable {f : CFun E} {R a b : ℝ} {x y w z : ℕ → E}

/-- the energy of the two capacitors, up to a factor -/
noncomputable def energy (a b : ℝ) (w z : ℕ → E) (xs : E) (k : ℕ) : ℝ := ‖z k - (b / a) • w k - xs‖ ^ 2 + 4 * (b / a) ^ 2 * ‖w k‖ ^ 2

theorem split (hR : R ≠ 0) (hr : HelloRun f R a b x y w z) (k : ℕ) : z k = x k + (R / 2) • y k := by
  rw [hr.grad k, smul_smul, show R / 2 * (2 / R) = 1 by field_simp, one_smul, add_sub_cancel]

theorem sample (hR : 0 < R) (hf : ConvexOn ℝ f.dom f.f) (hr : HelloRun f R a b x y w z) (k : ℕ) : f.Sample (x k) (y k) (f.f (x k)) := by
  have := (hr.prox k).sample hf (by positivity)
  rwa [show (R / 2)⁻¹ = 2 / R by rw [inv_div], ← hr.grad k] at this

/-- the energy balance of one step -/
theorem energy_step (hR : R ≠ 0) (ha : a ≠ 0) (hr : HelloRun f R a b x y w z) (xs : E) (k : ℕ) :
    energy a b w z xs (k + 1) = energy a b w z xs k - 8 * b * (R * ⟪x k - xs, y k⟫_ℝ) -
      4 * b * ((1 - 5 * b) * ‖R • y k‖ ^ 2 - 6 * b * ⟪R • y k, w k⟫_ℝ + (6 * b / a - 9 * b) * ‖w k‖ ^ 2) := by
  obtain ⟨v, hv⟩ : ∃ v, v = x k - xs := ⟨_, rfl⟩
  have e1 : z k - (b / a) • w k - xs = v + (R / 2) • y k - (b / a) • w k := by rw [hr.split hR, hv]; abel
  have e2 : z (k + 1) - (b / a) • w (k + 1) - xs = v + (R / 2 - 4 * b * R) • y k - (b / a) • w k := by
    rw [hr.step, hr.volt, hr.split hR, hv]; match_scalars <;> field_simp <;> ring
  have e3 : w (k + 1) = (1 - 3 * a) • w k - (a * R) • y k := by rw [hr.volt]; match_scalars <;> ring
  rw [energy, energy, e1, e2, e3, ← hv]
  simp only [← real_inner_self_eq_norm_sq, inner_add_left, inner_add_right, inner_sub_left, inner_sub_right, real_inner_smul_left, real_inner_smul_right]
  rw [real_inner_comm v (w k), real_inner_comm v (y k), real_inner_comm (y k) (w k)]
  field_simp
  ring

theorem energy_nonneg (xs : E) (k : ℕ) : 0 ≤ energy a b w z xs k := by unfold energy; positivity

end HelloRun

/-- a quadratic form with positive leading minors -/
theorem quad_pos {A B D : ℝ} (hA : 0 < A) (hD : B ^ 2 ≤ A * D) (u v : E) : 0 ≤ A * ‖u‖ ^ 2 - 2 * B * ⟪u, v⟫_ℝ + D * ‖v‖ ^ 2 := by
  have h1 : 0 ≤ ‖A • u - B • v‖ ^ 2 := by positivity
  rw [norm_sub_sq_real, norm_smul, norm_smul, mul_pow, mul_pow, Real.norm_eq_abs, Real.norm_eq_abs, sq_abs, sq_abs, real_inner_smul_left,
    real_inner_smul_right] at h1
  have h2 : 0 ≤ (A * D - B ^ 2) * ‖v‖ ^ 2 := mul_nonneg (by linarith) (by positivity)
  refine nonneg_of_mul_nonneg_right (a := A) ?_ hA
  nlinarith

theorem quad_strict {A B D : ℝ} (hA : 0 < A) (hD : B ^ 2 < A * D) :
    ∃ m : ℝ, 0 < m ∧ ∀ u v : E, m * (‖u‖ ^ 2 + ‖v‖ ^ 2) ≤ A * ‖u‖ ^ 2 - 2 * B * ⟪u, v⟫_ℝ + D * ‖v‖ ^ 2 := by
  have hD0 : 0 < D := pos_of_mul_pos_right (lt_of_le_of_lt (sq_nonneg B) hD) hA.le
  have hAD : 0 < A + D := by linarith
  refine ⟨(A * D - B ^ 2) / (A + D), div_pos (by linarith) hAD, fun u v => ?_⟩
  set m := (A * D - B ^ 2) / (A + D) with hm
  have e : m * (A + D) = A * D - B ^ 2 := by rw [hm]; field_simp
  have hmA : 0 < A - m := by
    have : m < A := by
      rw [hm, div_lt_iff₀ hAD]
      nlinarith [sq_nonneg B]
    linarith
  have := quad_pos hmA (B := B) (D := D - m) (by nlinarith [sq_nonneg m]) u v
  linarith

namespace HelloRun
variable {f : CFun E} {R a b : ℝ} {x y w z : ℕ → E}

theorem minSample {xs : E} (h : f.IsMin xs) : f.Sample xs 0 (f.f xs) := ⟨h.1, rfl, fun u hu => by simpa using h.2 u hu⟩

theorem gap_le (hR : 0 < R) (hf : ConvexOn ℝ f.dom f.f) (hr : HelloRun f R a b x y w z) {xs : E} (hm : f.IsMin xs) (k : ℕ) :
    0 ≤ f.f (x k) - f.f xs ∧ f.f (x k) - f.f xs ≤ ⟪x k - xs, y k⟫_ℝ := by
  have s := hr.sample hR hf k
  refine ⟨by linarith [hm.2 _ s.1], ?_⟩
  simpa using sample_mono s (minSample hm)

/-- **values converge** whenever the dissipated power is a non-negative form -/
theorem values (hR : 0 < R) (ha : 0 < a) (hb : 0 < b) (hb5 : 5 * b < 1) (hq : 9 * b ^ 2 ≤ (1 - 5 * b) * (6 * b / a - 9 * b))
    (hf : ConvexOn ℝ f.dom f.f) (hr : HelloRun f R a b x y w z) {xs : E} (hm : f.IsMin xs) :
    (∀ n, ∑ k ∈ Finset.range n, (f.f (x k) - f.f xs) ≤ energy a b w z xs 0 / (8 * b * R)) ∧
      Tendsto (fun k => f.f (x k)) atTop (nhds (f.f xs)) := by
  have hstep : ∀ k, energy a b w z xs (k + 1) ≤ energy a b w z xs k - 8 * b * R * (f.f (x k) - f.f xs) := by
    intro k
    rw [hr.energy_step hR.ne' ha.ne']
    have h1 := quad_pos (A := 1 - 5 * b) (B := 3 * b) (D := 6 * b / a - 9 * b) (by linarith) (by nlinarith) (R • y k) (w k)
    have h2 := mul_le_mul_of_nonneg_left (hr.gap_le hR hf hm k).2 (show 0 ≤ 8 * b * R by positivity)
    have h3 := mul_nonneg (show 0 ≤ 4 * b by positivity) h1
    nlinarith
  obtain ⟨-, h2, h3⟩ := summable_of_dissipation (show 0 < 8 * b * R by positivity) hstep (energy_nonneg xs) fun k => (hr.gap_le hR hf hm k).1
  exact ⟨h2, by simpa using h3.add_const (f.f xs)⟩

/-- the dissipated power of a positive form -/
theorem strict_step (hR : 0 < R) (ha : 0 < a) (hb : 0 < b) (hb5 : 5 * b < 1) (hq : 9 * b ^ 2 < (1 - 5 * b) * (6 * b / a - 9 * b))
    (hf : ConvexOn ℝ f.dom f.f) (hr : HelloRun f R a b x y w z) :
    ∃ m : ℝ, 0 < m ∧ ∀ xs, f.IsMin xs → ∀ k, energy a b w z xs (k + 1) ≤ energy a b w z xs k - m * (‖R • y k‖ ^ 2 + ‖w k‖ ^ 2) := by
  obtain ⟨m, hm, hq'⟩ := quad_strict (E := E) (A := 1 - 5 * b) (B := 3 * b) (D := 6 * b / a - 9 * b) (by linarith) (by nlinarith)
  refine ⟨4 * b * m, by positivity, fun xs hxs k => ?_⟩
  rw [hr.energy_step hR.ne' ha.ne']
  have h1 := mul_le_mul_of_nonneg_left (hq' (R • y k) (w k)) (show 0 ≤ 4 * b by positivity)
  have h2 := (hr.gap_le hR hf hxs k)
  have h3 : 0 ≤ 8 * b * (R * ⟪x k - xs, y k⟫_ℝ) := mul_nonneg (by positivity) (mul_nonneg hR.le (h2.1.trans h2.2))
  nlinarith

/-- currents and voltages vanish -/
theorem vanish (hR : 0 < R) (ha : 0 < a) (hb : 0 < b) (hb5 : 5 * b < 1) (hq : 9 * b ^ 2 < (1 - 5 * b) * (6 * b / a - 9 * b))
    (hf : ConvexOn ℝ f.dom f.f) (hr : HelloRun f R a b x y w z) {xs : E} (hm : f.IsMin xs) :
    Tendsto y atTop (nhds 0) ∧ Tendsto w atTop (nhds 0) ∧ Tendsto (fun k => z k - x k) atTop (nhds 0) := by
  obtain ⟨m, hm0, hs⟩ := hr.strict_step hR ha hb hb5 hq hf
  obtain ⟨-, h2, -⟩ := energy_limit (hs xs hm) (energy_nonneg xs) fun k => by positivity
  have hy : Tendsto y atTop (nhds 0) := part_tendsto_vec (show 0 < m * R ^ 2 by positivity) (fun k => by
    rw [norm_smul, mul_pow, Real.norm_eq_abs, sq_abs]
    nlinarith [mul_nonneg hm0.le (sq_nonneg ‖w k‖)]) h2
  refine ⟨hy, part_tendsto_vec hm0 (fun k => by nlinarith [mul_nonneg hm0.le (sq_nonneg ‖R • y k‖)]) h2, ?_⟩
  have := hy.const_smul (R / 2)
  rw [smul_zero] at this
  refine this.congr fun k => ?_
  rw [hr.split hR.ne' k, add_sub_cancel_left]

/-- **in finite dimension the points converge** to one minimiser -/
theorem points [FiniteDimensional ℝ E] (hR : 0 < R) (ha : 0 < a) (hb : 0 < b) (hb5 : 5 * b < 1) (hq : 9 * b ^ 2 < (1 - 5 * b) * (6 * b / a - 9 * b))
    (hf : ConvexOn ℝ f.dom f.f) (hp : ∀ u, ∃ p, f.IsProx (R / 2) u p) (hr : HelloRun f R a b x y w z) (hm : ∃ xs, f.IsMin xs) :
    ∃ xl, f.IsMin xl ∧ Tendsto x atTop (nhds xl) ∧ Tendsto z atTop (nhds xl) := by
  have : ProperSpace E := FiniteDimensional.proper ℝ E
  obtain ⟨xs, hxs⟩ := hm
  obtain ⟨hy, hw, hzx⟩ := hr.vanish hR ha hb hb5 hq hf hxs
  obtain ⟨m, hm0, hs⟩ := hr.strict_step hR ha hb hb5 hq hf
  have hanti : ∀ u, f.IsMin u → Antitone (energy a b w z u) := fun u hu => antitone_nat_of_succ_le fun k => by
    have := hs u hu k
    have : 0 ≤ m * (‖R • y k‖ ^ 2 + ‖w k‖ ^ 2) := by positivity
    linarith
  -- a convergent subsequence
  set s : ℕ → E := fun k => z k - (b / a) • w k with hsdef
  have hbound : ∀ k, s k ∈ Metric.closedBall xs (energy a b w z xs 0 + 1) := by
    intro k
    rw [Metric.mem_closedBall, dist_eq_norm]
    have h1 := hanti xs hxs (Nat.zero_le k)
    have h2 : ‖s k - xs‖ ^ 2 ≤ energy a b w z xs k := by
      unfold energy
      have : 0 ≤ 4 * (b / a) ^ 2 * ‖w k‖ ^ 2 := by positivity
      linarith
    nlinarith [sq_nonneg (‖s k - xs‖ - 1), norm_nonneg (s k - xs)]
  obtain ⟨xl, -, φ, hφ, hlim⟩ := tendsto_subseq_of_bounded Metric.isBounded_closedBall hbound
  have hφt := hφ.tendsto_atTop
  have hwb : Tendsto (fun k => (b / a) • w k) atTop (nhds 0) := by simpa using hw.const_smul (b / a)
  have hzl : Tendsto (fun k => z (φ k)) atTop (nhds xl) := by
    have := hlim.add (hwb.comp hφt)
    rw [add_zero] at this
    refine this.congr fun k => ?_
    simp [hsdef]
  have hxl : Tendsto (fun k => x (φ k)) atTop (nhds xl) := by
    have := hzl.sub (hzx.comp hφt)
    rw [sub_zero] at this
    refine this.congr fun k => ?_
    simp
  have hmin : f.IsMin xl := by
    have := sample_closed (F := f) (rho := R / 2) (by positivity) (fun u => by
      obtain ⟨p, hp⟩ := hp u
      exact ⟨p, hp.sample hf (by positivity)⟩) (fun k => hr.sample hR hf (φ k)) hxl (hy.comp hφt)
    exact ⟨this.1, fun u hu => by simpa using this.2.2 u hu⟩
  -- the energy of this minimiser vanishes
  have hE : Tendsto (energy a b w z xl) atTop (nhds 0) := by
    have h1 : Tendsto (fun k => energy a b w z xl (φ k)) atTop (nhds 0) := by
      have e1 := ((hlim.sub_const xl).norm.pow 2).add (((hw.comp hφt).norm.pow 2).const_mul (4 * (b / a) ^ 2))
      simpa [energy, hsdef] using e1
    have h2 := tendsto_atTop_ciInf (hanti xl hmin) ⟨0, by rintro _ ⟨k, rfl⟩; exact energy_nonneg xl k⟩
    rwa [tendsto_nhds_unique (h2.comp hφt) h1] at h2
  have hsl : Tendsto (fun k => s k - xl) atTop (nhds 0) := part_tendsto_vec one_pos (fun k => by
    unfold energy
    have : 0 ≤ 4 * (b / a) ^ 2 * ‖w k‖ ^ 2 := by positivity
    rw [one_mul]
    linarith) hE
  have hz : Tendsto z atTop (nhds xl) := by
    have := (hsl.add hwb).add_const xl
    rw [add_zero, zero_add] at this
    refine this.congr fun k => ?_
    simp only [hsdef]
    abel
  refine ⟨xl, hmin, ?_, hz⟩
  have := hz.sub hzx
  rw [sub_zero] at this
  refine this.congr fun k => ?_
  simp

end HelloRun

/-- **C74**, the claim "the resulting provably convergent algorithm" of `README.md` 132 for the numbers printed there, `0.33` and `0.16`: for every convex
function with a minimiser, every run has `f(x^k) → min f`, with an average error of order `1/k`; `w^k → 0`, `y^k → 0`; and in finite dimension, for a
function with proximal points (that is, a closed one), `x^k` and `z^k` converge to one minimiser. -/
theorem C74_readme {f : CFun E} (hf : ConvexOn ℝ f.dom f.f) {x y w z : ℕ → E} (hr : HelloRun f 1 (33 / 100) (16 / 100) x y w z) {xs : E} (hm : f.IsMin xs) :
    (∃ K, ∀ n, ∑ k ∈ Finset.range n, (f.f (x k) - f.f xs) ≤ K) ∧ Tendsto (fun k => f.f (x k)) atTop (nhds (f.f xs)) ∧
      Tendsto y atTop (nhds 0) ∧ Tendsto w atTop (nhds 0) ∧
      (FiniteDimensional ℝ E → (∀ u, ∃ p, f.IsProx (1 / 2) u p) → ∃ xl, f.IsMin xl ∧ Tendsto x atTop (nhds xl) ∧ Tendsto z atTop (nhds xl)) := by
  have hq : 9 * (16 / 100 : ℝ) ^ 2 < (1 - 5 * (16 / 100)) * (6 * (16 / 100) / (33 / 100) - 9 * (16 / 100)) := by norm_num
  obtain ⟨h1, h2⟩ := hr.values one_pos (by norm_num) (by norm_num) (by norm_num) hq.le hf hm
  obtain ⟨h3, h4, -⟩ := hr.vanish one_pos (by norm_num) (by norm_num) (by norm_num) hq hf hm
  exact ⟨⟨_, h1⟩, h2, h3, h4, fun _ hp => hr.points one_pos (by norm_num) (by norm_num) (by norm_num) hq hf hp ⟨xs, hm⟩⟩

/-- **C74**, for every feasible point of the nonlinear program, with `h > 0`: run the algorithm with this `h`.  Then the errors `f(x^k) - min f` sum to at
most the initial energy of `README.md` 123 divided by `h`, so `f(x^k) → min f`.  If `h` is not the largest possible `2 R C / 3`, also `w^k → 0`, and in
finite dimension `x^k` and `z^k` converge to one minimiser. -/
theorem C74_converges {C : CAS} (hC : C.Lawful) {R Cap : ℚ} (hR : 0 < R) (hCap : 0 < Cap) {p : Name → ℝ}
    (hp : IpoptFeasible C (Build.helloWorld 0 none R Cap).prog stdParams p) (hh : 0 < p "h")
    {f : CFun E} (hf : ConvexOn ℝ f.dom f.f) {x y w z : ℕ → E} (hr : HelloRun f R (p "h" / (2 * R * Cap)) (p "h" / (4 * R * Cap)) x y w z)
    {xs : E} (hm : f.IsMin xs) :
    (∀ n, ∑ k ∈ Finset.range n, (f.f (x k) - f.f xs) ≤ (Cap / 2 * ‖(2 : ℝ)⁻¹ • w 0 - z 0 + xs‖ ^ 2 + Cap / 2 * ‖w 0‖ ^ 2) / p "h") ∧
      Tendsto (fun k => f.f (x k)) atTop (nhds (f.f xs)) ∧
      (p "h" < 2 * R * Cap / 3 → Tendsto w atTop (nhds 0) ∧
        (FiniteDimensional ℝ E → (∀ u, ∃ p, f.IsProx (R / 2) u p) → ∃ xl, f.IsMin xl ∧ Tendsto x atTop (nhds xl) ∧ Tendsto z atTop (nhds xl))) := by
  have hr' : (0 : ℝ) < R := by exact_mod_cast hR
  have hc : (0 : ℝ) < Cap := by exact_mod_cast hCap
  have hok : ∀ d ∈ decls (Build.helloWorld 0 none R Cap).prog, d.Ok := by
    calls_simp [Build.helloWorld, Build.defFunction]
    simp [decls, defDecl, FnDecl.Ok]
  have hclean : ∀ i ∈ (Build.helloWorld 0 none R Cap).prog, i.Clean {n | n ∈ stdParams} := by
    calls_simp [Build.helloWorld, Build.defFunction]; simp [Instr.Clean, stdParams]
  have hg : Guaranteed (Build.helloWorld 0 none R Cap).prog p := guaranteed_of_feasible hC hclean (by decide) (by decide) hok hp
  rw [guaranteed_helloWorld _ _ _ _ hR.ne', hello_step hR hCap hh] at hg
  obtain ⟨q, hq⟩ : ∃ q : ℝ, q = p "h" / (4 * R * Cap) := ⟨_, rfl⟩
  have hq0 : 0 < q := by rw [hq]; positivity
  have hq1 : q ≤ 1 / 6 := by rw [hq, div_le_iff₀ (by positivity)]; linarith [hg.2]
  have ha : p "h" / (2 * R * Cap) = 2 * q := by rw [hq]; field_simp; ring
  rw [ha, ← hq] at hr
  have e : 6 * q / (2 * q) - 9 * q = 3 - 9 * q := by field_simp; ring
  obtain ⟨h1, h2⟩ := hr.values hr' (by positivity) hq0 (by linarith) (by rw [e]; nlinarith) hf hm
  refine ⟨fun n => (h1 n).trans (le_of_eq ?_), h2, fun hlt => ?_⟩
  · have e1 : (2 : ℝ)⁻¹ • w 0 - z 0 + xs = -(z 0 - (q / (2 * q)) • w 0 - xs) := by
      rw [show q / (2 * q) = 2⁻¹ by field_simp]; abel
    rw [HelloRun.energy, e1, norm_neg, show p "h" = 4 * R * Cap * q by rw [hq]; field_simp]
    field_simp
    ring
  · have hq2 : q < 1 / 6 := by rw [hq, div_lt_iff₀ (by positivity)]; linarith
    have hs : 9 * q ^ 2 < (1 - 5 * q) * (6 * q / (2 * q) - 9 * q) := by rw [e]; nlinarith
    exact ⟨(hr.vanish hr' (by positivity) hq0 (by linarith) hs hf hm).2.1,
      fun _ hp => hr.points hr' (by positivity) hq0 (by linarith) hs hf hp ⟨xs, hm⟩⟩

/-- the minimiser of `2 |u|` is 0 -/
theorem absF_isMin : (absF 2).IsMin (0 : ℝ) := ⟨trivial, fun u _ => by simp [absF]⟩

/-- **C74**, the bound `h < 2 R C / 3` is needed: with the optimal parameters `h = 20/3`, that is with the factors `1/3` and `1/6`, there is a convex function
on the line with one minimiser for which `x^k` is always this minimiser but `z^k` and `w^k` alternate between two values. -/
theorem C74_oscillates : ∃ (f : CFun ℝ) (x y w z : ℕ → ℝ), ConvexOn ℝ f.dom f.f ∧ HelloRun f 1 (1 / 3) (1 / 6) x y w z ∧ f.IsMin 0 ∧
    (∀ u, f.IsMin u → u = 0) ∧ (∀ k, x k = 0) ∧ (∀ k, z k = (-1) ^ k) ∧ (∀ k, w k = 2 / 3 * (-1) ^ k) ∧
    (¬ ∃ l, Tendsto z atTop (nhds l)) ∧ ¬ ∃ l, Tendsto w atTop (nhds l) := by
  have hconv : ConvexOn ℝ (absF 2).dom (absF 2).f := (absF_holds (c := 2) (by norm_num)).1
  have hosc : ∀ c : ℝ, c ≠ 0 → ¬ ∃ l, Tendsto (fun k : ℕ => c * (-1) ^ k) atTop (nhds l) := by
    rintro c hc ⟨l, hl⟩
    have h1 := hl.comp (tendsto_id.const_mul_atTop' (show 0 < 2 by norm_num))
    have h2 := (tendsto_add_atTop_iff_nat 1).2 hl
    have h3 := h2.comp (tendsto_id.const_mul_atTop' (show 0 < 2 by norm_num))
    have e1 : l = c := tendsto_nhds_unique h1 (by simp [Function.comp_def, pow_mul])
    have e2 : l = -c := tendsto_nhds_unique h3 (by simp [Function.comp_def, pow_mul, pow_succ])
    exact hc (by linarith)
  refine ⟨absF 2, fun _ => 0, fun k => 2 * (-1) ^ k, fun k => 2 / 3 * (-1) ^ k, fun k => (-1) ^ k, hconv, ⟨?_, ?_, ?_, ?_⟩, absF_isMin, ?_, fun _ => rfl,
    fun _ => rfl, fun _ => rfl, ?_, hosc _ (by norm_num)⟩
  · intro k
    refine ⟨trivial, fun u _ => ?_⟩
    have h1 : ((-1 : ℝ) ^ k) ^ 2 = 1 := by rw [← pow_mul, mul_comm, pow_mul]; simp
    have h2 : |(-1 : ℝ) ^ k| = 1 := by simp
    have h3 : (-1 : ℝ) ^ k * u ≤ |u| := by
      calc (-1 : ℝ) ^ k * u ≤ |(-1 : ℝ) ^ k * u| := le_abs_self _
        _ = |u| := by rw [abs_mul, h2, one_mul]
    simp only [absF, abs_zero, mul_zero, zero_add, Real.norm_eq_abs, sq_abs]
    nlinarith [sq_nonneg u]
  · intro k; simp
  · intro k; simp [pow_succ]; ring
  · intro k; simp [pow_succ]; ring
  · intro u hu
    have := hu.2 0 trivial
    simp only [absF, abs_zero, mul_zero] at this
    exact abs_nonpos_iff.1 (by linarith)
  · simpa using hosc 1 one_ne_zero

/-- the runs of C74 exist: every function with proximal points has one, from every starting point -/
example {f : CFun E} {R a b : ℝ} (hp : ∀ u, ∃ p, f.IsProx (R / 2) u p) (w0 z0 : E) : ∃ x y w z, HelloRun f R a b x y w z ∧ w 0 = w0 ∧ z 0 = z0 := by
  choose P hP using hp
  let st : ℕ → E × E := fun k => Nat.rec (w0, z0) (fun _ s =>
    (s.1 - a • (R • (2 / R) • (s.2 - P s.2) + (3 : ℝ) • s.1), s.2 - b • ((5 * R) • (2 / R) • (s.2 - P s.2) + (3 : ℝ) • s.1))) k
  exact ⟨fun k => P (st k).2, fun k => (2 / R) • ((st k).2 - P (st k).2), fun k => (st k).1, fun k => (st k).2,
    ⟨fun k => hP _, fun _ => rfl, fun _ => rfl, fun _ => rfl⟩, rfl, rfl⟩

/-- the hypotheses of `C74_converges` are met, at the optimal point and at a smaller step -/
example : ∃ p, IpoptFeasible refCAS (Build.helloWorld 0 none 1 10).prog stdParams p ∧ p "h" = 20 / 3 ∧ p "eta" = 20 / 3 := by
  obtain ⟨r, h, nlp, h', hr, hn, -, ⟨σ, hσ, h1, h2⟩, -⟩ := C74_answer refCAS_lawful
  exact ⟨_, ⟨r, h, [], [], nlp, h', σ, hr, hn, hσ, rfl⟩, h2, h1⟩

end Verif
