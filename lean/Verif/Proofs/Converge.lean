import Verif.Props.Telescope
import Verif.Proofs.Interp
import Mathlib.Topology.Algebra.Order.LiminfLimsup
import Mathlib.Analysis.InnerProductSpace.Continuous

/-!
# Helpers for C33: limits of runs whose energy decreases
-/

namespace Verif
open scoped InnerProductSpace
open Filter

variable {E : Type} [NormedAddCommGroup E] [InnerProductSpace ℝ E]

/-- a non-negative energy that loses at least `D k` in step `k` -/
theorem energy_limit {En D : ℕ → ℝ} (h : ∀ k, En (k + 1) ≤ En k - D k) (hE : ∀ k, 0 ≤ En k) (hD : ∀ k, 0 ≤ D k) :
    (∀ N, ∑ k ∈ Finset.range N, D k ≤ En 0) ∧ Tendsto D atTop (nhds 0) ∧ ∀ k, En k ≤ En 0 := by
  obtain ⟨-, hb, ht⟩ := summable_of_dissipation (gap := D) one_pos (fun k => by simpa using h k) hE hD
  refine ⟨fun N => by simpa using hb N, ht, fun k => ?_⟩
  have h1 := C33_telescope h k
  have h2 : 0 ≤ ∑ j ∈ Finset.range k, D j := Finset.sum_nonneg fun j _ => hD j
  linarith

/-- a part of a vanishing sum of non-negative terms vanishes -/
theorem part_tendsto {D g : ℕ → ℝ} {c : ℝ} (hc : 0 < c) (hg : ∀ k, 0 ≤ g k) (hle : ∀ k, c * g k ≤ D k) (hD : Tendsto D atTop (nhds 0)) :
    Tendsto g atTop (nhds 0) := by
  have h1 : Tendsto (fun k => c⁻¹ * D k) atTop (nhds 0) := by simpa using hD.const_mul c⁻¹
  refine squeeze_zero hg (fun k => ?_) h1
  rw [inv_mul_eq_div, le_div_iff₀ hc]
  linarith [hle k]

omit [InnerProductSpace ℝ E] in
theorem tendsto_of_norm_sq {u : ℕ → E} (h : Tendsto (fun k => ‖u k‖ ^ 2) atTop (nhds 0)) : Tendsto u atTop (nhds 0) := by
  rw [tendsto_zero_iff_norm_tendsto_zero]
  have := h.sqrt
  simpa using this

omit [InnerProductSpace ℝ E] in
/-- a vector that is a part of a vanishing sum of squares vanishes -/
theorem part_tendsto_vec {D : ℕ → ℝ} {u : ℕ → E} {c : ℝ} (hc : 0 < c) (hle : ∀ k, c * ‖u k‖ ^ 2 ≤ D k) (hD : Tendsto D atTop (nhds 0)) :
    Tendsto u atTop (nhds 0) :=
  tendsto_of_norm_sq (part_tendsto hc (fun _ => by positivity) hle hD)

/-- inner product of a bounded and a vanishing sequence -/
theorem inner_tendsto_zero {u w : ℕ → E} {M : ℝ} (hu : Tendsto u atTop (nhds 0)) (hw : ∀ k, ‖w k‖ ≤ M) :
    Tendsto (fun k => ⟪u k, w k⟫_ℝ) atTop (nhds 0) := by
  have h1 : Tendsto (fun k => ‖u k‖ * M) atTop (nhds 0) := by simpa using hu.norm.mul_const M
  refine squeeze_zero_norm (fun k => ?_) h1
  exact (norm_inner_le_norm _ _).trans (mul_le_mul_of_nonneg_left (hw k) (norm_nonneg _))

omit [InnerProductSpace ℝ E] in
theorem norm_le_of_sq {x : E} {c M : ℝ} (hc : 0 < c) (h : c * ‖x‖ ^ 2 ≤ M) : ‖x‖ ≤ M / c + 1 := by
  have h1 : ‖x‖ ^ 2 ≤ M / c := by rw [le_div_iff₀ hc]; linarith
  nlinarith [sq_nonneg (‖x‖ - 1), norm_nonneg x]

/-- values lie above the linearization at the solution -/
theorem bregman_nonneg {f : CFun E} {x y x' y' : E} {v v' : ℝ} (s : f.Sample x y v) (s' : f.Sample x' y' v') :
    0 ≤ v' - v - ⟪y, x' - x⟫_ℝ := by
  have := s.2.2 x' s'.1
  rw [s'.2.1] at this
  linarith

/-- subgradients are monotone -/
theorem sample_mono {f : CFun E} {x y x' y' : E} {v v' : ℝ} (s : f.Sample x y v) (s' : f.Sample x' y' v') :
    v - v' - ⟪y', x - x'⟫_ℝ ≤ ⟪x - x', y - y'⟫_ℝ := by
  have h1 := bregman_nonneg s s'
  rw [← neg_sub x x', inner_neg_right] at h1
  have h2 : ⟪x - x', y - y'⟫_ℝ = ⟪y, x - x'⟫_ℝ - ⟪y', x - x'⟫_ℝ := by rw [real_inner_comm, inner_sub_left]
  rw [h2]
  linarith

theorem sample_mono_nonneg {f : CFun E} {x y x' y' : E} {v v' : ℝ} (s : f.Sample x y v) (s' : f.Sample x' y' v') :
    0 ≤ ⟪x - x', y - y'⟫_ℝ :=
  (bregman_nonneg s' s).trans (sample_mono s s')

/-- the class of `define_function` with `mu > 0` consists of strongly convex functions -/
theorem holds_strongly {mu : ℚ} {L : Option ℚ} (hmu : 0 < mu) {f : CFun E} (hf : (defDecl mu L).Holds f) : (FnDecl.strongly mu false).Holds f := by
  cases L with
  | none => simpa [defDecl, hmu.ne'] using hf
  | some l =>
    simp only [defDecl, ne_eq, hmu.ne', not_false_eq_true, Option.isSome_some, and_self, if_true] at hf
    exact ⟨by rw [hf.1]; exact hf.2.1, by simp⟩

/-- the linearization gap of a `mu`-strongly convex function -/
theorem bregman_strong {mu : ℚ} {L : Option ℚ} (hmu : 0 < mu) {f : CFun E} (hf : (defDecl mu L).Holds f) {x y x' y' : E} {v v' : ℝ}
    (s : f.Sample x y v) (s' : f.Sample x' y' v') : mu / 2 * ‖x' - x‖ ^ 2 ≤ v' - v - ⟪y, x' - x⟫_ℝ := by
  have h1 := lhs_nonpos (d := .strongly mu false) hmu.le (holds_strongly hmu hf) s' s
  simp only [FnDecl.cls, FnClass.lhs] at h1
  linarith

/-- subgradients of a `mu`-strongly convex function are strongly monotone -/
theorem sample_strong {mu : ℚ} {L : Option ℚ} (hmu : 0 < mu) {f : CFun E} (hf : (defDecl mu L).Holds f) {x y x' y' : E}
    {v v' : ℝ} (s : f.Sample x y v) (s' : f.Sample x' y' v') : mu * ‖x - x'‖ ^ 2 ≤ ⟪x - x', y - y'⟫_ℝ := by
  have h1 := bregman_strong hmu hf s s'
  have h2 := bregman_strong hmu hf s' s
  rw [norm_sub_rev x' x, ← neg_sub x x', inner_neg_right] at h1
  have h3 : ⟪x - x', y - y'⟫_ℝ = ⟪y, x - x'⟫_ℝ - ⟪y', x - x'⟫_ℝ := by rw [real_inner_comm, inner_sub_left]
  rw [h3]
  linarith

/-- the values tend to the optimal value when the linearization gaps vanish and the points agree in the limit -/
theorem values_of_bregman {n : ℕ} {v : ℕ → ℕ → ℝ} {vs : ℕ → ℝ} {ys : ℕ → E} {x : ℕ → ℕ → E} {xs : E} {z : ℕ → E}
    (hopt : ∑ i ∈ Finset.range n, ys i = 0) (hz : ∀ i < n, Tendsto (fun k => x k i - z k) atTop (nhds 0))
    (hb : Tendsto (fun k => ∑ i ∈ Finset.range n, (v k i - vs i - ⟪ys i, x k i - xs⟫_ℝ)) atTop (nhds 0)) :
    Tendsto (fun k => ∑ i ∈ Finset.range n, v k i) atTop (nhds (∑ i ∈ Finset.range n, vs i)) := by
  have h1 : Tendsto (fun k => ∑ i ∈ Finset.range n, ⟪ys i, x k i - z k⟫_ℝ) atTop (nhds 0) := by
    have := tendsto_finsetSum (Finset.range n) (f := fun i k => ⟪ys i, x k i - z k⟫_ℝ) (a := fun _ => 0) (x := atTop) fun i hi => by
      have := (tendsto_const_nhds (x := ys i)).inner (𝕜 := ℝ) (hz i (Finset.mem_range.1 hi))
      simpa using this
    simpa using this
  have h2 := (hb.add h1).add_const (∑ i ∈ Finset.range n, vs i)
  rw [add_zero, zero_add] at h2
  refine h2.congr fun k => ?_
  have h3 : ∑ i ∈ Finset.range n, ⟪ys i, x k i - xs⟫_ℝ = ∑ i ∈ Finset.range n, ⟪ys i, x k i - z k⟫_ℝ := by
    have : ∑ i ∈ Finset.range n, ⟪ys i, z k - xs⟫_ℝ = 0 := by rw [← sum_inner, hopt, inner_zero_left]
    rw [← add_zero (∑ i ∈ Finset.range n, ⟪ys i, x k i - z k⟫_ℝ), ← this, ← Finset.sum_add_distrib]
    refine Finset.sum_congr rfl fun i _ => ?_
    rw [← inner_add_right]; congr 1; abel
  rw [Finset.sum_sub_distrib, Finset.sum_sub_distrib, h3]
  ring

/-! ### A family for the examples: `(x - a)² / 2` on the reals -/

/-- the run of a deterministic method -/
def iter {S : Type} (step : S → S) (s : S) : ℕ → S
  | 0 => s
  | k + 1 => step (iter step s k)

noncomputable def halfSq (a : ℝ) : CFun ℝ := ⟨Set.univ, fun x => (x - a) ^ 2 / 2⟩

theorem halfSq_sample {a x g : ℝ} (h : g = x - a) : (halfSq a).Sample x g ((halfSq a).f x) := by
  subst h
  refine ⟨trivial, rfl, fun y _ => ?_⟩
  change (x - a) ^ 2 / 2 + (y - x) * (x - a) ≤ (y - a) ^ 2 / 2
  nlinarith [sq_nonneg (y - x)]

theorem halfSq_min (a : ℝ) : ∀ y ∈ (halfSq a).dom, (halfSq a).f a ≤ (halfSq a).f y := fun y _ => by
  change (a - a) ^ 2 / 2 ≤ (y - a) ^ 2 / 2
  nlinarith [sq_nonneg (y - a)]

theorem halfSq_prox {a R z x g : ℝ} (hg : g = x - a) (h : x + R * (x - a) = z) : (halfSq a).Prox R z x g ((halfSq a).f x) :=
  ⟨halfSq_sample hg, by rw [hg]; exact h⟩

theorem halfSq_holds {mu : ℚ} (hmu : mu ≤ 1) (a : ℝ) : (defDecl mu (some 1)).Holds (halfSq a) := by
  rw [C12_members]
  refine ⟨StrongConvexOn.mono (n := 1) (by exact_mod_cast hmu) ⟨convex_univ, fun x _ y _ s t hs ht hst => ?_⟩, fun l hl => ⟨rfl, ?_⟩⟩
  · have hb' : t = 1 - s := by linarith
    subst hb'
    simp only [halfSq, smul_eq_mul, Real.norm_eq_abs, sq_abs]
    nlinarith [sq_nonneg (x - y)]
  · cases hl
    refine ⟨fun x => x - a, fun x => ?_, fun x y => ?_⟩
    · have h1 : HasDerivAt (fun x : ℝ => (x - a) ^ 2 / 2) (x - a) x := by
        have := (((hasDerivAt_id x).sub_const a).pow 2).div_const 2
        refine this.congr_deriv ?_
        simp
      refine h1.hasFDerivAt.congr_fderiv ?_
      ext; simp
    · simp

end Verif
