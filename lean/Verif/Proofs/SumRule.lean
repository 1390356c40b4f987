import Verif.Spec.Mixing
import Verif.Proofs.Convex
import Verif.Proofs.PgExtra
import Mathlib.Analysis.LocallyConvex.Separation
import Mathlib.Analysis.Convex.Continuous
import Mathlib.Analysis.InnerProductSpace.Dual

/-!
# Subgradients at a minimiser of a sum

In finite dimension, if convex functions have a common point in the interior of their domains, a minimiser of their sum comes with subgradients
that add up to zero.
-/

namespace Verif
open scoped InnerProductSpace

variable {E : Type} [NormedAddCommGroup E] [InnerProductSpace ℝ E] [FiniteDimensional ℝ E]

omit [FiniteDimensional ℝ E] in
theorem hypo_convex {h : CFun E} (hc : ConvexOn ℝ h.dom h.f) (c : ℝ) : Convex ℝ {p : E × ℝ | p.1 ∈ h.dom ∧ p.2 ≤ c - h.f p.1} := by
  rintro ⟨x, s⟩ ⟨hx, hs⟩ ⟨y, t⟩ ⟨hy, ht⟩ a b ha hb hab
  refine ⟨hc.1 hx hy ha hb hab, ?_⟩
  have h1 := hc.2 hx hy ha hb hab
  simp only [smul_eq_mul] at h1
  simp only at hs ht
  change a * s + b * t ≤ c - h.f (a • x + b • y)
  have hc' : c = a * c + b * c := by rw [← add_mul, hab, one_mul]
  nlinarith [mul_le_mul_of_nonneg_left hs ha, mul_le_mul_of_nonneg_left ht hb]

omit [FiniteDimensional ℝ E] in
theorem epi_convex {f : CFun E} (hc : ConvexOn ℝ f.dom f.f) (c : ℝ) : Convex ℝ {p : E × ℝ | p.1 ∈ f.dom ∧ f.f p.1 - c < p.2} := by
  rintro ⟨x, s⟩ ⟨hx, hs⟩ ⟨y, t⟩ ⟨hy, ht⟩ a b ha hb hab
  refine ⟨hc.1 hx hy ha hb hab, ?_⟩
  have h1 := hc.2 hx hy ha hb hab
  simp only [smul_eq_mul] at h1
  simp only at hs ht
  change f.f (a • x + b • y) - c < a * s + b * t
  have hc' : c = a * c + b * c := by rw [← add_mul, hab, one_mul]
  rcases ha.eq_or_lt with rfl | ha'
  · have : b = 1 := by linarith
    subst this
    nlinarith
  · nlinarith [mul_lt_mul_of_pos_left hs ha', mul_le_mul_of_nonneg_left ht.le hb]

/-- two functions -/
theorem sum_rule_two {f h : CFun E} (hf : ConvexOn ℝ f.dom f.f) (hh : ConvexOn ℝ h.dom h.f) {x0 xh : E} (h0f : x0 ∈ f.dom)
    (h0h : x0 ∈ interior h.dom) (hxf : xh ∈ f.dom) (hxh : xh ∈ h.dom)
    (hmin : ∀ y ∈ f.dom, y ∈ h.dom → f.f xh + h.f xh ≤ f.f y + h.f y) :
    ∃ g, f.Sample xh g (f.f xh) ∧ h.Sample xh (-g) (h.f xh) := by
  have hint : (interior {p : E × ℝ | p.1 ∈ h.dom ∧ p.2 ≤ h.f xh - h.f p.1}).Nonempty := by
    refine ⟨(x0, h.f xh - h.f x0 - 2), ?_⟩
    rw [mem_interior_iff_mem_nhds]
    have hcont : ContinuousAt h.f x0 := hh.continuousOn_interior.continuousAt (isOpen_interior.mem_nhds h0h)
    have h1 : ∀ᶠ p : E × ℝ in nhds (x0, h.f xh - h.f x0 - 2), p.1 ∈ interior h.dom :=
      (continuous_fst.tendsto (x0, h.f xh - h.f x0 - 2)).eventually (isOpen_interior.mem_nhds h0h)
    have h2 : ∀ᶠ p : E × ℝ in nhds (x0, h.f xh - h.f x0 - 2), h.f p.1 < h.f x0 + 1 :=
      (continuous_fst.tendsto (x0, h.f xh - h.f x0 - 2)).eventually (hcont.eventually (gt_mem_nhds (by linarith)))
    have h3 : ∀ᶠ p : E × ℝ in nhds (x0, h.f xh - h.f x0 - 2), p.2 < h.f xh - h.f x0 - 1 :=
      (continuous_snd.tendsto (x0, h.f xh - h.f x0 - 2)).eventually (gt_mem_nhds (by simp only; linarith))
    filter_upwards [h1, h2, h3] with p h1 h2 h3
    exact ⟨interior_subset h1, by linarith⟩
  have hdisj : Disjoint (interior {p : E × ℝ | p.1 ∈ h.dom ∧ p.2 ≤ h.f xh - h.f p.1}) {p : E × ℝ | p.1 ∈ f.dom ∧ f.f p.1 - f.f xh < p.2} := by
    refine Set.disjoint_of_subset_left interior_subset (Set.disjoint_left.2 ?_)
    rintro p ⟨h1, h2⟩ ⟨h3, h4⟩
    have := hmin p.1 h3 h1
    linarith
  obtain ⟨φ, u, hφ, hS, hT⟩ := geometric_hahn_banach_of_nonempty_interior (hypo_convex hh (h.f xh)) (epi_convex hf (f.f xh)) hdisj hint
    ⟨(xh, 1), hxf, by simp⟩
  set s : ℝ := φ (0, 1) with hs
  have split : ∀ (x : E) (t : ℝ), φ (x, t) = φ (x, 0) + s * t := by
    intro x t
    have : ((x, t) : E × ℝ) = (x, 0) + t • (0, 1) := by simp
    rw [this, map_add, map_smul, smul_eq_mul, mul_comm]
  have hu1 : φ (xh, 0) ≤ u := hS (xh, 0) ⟨hxh, by simp⟩
  have hu2 : ∀ ε > 0, u ≤ φ (xh, 0) + s * ε := fun ε hε => by
    rw [← split]
    exact hT (xh, ε) ⟨hxf, by simpa using hε⟩
  have hs0 : 0 ≤ s := by
    have := hu2 1 one_pos
    linarith
  have hu : u = φ (xh, 0) := by
    refine le_antisymm (le_of_forall_pos_le_add fun ε hε => ?_) hu1
    have h1 := hu2 (ε / (s + 1)) (by positivity)
    have h2 : s * (ε / (s + 1)) ≤ ε := by
      rw [mul_div_assoc', div_le_iff₀ (by positivity)]
      nlinarith
    linarith
  have hspos : 0 < s := by
    refine lt_of_le_of_ne hs0 fun hs0 => hφ ?_
    have hsplit : ∀ (x : E) (t : ℝ), φ (x, t) = φ (x, 0) := fun x t => by rw [split, ← hs0, zero_mul, add_zero]
    have h1 : u ≤ φ (x0, 0) := by
      rw [← hsplit x0 (f.f x0 - f.f xh + 1)]
      exact hT _ ⟨h0f, by simp⟩
    have h2 : ∀ y ∈ h.dom, φ (y, 0) ≤ u := fun y hy => by
      rw [← hsplit y (h.f xh - h.f y)]
      exact hS _ ⟨hy, le_rfl⟩
    have h3 : ∀ d : E, φ (d, 0) ≤ 0 := by
      intro d
      have h4 : ∀ᶠ t : ℝ in nhds 0, x0 + t • d ∈ interior h.dom := by
        have : Continuous fun t : ℝ => x0 + t • d := by fun_prop
        exact (this.tendsto 0).eventually (isOpen_interior.mem_nhds (by simpa using h0h))
      obtain ⟨ε, hε, h5⟩ := Metric.eventually_nhds_iff.1 h4
      have h6 := h2 _ (interior_subset (h5 (y := ε / 2) (by rw [Real.dist_eq, sub_zero, abs_of_pos (by positivity)]; linarith)))
      have h7 : ((x0 + (ε / 2) • d, 0) : E × ℝ) = (x0, 0) + (ε / 2) • (d, 0) := by simp
      rw [h7, map_add, map_smul, smul_eq_mul] at h6
      nlinarith
    refine ContinuousLinearMap.ext fun p => ?_
    rw [show p = (p.1, p.2) from rfl, hsplit, ContinuousLinearMap.zero_apply]
    refine le_antisymm (h3 _) ?_
    have h8 := h3 (-p.1)
    have h9 : ((-p.1, 0) : E × ℝ) = -(p.1, 0) := by simp
    rw [h9, map_neg] at h8
    linarith
  -- the functional as an inner product
  haveI : CompleteSpace E := FiniteDimensional.complete ℝ E
  set l : StrongDual ℝ E := φ.comp (ContinuousLinearMap.inl ℝ E ℝ) with hl
  set v : E := (InnerProductSpace.toDual ℝ E).symm l with hv
  have hvl : ∀ y, ⟪v, y⟫_ℝ = φ (y, 0) := fun y => by
    rw [hv, InnerProductSpace.toDual_symm_apply]
    rfl
  refine ⟨-(s⁻¹ • v), ⟨hxf, rfl, fun y hy => ?_⟩, ⟨hxh, rfl, fun y hy => ?_⟩⟩
  · rw [inner_neg_left, real_inner_smul_left, inner_sub_right, hvl, hvl]
    have h1 : φ (xh, 0) ≤ φ (y, 0) + s * (f.f y - f.f xh) := by
      rw [← hu]
      refine le_of_forall_pos_le_add fun ε hε => ?_
      have h2 := hT (y, f.f y - f.f xh + ε / s) ⟨hy, by
        have : 0 < ε / s := by positivity
        simp only; linarith⟩
      rw [split, mul_add, mul_div_cancel₀ _ hspos.ne'] at h2
      linarith
    have h2 : s⁻¹ * (φ (xh, 0) - φ (y, 0)) ≤ f.f y - f.f xh := by
      rw [inv_mul_le_iff₀ hspos]
      linarith
    linarith
  · rw [neg_neg, real_inner_smul_left, inner_sub_right, hvl, hvl]
    have h1 := hS (y, h.f xh - h.f y) ⟨hy, le_rfl⟩
    rw [split, hu] at h1
    have h2 : s⁻¹ * (φ (y, 0) - φ (xh, 0)) ≤ h.f y - h.f xh := by
      rw [inv_mul_le_iff₀ hspos]
      linarith
    linarith

/-- one more function `G`, and `n` functions -/
theorem sum_rule (n : ℕ) (F : ℕ → CFun E) (hF : ∀ j < n, ConvexOn ℝ (F j).dom (F j).f) {x0 xh : E} (h0 : ∀ j < n, x0 ∈ interior (F j).dom)
    (hx : ∀ j < n, xh ∈ (F j).dom) :
    ∀ G : CFun E, ConvexOn ℝ G.dom G.f → x0 ∈ G.dom → xh ∈ G.dom →
      (∀ y ∈ G.dom, (∀ j < n, y ∈ (F j).dom) → G.f xh + ∑ j ∈ Finset.range n, (F j).f xh ≤ G.f y + ∑ j ∈ Finset.range n, (F j).f y) →
      ∃ (g0 : E) (g : ℕ → E), G.Sample xh g0 (G.f xh) ∧ (∀ j < n, (F j).Sample xh (g j) ((F j).f xh)) ∧ g0 + ∑ j ∈ Finset.range n, g j = 0 := by
  induction n with
  | zero =>
    intro G hG h0G hxG hmin
    refine ⟨0, fun _ => 0, ⟨hxG, rfl, fun y hy => ?_⟩, fun j hj => absurd hj (Nat.not_lt_zero j), by simp⟩
    simpa using hmin y hy (fun j hj => absurd hj (Nat.not_lt_zero j))
  | succ n ih =>
    intro G hG h0G hxG hmin
    have hlt : ∀ j < n, j < n + 1 := fun j hj => by omega
    let f : CFun E := ⟨{y | y ∈ G.dom ∧ ∀ j < n, y ∈ (F j).dom}, fun y => G.f y + ∑ j ∈ Finset.range n, (F j).f y⟩
    have hf : ConvexOn ℝ f.dom f.f := by
      refine ⟨fun x hx y hy a b ha hb hab => ⟨hG.1 hx.1 hy.1 ha hb hab, fun j hj => (hF j (hlt j hj)).1 (hx.2 j hj) (hy.2 j hj) ha hb hab⟩,
        fun x hx y hy a b ha hb hab => ?_⟩
      have h1 := hG.2 hx.1 hy.1 ha hb hab
      have h2 : ∑ j ∈ Finset.range n, (F j).f (a • x + b • y) ≤ ∑ j ∈ Finset.range n, (a • (F j).f x + b • (F j).f y) :=
        Finset.sum_le_sum fun j hj => (hF j (hlt j (Finset.mem_range.1 hj))).2 (hx.2 j (Finset.mem_range.1 hj)) (hy.2 j (Finset.mem_range.1 hj)) ha hb hab
      rw [Finset.sum_add_distrib, ← Finset.smul_sum, ← Finset.smul_sum] at h2
      simp only [f, smul_add]
      linarith
    obtain ⟨g', h1, h2⟩ := sum_rule_two (f := f) (h := F n) hf (hF n (by omega)) (x0 := x0) (xh := xh)
      ⟨h0G, fun j hj => interior_subset (h0 j (hlt j hj))⟩ (h0 n (by omega)) ⟨hxG, fun j hj => hx j (hlt j hj)⟩ (hx n (by omega)) (by
        rintro y ⟨hy1, hy2⟩ hy3
        have := hmin y hy1 (fun j hj => by
          rcases Nat.lt_succ_iff_lt_or_eq.1 hj with h | rfl
          · exact hy2 j h
          · exact hy3)
        rw [Finset.sum_range_succ, Finset.sum_range_succ] at this
        simp only [f]
        linarith)
    obtain ⟨g0, g, h3, h4, h5⟩ := ih (fun j hj => hF j (hlt j hj)) (fun j hj => h0 j (hlt j hj)) (fun j hj => hx j (hlt j hj))
      ⟨G.dom, fun y => G.f y - ⟪g', y⟫_ℝ⟩ (by
        refine ⟨hG.1, fun x hx y hy a b ha hb hab => ?_⟩
        have := hG.2 hx hy ha hb hab
        simp only [smul_eq_mul, inner_add_right, real_inner_smul_right] at this ⊢
        linarith) h0G hxG (by
        intro y hy1 hy2
        have := h1.2.2 y ⟨hy1, hy2⟩
        simp only [f, inner_sub_right] at this
        simp only
        linarith)
    refine ⟨g0 + g', fun j => if j = n then -g' else g j, ⟨hxG, rfl, fun y hy => ?_⟩, fun j hj => ?_, ?_⟩
    · have := h3.2.2 y hy
      simp only [inner_sub_right] at this
      rw [inner_add_left, inner_sub_right, inner_sub_right]
      linarith
    · dsimp only
      split
      · rename_i h; subst h; exact h2
      · exact h4 j (by omega)
    · rw [Finset.sum_range_succ]
      simp only [if_true]
      have : ∑ j ∈ Finset.range n, (if j = n then -g' else g j) = ∑ j ∈ Finset.range n, g j :=
        Finset.sum_congr rfl fun j hj => if_neg (by have := Finset.mem_range.1 hj; omega)
      rw [this, show g0 + g' + (∑ j ∈ Finset.range n, g j + -g') = g0 + ∑ j ∈ Finset.range n, g j by abel, h5]

/-- every minimiser of a sum of convex functions with a common interior point of their domains meets the optimality condition -/
theorem SumMin.opt {n : ℕ} {F : ℕ → CFun E} (hF : ∀ j < n, ConvexOn ℝ (F j).dom (F j).f) {x0 xh : E} (h0 : ∀ j < n, x0 ∈ interior (F j).dom)
    (h : SumMin n F xh) : SumOpt n F xh := by
  obtain ⟨g0, g, h1, h2, h3⟩ := sum_rule n F hF h0 h.1 ⟨Set.univ, fun _ => 0⟩ (convexOn_const _ convex_univ) trivial trivial
    (fun y _ hy => by simpa using h.2 y hy)
  have h4 : g0 = 0 := subgrad_unique (F := ⟨Set.univ, fun _ => 0⟩) rfl (G := 0) (x := xh) (by simpa using hasFDerivAt_const (0 : ℝ) xh) h1
  exact ⟨g, h2, by rwa [h4, zero_add] at h3⟩

/-- the same with smooth convex parts -/
theorem SumMin.opt_plus {n : ℕ} {F : ℕ → CFun E} {H : ℕ → E → ℝ} {gr : ℕ → E → E} (hF : ∀ j < n, ConvexOn ℝ (F j).dom (F j).f)
    (hH : ∀ j < n, ConvexGradient (H j) (gr j)) {x0 xh : E} (h0 : ∀ j < n, x0 ∈ interior (F j).dom)
    (h : SumMin n (fun j => (F j).plus (H j)) xh) :
    ∃ g : ℕ → E, (∀ j < n, (F j).Sample xh (g j) ((F j).f xh)) ∧ ∑ j ∈ Finset.range n, (g j + gr j xh) = 0 := by
  have hG : ConvexOn ℝ Set.univ fun x => ∑ j ∈ Finset.range n, H j x := by
    refine ⟨convex_univ, fun x _ y _ a b ha hb hab => ?_⟩
    rw [Finset.smul_sum, Finset.smul_sum, ← Finset.sum_add_distrib]
    exact Finset.sum_le_sum fun j hj => (hH j (Finset.mem_range.1 hj)).1.2 trivial trivial ha hb hab
  obtain ⟨g0, g, h1, h2, h3⟩ := sum_rule n F hF h0 h.1 ⟨Set.univ, fun x => ∑ j ∈ Finset.range n, H j x⟩ hG trivial trivial (fun y _ hy => by
    have := h.2 y hy
    simp only [CFun.plus, Finset.sum_add_distrib] at this
    simp only
    linarith)
  have h4 : g0 = ∑ j ∈ Finset.range n, gr j xh := by
    refine subgrad_unique (F := ⟨Set.univ, fun x => ∑ j ∈ Finset.range n, H j x⟩) rfl (x := xh) ?_ h1
    have h5 := HasFDerivAt.fun_sum (u := Finset.range n) fun j hj => (hH j (Finset.mem_range.1 hj)).2 xh
    rwa [map_sum]
  refine ⟨g, h2, ?_⟩
  rw [Finset.sum_add_distrib, ← h4, add_comm]
  exact h3

end Verif
