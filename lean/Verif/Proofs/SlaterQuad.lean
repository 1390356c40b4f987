import Verif.Proofs.Slater
import Verif.Props.Classes

/-!
# Quadratic functions inside the classes
-/

namespace Verif
open Heap
open scoped InnerProductSpace

/-- `c / 2 (x - a)²` on the reals -/
noncomputable def quadF (c a : ℝ) : CFun ℝ := ⟨Set.univ, fun x => c / 2 * (x - a) ^ 2⟩

theorem quadF_sample {c : ℝ} (hc : 0 ≤ c) {a x g v : ℝ} (hg : g = c * (x - a)) (hv : v = c / 2 * (x - a) ^ 2) : (quadF c a).Sample x g v := by
  subst hg hv
  refine ⟨trivial, rfl, fun y _ => ?_⟩
  change c / 2 * (x - a) ^ 2 + (y - x) * (c * (x - a)) ≤ c / 2 * (y - a) ^ 2
  nlinarith [mul_nonneg hc (sq_nonneg (y - x))]

theorem quadF_sample_iff {c a x g v : ℝ} (hs : (quadF c a).Sample x g v) : g = c * (x - a) ∧ v = c / 2 * (x - a) ^ 2 := by
  obtain ⟨-, h2, h3⟩ := hs
  refine ⟨?_, h2.symm⟩
  have key : ∀ t : ℝ, (g - c * (x - a)) * t ≤ c / 2 * t ^ 2 := by
    intro t
    have := h3 (x + t) trivial
    rw [← h2] at this
    change c / 2 * (x - a) ^ 2 + (x + t - x) * g ≤ c / 2 * (x + t - a) ^ 2 at this
    nlinarith
  by_contra hne
  set d := g - c * (x - a) with hd
  have hd0 : d ≠ 0 := fun h => hne (by rw [hd] at h; linarith)
  have hd2 : 0 < d ^ 2 := by positivity
  have h1 := key (d / (|c| + 1))
  have hpos : 0 < |c| + 1 := by positivity
  have e1 : d * (d / (|c| + 1)) = d ^ 2 / (|c| + 1) := by ring
  have e2 : c / 2 * (d / (|c| + 1)) ^ 2 = c / (2 * (|c| + 1)) * (d ^ 2 / (|c| + 1)) := by field_simp
  rw [e1, e2] at h1
  have h4 : 0 < d ^ 2 / (|c| + 1) := by positivity
  have h5 : c / (2 * (|c| + 1)) < 1 := by
    rw [div_lt_one (by positivity)]
    have := le_abs_self c
    nlinarith
  nlinarith

/-- the curvature is strictly inside the class -/
def Inside (mu : ℚ) (L : Option ℚ) (c : ℝ) : Prop := (mu : ℝ) < c ∧ ∀ l, L = some l → c < l

theorem quadF_holds {mu : ℚ} {L : Option ℚ} {c : ℝ} (h0 : 0 ≤ mu) (hc : Inside mu L c) (a : ℝ) : (defDecl mu L).Holds (quadF c a) := by
  have hc0 : 0 < c := lt_of_le_of_lt (by exact_mod_cast h0) hc.1
  rw [C12_members]
  refine ⟨StrongConvexOn.mono (n := c) hc.1.le ⟨convex_univ, fun x _ y _ s t hs ht hst => ?_⟩, fun l hl => ⟨rfl, ?_⟩⟩
  · have hb' : t = 1 - s := by linarith
    subst hb'
    simp only [quadF, smul_eq_mul, Real.norm_eq_abs, sq_abs]
    nlinarith [sq_nonneg (x - y)]
  · have hl' := hc.2 l hl
    refine ⟨fun x => c * (x - a), fun x => ?_, fun x y => ?_⟩
    · have h1 : HasDerivAt (fun x : ℝ => c / 2 * (x - a) ^ 2) (c * (x - a)) x := by
        have := (((hasDerivAt_id x).sub_const a).pow 2).const_mul (c / 2)
        refine this.congr_deriv ?_
        simp; ring
      refine h1.hasFDerivAt.congr_fderiv ?_
      ext; simp
    · have : c * (x - a) - c * (y - a) = c * (x - y) := by ring
      rw [this, norm_mul, Real.norm_eq_abs c, abs_of_pos hc0]
      exact mul_le_mul_of_nonneg_right hl'.le (norm_nonneg _)

theorem quadF_strict {mu : ℚ} {L : Option ℚ} {c : ℝ} (h0 : 0 ≤ mu) (hc : Inside mu L c) (a : ℝ) : (quadF c a).StrictIn (defDecl mu L).cls := by
  intro x g v y g' v' hs hs' hne
  obtain ⟨rfl, rfl⟩ := quadF_sample_iff hs
  obtain ⟨rfl, rfl⟩ := quadF_sample_iff hs'
  have hmu : (0 : ℝ) ≤ mu := by exact_mod_cast h0
  have hc0 : 0 < c := lt_of_le_of_lt hmu hc.1
  have hd : 0 < (x - y) ^ 2 := by have := sub_ne_zero.2 hne; positivity
  have hin : ∀ u w : ℝ, ⟪u, w⟫_ℝ = w * u := fun u w => rfl
  unfold defDecl
  split
  · rename_i hh
    obtain ⟨l, hl⟩ := Option.isSome_iff_exists.1 hh.2
    subst hl
    have hl := hc.2 l rfl
    have hl0 : (0 : ℝ) < l := hc0.trans hl
    have hml : (mu : ℝ) < l := hc.1.trans hl
    simp only [FnDecl.cls, FnClass.lhs, hin, Real.norm_eq_abs, sq_abs, smul_eq_mul]
    have e : c / 2 * (y - a) ^ 2 - c / 2 * (x - a) ^ 2 + (x - y) * (c * (y - a)) + 1 / (2 * (l : ℝ)) * (c * (x - a) - c * (y - a)) ^ 2 +
        (mu : ℝ) / (2 * (1 - (mu : ℝ) / l)) * (x - y - 1 / (l : ℝ) * (c * (x - a) - c * (y - a))) ^ 2 =
        - ((x - y) ^ 2 * ((l - c) * (c - mu) / (2 * (l - mu)))) := by
      have h1 : (l : ℝ) - mu ≠ 0 := by linarith
      have h2 : (1 : ℝ) - mu / l ≠ 0 := by
        rw [sub_ne_zero]; intro hh; rw [eq_comm, div_eq_one_iff_eq hl0.ne'] at hh; linarith
      field_simp
      ring
    rw [e]
    have : 0 < (l - c) * (c - mu) / (2 * (l - mu)) := by
      have := hc.1
      apply div_pos (mul_pos (by linarith) (by linarith)) (by linarith)
    nlinarith [mul_pos hd this]
  · split
    · simp only [FnDecl.cls, FnClass.lhs, hin, Real.norm_eq_abs, sq_abs]
      have := hc.1
      nlinarith [mul_pos hd (sub_pos.2 this)]
    · split
      · rename_i hh
        obtain ⟨l, hl⟩ := Option.isSome_iff_exists.1 hh
        subst hl
        have hl := hc.2 l rfl
        have hl0 : (0 : ℝ) < l := hc0.trans hl
        simp only [FnDecl.cls, FnClass.lhs, hin, Real.norm_eq_abs, sq_abs]
        have e : c / 2 * (y - a) ^ 2 - c / 2 * (x - a) ^ 2 + (x - y) * (c * (y - a)) + 1 / (2 * (l : ℝ)) * (c * (x - a) - c * (y - a)) ^ 2 =
            - ((x - y) ^ 2 * ((l - c) * c / (2 * l))) := by
          field_simp
          ring
        rw [e]
        have : 0 < (l - c) * c / (2 * l) := div_pos (mul_pos (by linarith) hc0) (by linarith)
        nlinarith [mul_pos hd this]
      · simp only [FnDecl.cls, FnClass.lhs, hin]
        nlinarith [mul_pos hd hc0]

end Verif
