import Verif.Props.Classes
import Mathlib.Analysis.Calculus.Deriv.Pow
import Mathlib.Analysis.Calculus.Deriv.Add
import Mathlib.Analysis.Calculus.Deriv.Mul

/-!
# A smooth convex function with bounded slope
-/

namespace Verif
open Heap
open scoped InnerProductSpace

/-- 0 on the left, `l / 2 x²` between 0 and `d`, then linear -/
noncomputable def hubF (l d : ℝ) : CFun ℝ := ⟨Set.univ, fun x => l / 2 * (max x 0 ^ 2 - max (x - d) 0 ^ 2)⟩

theorem hub_support {d : ℝ} (hd : 0 ≤ d) (x y : ℝ) :
    max x 0 ^ 2 - max (x - d) 0 ^ 2 + 2 * (max x 0 - max (x - d) 0) * (y - x) ≤ max y 0 ^ 2 - max (y - d) 0 ^ 2 := by
  rcases le_total x 0 with h1 | h1 <;> rcases le_total (x - d) 0 with h2 | h2 <;> rcases le_total y 0 with h3 | h3 <;>
    rcases le_total (y - d) 0 with h4 | h4 <;> simp only [max_eq_left, max_eq_right, h1, h2, h3, h4] <;>
    nlinarith [sq_nonneg (x - y), sq_nonneg (y - d), sq_nonneg x, sq_nonneg y, sq_nonneg (x - d), mul_nonneg hd (sub_nonneg.2 h1), mul_nonneg hd (sub_nonneg.2 h2),
      mul_nonneg hd (sub_nonneg.2 h3), mul_nonneg hd (sub_nonneg.2 h4)]

theorem hubF_sample {l d : ℝ} (hl : 0 ≤ l) (hd : 0 ≤ d) {x g v : ℝ} (hg : g = l * (max x 0 - max (x - d) 0))
    (hv : v = l / 2 * (max x 0 ^ 2 - max (x - d) 0 ^ 2)) : (hubF l d).Sample x g v := by
  subst hg hv
  refine ⟨trivial, rfl, fun y _ => ?_⟩
  change l / 2 * (max x 0 ^ 2 - max (x - d) 0 ^ 2) + (y - x) * (l * (max x 0 - max (x - d) 0)) ≤ l / 2 * (max y 0 ^ 2 - max (y - d) 0 ^ 2)
  nlinarith [mul_le_mul_of_nonneg_left (hub_support hd x y) hl]

theorem hasDerivAt_max_sq (x : ℝ) : HasDerivAt (fun x : ℝ => max x 0 ^ 2) (2 * max x 0) x := by
  rw [hasDerivAt_iff_isLittleO]
  refine Asymptotics.IsBigO.trans_isLittleO (g := fun y => (y - x) ^ 2) (Asymptotics.IsBigO.of_bound 1 (Filter.Eventually.of_forall fun y => ?_)) ?_
  · rw [Real.norm_eq_abs, Real.norm_eq_abs, one_mul, abs_of_nonneg (sq_nonneg (y - x)), abs_le, smul_eq_mul]
    rcases le_total x 0 with h1 | h1 <;> rcases le_total y 0 with h3 | h3 <;> simp only [max_eq_left, max_eq_right, h1, h3] <;> constructor <;> nlinarith
  · have := Asymptotics.isLittleO_pow_sub_sub x (m := 2) (by norm_num)
    simpa using this

theorem hubF_holds {L : ℚ} (hL : 0 < L) {d : ℝ} (hd : 0 ≤ d) : (defDecl 0 (some L)).Holds (hubF L d) := by
  have hl : (0 : ℝ) < L := by exact_mod_cast hL
  rw [C12_members]
  refine ⟨?_, fun l hl' => ⟨rfl, ?_⟩⟩
  · rw [Rat.cast_zero, strongConvexOn_zero]
    refine ⟨convex_univ, fun x _ y _ s t hs ht hst => ?_⟩
    have h1 := hub_support hd (s * x + t * y) x
    have h2 := hub_support hd (s * x + t * y) y
    simp only [hubF, smul_eq_mul]
    set z := s * x + t * y with hz
    set F := max z 0 ^ 2 - max (z - d) 0 ^ 2
    set G := 2 * (max z 0 - max (z - d) 0)
    have e : s * (F + G * (x - z)) + t * (F + G * (y - z)) = F := by
      have ht' : t = 1 - s := by linarith
      rw [hz, ht']; ring
    have h3 := add_le_add (mul_le_mul_of_nonneg_left h1 hs) (mul_le_mul_of_nonneg_left h2 ht)
    rw [e] at h3
    nlinarith
  · cases hl'
    refine ⟨fun x => L * (max x 0 - max (x - d) 0), fun x => ?_, fun x y => ?_⟩
    · have h2 : HasDerivAt (fun x : ℝ => max (x - d) 0 ^ 2) (2 * max (x - d) 0) x := by
        have := (hasDerivAt_max_sq (x - d)).comp x ((hasDerivAt_id x).sub_const d)
        exact this.congr_deriv (by simp)
      have h3 := ((hasDerivAt_max_sq x).sub h2).const_mul ((L : ℝ) / 2)
      have h4 : HasDerivAt (hubF L d).f (L * (max x 0 - max (x - d) 0)) x := h3.congr_deriv (by ring)
      refine h4.hasFDerivAt.congr_fderiv ?_
      ext; simp
    · have : (L : ℝ) * (max x 0 - max (x - d) 0) - L * (max y 0 - max (y - d) 0) = L * ((max x 0 - max (x - d) 0) - (max y 0 - max (y - d) 0)) := by ring
      rw [this, norm_mul, Real.norm_eq_abs (L : ℝ), abs_of_pos hl]
      refine mul_le_mul_of_nonneg_left ?_ hl.le
      rw [Real.norm_eq_abs, Real.norm_eq_abs, abs_le]
      have := neg_abs_le (x - y)
      have := le_abs_self (x - y)
      rcases le_total x 0 with h1 | h1 <;> rcases le_total (x - d) 0 with h2 | h2 <;> rcases le_total y 0 with h3 | h3 <;>
        rcases le_total (y - d) 0 with h4 | h4 <;> simp only [max_eq_left, max_eq_right, h1, h2, h3, h4] <;> constructor <;> linarith

end Verif
