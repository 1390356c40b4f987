import Mathlib.Analysis.InnerProductSpace.Basic

/-!
# Specification: the lists a numerical method returns

Written without reference to the model.
-/

namespace Verif

variable {E : Type} [NormedAddCommGroup E]

/-- `err_opt_star` and `err_opt_reldiff` of a run with `itr` iterations: `dist k` is the distance to the reference point after `k + 1` iterations
and `scale` the distance of the start point -/
structure IsErrorRecord (itr : ℕ) (dist : ℕ → ℝ) (scale : ℝ) (star rel : List ℝ) : Prop where
  star_length : star.length = itr
  rel_length : rel.length = itr
  star_eq : ∀ (k : ℕ) (v : ℝ), star[k]? = some v → v = dist k
  rel_eq : scale ≠ 0 → ∀ (k : ℕ) (w : ℝ), rel[k]? = some w → w * scale = dist k

/-- the lists of a run that may produce NaN (`none`): NaN spreads to all lists and to all later entries; otherwise the relative distance is the
distance divided by `scale` -/
structure IsNanRecord (itr : ℕ) (scale : ℝ) (star rel gap : List (Option ℝ)) : Prop where
  lengths : star.length = itr ∧ rel.length = itr ∧ gap.length = itr
  together : ∀ k : ℕ, star[k]? = some none ↔ rel[k]? = some none
  together' : ∀ k : ℕ, star[k]? = some none ↔ gap[k]? = some none
  later : ∀ k l : ℕ, k ≤ l → l < itr → star[k]? = some none → star[l]? = some none
  ratio : scale ≠ 0 → ∀ (k : ℕ) (v w : ℝ), star[k]? = some (some v) → rel[k]? = some (some w) → 0 ≤ v ∧ w * scale = v

/-- distance of two stacked vectors, squared -/
noncomputable def stackDistSq (n : ℕ) (x y : ℕ → E) : ℝ := ∑ j ∈ Finset.range n, ‖x j - y j‖ ^ 2

end Verif
