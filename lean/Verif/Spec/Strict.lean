import Verif.Spec.Dual

/-!
# Strict feasibility
-/

namespace Verif

/-- at the parameter values `env` all entries of the two weight arrays are 0 -/
def FG.Vanishes (m : FG) (env : Name → ℝ) (dimF dimG : ℕ) : Prop :=
  (∀ k < dimF, (m.F k).eval env = 0) ∧ ∀ i < dimG, ∀ j < dimG, (m.G i j).eval env = 0

/-- At the parameter values `env` there are function values and a positive semidefinite Gram matrix for which every inequality is strict.
Constraints whose weights are all 0 do not count; all equality constraints have to be of this kind. -/
def StrictlyFeasible (sm : SymMats) (dimG dimF : ℕ) (env : Name → ℝ) : Prop :=
  ∃ (Fv : ℕ → ℝ) (Gm : ℕ → ℕ → ℝ), IsPSD dimG Gm ∧ ∀ en ∈ sm.spExp, en.1 ≠ .obj →
    en.2.Vanishes env dimF dimG ∨ (∃ k i j, en.1 = .tup 0 k i j) ∧ en.2.val env dimF dimG Fv Gm < 0

end Verif
