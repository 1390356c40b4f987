import Verif.Model.Discretized
import Mathlib.Data.Real.Basic

/-!
# When the parameters of decentralized ADMM are stable

Specification.  The three variants take `R`; the circuit variants take a step `h` and an inductance, the last one a capacitance as well.
-/

namespace Verif

/-- the step and the capacitance are positive, in the variant that has a capacitor -/
def Dadmm.CapPos (a : Dadmm ℝ) : Prop := ∀ R h Ind Cap, a = .capacitor R h Ind Cap → 0 < h ∧ 0 < Cap

/-- how much of the admissible step size the parameters use; below one is stable -/
noncomputable def Dadmm.usage : Dadmm ℝ → ℝ
  | .plain _ => 1 / 2
  | .circuit R h Ind => h * R / (2 * Ind)
  | .capacitor R h Ind Cap => h * R / (2 * Ind) + h / (R * Cap)

end Verif
