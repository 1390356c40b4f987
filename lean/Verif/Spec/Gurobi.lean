import Verif.Model.Gurobi
import Verif.Spec.Sdp

/-!
# Vocabulary for the Gurobi program
-/

namespace Verif

/-- the value of entry `(i, j)` of the named solver variable -/
def CaState.cell (st : CaState) (σ : ℕ → ℕ → ℕ → ℝ) (n : Name) (i j : ℕ) : ℝ :=
  match st.vars.get? n with
  | some v => σ v.id i j
  | none => 0

/-- number of rows and columns of the variables `solve_gp` starts with (`extra_methods.py` 267-273) -/
def gpSize (dimG : ℕ) (n : Name) : ℕ := if n = "P" then dimG else 1

end Verif
