import Verif.Model.Dispatch
import Verif.Model.Gurobi

/-!
# The dictionary `solve_gp` returns (`utils.py` 168-182)
-/

namespace Verif

/-- `dict_parameters_ciropt_gp(model, gp_vars, all)` (`utils.py` 168-182) with `Xn=False`; `sol` are the values Gurobi found.  Simplification: the value
of a scalar variable is a list with one entry. -/
noncomputable def dictParametersGp (st : CaState) (all : Bool) (sol : ℕ → ℕ → ℕ → ℝ) : Dict Name (List ℝ) :=
  dictParameters (fun n => (st.vars.get? n).map CaVar.entries) (if all then st.vars.keys else ["eta", "h", "rho", "alpha", "beta"]) sol

end Verif
