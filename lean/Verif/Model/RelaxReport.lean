import Verif.Model.Sdp

/-!
# What `solve_sdp_relax` returns
-/

namespace Verif

/-- what `prob.solve(solver=cvx_solver, ...)` does to the relaxation (`extra_methods.py` 155-156): it raises, or sets `prob.status` and gives
the variables values, or sets `prob.status` and leaves them without values (`None`) -/
inductive RelaxOutcome where
  | raised
  | done (status : String) (values : Option (ℕ → ℕ → ℕ → ℝ))

/-- `{name:var_x[name2idx[name], 0].value for name in discretization_params}` (`extra_methods.py` 166): KeyError for a name that is not in
the table; the value is `None` if the variable has none -/
noncomputable def relaxReport (tab : VTab) (values : Option (ℕ → ℕ → ℕ → ℝ)) : List Name → Dict Name (Option ℝ) → Except Err (Dict Name (Option ℝ))
  | [], res => .ok res
  | n :: rest, res => do
    let i ← tab.lookup n
    relaxReport tab values rest (res.set n (values.map fun σ => σ 0 i 0))

/-- `solve_sdp_relax` with what follows the call of the solver (`extra_methods.py` 17-167): the dictionary and `prob.status`.  The attributes set
in lines 157-161 are not modelled (`prob.status` stands for the returned `prob`); with `var_bound` given the construction of the program
raises before the solver is called, so lines 162-164 are never reached. -/
noncomputable def solveSdpRelax (C : CAS) (X : Sdp → RelaxOutcome) (r : Regs) (params : List Name) (bounds : List Bound) (varBound : Option Name) :
    M (Dict Name (Option ℝ) × String) := do
  let h ← M.get
  let sm ← problemMatrices C r
  match relaxSdp C sm h.ptCounter h.exCounter params bounds varBound r.obj with
  | .error e => M.throw e
  | .ok S => match X S with
    | .raised => M.throw .value
    | .done status values => match qData C sm h.ptCounter h.exCounter params with
      | .error e => M.throw e
      | .ok q => match relaxReport q.tab values params [] with
        | .error e => M.throw e
        | .ok res => pure (res, status)

end Verif
