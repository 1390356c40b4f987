import Verif.Model.Sdp

/-!
# `CircuitOpt.solve` and what the solvers return (`circuit_opt.py` 241-262, 369-384, 486-501, 509-519, `extra_methods.py` 236-250,
`utils.py` 156-165)
-/

namespace Verif

/-- keyword arguments of `solve`.  Simplification: only those that change the problem given to the external solver. -/
structure SolveArgs where
  bounds : List Bound := []
  init : List Name := []
  extra : ℕ := 150
  vals : Dict Name ℚ := []
  maxIters : ℕ := 30

/-- what `opti.solve()` does: raise, or return a solution with `sol.stats()['success']` and values of the decision variables -/
inductive NlpOutcome where
  | raised
  | returned (success : Bool) (sol : ℕ → ℕ → ℕ → ℝ)

/-- what `prob.solve(...)` does: raise, or set `prob.status` and values of the variables -/
inductive SdpOutcome where
  | raised
  | status (s : String) (sol : ℕ → ℕ → ℕ → ℝ)

/-- the external solvers: what they do on a given problem (the `ℕ` is the number of the call) -/
structure External where
  nlp : Nlp → NlpOutcome
  qcqp : Qcqp → NlpOutcome
  sdp : ℕ → Sdp → SdpOutcome

/-- what `solve` returns -/
inductive SolveResult where
  /-- python `None` -/
  | nothing
  /-- `None, ca_vars, None, sp_exp` -/
  | failed
  /-- `dict_parameters_ciropt(...), sol, sp_exp`; a value is the list of entries of the solver variable -/
  | solved (res : Dict Name (List ℝ))
  /-- `self.vars, prob, sp_exp` of `solve_fix_discr_sdp`: the parameters and `prob.status` -/
  | sdp (params : Dict Name ℚ) (status : String)
  /-- `params, eta` of `solve_bisection_eta` -/
  | bisection (params : Dict Name ℚ) (eta : ℚ)

/-- one iteration of the loop of `dict_parameters_ciropt` (`utils.py` 162-164): a key without a variable is skipped -/
noncomputable def reportStep (look : Name → Option (List CExp)) (sol : ℕ → ℕ → ℕ → ℝ) (res : Dict Name (List ℝ)) (key : Name) : Dict Name (List ℝ) :=
  match look key with
  | some xs => res.set key (xs.map fun x => x.eval sol)
  | none => res

/-- `dict_parameters_ciropt(sol, ca_vars, keys_list=keys)` (`utils.py` 156-165); `look` is `ca_vars` -/
noncomputable def dictParameters (look : Name → Option (List CExp)) (keys : List Name) (sol : ℕ → ℕ → ℕ → ℝ) : Dict Name (List ℝ) :=
  keys.foldl (reportStep look sol) []

/-- `try: sol = opti.solve() ...` up to `return` (`circuit_opt.py` 245-262, 371-384, 488-501) -/
noncomputable def nlpReport (look : Name → Option (List CExp)) (keys : List Name) : NlpOutcome → M SolveResult
  | .raised => pure .failed
  | .returned success sol => do
    M.assert success
    pure (.solved (dictParameters look keys sol))

/-- the end of `solve_fix_discr_sdp` (`extra_methods.py` 236-250); an exception of the external solver is not caught.
Simplification: it is reported as ValueError. -/
def sdpReport (vals : Dict Name ℚ) : SdpOutcome → M SolveResult
  | .raised => M.throw .value
  | .status s _ => pure (.sdp vals s)

/-- what the bisection sees of a call -/
def SdpOutcome.seen : SdpOutcome → SolveOutcome
  | .raised => .raised
  | .status s _ => .status s

/-- `CircuitOpt.solve` (`circuit_opt.py` 509-519); `params` are `self.discretization_params` -/
noncomputable def solve (C : CAS) (X : External) (r : Regs) (params : List Name) (solver : String) (a : SolveArgs) : M SolveResult :=
  if solver = "ipopt" then do
    let nlp ← solveIpopt C r params a.bounds a.init
    nlpReport (fun n => (nlp.state.vars.get? n).map CaVar.entries) params (X.nlp nlp)
  else if solver = "ipopt_qcqp" then do
    let q ← solveQcqp C r params a.bounds a.extra
    nlpReport (fun n => (q.tab.idx.get? (.str n)).map fun i => [xv i]) params (X.qcqp q)
  else if solver = "ipopt_qcqp_matrix" then do
    let q ← solveQcqpMatrix C r params a.bounds
    nlpReport (fun n => (q.tab.idx.get? (.str n)).map fun i => [xv i]) params (X.qcqp q)
  else if solver = "fix_discr_sdp" then do
    let S ← solveFixedSdp C r params a.vals
    sdpReport a.vals (X.sdp 0 S)
  else if solver = "bisection_eta" then do
    let res ← solveBisection C r params a.vals a.maxIters (fun t S => (X.sdp t S).seen)
    pure (.bisection res.1 res.2)
  else pure .nothing

end Verif
