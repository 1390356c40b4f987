import Verif.Model.Qcqp

/-!
# The sizes that the solve functions print (`circuit_opt.py` 172, 242-243, 274, 292-293, 394, 414-415, `sympy_to_solvers.py` 157-161)
-/

namespace Verif

/-- `ca_dict_total_variable_size` (`sympy_to_solvers.py` 157-161): the loop `size += np.prod(var.size())` over `ca_vars` -/
def caTotalSize (vars : Dict Name CaVar) : ℕ := vars.foldl (fun size kv => size + kv.2.rows * kv.2.cols) 0

/-- the numbers printed before the solver starts -/
structure Printed where
  /-- `dim_G` -/
  dimG : ℕ
  /-- `dim_F` -/
  dimF : ℕ
  /-- "Ipopt total # of variables" -/
  total : ℕ
  /-- "Actual # of variables" -/
  actual : ℕ
deriving DecidableEq, Repr

/-- what `solve_ipopt` prints (`circuit_opt.py` 172, 242-243); `h` is the heap at the call -/
def printedIpopt (params : List Name) (h : Heap) (nlp : Nlp) : Printed :=
  ⟨h.ptCounter, h.exCounter, caTotalSize nlp.state.vars,
    nlp.mats.nI + nlp.mats.nE + h.exCounter + h.ptCounter * (h.ptCounter + 1) / 2 + params.length⟩

/-- what `solve_ipopt_qcqp` and `solve_ipopt_qcqp_matrix` print (`circuit_opt.py` 274, 292-293, 394, 414-415) -/
def printedQcqp (h : Heap) (q : Qcqp) : Printed := ⟨h.ptCounter, h.exCounter, q.nVars, q.s.x⟩

end Verif
