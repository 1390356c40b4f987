import Verif.Spec.Classes
import Verif.Spec.Casadi
import Verif.Model.Casadi
import Verif.Spec.Represent

namespace Verif

variable {E : Type} [NormedAddCommGroup E] [InnerProductSpace ℝ E]

/-- `x` is the proximal point of `z` with step `R`: it has value `v` and subgradient `g` with `x + R g = z` -/
def CFun.Prox (F : CFun E) (R : ℝ) (z x g : E) (v : ℝ) : Prop := F.Sample x g v ∧ x + R • g = z

/-- `env` are the parameter values of a feasible point of the nonlinear program that `solve_ipopt` makes of the problem `prog` -/
def IpoptFeasible (C : CAS) (prog : List Instr) (params : List Name) (env : Name → ℝ) : Prop :=
  ∃ r h bounds init nlp h' σ, runProblem C prog Heap.empty = .ok (r, h) ∧ solveIpopt C r params bounds init h = .ok (nlp, h') ∧
    nlp.state.Sat σ ∧ env = nlp.state.value σ

end Verif
