import Verif.Model.Sizes
import Verif.Model.Verification
import Verif.Model.RefCAS
import Verif.Model.HelloWorld

/-!
# Recorded runs

The notebooks in `examples/` contain the output of real runs: `dim_G`, `dim_F`, "Ipopt total # of variables", "Actual # of variables".  The model, evaluated
with the reference CAS, prints the same numbers.  These are tests of the model against the real program, not proofs.
-/

namespace Verif.Tests

/-- run a program, call `solve_ipopt` and return what it prints -/
def ipopt (prog : List Instr) (params : List Name) : Option Printed :=
  match runProblem refCAS prog Heap.empty with
  | .error _ => none
  | .ok (r, h) => match solveIpopt refCAS r params [] [] h with
    | .error _ => none
    | .ok (n, _) => some (printedIpopt params h n)

/-- the same for a QCQP formulation with `extra` free variables.  Only the sizes are computed (the constraint matrices of the model are functions and slow
to evaluate). -/
def qcqp (prog : List Instr) (params : List Name) (extra : ℕ) : Option Printed :=
  match runProblem refCAS prog Heap.empty with
  | .error _ => none
  | .ok (r, h) => match problemMatrices refCAS r h with
    | .error _ => none
    | .ok (sm, _) => match spCoeffMatrix refCAS sm.spExp params h.ptCounter h.exCounter with
      | .error _ => none
      | .ok q =>
        let s : QSizes := ⟨q.1.names.length, sm.nI, sm.nE, h.ptCounter⟩
        some ⟨h.ptCounter, h.exCounter, s.x + extra, s.x⟩

def ofIpopt (c : Circuit) (goal : Sym) : Option Printed := ipopt (c.prog ++ [.objective goal]) c.params
def ofQcqp (c : Circuit) (goal : Sym) (extra : ℕ := 150) : Option Printed := qcqp (c.prog ++ [.objective goal]) c.params extra

def eta := Sym.var "eta"
def rho := Sym.var "rho"

-- examples/hello_world.ipynb
#guard ipopt (Build.helloWorld 0 none 1 10).prog stdParams = some ⟨5, 3, 42, 31⟩
-- examples/centralized: gradient descent (matrix formulation), with tuned capacity, proximal point, proximal gradient
#guard ofQcqp (.gradientFlow 0 (some 1) 1) eta 100 = some ⟨5, 4, 142, 42⟩
#guard ofIpopt (.gradientFlowTuneC 0 (some 1)) eta = some ⟨5, 4, 71, 40⟩
#guard ofQcqp (.ppm (1/1000) (some 1) 1 1) (eta + rho) 100 = some ⟨5, 4, 149, 49⟩
#guard ofIpopt (.proxGradient (1/10000) (some 1) (9/10) (1/20)) (eta + rho * .num (1/30)) = some ⟨7, 6, 75, 53⟩
-- the loops over functions: dual and primal decomposition, ADMM with the Euler method
#guard ofQcqp (.dualDecomposition 0 (1/10) (some 1) 1) eta = some ⟨7, 6, 208, 58⟩
#guard ofQcqp (.primalDecomposition 2 (1/10000) (some 1) 1) eta 100 = some ⟨10, 9, 191, 91⟩
#guard ofIpopt (.admmEulerConsensus 1 (1/1000) (some 1) 1 1) (eta * .num (3/10) + rho) = some ⟨9, 6, 103, 66⟩
-- Douglas-Rachford
#guard ofQcqp (.douglasRachford (1/1000) (some 1) (1/2) 1) (eta + rho * .num (9/10)) = some ⟨10, 8, 257, 107⟩
#guard ofQcqp (.davisYin (1/100) (some 1) (1/2) (1/4)) (eta + rho * .num (1/2)) = some ⟨15, 13, 357, 207⟩
#guard ofQcqp (.admmConsensus 1 (1/100) (some 1) 1 1) (eta + rho * .num (1/2)) = some ⟨12, 9, 307, 157⟩
-- accelerated gradient, with given and with tuned components
#guard ofIpopt (.acceleratedGradient (1/10) (some 1) 1 2 1) (eta + rho) = some ⟨6, 4, 91, 44⟩
-- (takes 20 s) `ofIpopt (.acceleratedGradientTuneRLC (1/10) (some 1)) (eta + rho) = some ⟨6, 4, 374, 49⟩`
-- examples/decentralized
#guard ofQcqp (.dadmmCycle4 (1/1000) (some 1) 1 10) (eta + rho * .num (95/100)) = some ⟨17, 8, 322, 172⟩
#guard ofQcqp (.dadmmLine3 (1/1000) (some 1) 1 3) (eta + rho * .num (1/2)) = some ⟨14, 9, 325, 175⟩
#guard ofIpopt (.dgdLine3 (1/100) (some 1) 1 3) (eta + rho * .num (7/10)) = some ⟨14, 10, 242, 147⟩
#guard ofQcqp (.diffusionLine3 (1/1000) (some 1) (9/10) (1/20)) (eta + rho * .num (1/30)) = some ⟨15, 9, 300, 150⟩
#guard ofQcqp (.dadmmGraph6 0 (some 2) 18 10) (eta + rho) 530 = some ⟨28, 12, 959, 429⟩
#guard ofIpopt (.dadmmCGraph6 0 2 (some 100) (some 100) (8/10) 15 2) (eta + rho) = some ⟨29, 12, 879, 468⟩
def W (i j : ℕ) : ℚ := ((#[#[1/3,2/3,0],#[2/3,1/6,1/6],#[0,1/6,5/6]] : Array (Array ℚ))[i]!)[j]!
#guard ofIpopt (.pgExtraLine3 0 (some (1/10)) (some 10) 1 W) (eta + rho * .num (1/2)) = some ⟨20, 15, 448, 257⟩

end Verif.Tests
