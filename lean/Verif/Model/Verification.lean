import Verif.Model.Circuits
import Verif.Model.CircuitsN
import Verif.Model.CircuitsDec

/-!
# Verification mode of the circuits

Every circuit function takes `params=None`.  With a dictionary it builds, instead of a `CircuitOpt`, a problem of the package PEPit
(`PEPit.PEP()`): it reads numbers from the dictionary into the python variables that hold the symbols otherwise, and then executes the same
statements.  The calls are therefore those of the builders of `Model/Circuits`, `Model/CircuitsN`, `Model/CircuitsDec`; a symbol named `n`
stands for the variable that holds `params[n]`.

External code modelled: PEPit, whose classes have the interface of `ciropt`.  Only what is needed to see which errors occur: PEPit's arithmetic
refuses objects of another class, as that of `ciropt` does (`point.py` 40, 58-63, `expression.py` 39-45).
-/

namespace Verif

/-- the calls of the circuit functions -/
inductive Circuit where
  | gradientFlow (mu : ℚ) (L : Option ℚ) (Cap : ℚ)
  | gradientFlowTuneC (mu : ℚ) (L : Option ℚ)
  | acceleratedGradient (mu : ℚ) (L : Option ℚ) (R Cap Ind : ℚ)
  | acceleratedGradientTuneRLC (mu : ℚ) (L : Option ℚ)
  | ppm (mu : ℚ) (L : Option ℚ) (Cap R : ℚ)
  | proxGradient (mu : ℚ) (L : Option ℚ) (R Cap : ℚ)
  | dualDecomposition (k : ℕ) (mu : ℚ) (L : Option ℚ) (Ind : ℚ)
  | primalDecomposition (k : ℕ) (mu : ℚ) (L : Option ℚ) (Cap : ℚ)
  | douglasRachford (mu : ℚ) (L : Option ℚ) (R Ind : ℚ)
  | davisYin (mu : ℚ) (L : Option ℚ) (R Ind : ℚ)
  | admmConsensus (k : ℕ) (mu : ℚ) (L : Option ℚ) (R Ind : ℚ)
  | admmEulerConsensus (k : ℕ) (mu : ℚ) (L : Option ℚ) (R Ind : ℚ)
  | admmConsensusProof (mu : ℚ) (L : Option ℚ) (R : ℚ)
  | dgdLine3 (mu : ℚ) (L : Option ℚ) (R Cap : ℚ)
  | diffusionLine3 (mu : ℚ) (L : Option ℚ) (R Cap : ℚ)
  | pgExtraLine3 (mu : ℚ) (Lh Lf : Option ℚ) (R : ℚ) (W : ℕ → ℕ → ℚ)
  | dadmmLine3 (mu : ℚ) (L : Option ℚ) (R Ind : ℚ)
  | dadmmCycle4 (mu : ℚ) (L : Option ℚ) (R Ind : ℚ)
  | dadmmGraph6 (mu : ℚ) (L : Option ℚ) (R Ind : ℚ)
  | dadmmCGraph6 (mu0 mu1 : ℚ) (L0 L1 : Option ℚ) (R Cap Ind : ℚ)
  | exampleFC3RC (mu : ℚ) (L : Option ℚ) (Cap R : ℚ)

namespace Circuit

/-- the API calls of a circuit function; they are the same in both modes -/
def prog : Circuit → List Instr
  | gradientFlow mu L Cap => (Build.gradientFlow mu L Cap).prog
  | gradientFlowTuneC mu L => (Build.gradientFlowTuneC mu L).prog
  | acceleratedGradient mu L R Cap Ind => (Build.acceleratedGradient mu L R Cap Ind).prog
  | acceleratedGradientTuneRLC mu L => (Build.acceleratedGradientTuneRLC mu L).prog
  | ppm mu L Cap R => (Build.ppm mu L Cap R).prog
  | proxGradient mu L R Cap => (Build.proxGradient mu L R Cap).prog
  | dualDecomposition k mu L Ind => (Build.dualDecomposition k mu L Ind).prog
  | primalDecomposition k mu L Cap => (Build.primalDecomposition k mu L Cap).prog
  | douglasRachford mu L R Ind => (Build.douglasRachford mu L R Ind).prog
  | davisYin mu L R Ind => (Build.davisYin mu L R Ind).prog
  | admmConsensus k mu L R Ind => (Build.admmConsensus k mu L R Ind).prog
  | admmEulerConsensus k mu L R Ind => (Build.admmEulerConsensus k mu L R Ind).prog
  | admmConsensusProof mu L R => (Build.admmConsensusProof mu L R).prog
  | dgdLine3 mu L R Cap => (Build.dgdLine3 mu L R Cap).prog
  | diffusionLine3 mu L R Cap => (Build.diffusionLine3 mu L R Cap).prog
  | pgExtraLine3 mu Lh Lf R W => (Build.pgExtraLine3 mu Lh Lf R W).prog
  | dadmmLine3 mu L R Ind => (Build.dadmmLine3 mu L R Ind).prog
  | dadmmCycle4 mu L R Ind => (Build.dadmmCycle4 mu L R Ind).prog
  | dadmmGraph6 mu L R Ind => (Build.dadmmGraph6 mu L R Ind).prog
  | dadmmCGraph6 mu0 mu1 L0 L1 R Cap Ind => (Build.dadmmCGraph6 mu0 mu1 L0 L1 R Cap Ind).prog
  | exampleFC3RC mu L Cap R => (Build.exampleFC3RC mu L Cap R).prog

/-- the keys a circuit function reads from `params`, in this order (`classical_central_vi.py` 22, 52, 85, 123-124, 167, 201, 243, 308, 351, 400, 461,
536, 597, `classical_decentral_vi.py` 21, 79, 142, 228, 313, 400, `new_algorithms_vi.py` 28, 150) -/
def keys : Circuit → List Name
  | gradientFlow .. => ["h", "alpha", "beta", "eta"]
  | gradientFlowTuneC .. => ["h", "alpha", "beta", "eta", "C", "invC"]
  | acceleratedGradient .. => ["h", "alpha", "beta", "eta", "rho"]
  | acceleratedGradientTuneRLC .. => ["h", "alpha", "beta", "eta", "rho", "C", "invC", "L", "invL", "R"]
  | ppm .. => ["h", "alpha", "beta", "eta", "rho"]
  | proxGradient .. => ["h", "eta", "rho"]
  | dualDecomposition .. => ["h", "alpha", "beta", "eta"]
  | primalDecomposition .. => ["h", "alpha", "beta", "eta"]
  | douglasRachford .. => ["h", "alpha", "beta", "eta", "rho", "gamma"]
  | davisYin .. => ["h", "alpha", "beta", "eta", "rho", "gamma"]
  | admmConsensus .. => ["h", "alpha", "beta", "eta", "rho", "gamma"]
  | admmEulerConsensus .. => ["h", "eta", "rho"]
  | admmConsensusProof .. => ["h", "eta", "rho"]
  | dgdLine3 .. => ["h", "alpha", "beta", "eta", "rho"]
  | diffusionLine3 .. => ["h", "alpha", "beta", "eta", "rho"]
  | pgExtraLine3 .. => ["h", "alpha", "beta", "eta", "rho", "gamma"]
  | dadmmLine3 .. => ["h", "alpha", "beta", "eta", "rho", "gamma"]
  | dadmmCycle4 .. => ["h", "eta", "rho", "gamma"]
  | dadmmGraph6 .. => ["h", "eta", "rho", "gamma"]
  | dadmmCGraph6 .. => ["h", "eta", "rho", "gamma"]
  | exampleFC3RC .. => ["h", "alpha", "beta", "eta", "rho"]

/-- `problem.discretization_params` of the problem built in ciropt mode (`circuit_opt.py` 41, `classical_central_vi.py` 59, 131-132) -/
def params : Circuit → List Name
  | gradientFlowTuneC .. => Build.tuneCParams
  | acceleratedGradientTuneRLC .. => Build.tuneRLCParams
  | _ => stdParams

end Circuit

/-- the package an object belongs to -/
inductive Pkg where
  | ciropt
  | pepit
deriving DecidableEq

/-- the packages of the points and expressions a script holds in verification mode; the functions are all of PEPit (`package = pep_func`) -/
structure PkgRegs where
  pts : List Pkg
  exs : List Pkg

/-- an assertion on the class of an operand: `e` is raised if the classes differ -/
def samePkg (e : Err) (a b : Pkg) : Except Err Pkg := if a = b then .ok a else .error e

/-- read a variable of the script -/
def pkgGet (l : List Pkg) (i : ℕ) : Except Err Pkg := match l[i]? with
  | some p => .ok p
  | none => .error .dangling

/-- arithmetic on Points: a sum of points of different packages fails (`point.py` 39-40, 45-46; PEPit's `Point` has the same assertion) -/
def PE.pkg (ps : List Pkg) : PE → Except Err Pkg
  | .reg i => pkgGet ps i
  | .add a b => do let x ← PE.pkg ps a; let y ← PE.pkg ps b; samePkg .assertion x y
  | .sub a b => do let x ← PE.pkg ps a; let y ← PE.pkg ps b; samePkg .assertion x y
  | .neg a => PE.pkg ps a
  | .scale _ a => PE.pkg ps a
  | .div a c => do let x ← PE.pkg ps a; if c = 0 then .error .zeroDivision else .ok x

/-- arithmetic on Expressions and products of Points: mixed products and sums are TypeErrors (`point.py` 61-63, `expression.py` 43-45) -/
def EE.pkg (ps es : List Pkg) : EE → Except Err Pkg
  | .reg i => pkgGet es i
  | .inner a b => do let x ← a.pkg ps; let y ← b.pkg ps; samePkg .type x y
  | .pow a n => do let x ← a.pkg ps; if n = 2 then .ok x else .error .assertion
  | .add a b => do let x ← EE.pkg ps es a; let y ← EE.pkg ps es b; samePkg .type x y
  | .sub a b => do let x ← EE.pkg ps es a; let y ← EE.pkg ps es b; samePkg .type x y
  | .neg a => EE.pkg ps es a
  | .scale _ a => EE.pkg ps es a
  | .div a c => do let x ← EE.pkg ps es a; if c = 0 then .error .zeroDivision else .ok x
  | .addNum a _ => EE.pkg ps es a
  | .subNum a _ => EE.pkg ps es a
  | .rsubNum _ a => EE.pkg ps es a

/-- One call in verification mode.  PEPit's methods return PEPit's objects.  `co_func.subgrad_conjugate` is that of `ciropt` in this mode too
(`classical_central_vi.py` 272, 283): it makes a `Point` of `ciropt` (`function.py` 196).
Simplifications: PEPit's `add_point`, `add_constraint` and `set_performance_metric` refuse nothing (if they do, the error occurs earlier); an
argument of another package given to another method fails an assertion. -/
def Instr.pkg (r : PkgRegs) : Instr → Except Err PkgRegs
  | .pt a => do let p ← a.pkg r.pts; .ok { r with pts := r.pts ++ [p] }
  | .ex a => do let e ← a.pkg r.pts r.exs; .ok { r with exs := r.exs ++ [e] }
  | .initial => .ok { r with pts := r.pts ++ [.pepit] }
  | .stationary _ => .ok { pts := r.pts ++ [.pepit, .pepit], exs := r.exs ++ [.pepit] }
  | .oracle _ x => do
    let p ← pkgGet r.pts x
    let _ ← samePkg .assertion p .pepit
    .ok { pts := r.pts ++ [.pepit], exs := r.exs ++ [.pepit] }
  | .gradient _ x => do
    let p ← pkgGet r.pts x
    let _ ← samePkg .assertion p .pepit
    .ok { r with pts := r.pts ++ [.pepit] }
  | .value _ x => do
    let p ← pkgGet r.pts x
    let _ ← samePkg .assertion p .pepit
    .ok { r with exs := r.exs ++ [.pepit] }
  | .prox x0 _ _ => do
    let p ← pkgGet r.pts x0
    let _ ← samePkg .assertion p .pepit
    .ok { pts := r.pts ++ [.pepit, .pepit], exs := r.exs ++ [.pepit] }
  | .conj g _ => do
    let _ ← pkgGet r.pts g
    .ok { r with pts := r.pts ++ [.ciropt] }
  | _ => .ok r

/-- the calls in verification mode -/
def pkgRun : List Instr → PkgRegs → Except Err PkgRegs
  | [], r => .ok r
  | i :: is, r => do let r' ← i.pkg r; pkgRun is r'

/-- the symbols in a point expression -/
def PE.names : PE → List Name
  | .reg _ => []
  | .add a b => PE.names a ++ PE.names b
  | .sub a b => PE.names a ++ PE.names b
  | .neg a => PE.names a
  | .scale s a => s.vars ++ PE.names a
  | .div a _ => PE.names a

/-- the symbols in an expression -/
def EE.names : EE → List Name
  | .reg _ => []
  | .inner a b => a.names ++ b.names
  | .pow a _ => a.names
  | .add a b => EE.names a ++ EE.names b
  | .sub a b => EE.names a ++ EE.names b
  | .neg a => EE.names a
  | .scale s a => s.vars ++ EE.names a
  | .div a _ => EE.names a
  | .addNum a _ => EE.names a
  | .subNum a _ => EE.names a
  | .rsubNum _ a => EE.names a

/-- the symbols in the arguments of a call: the python variables it reads -/
def Instr.names : Instr → List Name
  | .pt a => a.names
  | .ex a => a.names
  | .prox _ _ gamma => gamma.vars
  | .objective e => e.vars
  | _ => []

/-- a PEPit problem: the calls that built it, and the numbers in the python variables -/
structure PepProblem where
  calls : List Instr
  value : Name → ℝ

/-- A circuit function called with `params`: KeyError if a key it reads is missing, UnboundLocalError (`unbound`) if a variable is used that was
not read, the error of the first call that raises, or else the PEPit problem.  Simplification: it is decided before the first call whether a
variable is unbound. -/
noncomputable def verification (keys : List Name) (calls : List Instr) (params : Dict Name ℝ) : Except Err PepProblem :=
  if keys.all params.has then
    if calls.all fun i => i.names.all fun n => n ∈ keys then
      match pkgRun calls ⟨[], []⟩ with
      | .ok _ => .ok ⟨calls, fun n => (params.get? n).getD 0⟩
      | .error e => .error e
    else .error .unbound
  else .error .key

/-- `circuit(..., params=params)` -/
noncomputable def Circuit.verify (c : Circuit) (params : Dict Name ℝ) : Except Err PepProblem := verification c.keys c.prog params

/-- the dictionary of a solver as numbers: `dict_parameters_ciropt` stores the value of a variable with one entry as a number (`utils.py` 162-164) -/
noncomputable def asNumbers (d : Dict Name (List ℝ)) : Dict Name ℝ := d.map fun kv => (kv.1, kv.2.headD 0)

end Verif
