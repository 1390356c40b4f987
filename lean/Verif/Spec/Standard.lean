import Verif.Model.Program

/-!
# Standard programs

The programs in which a sum of functions is used as all circuit builders use one: with positive coefficients, and only to ask for one of
its stationary points.  Oracles, values, proximal steps and points added by hand are those of declared functions.
-/

namespace Verif

/-- a combination with positive coefficients of the first `n` functions of the script -/
def FE.Positive (n : ℕ) : FE → Bool
  | .reg i => decide (i < n)
  | .add a b => a.Positive n && b.Positive n
  | .sub _ _ => false
  | .neg _ => false
  | .scale c a => decide (0 < c) && a.Positive n
  | .div a c => decide (0 < c) && a.Positive n

/-- the call evaluates only declared functions; `declared` says which functions of the script are declared ones -/
def Instr.Standard (declared : List Bool) : Instr → Bool
  | .fn a => a.Positive declared.length
  | .oracle f _ | .gradient f _ | .value f _ | .prox _ f _ | .conj _ f | .addPoint f _ _ _ => declared.getD f false
  | _ => true

/-- which functions of the script are declared ones, after the call -/
def Instr.declares (declared : List Bool) : Instr → List Bool
  | .declare _ => declared ++ [true]
  | .fn _ => declared ++ [false]
  | _ => declared

/-- every call evaluates only declared functions -/
def standardFrom : List Bool → List Instr → Bool
  | _, [] => true
  | declared, i :: is => i.Standard declared && standardFrom (i.declares declared) is

/-- a standard program -/
def Standard (prog : List Instr) : Bool := standardFrom [] prog

/-- the keyword `reuse_gradient` is left at its default: `False` for functions that need not be differentiable -/
def FnDecl.Default : FnDecl → Bool
  | .convex reuse => !reuse
  | .strongly _ reuse => !reuse
  | _ => true

end Verif
