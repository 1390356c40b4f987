import Verif.Spec.Standard
import Verif.Spec.Safe

/-!
# The points at which a program evaluates its functions
-/

namespace Verif

/-- the number of the declared function in register `f` of the functions -/
def declIndex (declared : List Bool) (f : ℕ) : ℕ := (declared.take f).count true

/-- The registers of the points at which a call may evaluate the declared function number `k`, if `n` points exist before the call.  A
stationary point of a sum counts for all functions. -/
def Instr.callsOf (declared : List Bool) (n k : ℕ) : Instr → List ℕ
  | .stationary f => if declared.getD f false = true ∧ declIndex declared f ≠ k then [] else [n]
  | .oracle f x | .gradient f x | .value f x | .addPoint f x _ _ => if declIndex declared f = k then [x] else []
  | .prox _ f _ | .conj _ f => if declIndex declared f = k then [n] else []
  | _ => []

/-- the registers of the points at which a program evaluates the declared function number `k` -/
def callsFrom (k : ℕ) : List Bool → Counts → List Instr → List ℕ
  | _, _, [] => []
  | declared, n, i :: is => i.callsOf declared n.np k ++ callsFrom k (i.declares declared) (i.next n) is

/-- the registers of the points at which a program evaluates the declared function number `k` -/
def calls (k : ℕ) (prog : List Instr) : List ℕ := callsFrom k [] ⟨0, 0, 0⟩ prog

end Verif
