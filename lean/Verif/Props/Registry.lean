import Verif.Proofs.Registry
import Verif.Proofs.RefCAS
import Verif.Props.PointExpr

/-!
# C04: the leaf registry stays consistent under every API history

`runProblem C prog h0` creates a problem in any state `h0` of the interpreter (earlier problems included) and runs the API calls `prog`.
-/

namespace Verif

variable {C : CAS} {h h0 : Heap} {r : Regs} {prog : List Instr}

/-- After every history of API calls the registry is consistent. -/
theorem C04_registry (hC : C.Lawful) (hr : runProblem C prog h0 = .ok (r, h)) : RegistryOk r h :=
  (reached_inv hC hr).registryOk

/-- A history raises no error exactly when it uses defined variables only, divides by no zero, squares only and gives smooth
classes a finite `L`: no other state of the registries makes an API call fail. -/
theorem C04_errors (hC : C.Lawful) (prog : List Instr) (h0 : Heap) :
    (∃ v, runProblem C prog h0 = .ok v) ↔ SafeProg prog ⟨0, 0, 0⟩ = true :=
  prog_ok_iff hC prog (inv_reset h0)

/-! ### Non-vacuity -/

/-- two functions, a sum, a stationary point, an oracle call, a proximal step, arithmetic, a constraint and a metric -/
def exampleProg : List Instr :=
  [.declare (.smoothConvex (some 1)), .declare (.convex false), .fn (.add (.reg 0) (.scale 2 (.reg 1))),
   .stationary 2, .initial, .oracle 2 2, .prox 2 1 (Sym.var "h"), .pt (.sub (.reg 2) (.scale (Sym.var "alpha") (.reg 3))),
   .ex (.sub (.pow (.sub (.reg 2) (.reg 0)) 2) (.reg 1)), .constr 3 .inequality, .metric 3]

example : SafeProg exampleProg ⟨0, 0, 0⟩ = true := by decide +kernel
/-- the example history runs from a state with earlier objects and creates 6 leaf points and 5 leaf expressions -/
example : (match runProblem refCAS exampleProg exampleHeap with
    | .ok ((r : Regs), (h : Heap)) => some (h.leafPts, h.leafExs, h.ptCounter, h.exCounter, r.cons.length)
    | .error _ => none) = some ([4, 6, 11, 12, 13, 18], [1, 2, 7, 8, 13], 6, 5, 1) := by decide +kernel

end Verif
