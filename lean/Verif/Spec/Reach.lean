import Verif.Model.Program

/-!
# Reachable states
-/

namespace Verif

/-- `(r, h)`: variables of a script and state of the interpreter after some API calls on a new problem, without error.
The problem may have been created in any state, with earlier problems in it. -/
def Reached (C : CAS) (r : Regs) (h : Heap) : Prop := ∃ prog h0, runProblem C prog h0 = .ok (r, h)

/-- further API calls without error lead from `(r, h)` to `(r', h')` -/
def Later (C : CAS) (r : Regs) (h : Heap) (r' : Regs) (h' : Heap) : Prop := ∃ prog, runProg C prog r h = .ok (r', h')

/-- the script keeps a gradient and a value -/
def Regs.push (r : Regs) (g : PtId) (v : ExId) : Regs := { r with pts := r.pts ++ [g], exs := r.exs ++ [v] }

end Verif
