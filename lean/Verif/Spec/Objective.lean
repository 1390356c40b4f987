import Verif.Model.Program

/-!
# The objective of a script
-/

namespace Verif

/-- the last objective assigned after the last performance metric was set; setting the metric makes it `eta` -/
def objectiveOf : List Instr → Sym → Sym
  | [], o => o
  | .metric _ :: is, _ => objectiveOf is (Sym.var "eta")
  | .objective e :: is, _ => objectiveOf is e
  | _ :: is, o => objectiveOf is o

/-- the quantity a script asks to maximise -/
def goalOf (prog : List Instr) : Sym := objectiveOf prog (Sym.var "eta")

/-- the script without its assignments to the objective -/
def withoutObjectives (prog : List Instr) : List Instr := prog.filter fun
  | .objective _ => false
  | _ => true

end Verif
