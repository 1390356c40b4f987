import Verif.Spec.Exec
import Verif.Spec.Classes
import Verif.Spec.Denote

/-!
# Real functions behind an API program
-/

namespace Verif

/-- the classes declared by a program, in order -/
def decls : List Instr → List FnDecl
  | [] => []
  | .declare d :: is => d :: decls is
  | _ :: is => decls is

variable {E : Type} [NormedAddCommGroup E] [InnerProductSpace ℝ E]

/-- `fs k` is a function of the `k`-th declared class -/
def Instance (prog : List Instr) (fs : ℕ → CFun E) : Prop := ∀ (k : ℕ) (d : FnDecl), (decls prog)[k]? = some d → d.Holds (fs k)

/-- a real execution of a program with the functions `fs` -/
def RealExec (fs : ℕ → CFun E) (env : Name → ℝ) (prog : List Instr) (rr : RRegs E) : Prop :=
  Exec (fun k => (fs k).Sample) env prog (RRegs.empty E) rr

end Verif
