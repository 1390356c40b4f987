import Verif.Model.Verification
import Verif.Spec.Represent
import Verif.Spec.Dual
import Mathlib.Data.EReal.Basic

/-!
# What PEPit computes

The documented answer of `PEP.solve()` is the worst case of the performance metric: its supremum over all functions of the declared classes and
all runs of the method, in spaces of any dimension.
-/

namespace Verif

/-- the values of the performance metric in the real executions that satisfy the extra constraints -/
def metricValues (calls : List Instr) (env : Name → ℝ) : Set ℝ :=
  {v | ∃ (E : Type) (_ : NormedAddCommGroup E) (_ : InnerProductSpace ℝ E) (fs : ℕ → CFun E) (rr : RRegs E),
    Instance calls fs ∧ RealExec fs env calls rr ∧ rr.ConsHold ∧ rr.metric = some v}

/-- the worst case of the performance metric, `⊤` if it is not bounded -/
noncomputable def PepProblem.worstCase (P : PepProblem) : EReal := sSup (Real.toEReal '' metricValues P.calls P.value)

end Verif
