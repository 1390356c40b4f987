import Verif.Spec.Dual
import Verif.Spec.Represent

namespace Verif

/-- The performance metric of the program is at most 0 in every real inner product space, for all functions of the declared classes, in
every execution with the parameter values `env` that satisfies the extra constraints. -/
def Guaranteed (prog : List Instr) (env : Name → ℝ) : Prop :=
  ∀ {E : Type} [NormedAddCommGroup E] [InnerProductSpace ℝ E] (fs : ℕ → CFun E), Instance prog fs → ∀ rr : RRegs E,
    RealExec fs env prog rr → rr.ConsHold → ∀ v, rr.metric = some v → v ≤ 0

end Verif
