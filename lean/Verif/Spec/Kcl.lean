import Verif.Spec.Represent
import Verif.Model.Build

namespace Verif

/-- the sum of some points of an execution -/
noncomputable def RRegs.total {E : Type} [NormedAddCommGroup E] [InnerProductSpace ℝ E] (env : Name → ℝ) (rr : RRegs E) (l : List PE) : E :=
  (l.map fun e => e.den env rr.pts).sum

end Verif
