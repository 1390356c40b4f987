import Verif.Spec.Problem
import Verif.Spec.Exec

/-!
# The dual system of a problem
-/

namespace Verif

/-- a positive semidefinite symmetric `n × n` matrix -/
def IsPSD (n : ℕ) (Z : ℕ → ℕ → ℝ) : Prop :=
  (∀ i < n, ∀ j < n, Z i j = Z j i) ∧ ∀ v : ℕ → ℝ, 0 ≤ ∑ i ∈ Finset.range n, ∑ j ∈ Finset.range n, Z i j * v i * v j

/-- `Σ multiplier × F-matrix`, entry `k`, over all constraints -/
noncomputable def SymMats.dualF (sm : SymMats) (env : Name → ℝ) (mult : SpKey → ℝ) (k : ℕ) : ℝ :=
  ((sm.spExp.filter fun en => en.1 ≠ .obj).map fun en => mult en.1 * (en.2.F k).eval env).sum

/-- `Σ multiplier × G-matrix`, entry `(i, j)`, over all constraints -/
noncomputable def SymMats.dualG (sm : SymMats) (env : Name → ℝ) (mult : SpKey → ℝ) (i j : ℕ) : ℝ :=
  ((sm.spExp.filter fun en => en.1 ≠ .obj).map fun en => mult en.1 * (en.2.G i j).eval env).sum

/-- F-matrix of the performance metric -/
noncomputable def SymMats.objF (sm : SymMats) (env : Name → ℝ) (k : ℕ) : ℝ :=
  match sm.spExp.get? .obj with
  | some m => (m.F k).eval env
  | none => 0

/-- G-matrix of the performance metric -/
noncomputable def SymMats.objG (sm : SymMats) (env : Name → ℝ) (i j : ℕ) : ℝ :=
  match sm.spExp.get? .obj with
  | some m => (m.G i j).eval env
  | none => 0

/-- The dual system at parameter values `env`: multipliers `mult` (non-negative for inequalities) whose weighted sum of the constraint
matrices minus the metric has F-part 0 and G-part `Z`. -/
structure DualFeasible (sm : SymMats) (dimG dimF : ℕ) (env : Name → ℝ) (mult : SpKey → ℝ) (Z : ℕ → ℕ → ℝ) : Prop where
  nonneg : ∀ k i j, SpKey.tup 0 k i j ∈ Dict.keys sm.spExp → 0 ≤ mult (.tup 0 k i j)
  F : ∀ k < dimF, sm.dualF env mult k - sm.objF env k = 0
  G : ∀ i < dimG, ∀ j < dimG, sm.dualG env mult i j - sm.objG env i j = Z i j

/-- the extra constraints hold in a real execution: inequalities are `≤ 0`, equalities `= 0` -/
def RRegs.ConsHold {E : Type} (rr : RRegs E) : Prop := ∀ c ∈ rr.cons, match c.2 with
  | .inequality => c.1 ≤ 0
  | .equality => c.1 = 0

/-- by how much the extra constraints are violated, in total: the positive part for an inequality, the absolute value for an equality -/
noncomputable def RRegs.violation {E : Type} (rr : RRegs E) : ℝ := (rr.cons.map fun c => match c.2 with
  | .inequality => max c.1 0
  | .equality => |c.1|).sum

end Verif
