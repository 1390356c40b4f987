import Verif.Model.Sdp
import Verif.Spec.Qcqp

/-!
# Feasible points of semidefinite programs
-/

namespace Verif

/-- the variables declared semidefinite are, and all constraints hold -/
def Sdp.Sat (s : Sdp) (σ : ℕ → ℕ → ℕ → ℝ) : Prop := (∀ p ∈ s.psd, IsPSD p.2 (σ p.1)) ∧ ∀ c ∈ s.cons, c.Holds σ

/-- parameter values given by a dictionary -/
noncomputable def dictEnv (vals : Dict Name ℚ) (n : Name) : ℝ := ((vals.get? n).getD 0 : ℚ)

/-- `y` is within the bounds `b` -/
def Bound.Within (b : Bound) (y : ℝ) : Prop := (∀ u, b.ub = some u → y ≤ u) ∧ (∀ l, b.lb = some l → (l : ℝ) ≤ y)

/-- the bounds hold: `Z` bounds all entries of `Z`, a monomial of the table its value, `lamb` all multipliers; other names are ignored
(bounds on the whole of `x` or `X` are excluded) -/
def RelaxBoundsOk (sm : SymMats) (names : List VName) (dimG : ℕ) (bounds : List Bound) (env : Name → ℝ) (mult : SpKey → ℝ) (Z : ℕ → ℕ → ℝ) : Prop :=
  ∀ b ∈ bounds, b.name ≠ "x" ∧ b.name ≠ "X" ∧
    (b.name = "Z" → ∀ i < dimG, ∀ j < dimG, b.Within (Z i j)) ∧
    (b.name ≠ "Z" → VName.str b.name ∈ names → b.Within (longEnv env b.name)) ∧
    (b.name = "lamb" → VName.str b.name ∉ names → ∀ key ∈ Dict.keys sm.spExp, key ≠ .obj → b.Within (mult key))

end Verif
