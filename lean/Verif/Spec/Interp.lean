import Verif.Spec.Classes

/-!
# The interpolation inequalities, as numbers
-/

namespace Verif
open scoped InnerProductSpace

variable {E : Type} [NormedAddCommGroup E] [InnerProductSpace ℝ E]

/-- Left-hand side of the interpolation inequality `... ≤ 0` of the ordered pair of samples `(xi, gi, fi)`, `(xj, gj, fj)`
(Taylor, Hendrickx, Glineur 2017). -/
noncomputable def FnClass.lhs (cls : FnClass) (xi gi : E) (fi : ℝ) (xj gj : E) (fj : ℝ) : ℝ :=
  match cls with
  | .base => 0
  | .convex => fj - fi + ⟪gj, xi - xj⟫_ℝ
  | .strongly mu => fj - fi + ⟪gj, xi - xj⟫_ℝ + (mu : ℝ) / 2 * ‖xi - xj‖ ^ 2
  | .smoothStrongly mu L => fj - fi + ⟪gj, xi - xj⟫_ℝ + 1 / (2 * (L : ℝ)) * ‖gi - gj‖ ^ 2 +
      (mu : ℝ) / (2 * (1 - (mu : ℝ) / L)) * ‖xi - xj - (1 / (L : ℝ)) • (gi - gj)‖ ^ 2
  | .smoothConvex L => fj - fi + ⟪gj, xi - xj⟫_ℝ + 1 / (2 * (L : ℝ)) * ‖gi - gj‖ ^ 2

/-- when the python formula of the class raises no error -/
def FnClass.Computable : FnClass → Prop
  | .base => False
  | .convex => True
  | .strongly _ => True
  | .smoothStrongly mu L => L ≠ 0 ∧ mu ≠ L
  | .smoothConvex L => L ≠ 0

/-- the class object made by a declaration -/
def FnDecl.cls : FnDecl → FnClass
  | .convex _ => .convex
  | .strongly mu _ => .strongly mu
  | .smoothStrongly mu (some L) => .smoothStrongly mu L
  | .smoothConvex (some L) => .smoothConvex L
  | _ => .base

/-- does the declared function reuse gradients -/
def FnDecl.reuse : FnDecl → Bool
  | .convex reuse => reuse
  | .strongly _ reuse => reuse
  | _ => true

end Verif
