import Verif.Model.Function
import Mathlib.Analysis.Convex.Strong
import Mathlib.Analysis.InnerProductSpace.Basic
import Mathlib.Analysis.InnerProductSpace.LinearMap
import Mathlib.Analysis.Calculus.FDeriv.Basic

/-!
# The function classes, in terms of Mathlib's convexity and derivatives
-/

namespace Verif
open scoped InnerProductSpace

variable {E : Type} [NormedAddCommGroup E] [InnerProductSpace ℝ E]

/-- An extended-valued function: `f` on its effective domain `dom`, `+∞` elsewhere. -/
structure CFun (E : Type) where
  dom : Set E
  f : E → ℝ

/-- `v` is the value and `g` a subgradient of `F` at `x`. -/
def CFun.Sample (F : CFun E) (x g : E) (v : ℝ) : Prop :=
  x ∈ F.dom ∧ F.f x = v ∧ ∀ y ∈ F.dom, v + ⟪g, y - x⟫_ℝ ≤ F.f y

/-- differentiable everywhere, with `L`-Lipschitz gradient -/
def LipschitzGradient (f : E → ℝ) (L : ℝ) : Prop :=
  ∃ G : E → E, (∀ x, HasFDerivAt f (innerSL ℝ (G x)) x) ∧ ∀ x y, ‖G x - G y‖ ≤ L * ‖x - y‖

/-- Membership of a class (`function.py` 202, 219, 244, 265).  `reuse_gradient=True` on a class of non-differentiable functions
promises that there is one subgradient per point. -/
def FnDecl.Holds : FnDecl → CFun E → Prop
  | .convex reuse, F => ConvexOn ℝ F.dom F.f ∧ (reuse = true → ∀ x g g' v v', F.Sample x g v → F.Sample x g' v' → g = g')
  | .strongly mu reuse, F => StrongConvexOn F.dom (mu : ℝ) F.f ∧
      (reuse = true → ∀ x g g' v v', F.Sample x g v → F.Sample x g' v' → g = g')
  | .smoothStrongly mu (some L), F => F.dom = Set.univ ∧ StrongConvexOn Set.univ (mu : ℝ) F.f ∧ LipschitzGradient F.f L
  | .smoothConvex (some L), F => F.dom = Set.univ ∧ ConvexOn ℝ Set.univ F.f ∧ LipschitzGradient F.f L
  | _, _ => False

/-- the parameters make sense -/
def FnDecl.Ok : FnDecl → Prop
  | .convex _ => True
  | .strongly mu _ => 0 ≤ mu
  | .smoothStrongly mu (some L) => 0 ≤ mu ∧ mu < L
  | .smoothConvex (some L) => 0 < L
  | _ => False

end Verif
