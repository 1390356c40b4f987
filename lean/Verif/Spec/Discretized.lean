import Verif.Spec.Graph
import Verif.Spec.Classes

/-!
# What the decentralized methods are about: edges with a capacitor, proximal operators, minimisers of a sum
-/

namespace Verif
open scoped InnerProductSpace

/-- the edge between the nodes 4 and 5 (positions 3 and 4) has a capacitor in the variant `cir_dadmm_c`; no edge has one in the others -/
def Dadmm.CapEdge {K : Type} (a : Dadmm K) (j l : ℕ) : Prop :=
  (∃ R h Ind Cap, a = .capacitor R h Ind Cap) ∧ ((j = 3 ∧ l = 4) ∨ (j = 4 ∧ l = 3))

variable {E : Type} [NormedAddCommGroup E] [InnerProductSpace ℝ E]

/-- `p` minimises `f(y) + |y - z|² / (2 rho)` -/
def CFun.IsProx (F : CFun E) (rho : ℝ) (z p : E) : Prop :=
  p ∈ F.dom ∧ ∀ y ∈ F.dom, F.f p + ‖p - z‖ ^ 2 / (2 * rho) ≤ F.f y + ‖y - z‖ ^ 2 / (2 * rho)

/-- `x` minimises the sum of the first `n` functions -/
def SumMin (n : ℕ) (F : ℕ → CFun E) (x : E) : Prop :=
  (∀ j < n, x ∈ (F j).dom) ∧ ∀ y, (∀ j < n, y ∈ (F j).dom) → ∑ j ∈ Finset.range n, (F j).f x ≤ ∑ j ∈ Finset.range n, (F j).f y

/-- the optimality condition: subgradients at `x` that sum to zero -/
def SumOpt (n : ℕ) (F : ℕ → CFun E) (x : E) : Prop :=
  ∃ g : ℕ → E, (∀ j < n, (F j).Sample x (g j) ((F j).f x)) ∧ ∑ j ∈ Finset.range n, g j = 0

end Verif
