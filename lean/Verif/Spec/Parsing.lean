import Verif.Model.Parsing
import Mathlib.Algebra.BigOperators.Group.Finset.Basic

/-!
# Meaning of long variable names
-/

namespace Verif

/-- the value of a possibly long symbol: the product of the values of its parts -/
noncomputable def longEnv (env : Name → ℝ) (n : Name) : ℝ := ((splitU n).map env).prod

/-- the name contains no underscore -/
def Plain (n : Name) : Prop := '_' ∉ n.toList

instance (n : Name) : Decidable (Plain n) := by unfold Plain; infer_instance

/-- the value of an element of the table of monomials -/
noncomputable def VName.val (env : Name → ℝ) : VName → ℝ
  | .one => 1
  | .str s => longEnv env s

/-- row `i` of a coefficient matrix times the vector of monomial values -/
noncomputable def Coeff.rowVal (m : Coeff) (names : List VName) (env : Name → ℝ) (i : ℕ) : ℝ :=
  ∑ j ∈ Finset.range m.cols, (m.at_ i j : ℝ) * ((names[j]?).map (VName.val env)).getD 0

/-- every name in the table is a parameter, or a product of parameters whose one-shorter prefix is in the table -/
def TableClosed (params : List Name) (names : List VName) : Prop := ∀ s, VName.str s ∈ names → s ∈ params ∨
  ∃ (l : List Name) (a : Name), l ≠ [] ∧ splitU s = l ++ [a] ∧ (∀ n ∈ l ++ [a], n ∈ params) ∧ (l ++ [a]).Pairwise (· ≤ ·) ∧
    VName.str (joinU l) ∈ names

end Verif
