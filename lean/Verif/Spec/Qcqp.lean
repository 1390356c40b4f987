import Verif.Model.Qcqp
import Verif.Spec.Casadi
import Verif.Spec.Dual

/-!
# What the vector `x` of the QCQP formulations stands for
-/

namespace Verif

/-- all constraints hold at the vector `x` -/
def Qcqp.Sat (q : Qcqp) (x : ℕ → ℝ) : Prop := ∀ c ∈ q.cons, c.Holds fun _ i _ => x i

/-- The vector `x` packs, in this order: the values of the monomials `names` at the parameter values `env`; one multiplier `mult key`
per constraint; the lower triangular matrix `P` row by row.  And these solve the dual system, with `P Pᵀ` as semidefinite part. -/
structure Packs (sm : SymMats) (names : List VName) (dimG dimF : ℕ) (x : ℕ → ℝ) (env : Name → ℝ) (mult : SpKey → ℝ) (P : ℕ → ℕ → ℝ) : Prop where
  monos : ∀ i n, names[i]? = some n → x i = n.val env
  mults : ∀ k key, (Dict.keys sm.spExp)[k]? = some key → key ≠ .obj → x (names.length + k) = mult key
  tri : ∀ i < dimG, ∀ k ≤ i, x (names.length + (sm.nI + sm.nE) + (i * (i + 1) / 2 + k)) = P i k
  upper : ∀ i k, i < k → P i k = 0
  diag : ∀ i < dimG, 0 ≤ P i i
  dual : DualFeasible sm dimG dimF env mult fun i j => ∑ k ∈ Finset.range dimG, P i k * P j k

/-- the parameters called `v` with a parameter `inv` + `v` are positive and reciprocal -/
def InvOk (params : List Name) (env : Name → ℝ) : Prop :=
  ∀ v ∈ invParams params, env v * env ("inv" ++ v) = 1 ∧ 1 / 10000000 ≤ env v

/-- the bounds hold for the named (possibly long) variables -/
def BoundsOk (bounds : List Bound) (env : Name → ℝ) : Prop :=
  ∀ b ∈ bounds, (∀ u, b.ub = some u → longEnv env b.name ≤ u) ∧ (∀ l, b.lb = some l → (l : ℝ) ≤ longEnv env b.name)

end Verif
