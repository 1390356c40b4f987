import Verif.Model.Heap
import Mathlib.Data.Real.Basic
import Mathlib.Data.Matrix.Mul
import Mathlib.Algebra.BigOperators.Fin

/-!
# What a parameter search and a splitting of a matrix are
-/

namespace Verif

/-- the run of parameter `p` yields the list `r` whose entries with indices `start, …, stop-1` are the numbers `w`, and `v` is their sum
divided by `stop - start` -/
def WindowAverage {α : Type} (f : α → Except Err (List (Option ℝ))) (start stop : ℕ) (p : α) (v : ℝ) : Prop :=
  ∃ (r : List (Option ℝ)) (w : List ℝ), f p = .ok r ∧ (r.take stop).drop start = w.map some ∧ v = w.sum / ((stop : ℝ) - start)

/-- `p` is the first parameter in the list with the least average -/
def FirstBest {α : Type} (f : α → Except Err (List (Option ℝ))) (start stop : ℕ) (params : List α) (p : α) : Prop :=
  ∃ (i : ℕ) (v : ℝ), params[i]? = some p ∧ WindowAverage f start stop p v ∧
    ∀ (j : ℕ) (q : α) (w : ℝ), params[j]? = some q → WindowAverage f start stop q w → v ≤ w ∧ (j < i → v < w)

/-- positive semidefinite: symmetric with non-negative quadratic form -/
def PSDMat {n : ℕ} (A : Matrix (Fin n) (Fin n) ℝ) : Prop := A.transpose = A ∧ ∀ x : Fin n → ℝ, 0 ≤ ∑ i, ∑ j, x i * A i j * x j

/-- `V diag(ev) U = A` with `U` the inverse of `V` -/
structure Diagonalises {n : ℕ} (ev : Fin n → ℝ) (V U A : Matrix (Fin n) (Fin n) ℝ) : Prop where
  inv : V * U = 1
  eq : ∀ i j, A i j = ∑ k, ev k * V i k * U k j

end Verif
