import Verif.Model.Heap
import Mathlib.Data.Real.Basic
import Mathlib.Data.Matrix.Mul
import Mathlib.Algebra.BigOperators.Fin
import Mathlib.Logic.Equiv.Defs

/-!
# Parameter search and matrix splitting (`utils.py`)
-/

namespace Verif

/-- `sum(reldiff[start:end]) / (end-start)` (`utils.py` 230).  `none` is a value that is not a number or positive infinity; a sum with
such a term is such a value.  Simplification: exact arithmetic, negative infinity does not occur, `start` and `end` are not negative. -/
noncomputable def windowScore (start stop : ℕ) (reldiff : List (Option ℝ)) : Except Err (Option ℝ) :=
  let s : Option ℝ := ((reldiff.take stop).drop start).foldl (fun acc v => acc.bind fun a => v.map (a + ·)) (some 0)
  if (stop : ℤ) - start = 0 then .error .zeroDivision else .ok (s.map (· / ((stop : ℝ) - start)))

/-- `if new_val < best_value: best_value = new_val; best_param = param` (`utils.py` 231-234); `best` is `best_param, best_value`, `none` before
the first update (`best_value = np.inf`, `best_param` not bound) -/
noncomputable def gridUpdate {α : Type} (p : α) : Option ℝ → Option (α × ℝ) → Option (α × ℝ)
  | none, best => best
  | some v, none => some (p, v)
  | some v, some (q, w) => if v < w then some (p, v) else some (q, w)

/-- the loop of `grid_search` (`utils.py` 228-234) -/
noncomputable def gridLoop {α : Type} (f : α → Except Err (List (Option ℝ))) (start stop : ℕ) : List α → Option (α × ℝ) → Except Err (Option (α × ℝ))
  | [], best => .ok best
  | p :: ps, best => do
    let r ← f p
    let v ← windowScore start stop r
    gridLoop f start stop ps (gridUpdate p v best)

/-- `grid_search` (`utils.py` 226-236); an exception of the optimised function is passed on.  Simplification: printing is left out. -/
noncomputable def gridSearch {α : Type} (f : α → Except Err (List (Option ℝ))) (params : List α) (start : ℕ := 50) (stop : ℕ := 350) :
    Except Err α := do
  match ← gridLoop f start stop params none with
  | none => .error .unbound
  | some (p, _) => .ok p

section split
variable {n : ℕ}

/-- `np.allclose(a, b)` with the default tolerances, on matrices of the same shape -/
def AllClose (A B : Matrix (Fin n) (Fin n) ℝ) : Prop := ∀ i j, |A i j - B i j| ≤ 1 / 10 ^ 8 + 1 / 10 ^ 5 * |B i j|

/-- a result of `matrix_to_diff_psd` (`utils.py` 213-221): the number 0 or a matrix -/
inductive PartMat (n : ℕ) where
  | zero
  | mat (A : Matrix (Fin n) (Fin n) ℝ)

/-- the matrix a part stands for; numpy broadcasts the number 0 in `A_plus - A_minus` -/
def PartMat.get : PartMat n → Matrix (Fin n) (Fin n) ℝ
  | .zero => 0
  | .mat A => A

/-- `(evals[s] * V[:, s]) @ inv_V[s, :]` for the index range `s` (`utils.py` 214-215) -/
noncomputable def spectralPart (ev : Fin n → ℝ) (V U : Matrix (Fin n) (Fin n) ℝ) (s : Fin n → Bool) : Matrix (Fin n) (Fin n) ℝ :=
  fun i j => ∑ k, if s k then ev k * V i k * U k j else 0

open Classical in
/-- `np.where(evals > 0)[0]`, its first element (`utils.py` 210-212) -/
noncomputable def firstPos (ev : Fin n → ℝ) : Option (Fin n) := (List.finRange n).find? fun k => decide (0 < ev k)

/-- the two parts from sorted eigenvalues (`utils.py` 210-221) -/
noncomputable def splitParts (A : Matrix (Fin n) (Fin n) ℝ) (ev : Fin n → ℝ) (V U : Matrix (Fin n) (Fin n) ℝ) : PartMat n × PartMat n :=
  match firstPos ev with
  | some p =>
    if 1 ≤ p.val then (.mat (spectralPart ev V U fun k => decide (p ≤ k)), .mat (-spectralPart ev V U fun k => decide (k < p)))
    else (.mat A, .zero)
  | none => (.zero, .mat (-A))

open Classical in
/-- `matrix_to_diff_psd` (`utils.py` 194-223).  The eigensolvers `eigh`, `eig`, the inverse and `argsort` are parameters.  Simplification: the
eigenvalues of the general solver are real; exact arithmetic. -/
noncomputable def matrixToDiffPsd (eigh : Matrix (Fin n) (Fin n) ℝ → (Fin n → ℝ) × Matrix (Fin n) (Fin n) ℝ)
    (eig : Matrix (Fin n) (Fin n) ℝ → (Fin n → ℝ) × Matrix (Fin n) (Fin n) ℝ)
    (inv : Matrix (Fin n) (Fin n) ℝ → Except Err (Matrix (Fin n) (Fin n) ℝ)) (argsort : (Fin n → ℝ) → Equiv.Perm (Fin n))
    (A : Matrix (Fin n) (Fin n) ℝ) : Except Err (PartMat n × PartMat n) := do
  let d ← if AllClose A A.transpose then Except.ok ((eigh A).1, (eigh A).2, (eigh A).2.transpose)
    else (inv (eig A).2).map fun U => ((eig A).1, (eig A).2, U)
  let idx := argsort d.1
  let parts := splitParts A (fun k => d.1 (idx k)) (fun i k => d.2.1 i (idx k)) (fun k j => d.2.2 (idx k) j)
  if AllClose A (parts.1.get - parts.2.get) then .ok parts else .error .assertion

end split
end Verif
