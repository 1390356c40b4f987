import Verif.Model.Casadi

/-!
# Arrays and the index arithmetic of `utils.py`

An array is its shape and its entries as a function of the indices; entries outside the shape have no meaning.  The operations are
those of numpy and CasADi on arrays of matching shapes; where shapes do not match numpy raises, which is not modelled unless the
code checks it with `assert`.
-/

namespace Verif

/-- a two-dimensional numpy (or CasADi) array -/
structure Mat (α : Type) where
  rows : ℕ
  cols : ℕ
  at_ : ℕ → ℕ → α

/-- sum of `f 0, ..., f (n - 1)` in this order -/
def sumTo {α : Type} [Zero α] [Add α] (n : ℕ) (f : ℕ → α) : α := (List.range n).foldl (fun acc k => acc + f k) 0

namespace Mat
variable {α β : Type}

/-- `np.zeros((r, c))` -/
def zeros [Zero α] (r c : ℕ) : Mat α := ⟨r, c, fun _ _ => 0⟩
/-- `np.eye(n)` -/
def eye [Zero α] [One α] (n : ℕ) : Mat α := ⟨n, n, fun i j => if i = j then 1 else 0⟩
/-- `np.concatenate([a, b], axis=1)` -/
def hcat (a b : Mat α) : Mat α := ⟨a.rows, a.cols + b.cols, fun i j => if j < a.cols then a.at_ i j else b.at_ i (j - a.cols)⟩
/-- `a @ b` -/
def mul [Zero α] [Add α] [Mul α] (a b : Mat α) : Mat α := ⟨a.rows, b.cols, fun i j => sumTo a.cols fun k => a.at_ i k * b.at_ k j⟩
/-- `a.T` -/
def T (a : Mat α) : Mat α := ⟨a.cols, a.rows, fun i j => a.at_ j i⟩
/-- `a + b` -/
def add [Add α] (a b : Mat α) : Mat α := ⟨a.rows, a.cols, fun i j => a.at_ i j + b.at_ i j⟩
/-- `-a` -/
def neg [Neg α] (a : Mat α) : Mat α := ⟨a.rows, a.cols, fun i j => - a.at_ i j⟩
/-- `c * a` for a number `c` -/
def smul [Mul α] (c : α) (a : Mat α) : Mat α := ⟨a.rows, a.cols, fun i j => c * a.at_ i j⟩
/-- `ca.trace(a)`, `cp.trace(a)` -/
def trace [Zero α] [Add α] (a : Mat α) : α := sumTo a.rows fun i => a.at_ i i
/-- `a[k : k+1, :]` -/
def row (a : Mat α) (k : ℕ) : Mat α := ⟨1, a.cols, fun _ j => a.at_ k j⟩
/-- `a[:, k : k+1]` -/
def col (a : Mat α) (k : ℕ) : Mat α := ⟨a.rows, 1, fun i _ => a.at_ i k⟩
/-- a column vector -/
def ofList [Zero α] (l : List α) : Mat α := ⟨l.length, 1, fun i _ => l.getD i 0⟩
def map (f : α → β) (a : Mat α) : Mat β := ⟨a.rows, a.cols, fun i j => f (a.at_ i j)⟩

end Mat

/-- `l[a : b]` for `0 ≤ a`, `0 ≤ b` -/
def pySlice {α : Type} (l : List α) (a b : ℕ) : List α := (l.drop a).take (b - a)

/-- `get_start_idx` (`utils.py` 34-35, 46-47) -/
def startIdx (k : ℕ) : ℕ := k * (k + 1) / 2

/-- `u.T @ v` for vectors of the same length (`utils.py` 40) -/
def dotL {α : Type} [Zero α] [Add α] [Mul α] (u v : List α) : α := (List.zipWith (· * ·) u v).foldl (· + ·) 0

/-- `get_PPt_element` (`utils.py` 33-40) -/
def getPPtElement {α : Type} [Zero α] [Add α] [Mul α] (vecP : List α) (k1 k2 : ℕ) : α :=
  dotL (pySlice vecP (startIdx k1) (startIdx k1 + min k1 k2 + 1)) (pySlice vecP (startIdx k2) (startIdx k2 + min k1 k2 + 1))

/-- `selection_matrix` (`utils.py` 48-51): zeros, identity, zeros side by side -/
def selMatrix {α : Type} [Zero α] [One α] (n c1 c3 : ℕ) : Mat α := ((Mat.zeros n c1).hcat (Mat.eye n)).hcat (Mat.zeros n c3)

/-- `vec_indices` (`circuit_opt.py` 302-305, 416-419): here `start, stop` with `stop` one more than the second number in the code -/
structure VecIdx where
  start : ℕ
  stop : ℕ

/-- `get_PPt_matrix` (`utils.py` 43-57): `xs` is `x.shape[0]`, `ps` is `vec_indices["P"][0]` -/
def getPPtMatrix {α : Type} [Zero α] [One α] (xs ps k1 k2 : ℕ) : Mat α × Mat α :=
  (selMatrix (min k1 k2 + 1) (ps + startIdx k1) (xs - (min k1 k2 + 1) - (ps + startIdx k1)),
   selMatrix (min k1 k2 + 1) (ps + startIdx k2) (xs - (min k1 k2 + 1) - (ps + startIdx k2)))

/-- `get_vec_var(x, name, vec_indices, matrix=True)` (`utils.py` 61-66); `xs` is `x.shape[0]` -/
def getVecVarM {α : Type} [Zero α] [One α] (xs : ℕ) (vi : VecIdx) : Mat α := selMatrix (vi.stop - vi.start) vi.start (xs - vi.stop)

/-- `get_vec_var(x, name, vec_indices)` (`utils.py` 67-68) -/
def getVecVar {α : Type} (x : List α) (vi : VecIdx) : List α := pySlice x vi.start vi.stop

/-- `res[a : a+n] = row` on a one-dimensional array -/
def putSlice {α : Type} (res : ℕ → α) (a n : ℕ) (row : ℕ → α) : ℕ → α := fun k => if a ≤ k ∧ k < a + n then row (k - a) else res k

/-- `flatten_lower_tri` (`utils.py` 93-97) -/
def flattenLowerTri {α : Type} [Zero α] (P : Mat α) : List α :=
  (List.range (P.rows * (P.rows + 1) / 2)).map
    ((List.range P.rows).foldl (fun res i => putSlice res (i * (i + 1) / 2) (i + 1) fun j => P.at_ i j) fun _ => 0)

/-- the pairs of `for i in range(n): for j in range(n): if i == j: continue` (`utils.py` 75-77, 86-88) -/
def offDiagPairs (n : ℕ) : List (ℕ × ℕ) := (loopPairs n).filter fun ij => ij.1 ≠ ij.2

/-- the loop of `reshape_lamb_2d` (`utils.py` 75-79): the array and `count`; IndexError outside -/
def reshapeLoop {α : Type} (lamb : List α) : List (ℕ × ℕ) → (ℕ → ℕ → α) → ℕ → Except Err (ℕ → ℕ → α)
  | [], res, _ => .ok res
  | ij :: rest, res, count => match lamb[count]? with
    | some x => reshapeLoop lamb rest (fun a b => if a = ij.1 ∧ b = ij.2 then x else res a b) (count + 1)
    | none => .error .index

/-- `reshape_lamb_2d` (`utils.py` 71-80) -/
def reshapeLamb2d {α : Type} [Zero α] (lamb : List α) : Except Err (Mat α) := do
  let size := Nat.sqrt lamb.length + 1
  let res ← reshapeLoop lamb (offDiagPairs size) (fun _ _ => 0) 0
  .ok ⟨size, size, res⟩

/-- `flatten_lamb` (`utils.py` 83-90) -/
def flattenLamb {α : Type} (lamb : Mat α) : List α := (offDiagPairs lamb.rows).map fun ij => lamb.at_ ij.1 ij.2

/-- `np.cumsum(l)` -/
def cumsum : List ℕ → ℕ → List ℕ
  | [], _ => []
  | a :: l, acc => (acc + a) :: cumsum l (acc + a)

/-- `vec_diag_P_idx` (`circuit_opt.py` 360, 480) -/
def diagIdx (dimG : ℕ) : List ℕ := ((cumsum (List.range (dimG + 1)) 0).drop 1).map fun k => k - 1

/-- the selector `Q` of the diagonal (`circuit_opt.py` 361-362, 481-482) -/
def diagSel {α : Type} [Zero α] [One α] (dimG : ℕ) : Mat α :=
  ⟨dimG, dimG * (dimG + 1) / 2, fun i j => if (diagIdx dimG)[i]? = some j then 1 else 0⟩

/-- `one_hot(n, i)` (`utils.py` 123-127) -/
def oneHot {α : Type} [Zero α] [One α] (n i : ℕ) : Mat α := (Mat.eye n).col i

/-- `symm_prod` (`utils.py` 149-153) -/
def symmProd (a b : Mat ℚ) : Mat ℚ := Mat.smul (1 / 2) ((a.mul b.T).add (b.mul a.T))

/-- `symm_prod_one_hot` (`utils.py` 130-133) -/
def symmProdOneHot (n i j : ℕ) : Mat ℚ := symmProd (oneHot n i) (oneHot n j)

/-- `prod_one_hot` (`utils.py` 143-146) -/
def prodOneHot {α : Type} [Zero α] [One α] (r c i j : ℕ) : Mat α := ⟨r, c, fun a b => if a = i ∧ b = j then 1 else 0⟩

end Verif
