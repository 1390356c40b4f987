import Verif.Model.Qcqp

/-!
# The semidefinite programs of `extra_methods.py`

Decision variables are numbered matrices, as in `Model/Casadi`.  Not modelled: printing, the call of the solver, the `debug` checks.  An
equation or inequality between arrays of the same shape is one constraint for each entry.
-/

namespace Verif

/-- a semidefinite program: the numbers and sizes of the variables declared `PSD=True`, the constraints, the objective to be minimized -/
structure Sdp where
  psd : List (ℕ × ℕ)
  cons : List Constr
  obj : CExp

/-- `vars_to_vector` (`sympy_parsing.py` 297-301) -/
def varsToVector : List VName → Dict Name ℚ → Except Err (List ℚ)
  | [], _ => .ok []
  | n :: rest, vals => do
    let c ← evalMonomial vals n
    let cs ← varsToVector rest vals
    .ok (c :: cs)

/-! ### Fixed parameters -/

/-- column `var_lambda_nu` (variable 0, `extra_methods.py` 219) -/
def lamNu (n : ℕ) : Mat CExp := ⟨n, 1, fun i _ => .var 0 i 0⟩

/-- `obj @ v_value` (`extra_methods.py` 227, 234) -/
def objAt (m : Mat ℚ) (v : List ℚ) (k : ℕ) : ℚ := (m.mul (Mat.ofList v)).at_ k 0

/-- `(sum @ v_value).squeeze()` (`extra_methods.py` 227, 234): a matrix with one row for each multiplier -/
def sumAt (sums : ℕ → Mat ℚ) (n d : ℕ) (v : List ℚ) : Mat ℚ := ⟨n, d, fun i k => ((sums k).mul (Mat.ofList v)).at_ i 0⟩

/-- equation of entry `k` of F (`extra_methods.py` 227) -/
def fixEqF (q : QData) (dimF : ℕ) (v : List ℚ) (k : ℕ) : Constr :=
  .eq (.num (objAt q.objF v k)) (((lamNu (q.s.nI + q.s.nE)).T.mul (sumAt q.sumF (q.s.nI + q.s.nE) dimF v).lift).at_ 0 k)

/-- equation of entry `k` of `vec(G)` (`extra_methods.py` 233-234); `Z` is variable 1, `cp.vec(Z, order="C")` its rows one after another -/
def fixEqG (q : QData) (dimG : ℕ) (v : List ℚ) (k : ℕ) : Constr :=
  .eq (.add (.num (objAt q.objG v k)) (.var 1 (k / dimG) (k % dimG)))
    (((lamNu (q.s.nI + q.s.nE)).T.mul (sumAt q.sumG (q.s.nI + q.s.nE) (dimG * dimG) v).lift).at_ 0 k)

/-- `solve_fix_discr_sdp` from line 215 on (`extra_methods.py` 215-236), after the arrays of coefficients.  With exactly one multiplier
`squeeze()` also removes the first axis, and the product with `var_lambda_nu.T` raises ValueError.  Simplified: numpy makes `v_value`
before the arrays, so which error comes first may differ; sizes 0 (`dim_F = 0`) are treated like others. -/
def fixedSdpWith (q : QData) (dimG dimF : ℕ) (vals : Dict Name ℚ) : Except Err Sdp := do
  let v ← varsToVector q.tab.names vals
  if q.s.nI + q.s.nE = 1 then .error .value
  else .ok ⟨[(1, dimG)],
    ((List.range q.s.nI).map fun i => .ge (.var 0 i 0) 0) ++ (List.range dimF).map (fixEqF q dimF v) ++
      (List.range (dimG * dimG)).map (fixEqG q dimG v), .num 0⟩

/-- `solve_fix_discr_sdp` with `inputs=None` (`extra_methods.py` 197-236) from the symbolic matrices.  `params` is
`self.discretization_params`, which is sorted; so `sorted(list(params.keys())) == discretization_params` says that the keys are a
permutation of it. -/
def fixedSdp (C : CAS) (sm : SymMats) (dimG dimF : ℕ) (params : List Name) (vals : Dict Name ℚ) : Except Err Sdp := do
  let q ← qData C sm dimG dimF params
  fixedSdpWith q dimG dimF vals

/-- `solve_fix_discr_sdp` on the heap -/
def solveFixedSdp (C : CAS) (r : Regs) (params : List Name) (vals : Dict Name ℚ) : M Sdp := do
  let h ← M.get
  M.assert (decide (vals.keys.Perm params))
  let sm ← problemMatrices C r
  match fixedSdp C sm h.ptCounter h.exCounter params vals with
  | .ok x => pure x
  | .error e => M.throw e

/-! ### Halving search -/

/-- what a call of `solve_fix_discr_sdp` does: raise, or return a problem with a status -/
inductive SolveOutcome where
  | raised
  | status (s : String)
deriving DecidableEq

/-- the loop of `solve_bisection_eta` (`extra_methods.py` 184-194): number of iterations left, `t`, `params`, `eta`.  `solve t params` is the
outcome of the call in iteration `t`; everything it raises is swallowed by `except: pass`.  Simplified: `eta /= 2` is exact. -/
def bisectLoop (solve : ℕ → Dict Name ℚ → SolveOutcome) : ℕ → ℕ → Dict Name ℚ → ℚ → Dict Name ℚ × ℚ
  | 0, _, params, eta => (params, eta)
  | n + 1, t, params, eta =>
    let params := params.set "eta" eta
    match solve t params with
    | .raised => bisectLoop solve n (t + 1) params (eta / 2)
    | .status s => if s = "optimal" then (params, eta) else bisectLoop solve n (t + 1) params (eta / 2)

/-- `solve_bisection_eta` (`extra_methods.py` 170-194) after the matrices were made -/
def bisectEta (solve : ℕ → Dict Name ℚ → SolveOutcome) (maxIters : ℕ) (params : Dict Name ℚ) : Dict Name ℚ × ℚ :=
  bisectLoop solve maxIters 0 params (match params.get? "eta" with
    | some e => e
    | none => 10)

/-- `solve_bisection_eta` on the heap: the matrices are made once and given to all calls of `solve_fix_discr_sdp` (`inputs=inputs`).
`run t sdp` is the outcome of the solver in iteration `t` on the semidefinite program `sdp`; if the program cannot be built, the call
raises. -/
def solveBisection (C : CAS) (r : Regs) (params : List Name) (vals : Dict Name ℚ) (maxIters : ℕ) (run : ℕ → Sdp → SolveOutcome) :
    M (Dict Name ℚ × ℚ) := do
  let h ← M.get
  M.assert (decide (vals.keys.Perm params))
  let sm ← problemMatrices C r
  match spCoeffMatrix C sm.spExp params h.ptCounter h.exCounter with
  | .error e => M.throw e
  | .ok _ => pure (bisectEta (fun t ps => match fixedSdpWithInputs sm h.ptCounter h.exCounter ps with
      | .ok s => run t s
      | .error _ => .raised) maxIters vals)
where
  /-- one call with `inputs`: the arrays are stacked in each call -/
  fixedSdpWithInputs (sm : SymMats) (dimG dimF : ℕ) (ps : Dict Name ℚ) : Except Err Sdp := do
    let q ← qData C sm dimG dimF params
    fixedSdpWith q dimG dimF ps

/-! ### The relaxation -/

/-- size of `x` in the relaxation, `x_size` (`extra_methods.py` 37) -/
def QSizes.rx (s : QSizes) : ℕ := s.v + s.nI + s.nE

/-- `var_x` as column, `W`, `var_X`, `var_Z` (`extra_methods.py` 44-47), variables 0 to 3 -/
def rX (n : ℕ) : Mat CExp := ⟨n, 1, fun i _ => .var 0 i 0⟩
def rW (i j : ℕ) : CExp := .var 1 i j
def rXX (n : ℕ) : Mat CExp := ⟨n, n, fun i j => .var 2 i j⟩
def rZ (i j : ℕ) : CExp := .var 3 i j

/-- first column and row of `X`, the blocks of `W`, and the inequalities implied for semidefinite matrices
(`extra_methods.py` 48-49, 56-70) -/
def relaxStruct (n : ℕ) : List Constr :=
  (List.range n).map (fun i => .eq (.var 2 i 0) (xv i)) ++ (List.range n).map (fun i => .eq (.var 2 0 i) (xv i)) ++
  (loopPairs n).map (fun p => .eq (rW p.1 p.2) (.var 2 p.1 p.2)) ++ (List.range n).map (fun i => .eq (rW n i) (xv i)) ++
  (List.range n).map (fun i => .eq (rW i n) (xv i)) ++ [.eq (rW n n) (.num 1)]

/-- `diag >= 0`, `M >= -(1 diagᵀ + diag 1ᵀ)/2`, `M <= (1 diagᵀ + diag 1ᵀ)/2` for the matrix variable `v` (`extra_methods.py` 61-70) -/
def diagDominates (v n : ℕ) : List Constr :=
  (List.range n).map (fun i => .ge (.var v i i) (.num 0)) ++
  (loopPairs n).map (fun p => .ge (.var v p.1 p.2) (.mul (.num (-1 / 2)) (.add (.var v p.2 p.2) (.var v p.1 p.1)))) ++
  (loopPairs n).map (fun p => .ge (.mul (.num (1 / 2)) (.add (.var v p.2 p.2) (.var v p.1 p.1))) (.var v p.1 p.2))

/-- the array a bound refers to in `cvx_add_bounds` (`utils.py` 21-24): a variable, an entry of `x`, all multipliers for the name `lamb` -/
def cvxLook (tab : VTab) (s : QSizes) (n : Name) : Option (List CExp) :=
  if n = "Z" then some ((loopPairs s.dimG).map fun p => rZ p.1 p.2)
  else if n = "x" then some ((List.range s.rx).map xv)
  else if n = "X" then some ((loopPairs s.rx).map fun p => .var 2 p.1 p.2)
  else match tab.idx.get? (.str n) with
    | some i => some [xv i]
    | none =>
      if n = "lamb" then
        some ((List.range (s.nI + s.nE)).map fun i => (((getVecVarM (α := ℚ) s.rx ⟨s.v, s.v + s.nI + s.nE⟩).lift.mul (rX s.rx)).at_ i 0))
      else none

/-- `cvx_add_bounds` (`utils.py` 18-30): other names are skipped -/
def cvxBounds (tab : VTab) (s : QSizes) (bounds : List Bound) : List Constr :=
  bounds.flatMap fun b => match cvxLook tab s b.name with
    | some xs => boundCons xs b
    | none => []

namespace QData

/-- `bmat([[None, Bᵀ], [B, None]])` with `B = 0.5 * sums` (`extra_methods.py` 103-105, 118-120) -/
def blockQ (q : QData) (m : Mat ℚ) : Mat ℚ :=
  ⟨q.s.rx, q.s.rx, fun i j =>
    if i < q.s.v ∧ q.s.v ≤ j then 1 / 2 * m.at_ (j - q.s.v) i
    else if q.s.v ≤ i ∧ j < q.s.v then 1 / 2 * m.at_ (i - q.s.v) j
    else 0⟩

/-- `cp.sum(q @ var_x)` with `q = obj[k : k+1, :] @ I_v` (`extra_methods.py` 106-107, 121-122) -/
def relaxLin (q : QData) (obj : Mat ℚ) (k : ℕ) : CExp :=
  (((obj.row k).mul (getVecVarM q.s.rx ⟨0, q.s.v⟩)).lift.mul (rX q.s.rx)).at_ 0 0

/-- `cp.trace(Q @ var_X)` -/
def relaxTr (q : QData) (m : Mat ℚ) : CExp := (m.lift.mul (rXX q.s.rx)).trace

/-- F equation (`extra_methods.py` 107) -/
def relaxEqF (q : QData) (k : ℕ) : Constr := .eq (q.relaxLin q.objF k) (q.relaxTr (q.blockQ (q.sumF k)))

/-- G equation (`extra_methods.py` 122) -/
def relaxEqG (q : QData) (k1 k2 : ℕ) : Constr :=
  .eq (.add (q.relaxLin q.objG (k1 * q.s.dimG + k2)) (rZ k1 k2)) (q.relaxTr (q.blockQ (q.sumG (k1 * q.s.dimG + k2))))

/-- product constraint (`extra_methods.py` 126-133) -/
def relaxProd (q : QData) (i iv ip : ℕ) : Constr :=
  .eq (.add (q.relaxTr (symmProdOneHot q.s.rx ip iv)) (((Mat.neg (oneHot q.s.rx i)).T.lift.mul (rX q.s.rx)).at_ 0 0)) (.num 0)

/-- `I_lambs @ var_x >= 0` (`extra_methods.py` 136-137) -/
def relaxLamb (q : QData) : List Constr :=
  (List.range q.s.nI).map fun i => .ge (((getVecVarM (α := ℚ) q.s.rx ⟨q.s.v, q.s.v + q.s.nI⟩).lift.mul (rX q.s.rx)).at_ i 0) (.num 0)

end QData

/-- the constraints on single parameters (`extra_methods.py` 52-54, 72-77): KeyError if a name is missing -/
def relaxScalars (tab : VTab) : Except Err (List Constr) := do
  let eta ← tab.lookup "eta"
  let h ← tab.lookup "h"
  let rho ← tab.lookup "rho"
  let alpha ← tab.lookup "alpha"
  let beta ← tab.lookup "beta"
  .ok [.ge (xv eta) (.num (1 / 100000)), .ge (xv h) (.num (1 / 100000)), .ge (xv rho) (.num 0),
    .ge (xv alpha) (.num (-1)), .ge (.num 1) (xv alpha), .ge (xv beta) (.num (-1)), .ge (.num 1) (xv beta), .eq (xv 0) (.num 1)]

/-- `solve_sdp_relax` (`extra_methods.py` 17-157) from the symbolic matrices.  With `var_bound` given, the entry `"lamb_nu"` of
`bnames2idx` is missing (line 146), so KeyError.  `goal` is `self.obj`.  Simplified: the order of constraints, and which of several errors comes first. -/
def relaxSdp (C : CAS) (sm : SymMats) (dimG dimF : ℕ) (params : List Name) (bounds : List Bound) (varBound : Option Name)
    (goal : Sym) : Except Err Sdp := do
  let q ← qData C sm dimG dimF params
  let sc ← relaxScalars q.tab
  let prods ← productCons q.tab q.relaxProd (q.tab.names.drop 1)
  if varBound = none then
    let o ← q.tab.expr C goal
    .ok ⟨[(1, q.s.rx + 1), (2, q.s.rx), (3, dimG)],
      relaxStruct q.s.rx ++ diagDominates 1 (q.s.rx + 1) ++ diagDominates 2 q.s.rx ++ sc ++ cvxBounds q.tab q.s bounds ++
        (List.range dimF).map q.relaxEqF ++ (loopPairs dimG).map (fun p => q.relaxEqG p.1 p.2) ++ prods ++ q.relaxLamb,
      .mul (.num (-1)) o⟩
  else .error .key

/-- `solve_sdp_relax` on the heap -/
def solveRelaxSdp (C : CAS) (r : Regs) (params : List Name) (bounds : List Bound) (varBound : Option Name) : M Sdp := do
  let h ← M.get
  let sm ← problemMatrices C r
  match relaxSdp C sm h.ptCounter h.exCounter params bounds varBound r.obj with
  | .ok x => pure x
  | .error e => M.throw e

end Verif
