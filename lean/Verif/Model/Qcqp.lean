import Verif.Model.Arrays

/-!
# The two QCQP formulations (`circuit_opt.py` 265-384 and 387-501)

The decision variable is one vector `x = [vec(v), vec(lamb), vec(nu), vec(P)]`, variable number 0.  The initial values
(`init_values`, `x0`) are modelled in `Model/InitVals.lean`.  Not modelled: printing, the call of the solver.
-/

namespace Verif

instance : Zero CExp := ⟨.num 0⟩
instance : One CExp := ⟨.num 1⟩
instance : Add CExp := ⟨.add⟩
instance : Mul CExp := ⟨.mul⟩
instance : Sub CExp := ⟨fun a b => .add a (.mul (.num (-1)) b)⟩

/-- a numpy array of numbers used in a CasADi expression -/
def Mat.lift (m : Mat ℚ) : Mat CExp := m.map CExp.num

/-- `np.concatenate([m, np.zeros((rows, n - m.shape[1]))], axis=1)` (`circuit_opt.py` 316, 325, 431, 439); ValueError if `m` is wider -/
def padTo (m : Coeff) (rows n : ℕ) : Except Err (Mat ℚ) :=
  if m.cols ≤ n then .ok ⟨rows, n, fun i j => if j < m.cols then m.at_ i j else 0⟩ else .error .value

/-- `stack_vectors(vs, n)` (`utils.py` 109-113): `k ↦ stacked_matrix[:, k, :]`.  IndexError for an empty list, ValueError if an element is
wider than `n` -/
def stackVectors (vs : List Coeff) (n : ℕ) : Except Err (ℕ → Mat ℚ) :=
  if vs = [] then .error .index
  else if vs.all fun c => decide (c.cols ≤ n) then
    .ok fun k => ⟨vs.length, n, fun i j => match vs[i]? with
      | some c => if j < c.cols then c.at_ k j else 0
      | none => 0⟩
  else .error .value

/-- sizes of the blocks of `x` (`circuit_opt.py` 284-285, 404-405) -/
structure QSizes where
  v : ℕ
  nI : ℕ
  nE : ℕ
  dimG : ℕ

namespace QSizes
/-- `x_size` (`circuit_opt.py` 285, 405) -/
def x (s : QSizes) : ℕ := s.v + s.nI + s.nE + s.dimG * (s.dimG + 1) / 2
/-- `vec_indices["v"]` (`circuit_opt.py` 298, 417) -/
def vI (s : QSizes) : VecIdx := ⟨0, s.v⟩
/-- `vec_indices["lamb"]` (`circuit_opt.py` 299, 418) -/
def lambI (s : QSizes) : VecIdx := ⟨s.v, s.v + s.nI⟩
/-- `vec_indices["lamb_nu"]` (`circuit_opt.py` 307, 427) -/
def lambNuI (s : QSizes) : VecIdx := ⟨s.v, s.v + s.nI + s.nE⟩
/-- `vec_indices["P"]` (`circuit_opt.py` 301, 420) -/
def pI (s : QSizes) : VecIdx := ⟨s.v + s.nI + s.nE, s.x⟩
end QSizes

/-- entry `i` of the vector variable `x` (number 0) -/
def xv (i : ℕ) : CExp := .var 0 i 0

/-- `var_x` (`circuit_opt.py` 288, 408) -/
def xVec (n : ℕ) : List CExp := (List.range n).map xv

/-- the coefficient arrays used by the QCQP formulations (`circuit_opt.py` 316-317, 325-326) -/
structure QData where
  tab : VTab
  s : QSizes
  objF : Mat ℚ
  sumF : ℕ → Mat ℚ
  objG : Mat ℚ
  sumG : ℕ → Mat ℚ

/-- `name2idx[name]`, KeyError if missing -/
def VTab.lookup (tab : VTab) (n : Name) : Except Err ℕ :=
  match tab.idx.get? (.str n) with
  | some i => .ok i
  | none => .error .key

/-- `var_x[name2idx["_".join(sorted(monomial))]]` (`sympy_to_solvers.py` 116-124): the entry of `x` for a monomial with the given factors; KeyError
if it is not in the table -/
def VTab.monomial (tab : VTab) (parts : List Name) : Except Err CExp :=
  if parts = [] then .ok (.num 1) else do
    let i ← tab.lookup (joinU (sortNames parts))
    .ok (xv i)

/-- the loop `cvx_expr += float(coeffs[i]) * cvx_monomial` (`sympy_to_solvers.py` 136-144) -/
def VTab.terms (tab : VTab) : List PolyTerm → CExp → Except Err CExp
  | [], acc => .ok acc
  | t :: rest, acc => do
    let x ← tab.monomial (monoParts t)
    VTab.terms tab rest (.add acc (.mul (.num t.2) x))

/-- `sympy_expression_to_cvx(e, var_x, name2idx)` (`sympy_to_solvers.py` 127-145), and `sympy_expression_to_casadi(e, ca_vars, opti)` (96-113) with
`ca_vars = {name : var_x[idx] ...}` (`circuit_opt.py` 367, 486).  Simplification: the second makes further decision variables for products of
two or more parameters that are not in the table; here this is KeyError too. -/
def VTab.expr (C : CAS) (tab : VTab) (e : Sym) : Except Err CExp :=
  if isConst C e then .ok (.num (C.simp e).toFloat) else tab.terms (C.poly (C.simp e)) (.num 0)

/-- `name in ca_vars`, `name in name2idx` with `ca_vars = {"x": var_x}` (`circuit_opt.py` 290, 411; `utils.py` 10-11) -/
def qLook (tab : VTab) (xSize : ℕ) (n : Name) : Option (List CExp) :=
  if n = "x" then some (xVec xSize) else (tab.idx.get? (.str n)).map fun i => [xv i]

/-- lines 316-318 and 325-327 (431-441) of `circuit_opt.py`: pad and stack the coefficient matrices; AssertionError if their number is not
the number of multipliers.  The arguments are the coefficient matrices of the constraints and of the metric. -/
def qStack (cons : List Coeff) (obj : Coeff) (rows v n : ℕ) : Except Err (Mat ℚ × (ℕ → Mat ℚ)) := do
  let o ← padTo obj rows v
  let s ← stackVectors cons v
  if cons.length = n then .ok (o, s) else .error .assertion

/-- `sp_v_coeff_matrix` and the arrays made from its result -/
def qData (C : CAS) (sm : SymMats) (dimG dimF : ℕ) (params : List Name) : Except Err QData := do
  let r ← spCoeffMatrix C sm.spExp params dimG dimF
  let _ ← (if sm.spExp.keys.getLast? = some .obj then Except.ok () else Except.error Err.assertion)
  let o ← match r.2.getLast? with
    | some c => Except.ok c
    | none => Except.error Err.index
  let f ← qStack (r.2.dropLast.map Prod.fst) o.1 dimF r.1.names.length (sm.nI + sm.nE)
  let g ← qStack (r.2.dropLast.map Prod.snd) o.2 (dimG * dimG) r.1.names.length (sm.nI + sm.nE)
  .ok ⟨r.1, ⟨r.1.names.length, sm.nI, sm.nE, dimG⟩, f.1, f.2, g.1, g.2⟩

/-- the parts of one name in the loop `for name in v_names[1:]` (`circuit_opt.py` 337-343, 452-458): nothing for a single name, else the
indices of the name, its last factor and its prefix -/
def productIdx (tab : VTab) : VName → Except Err (Option (ℕ × ℕ × ℕ))
  | .one => .error .attribute
  | .str s =>
    if (splitU s).length = 1 then .ok none
    else do
      let i ← tab.lookup s
      let iv ← tab.lookup ((splitU s).getLastD "")
      let ip ← tab.lookup (joinU (splitU s).dropLast)
      .ok (some (i, iv, ip))

/-- the loop over the names; `mk` makes the constraint from the indices -/
def productCons (tab : VTab) (mk : ℕ → ℕ → ℕ → Constr) : List VName → Except Err (List Constr)
  | [] => .ok []
  | n :: rest => do
    let p ← productIdx tab n
    let cs ← productCons tab mk rest
    match p with
    | none => .ok cs
    | some q => .ok (mk q.1 q.2.1 q.2.2 :: cs)

/-- the loop `for v in inv_params` (`circuit_opt.py` 347-352, 462-467); `mk` makes the constraint of the product -/
def invCons (tab : VTab) (mk : ℕ → ℕ → Constr) : List Name → Except Err (List Constr)
  | [] => .ok []
  | n :: rest => do
    let i ← tab.lookup n
    let ii ← tab.lookup ("inv" ++ n)
    let cs ← invCons tab mk rest
    .ok (mk i ii :: .ge (xv i) (.num (1 / 10000000)) :: cs)

/-- the constraints `opti.subject_to(var_x[name2idx[name]] >= 1e-7)` (`circuit_opt.py` 310-313) -/
def lowerCons (tab : VTab) : List Name → Except Err (List Constr)
  | [] => .ok []
  | n :: rest => do
    let i ← tab.lookup n
    let cs ← lowerCons tab rest
    .ok (.ge (xv i) (.num (1 / 10000000)) :: cs)

/-! ### The vector formulation -/

namespace QData

/-- `vec_v` as a column (`circuit_opt.py` 303) -/
def vecV (q : QData) : Mat CExp := Mat.ofList (getVecVar (xVec q.s.x) q.s.vI)
/-- `vec_lambs_nus` as a column (`circuit_opt.py` 308) -/
def vecLN (q : QData) : Mat CExp := Mat.ofList (getVecVar (xVec q.s.x) q.s.lambNuI)
/-- `vec_P` (`circuit_opt.py` 304) -/
def vecP (q : QData) : List CExp := getVecVar (xVec q.s.x) q.s.pI

/-- the equation of entry `k` of F (`circuit_opt.py` 322) -/
def eqF (q : QData) (k : ℕ) : Constr :=
  .eq (((q.objF.row k).lift.mul q.vecV).at_ 0 0 - ((q.vecLN.T.mul (q.sumF k).lift).mul q.vecV).at_ 0 0) 0

/-- the equation of entry `(k1, k2)` of G (`circuit_opt.py` 331-333) -/
def eqG (q : QData) (k1 k2 : ℕ) : Constr :=
  .eq (((q.objG.row (k1 * q.s.dimG + k2)).lift.mul q.vecV).at_ 0 0 + getPPtElement q.vecP k1 k2 -
    ((q.vecLN.T.mul (q.sumG (k1 * q.s.dimG + k2)).lift).mul q.vecV).at_ 0 0) 0

/-- `v^T Qi v` (`circuit_opt.py` 343-344, 350-351) -/
def quad (q : QData) (i j : ℕ) : CExp := ((q.vecV.T.mul (symmProdOneHot q.s.v i j).lift).mul q.vecV).at_ 0 0

/-- the constraint of a product (`circuit_opt.py` 341-344) -/
def productCon (q : QData) (i iv ip : ℕ) : Constr :=
  .eq (q.quad iv ip + ((Mat.neg (oneHot q.s.v i)).T.lift.mul q.vecV).at_ 0 0) 0

/-- the constraint of a reciprocal pair (`circuit_opt.py` 350-351) -/
def invCon (q : QData) (i ii : ℕ) : Constr := .eq (q.quad i ii) 1

/-- `vec_lambs >= 0` (`circuit_opt.py` 355-356) -/
def lambCons (q : QData) : List Constr := (getVecVar (xVec q.s.x) q.s.lambI).map fun x => .ge x 0

/-- `Q @ vec_P >= 0` (`circuit_opt.py` 358-362) -/
def diagCons (q : QData) : List Constr :=
  (List.range q.s.dimG).map fun i => .ge (((diagSel q.s.dimG).mul (Mat.ofList q.vecP)).at_ i 0) 0

end QData

/-- a QCQP: the table of monomials, the sizes of the blocks, the number of decision variables, the constraints, the objective -/
structure Qcqp where
  tab : VTab
  s : QSizes
  nVars : ℕ
  cons : List Constr
  obj : CExp

/-- `solve_ipopt_qcqp` (`circuit_opt.py` 278-368) from the symbolic matrices.  `goal` is `self.obj`. -/
def qcqpNlp (C : CAS) (sm : SymMats) (dimG dimF : ℕ) (params : List Name) (bounds : List Bound) (extra : ℕ) (goal : Sym) : Except Err Qcqp := do
  let q ← qData C sm dimG dimF params
  let bs ← addBounds (qLook q.tab q.s.x) bounds none
  let low ← lowerCons q.tab ["eta", "h", "rho", "gamma"]
  let prods ← productCons q.tab q.productCon (q.tab.names.drop 1)
  let invs ← invCons q.tab q.invCon (invParams params)
  let o ← q.tab.expr C goal
  .ok ⟨q.tab, q.s, q.s.x + extra,
    [.eq (xv 0) (.num 1)] ++ bs ++ low ++ (List.range dimF).map q.eqF ++ (loopPairs dimG).map (fun k => q.eqG k.1 k.2) ++ prods ++ invs ++
      q.lambCons ++ q.diagCons,
    .mul (.num (-1)) o⟩

/-- `solve_ipopt_qcqp` on the heap -/
def solveQcqp (C : CAS) (r : Regs) (params : List Name) (bounds : List Bound) (extra : ℕ) : M Qcqp := do
  let h ← M.get
  let sm ← problemMatrices C r
  match qcqpNlp C sm h.ptCounter h.exCounter params bounds extra r.obj with
  | .ok x => pure x
  | .error e => M.throw e

/-! ### The matrix formulation -/

namespace QData

/-- `var_x` as a column -/
def xCol (q : QData) : Mat CExp := Mat.ofList (xVec q.s.x)
/-- `var_X = var_x @ var_x.T` (`circuit_opt.py` 409) -/
def xX (q : QData) : Mat CExp := q.xCol.mul q.xCol.T
/-- `I_v` (`circuit_opt.py` 425) -/
def Iv (q : QData) : Mat CExp := getVecVarM q.s.x q.s.vI
/-- `I_lambs_nus` (`circuit_opt.py` 428) -/
def ILN (q : QData) : Mat CExp := getVecVarM q.s.x q.s.lambNuI
/-- `I_P` (`circuit_opt.py` 426) -/
def IP (q : QData) : Mat CExp := getVecVarM q.s.x q.s.pI

/-- the equation of entry `k` of F (`circuit_opt.py` 436) -/
def eqFM (q : QData) (k : ℕ) : Constr :=
  .eq ((((q.objF.row k).lift.mul q.Iv).mul q.xCol).at_ 0 0 - (((q.ILN.T.mul (q.sumF k).lift).mul q.Iv).mul q.xX).trace) 0

/-- the equation of entry `(k1, k2)` of G (`circuit_opt.py` 444-448) -/
def eqGM (q : QData) (k1 k2 : ℕ) : Constr :=
  .eq ((((q.objG.row (k1 * q.s.dimG + k2)).lift.mul q.Iv).mul q.xCol).at_ 0 0 +
    (((getPPtMatrix q.s.x q.s.pI.start k1 k2).1.T.mul (getPPtMatrix q.s.x q.s.pI.start k1 k2).2).mul q.xX).trace -
    (((q.ILN.T.mul (q.sumG (k1 * q.s.dimG + k2)).lift).mul q.Iv).mul q.xX).trace) 0

/-- `ca.trace(((I_v.T @ Qi) @ I_v) @ var_X)` (`circuit_opt.py` 459, 466) -/
def quadM (q : QData) (i j : ℕ) : CExp := (((q.Iv.T.mul (symmProdOneHot q.s.v i j).lift).mul q.Iv).mul q.xX).trace

/-- the constraint of a product (`circuit_opt.py` 456-459) -/
def productConM (q : QData) (i iv ip : ℕ) : Constr :=
  .eq (q.quadM iv ip + (((Mat.neg (oneHot q.s.v i)).T.lift.mul q.Iv).mul q.xCol).at_ 0 0) 0

/-- the constraint of a reciprocal pair (`circuit_opt.py` 465-466) -/
def invConM (q : QData) (i ii : ℕ) : Constr := .eq (q.quadM i ii) 1

/-- `I_lambs @ var_x >= 0` (`circuit_opt.py` 473-474) -/
def lambConsM (q : QData) : List Constr :=
  (List.range (getVecVarM (α := CExp) q.s.x q.s.lambI).rows).map fun i => .ge (((getVecVarM q.s.x q.s.lambI).mul q.xCol).at_ i 0) 0

/-- `Q @ I_P @ var_x >= 0` (`circuit_opt.py` 476-481) -/
def diagConsM (q : QData) : List Constr :=
  (List.range q.s.dimG).map fun i => .ge ((((diagSel q.s.dimG).mul q.IP).mul q.xCol).at_ i 0) 0

end QData

/-- `solve_ipopt_qcqp_matrix` (`circuit_opt.py` 398-487) from the symbolic matrices -/
def qcqpMatrixNlp (C : CAS) (sm : SymMats) (dimG dimF : ℕ) (params : List Name) (bounds : List Bound) (goal : Sym) : Except Err Qcqp := do
  let q ← qData C sm dimG dimF params
  let prods ← productCons q.tab q.productConM (q.tab.names.drop 1)
  let invs ← invCons q.tab q.invConM (invParams params)
  let bs ← addBounds (qLook q.tab q.s.x) bounds none
  let o ← q.tab.expr C goal
  .ok ⟨q.tab, q.s, q.s.x + 100,
    [.eq (xv 0) (.num 1)] ++ (List.range dimF).map q.eqFM ++ (loopPairs dimG).map (fun k => q.eqGM k.1 k.2) ++ prods ++ invs ++ bs ++
      q.lambConsM ++ q.diagConsM,
    .mul (.num (-1)) o⟩

/-- `solve_ipopt_qcqp_matrix` on the heap -/
def solveQcqpMatrix (C : CAS) (r : Regs) (params : List Name) (bounds : List Bound) : M Qcqp := do
  let h ← M.get
  let sm ← problemMatrices C r
  match qcqpMatrixNlp C sm h.ptCounter h.exCounter params bounds r.obj with
  | .ok x => pure x
  | .error e => M.throw e

end Verif
