import Verif.Model.Casadi

/-!
# The Gurobi formulation (`extra_methods.py` 253-352, `sympy_to_solvers.py` 176-240)

External: `gurobipy`, assumed to be installed.  The dictionary `gp_vars` and the constraints of `model` are a `CaState`; bounds of a
variable are constraints.
-/

namespace Verif

/-- the loop of `gp_linearize_monomial` (`sympy_to_solvers.py` 231-239).  A name that is not yet in `gp_vars` needs `gp.GRB.INFINITY`, and
`gp` is not defined in the module: NameError (`unbound`). -/
def gpLoop : List Name → List Name → CaState → Except Err Unit
  | _, [], _ => .ok ()
  | pre, el :: rest, st => if st.vars.has (joinU (pre ++ [el])) then gpLoop (pre ++ [el]) rest st else .error .unbound

/-- `gp_linearize_monomial` (`sympy_to_solvers.py` 224-240) -/
def gpLinMonomial (l : List Name) (st : CaState) : Except Err CExp :=
  match sortNames l with
  | [] => .ok (.num 1)
  | a :: rest => do
    gpLoop [a] rest st
    st.scalar (joinU (a :: rest))

/-- `lamb_ab * gp_linearize_monomial(...)` (`sympy_to_solvers.py` 192-197, 199-204); the multiplier is looked up first -/
def gpDualMonomial (parts : List Name) (idx : ℕ) (st : CaState) : Except Err CExp :=
  match parts[idx]? with
  | none => .error .index
  | some name => do
    let d ← decodeDual name
    let x ← st.entry d.1 d.2.1 d.2.2
    let r ← gpLinMonomial (parts.eraseIdx idx) st
    .ok (.mul x r)

/-- one monomial of `sympy_expression_to_gurobi` (`sympy_to_solvers.py` 185-208) -/
def gpMonomial (parts : List Name) (st : CaState) : Except Err CExp :=
  if parts ≠ [] then
    if (findDual parts).countNu + (findDual parts).countLamb ≤ 1 then
      if (findDual parts).countLamb > 0 then gpDualMonomial parts (findDual parts).idxLamb st
      else if (findDual parts).countNu > 0 then gpDualMonomial parts (findDual parts).idxNu st
      else gpLinMonomial parts st
    else .error .assertion
  else .ok (.num 1)

/-- the loop of `sympy_expression_to_gurobi` (`sympy_to_solvers.py` 184-209) -/
def gpTerms : List PolyTerm → CExp → CaState → Except Err CExp
  | [], acc, _ => .ok acc
  | t :: rest, acc, st => do
    let r ← gpMonomial (monoParts t) st
    gpTerms rest (.add acc (.mul (.num t.2) r)) st

variable (C : CAS)

/-- `sympy_expression_to_gurobi` (`sympy_to_solvers.py` 176-210) -/
def exprToGurobi (e : Sym) (st : CaState) : Except Err CExp :=
  if isConst C e then .ok (.num (C.simp e).toFloat)
  else gpTerms (C.poly (C.simp e)) (.num 0) st

/-- `sympy_matrix_to_gurobi` (`sympy_to_solvers.py` 213-221), entries row by row -/
def exprsToGurobi : List Sym → CaState → Except Err (List CExp)
  | [], _ => .ok []
  | e :: rest, st => do
    let r ← exprToGurobi C e st
    let rs ← exprsToGurobi rest st
    .ok (r :: rs)

/-- `gp_vars[name] = model.addVar(...)` or `model.addMVar((rows, cols), ...)` with bounds `lb`, `ub` (`extra_methods.py` 267-273) -/
def CaState.gpVar (st : CaState) (name : Name) (rows cols : ℕ) (lb ub : ℚ) : CaState :=
  (st.newVar name rows cols).subjectAll (boundCons (CaVar.entries ⟨st.sizes.length, rows, cols⟩) ⟨name, some ub, some lb⟩)

/-- the first variables (`extra_methods.py` 267-273) -/
def gpInit (dimG : ℕ) : CaState :=
  ((((((CaState.mk [] [] []).gpVar "eta" 1 1 0 1000).gpVar "rho" 1 1 0 1000).gpVar "h" 1 1 0 1000).gpVar "gamma" 1 1 0 1000).gpVar "alpha" 1 1 (-1) 1).gpVar
    "beta" 1 1 (-1) 1 |>.gpVar "P" dimG dimG (-1000) 1000

/-- `for name in bounds.keys(): if not name in gp_vars: continue; ...` (`extra_methods.py` 275-281) -/
def gpBounds (bounds : List Bound) (st : CaState) : CaState :=
  st.subjectAll (bounds.flatMap fun b => match st.vars.get? b.name with
    | some v => boundCons v.entries b
    | none => [])

/-- P is lower triangular with non-negative diagonal (`extra_methods.py` 283-286); `pid` is the number of the variable `P` -/
def gpTriangular (pid dimG : ℕ) (st : CaState) : CaState :=
  (st.subjectAll ((List.range dimG).map fun i => .ge (.var pid i i) (.num 0))).subjectAll
    ((List.range dimG).flatMap fun i => ((List.range dimG).filter fun j => i < j).map fun j => .eq (.var pid i j) (.num 0))

/-- multipliers of the extra constraints (`extra_methods.py` 291-303) -/
def gpExtraDuals (nIneq nEq : ℕ) (st : CaState) : CaState :=
  let st := if nIneq ≥ 1 then st.gpVar "lamb0" nIneq 1 0 1000 else st
  if nEq ≥ 1 then st.gpVar "nu0" nEq 1 (-1000) 1000 else st

/-- `"lamb%rho"%k` (`extra_methods.py` 306): the conversion `%r`, then the letters `ho` -/
def gpLambVar (k : ℕ) : Name := "lamb" ++ toString k ++ "ho"

/-- multipliers of the functions, with their bounds (`extra_methods.py` 305-314); `ns` are the numbers of samples -/
def gpFnDuals (bounds : List Bound) : List ℕ → ℕ → CaState → CaState
  | [], _, st => st
  | n :: ns, k, st =>
    gpFnDuals bounds ns (k + 1) ((st.gpVar (gpLambVar k) n n 0 1000).subjectAll
      ((bounds.filter fun b => b.name = gpLambVar k).flatMap (boundCons (CaVar.entries ⟨st.sizes.length, n, n⟩))))

/-- the variables and constraints made before the symbolic matrices are converted (`extra_methods.py` 267-314) -/
def gpPrepare (ns : List ℕ) (nCons nE dimG : ℕ) (bounds : List Bound) : CaState :=
  gpFnDuals bounds ns (if nCons - nE ≥ 1 then 1 else 0) (gpExtraDuals (nCons - nE) nE (gpTriangular 6 dimG (gpBounds bounds (gpInit dimG))))

/-- the matrix `P @ P.T`, entry `(i, j)` (`extra_methods.py` 321) -/
def gpPpt (pid dimG i j : ℕ) : CExp := (List.range dimG).foldl (fun acc k => .add acc (.mul (.var pid i k) (.var pid j k))) (.num 0)

/-- `solve_gp` (`extra_methods.py` 253-329) up to the call of the solver.  Simplification: a constraint without decision variables is
kept.  `goal` is `self.obj`. -/
def gpNlp (sm : SymMats) (ns : List ℕ) (nCons dimG dimF : ℕ) (bounds : List Bound) (goal : Sym) : Except Err Nlp := do
  let st := gpPrepare ns nCons sm.nE dimG bounds
  let obj ← match sm.spExp.get? .obj with
    | some m => Except.ok m
    | none => Except.error Err.key
  let z := simplifyMatrix C (sm.sum.sub obj)
  let z1 ← exprsToGurobi C (z.flatF dimF) st
  let z2 ← exprsToGurobi C (z.flatG dimG) st
  let st := st.subjectAll (z1.map fun x => .eq x (.num 0))
  let st := st.subjectAll (z2.zipIdx.map fun xi =>
    .eq (.add xi.1 (.mul (.num (-1)) (gpPpt 6 dimG (xi.2 / dimG) (xi.2 % dimG)))) (.num 0))
  let o ← exprToGurobi C goal st
  .ok ⟨st, sm, .mul (.num (-1)) o, z1, z2⟩

/-- `solve_gp` (`extra_methods.py` 253-328) up to the call of the solver, on the heap -/
def solveGp (r : Regs) (bounds : List Bound) : M Nlp := do
  let h ← M.get
  let sm ← problemMatrices C r
  let h' ← M.get
  let ns := (leafFnIds h).map fun f => match h'.fns[f]? with
    | some o => o.points.length
    | none => 0
  match gpNlp C sm ns r.cons.length h.ptCounter h.exCounter bounds r.obj with
  | .ok x => pure x
  | .error e => M.throw e

end Verif
