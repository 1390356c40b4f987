import Verif.Model.Parsing

/-!
# Conversion to CasADi and the direct nonlinear program (`sympy_to_solvers.py` 13-113, `circuit_opt.py` 163-262)
-/

namespace Verif

/-- a CasADi scalar expression in entries of decision variables (`casadi.MX`; external).  `var v a b` is entry `(a, b)` of the matrix
returned by the `v`-th call of `opti.variable`.  Simplification: only the operations the package uses on scalars. -/
inductive CExp where
  | num (c : ℚ)
  | var (v a b : ℕ)
  | add (a b : CExp)
  | mul (a b : CExp)
deriving DecidableEq

/-- value of a CasADi expression for given values of the decision variables -/
noncomputable def CExp.eval (σ : ℕ → ℕ → ℕ → ℝ) : CExp → ℝ
  | .num c => (c : ℝ)
  | .var v a b => σ v a b
  | .add a b => a.eval σ + b.eval σ
  | .mul a b => a.eval σ * b.eval σ

/-- a constraint `lhs == rhs` or `lhs >= rhs` given to `opti.subject_to` -/
inductive Constr where
  | eq (a b : CExp)
  | ge (a b : CExp)
deriving DecidableEq

/-- the constraint holds exactly -/
def Constr.Holds (σ : ℕ → ℕ → ℕ → ℝ) : Constr → Prop
  | .eq a b => a.eval σ = b.eval σ
  | .ge a b => b.eval σ ≤ a.eval σ

/-- a CasADi matrix variable: its number and shape -/
structure CaVar where
  id : ℕ
  rows : ℕ
  cols : ℕ
deriving DecidableEq

/-- `ca_vars` and `opti` (`circuit_opt.py` 173-181): the named variables, the shapes of all variables made so far, the constraints -/
structure CaState where
  vars : Dict Name CaVar
  sizes : List (ℕ × ℕ)
  cons : List Constr
deriving DecidableEq

namespace CaState

/-- `ca_vars[name] = opti.variable(rows, cols)` (`circuit_opt.py` 174-181, `sympy_to_solvers.py` 89) -/
def newVar (st : CaState) (name : Name) (rows cols : ℕ) : CaState :=
  { st with vars := st.vars.set name ⟨st.sizes.length, rows, cols⟩, sizes := st.sizes ++ [(rows, cols)] }

/-- `opti.subject_to(c)` -/
def subjectTo (st : CaState) (c : Constr) : CaState := { st with cons := st.cons ++ [c] }

/-- several `opti.subject_to` -/
def subjectAll (st : CaState) (cs : List Constr) : CaState := { st with cons := st.cons ++ cs }

/-- `ca_vars[name]` used as a scalar.  Simplification: a matrix used as a scalar is an error (CasADi would broadcast). -/
def scalar (st : CaState) (name : Name) : Except Err CExp :=
  match st.vars.get? name with
  | none => .error .key
  | some v => if v.rows = 1 ∧ v.cols = 1 then .ok (.var v.id 0 0) else .error .type

/-- `ca_vars[prefix][a, b]` (`sympy_to_solvers.py` 49, 60) -/
def entry (st : CaState) (pre : Name) (a b : ℕ) : Except Err CExp :=
  match st.vars.get? pre with
  | none => .error .key
  | some v => if a < v.rows ∧ b < v.cols then .ok (.var v.id a b) else .error .index

end CaState

/-- `var[:4] == "lamb"` (`sympy_to_solvers.py` 17) -/
def isLamb (n : Name) : Bool := decide (n.toList.take 4 = ['l', 'a', 'm', 'b'])
/-- `var[:2] == "nu"` (`sympy_to_solvers.py` 20) -/
def isNu (n : Name) : Bool := decide (n.toList.take 2 = ['n', 'u'])

/-- result of `find_lambda_nu` (`sympy_to_solvers.py` 13-23); the indices are only used when the count is positive -/
structure DualPos where
  countLamb : ℕ
  countNu : ℕ
  idxLamb : ℕ
  idxNu : ℕ
deriving DecidableEq

/-- body of the loop of `find_lambda_nu` (`sympy_to_solvers.py` 17-22) -/
def dualStep (acc : DualPos) (vi : Name × ℕ) : DualPos :=
  if isLamb vi.1 then { acc with countLamb := acc.countLamb + 1, idxLamb := vi.2 }
  else if isNu vi.1 then { acc with countNu := acc.countNu + 1, idxNu := vi.2 }
  else acc

/-- `find_lambda_nu` (`sympy_to_solvers.py` 13-23) -/
def findDual (l : List Name) : DualPos := l.zipIdx.foldl dualStep ⟨0, 0, 0, 0⟩

/-- `int(s)` (`sympy_to_solvers.py` 46).  Simplification: only strings of decimal digits are accepted. -/
def parseNat (s : List Char) : Except Err ℕ :=
  if s ≠ [] ∧ s.all Char.isDigit then .ok (Nat.ofDigitChars 10 s 0) else .error .value

/-- `prefix, ab, _ = name.split("|"); a, b = map(int, ab.split("."))` (`sympy_to_solvers.py` 45-46) -/
def decodeDual (n : Name) : Except Err (Name × ℕ × ℕ) :=
  match n.toList.splitOn '|' with
  | [pre, ab, _] =>
    match ab.splitOn '.' with
    | [a, b] => do
      let a ← parseNat a
      let b ← parseNat b
      .ok (String.ofList pre, a, b)
    | _ => .error .value
  | _ => .error .value

/-- the loop of `ca_linearize_monomial` (`sympy_to_solvers.py` 85-92): `pre` is `monomial[:i+1]` -/
def linLoop : List Name → List Name → CaState → Except Err CaState
  | _, [], st => .ok st
  | pre, el :: rest, st =>
    if st.vars.has (joinU (pre ++ [el])) then linLoop (pre ++ [el]) rest st
    else do
      let st1 := st.newVar (joinU (pre ++ [el])) 1 1
      let x ← st1.scalar (joinU (pre ++ [el]))
      let a ← st1.scalar (joinU pre)
      let b ← st1.scalar el
      linLoop (pre ++ [el]) rest (st1.subjectTo (.eq x (.mul a b)))

/-- `ca_linearize_monomial` (`sympy_to_solvers.py` 81-93) -/
def linMonomial (l : List Name) (st : CaState) : Except Err (CExp × CaState) :=
  match sortNames l with
  | [] => .ok (.num 1, st)
  | a :: rest => do
    let st' ← linLoop [a] rest st
    let x ← st'.scalar (joinU (a :: rest))
    .ok (x, st')

/-- lines 45-49 and 55-60 of `sympy_expression_to_casadi_lamb`: the multiplier entry times the rest of the monomial -/
def dualMonomial (parts : List Name) (idx : ℕ) (st : CaState) : Except Err (CExp × CaState) :=
  match parts[idx]? with
  | none => .error .index
  | some name => do
    let d ← decodeDual name
    let x ← st.entry d.1 d.2.1 d.2.2
    let r ← linMonomial (parts.eraseIdx idx) st
    .ok (.mul x r.1, r.2)

/-- lines 41-65 of `sympy_expression_to_casadi_lamb`: the CasADi monomial -/
def lambMonomial (parts : List Name) (st : CaState) : Except Err (CExp × CaState) :=
  if parts ≠ [] then
    if (findDual parts).countNu + (findDual parts).countLamb ≤ 1 then
      if (findDual parts).countLamb > 0 then dualMonomial parts (findDual parts).idxLamb st
      else if (findDual parts).countNu > 0 then dualMonomial parts (findDual parts).idxNu st
      else linMonomial parts st
    else .error .assertion
  else .ok (.num 1, st)

/-- the loop `gp_expr += float(coeffs[i]) * gp_monomial` (`sympy_to_solvers.py` 36-66) -/
def lambTerms : List PolyTerm → CExp → CaState → Except Err (CExp × CaState)
  | [], acc, st => .ok (acc, st)
  | t :: rest, acc, st => do
    let r ← lambMonomial (monoParts t) st
    lambTerms rest (.add acc (.mul (.num t.2) r.1)) r.2

variable (C : CAS)

/-- `sympy_expression_to_casadi_lamb` (`sympy_to_solvers.py` 26-67) -/
def exprToCasadiLamb (e : Sym) (st : CaState) : Except Err (CExp × CaState) :=
  if isConst C e then .ok (.num (C.simp e).toFloat, st)
  else lambTerms (C.poly (C.simp e)) (.num 0) st

/-- `sympy_matrix_to_casadi` (`sympy_to_solvers.py` 70-78), entries row by row.  Simplification: the matrix is the list of its entries
(the code adds `val * prod_one_hot` to a zero matrix). -/
def exprsToCasadi : List Sym → CaState → Except Err (List CExp × CaState)
  | [], st => .ok ([], st)
  | e :: rest, st => do
    let r ← exprToCasadiLamb C e st
    let rs ← exprsToCasadi rest r.2
    .ok (r.1 :: rs.1, rs.2)

/-- the loop of `sympy_expression_to_casadi` (`sympy_to_solvers.py` 104-112) -/
def plainTerms : List PolyTerm → CExp → CaState → Except Err (CExp × CaState)
  | [], acc, st => .ok (acc, st)
  | t :: rest, acc, st => do
    let r ← linMonomial (monoParts t) st
    plainTerms rest (.add acc (.mul (.num t.2) r.1)) r.2

/-- `sympy_expression_to_casadi` (`sympy_to_solvers.py` 96-113); for an empty monomial both branches give 1 -/
def exprToCasadi (e : Sym) (st : CaState) : Except Err (CExp × CaState) :=
  if isConst C e then .ok (.num (C.simp e).toFloat, st)
  else plainTerms (C.poly (C.simp e)) (.num 0) st

/-- an entry of the argument `bounds`: the name with its "ub" and "lb".  Simplification: bounds are numbers. -/
structure Bound where
  name : Name
  ub : Option ℚ
  lb : Option ℚ
deriving DecidableEq

/-- all entries of a matrix variable -/
def CaVar.entries (v : CaVar) : List CExp :=
  (List.range v.rows).flatMap fun i => (List.range v.cols).map fun j => CExp.var v.id i j

/-- the constraints `this_var <= ub`, `this_var >= lb` (`utils.py` 12-15), elementwise -/
def boundCons (xs : List CExp) (b : Bound) : List Constr :=
  (match b.ub with
    | some u => xs.map fun x => Constr.ge (.num u) x
    | none => []) ++
  (match b.lb with
    | some l => xs.map fun x => Constr.ge x (.num l)
    | none => [])

/-- `ca_add_bounds` (`utils.py` 7-15).  `look name` is `ca_vars[name]`, else `ca_vars["x"][name2idx[name]]`, as a list of entries; the
third argument is the local `this_var` left over from the previous iteration (`none`: not yet assigned). -/
def addBounds (look : Name → Option (List CExp)) : List Bound → Option (List CExp) → Except Err (List Constr)
  | [], _ => .ok []
  | b :: rest, this =>
    let this' := match look b.name with
      | some x => some x
      | none => this
    if b.ub = none ∧ b.lb = none then addBounds look rest this'
    else match this' with
      | none => .error .unbound
      | some xs => do
        let cs ← addBounds look rest this'
        .ok (boundCons xs b ++ cs)

/-- `inv_discr_params` (`utils.py` 136-141): `if "inv" in name: res += [name[3:]]` -/
def invParams (params : List Name) : List Name :=
  (params.filter fun n => decide (['i', 'n', 'v'] <:+: n.toList)).map fun n => String.ofList (n.toList.drop 3)

/-- variables and constraints for one reciprocal pair (`circuit_opt.py` 185-189) -/
def invStep (st : CaState) (name : Name) : Except Err CaState := do
  let st := (st.newVar name 1 1).newVar ("inv" ++ name) 1 1
  let v ← st.scalar name
  let iv ← st.scalar ("inv" ++ name)
  .ok ((st.subjectTo (.eq (.mul v iv) (.num 1))).subjectTo (.ge v (.num (1 / 10000000))))

/-- `for name in inv_params` (`circuit_opt.py` 185-189) -/
def invLoop : List Name → CaState → Except Err CaState
  | [], st => .ok st
  | n :: rest, st => do
    let st ← invStep st n
    invLoop rest st

/-- `if name not in ca_vars: ca_vars[name] = opti.variable()` (`circuit_opt.py` 191-193) -/
def addParams (params : List Name) (st : CaState) : CaState :=
  params.foldl (fun st n => if st.vars.has n then st else st.newVar n 1 1) st

/-- the first variables of `solve_ipopt` (`circuit_opt.py` 173-181) -/
def ipoptInit (dimG : ℕ) : CaState :=
  (["eta", "rho", "h", "gamma", "delta", "alpha", "beta"].foldl (fun (st : CaState) n => st.newVar n 1 1) ⟨[], [], []⟩).newVar "P" dimG dimG

/-- entry `(i, k)` of `P = ca.tril(ca_vars["P"])` (`circuit_opt.py` 195) -/
def trilEntry (pid i k : ℕ) : CExp := if k ≤ i then .var pid i k else .num 0

/-- entry `(i, j)` of `P @ P.T` (`circuit_opt.py` 229) -/
def pptEntry (pid dimG i j : ℕ) : CExp :=
  (List.range dimG).foldl (fun acc k => .add acc (.mul (trilEntry pid i k) (trilEntry pid j k))) (.num 0)

/-- `"lamb%d"%k` (`circuit_opt.py` 219) -/
def lambVar (k : ℕ) : Name := "lamb" ++ toString k

/-- `opti.subject_to( lamb >= 0 )`, all entries (`circuit_opt.py` 211, 220) -/
def nonneg (v : CaVar) : List Constr := v.entries.map fun x => .ge x (.num 0)

/-- make the multipliers of the extra constraints (`circuit_opt.py` 205-215) -/
def extraDuals (nIneq nEq : ℕ) (st : CaState) : CaState :=
  let st := if nIneq ≥ 1 then (st.newVar "lamb0" nIneq 1).subjectAll (nonneg ⟨st.sizes.length, nIneq, 1⟩) else st
  if nEq ≥ 1 then st.newVar "nu0" nEq 1 else st

/-- make the multipliers of the functions (`circuit_opt.py` 216-220); `ns` are the numbers of samples -/
def fnDuals : List ℕ → ℕ → CaState → CaState
  | [], _, st => st
  | n :: ns, k, st => fnDuals ns (k + 1) ((st.newVar (lambVar k) n n).subjectAll (nonneg ⟨st.sizes.length, n, n⟩))

/-- the nonlinear program built by `solve_ipopt` -/
structure Nlp where
  state : CaState
  mats : SymMats
  /-- `opti.minimize(obj)` -/
  obj : CExp
  z1 : List CExp
  z2 : List CExp

/-- lines 222-238 of `solve_ipopt` (`circuit_opt.py`): convert the matrices and add the dual equations.  `goal` is `self.obj`.  `init` are the names in
`init_vals` (KeyError if unknown).  Simplification: a constraint without decision variables, which CasADi rejects, is kept. -/
def ipoptFinish (sm : SymMats) (dimG dimF : ℕ) (pid : ℕ) (init : List Name) (goal : Sym) (st : CaState) : Except Err Nlp := do
  let obj ← match sm.spExp.get? .obj with
    | some m => Except.ok m
    | none => Except.error Err.key
  let z := simplifyMatrix C (sm.sum.sub obj)
  let z1 ← exprsToCasadi C (z.flatF dimF) st
  let z2 ← exprsToCasadi C (z.flatG dimG) z1.2
  let st := z2.2.subjectAll (z1.1.map fun x => .eq x (.num 0))
  let st := st.subjectAll (z2.1.zipIdx.map fun xi =>
    .eq (.add xi.1 (.mul (.num (-1)) (pptEntry pid dimG (xi.2 / dimG) (xi.2 % dimG)))) (.num 0))
  if init.all fun n => st.vars.has n then do
    let o ← exprToCasadi C goal st
    .ok ⟨o.2, sm, .mul (.num (-1)) o.1, z1.1, z2.1⟩
  else .error .key

/-- `solve_ipopt` (`circuit_opt.py` 163-237) up to the call of the solver: the nonlinear program.  `nCons` is
`len(self.list_of_constraints)`; `ns` are the numbers of samples of the leaf functions.  Simplification: if a parameter `invP` makes
`ca_vars["P"]` a scalar, this is an error (CasADi would broadcast). -/
def ipoptNlp (sm : SymMats) (ns : List ℕ) (nCons dimG dimF : ℕ) (params : List Name) (bounds : List Bound) (init : List Name)
    (goal : Sym) : Except Err Nlp := do
  let st ← invLoop (invParams params) (ipoptInit dimG)
  let st := addParams params st
  let p ← match st.vars.get? "P" with
    | some v => Except.ok v
    | none => Except.error Err.key
  let _ ← (if p.rows = dimG ∧ p.cols = dimG then Except.ok () else Except.error Err.type)
  let st := st.subjectAll ((List.range dimG).map fun i => .ge (.var p.id i i) (.num 0))
  let bs ← addBounds (fun n => (st.vars.get? n).map CaVar.entries) bounds none
  let st := st.subjectAll bs
  let eta ← st.scalar "eta"
  let rho ← st.scalar "rho"
  let h ← st.scalar "h"
  let st := st.subjectAll [.ge eta (.num 0), .ge rho (.num 0), .ge h (.num 0)]
  let st := extraDuals (nCons - sm.nE) sm.nE st
  let st := fnDuals ns (if nCons - sm.nE ≥ 1 then 1 else 0) st
  ipoptFinish C sm dimG dimF p.id init goal st

/-- `solve_ipopt` (`circuit_opt.py` 163-237) up to the call of the solver, on the heap -/
def solveIpopt (r : Regs) (params : List Name) (bounds : List Bound) (init : List Name) : M Nlp := do
  let h ← M.get
  let sm ← problemMatrices C r
  let h' ← M.get
  let ns := (leafFnIds h).map fun f => match h'.fns[f]? with
    | some o => o.points.length
    | none => 0
  match ipoptNlp C sm ns r.cons.length h.ptCounter h.exCounter params bounds init r.obj with
  | .ok x => pure x
  | .error e => M.throw e

end Verif
