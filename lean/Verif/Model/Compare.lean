import Verif.Model.Parsing

/-!
# Degree checks and numeric comparison of expressions (`sympy_parsing.py`)
-/

namespace Verif

/-- `np.allclose(a, b)` on two floats: `|a - b| <= 1e-8 + 1e-5 |b|` -/
def closeNum (a b : ℚ) : Bool := decide (|a - b| ≤ 1 / 10 ^ 8 + 1 / 10 ^ 5 * |b|)

variable (C : CAS)

/-- `is_zero_expr` (`sympy_parsing.py` 222-232) -/
def isZeroExpr (e : Sym) : Bool :=
  if isConst C e then closeNum (C.simp e).toFloat 0 else (C.poly (C.simp e)).all fun t => closeNum t.2 0

/-- `equal_expression` (`sympy_parsing.py` 234-249).  The collapsed form of an expression without symbols is a python float, that of any other
expression is a SymPy object (`sympy_parsing.py` 201-219), so `isinstance(ex1, sp.Basic)` is `not isConst C e1`. -/
def equalExpression (e1 e2 : Sym) : Bool :=
  let x1 := collapse C e1
  let x2 := collapse C e2
  if isZeroExpr C (x1 - x2) then true
  else if !isConst C e1 && isConst C e2 then
    if !isConst C x1 then false else closeNum (C.simp x1).toFloat (C.simp x2).toFloat
  else if !isConst C e2 && isConst C e1 then
    if !isConst C x2 then false else closeNum (C.simp x1).toFloat (C.simp x2).toFloat
  else
    let r := C.simp (x1 - x2)
    C.eqB r (Sym.num 0) || (r.isNumber && closeNum r.toFloat 0)

/-- a SymPy array with 0, 1 or 2 dimensions -/
inductive SpArray where
  | scalar (e : Sym)
  | vec (n : ℕ) (f : ℕ → Sym)
  | mat (m n : ℕ) (f : ℕ → ℕ → Sym)

/-- `a.shape` -/
def SpArray.shape : SpArray → List ℕ
  | .scalar _ => []
  | .vec n _ => [n]
  | .mat m n _ => [m, n]

/-- `a.squeeze()` -/
def SpArray.squeeze : SpArray → SpArray
  | .scalar e => .scalar e
  | .vec n f => if n = 1 then .scalar (f 0) else .vec n f
  | .mat m n f => if m = 1 then (if n = 1 then .scalar (f 0 0) else .vec n (f 0)) else if n = 1 then .vec m (fun i => f i 0) else .mat m n f

/-- the loops of `equal_sp_arrays` (`sympy_parsing.py` 278-286), for arrays of the same shape; `a.shape[0]` of an array without dimensions
raises `IndexError` -/
def sameShapeEqual : SpArray → SpArray → Except Err Bool
  | .vec n f, .vec _ g => .ok ((List.range n).all fun i => equalExpression C (f i) (g i))
  | .mat m n f, .mat _ _ g => .ok ((List.range m).all fun i => (List.range n).all fun j => equalExpression C (f i j) (g i j))
  | _, _ => .error .index

/-- `equal_sp_arrays` (`sympy_parsing.py` 271-286) -/
def equalSpArrays (a b : SpArray) : Except Err Bool :=
  if a.shape ≠ b.shape then
    if a.squeeze.shape = b.squeeze.shape then sameShapeEqual C a.squeeze b.squeeze else .ok false
  else sameShapeEqual C a b

/-- an argument of `check_degree_expression`: a python number, a SymPy expression, or any other object such as an `Expression` -/
inductive DegArg where
  | num (c : ℚ)
  | sym (e : Sym)
  | obj (id : ℕ)

/-- a result of `check_degree_expression`: a truth value, or the argument itself -/
inductive DegRes where
  | bool (b : Bool)
  | same (a : DegArg)

/-- truth value of a result: numbers are true unless zero, objects without `__bool__` and `__len__` are true (`expression.py` defines neither) -/
def DegRes.truthy : DegRes → Bool
  | .bool b => b
  | .same (.num c) => decide (c ≠ 0)
  | .same _ => true

/-- `check_degree_expression` (`sympy_parsing.py` 171-178); `sp.Poly` of an expression without symbols raises `GeneratorsNeeded`, here `value` -/
def checkDegreeExpression (a : DegArg) (d : ℕ) : Except Err DegRes :=
  match a with
  | .sym e => if isConst C e then .error .value else .ok (.bool (checkDegree C e d))
  | a => .ok (.same a)

/-- `assert check_degree_expression(self.perf_metric, 2)` (`circuit_opt.py` 51, 54): the assertions of `set_performance_metric` -/
def metricAsserts (a : DegArg) (isExpression : Bool) : Except Err Unit := do
  if !isExpression then .error .assertion
  else if (← checkDegreeExpression C a 2).truthy then .ok () else .error .assertion

end Verif
