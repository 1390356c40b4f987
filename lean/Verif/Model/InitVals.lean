import Verif.Model.Dispatch

/-!
# Initial values of the nonlinear solvers (`circuit_opt.py` 234-236, 306, 368-369, 422; `sympy_to_solvers.py` 148-155)
-/

namespace Verif

/-- a value passed to `opti.set_initial`: a number, or an array with its shape (a one-dimensional array is a column) -/
inductive InitVal where
  | num (c : ℝ)
  | arr (rows cols : ℕ) (e : ℕ → ℕ → ℝ)

/-- the starting point of the external solver: initial value of entry `(a, b)` of the `v`-th `opti.variable` -/
abbrev Guess := ℕ → ℕ → ℕ → ℝ

/-- CasADi's default starting point -/
def Guess.zero : Guess := fun _ _ _ => 0

/-- `opti.set_initial(x, val)` (external) where `x` are the rows `a, ..., a + rows - 1` of the `v`-th variable, which has `cols` columns: a
number is used for every entry, an array must have the same shape.  Simplification: CasADi also accepts a row for a column; here
this is an error. -/
noncomputable def setInitial (g : Guess) (v a rows cols : ℕ) : InitVal → Except Err Guess
  | .num c => .ok fun v' i j => if v' = v ∧ a ≤ i ∧ i < a + rows ∧ j < cols then c else g v' i j
  | .arr r c e =>
    if r = rows ∧ c = cols then .ok fun v' i j => if v' = v ∧ a ≤ i ∧ i < a + rows ∧ j < cols then e (i - a) j else g v' i j
    else .error .value

/-- `for name, var_value in init_vals.items(): opti.set_initial(ca_vars[name], var_value)` (`circuit_opt.py` 234-236) -/
noncomputable def initDirect (vars : Dict Name CaVar) : Dict Name InitVal → Guess → Except Err Guess
  | [], g => .ok g
  | nv :: rest, g => match vars.get? nv.1 with
    | none => .error .key
    | some v => do
      let g ← setInitial g v.id 0 v.rows v.cols nv.2
      initDirect vars rest g

/-- `vec_indices` when `init_ca_ipopt` is called (`circuit_opt.py` 298-301, 417-420): no entry "lamb_nu" yet -/
def vecIndices (s : QSizes) : Dict Name VecIdx := [("v", s.vI), ("lamb", s.lambI), ("nu", ⟨s.v + s.nI, s.v + s.nI + s.nE⟩), ("P", s.pI)]

/-- `init_ca_ipopt` (`sympy_to_solvers.py` 148-155).  `init_values["x"].size` is AttributeError for a number, and `var_x[:n]` with `n` larger
than the vector is an error. -/
noncomputable def initCa (s : QSizes) : Dict Name InitVal → Guess → Except Err Guess
  | [], g => .ok g
  | nv :: rest, g => match (vecIndices s).get? nv.1 with
    | some vi => do
      let g ← setInitial g 0 vi.start (vi.stop - vi.start) 1 nv.2
      initCa s rest g
    | none =>
      if nv.1 = "x" then match nv.2 with
        | .num _ => .error .attribute
        | .arr r c e => if r * c ≤ s.x then do
            let g ← setInitial g 0 0 (r * c) 1 (.arr r c e)
            initCa s rest g
          else .error .index
      else initCa s rest g

/-- the keyword arguments of `solve` about initial values; each solver reads some of them and drops the others (`**kwargs`) -/
structure StartArgs where
  /-- `init_vals`, read by `solve_ipopt` only -/
  initVals : Option (Dict Name InitVal) := none
  /-- `init_values`, read by `solve_ipopt_qcqp` and `solve_ipopt_qcqp_matrix` -/
  initValues : Option (Dict Name InitVal) := none
  /-- `x0`, read by `solve_ipopt_qcqp` only -/
  x0 : Option InitVal := none

/-- what Ipopt is given: constraints, objective to minimise, starting point -/
structure Given where
  cons : List Constr
  obj : CExp
  start : Guess

/-- `if x0 is not None: opti.set_initial(var_x, x0)` (`circuit_opt.py` 368-369) -/
noncomputable def initX0 (s : QSizes) (x0 : Option InitVal) (g : Guess) : Except Err Guess :=
  match x0 with
  | none => .ok g
  | some v => setInitial g 0 0 s.x 1 v

/-- raise the error of a pure computation -/
def M.ofExcept {α : Type} : Except Err α → M α
  | .ok a => pure a
  | .error e => M.throw e

/-- what `CircuitOpt.solve` (`circuit_opt.py` 509-515) gives to Ipopt; `none` for the other solvers.  `params` are `self.discretization_params`.
Simplification: errors of `set_initial` come after errors of the construction. -/
noncomputable def givenTo (C : CAS) (r : Regs) (params : List Name) (solver : String) (a : SolveArgs) (k : StartArgs) : M (Option Given) :=
  if solver = "ipopt" then do
    let nlp ← solveIpopt C r params a.bounds (Dict.keys (k.initVals.getD []))
    let g ← M.ofExcept (initDirect nlp.state.vars (k.initVals.getD []) Guess.zero)
    pure (some ⟨nlp.state.cons, nlp.obj, g⟩)
  else if solver = "ipopt_qcqp" then do
    let q ← solveQcqp C r params a.bounds a.extra
    let g ← M.ofExcept (initCa q.s (k.initValues.getD []) Guess.zero)
    let g ← M.ofExcept (initX0 q.s k.x0 g)
    pure (some ⟨q.cons, q.obj, g⟩)
  else if solver = "ipopt_qcqp_matrix" then do
    let q ← solveQcqpMatrix C r params a.bounds
    let g ← M.ofExcept (initCa q.s (k.initValues.getD []) Guess.zero)
    pure (some ⟨q.cons, q.obj, g⟩)
  else pure none

end Verif
