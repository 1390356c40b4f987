import Verif.Model.Function

/-!
# API programs

A user script (and every circuit builder, `classical_central_vi.py` etc.) is a sequence of calls of the API on one problem.
The objects the script holds (its python variables) are kept in registers; expressions over them are trees, evaluated in the
order python evaluates them, creating the same intermediate objects.  A reference to a register that does not exist
(an undefined variable) is the error `dangling`.
-/

namespace Verif

/-- arithmetic on Points (`point.py` 39-69), over the points the script holds -/
inductive PE where
  | reg (i : ℕ)
  | add (a b : PE)
  | sub (a b : PE)
  | neg (a : PE)
  | scale (s : Sym) (a : PE)
  | div (a : PE) (c : ℚ)
deriving DecidableEq

/-- arithmetic on Expressions (`expression.py` 38-72) and products of Points (`point.py` 58-73) -/
inductive EE where
  | reg (i : ℕ)
  | inner (a b : PE)
  | pow (a : PE) (n : ℚ)
  | add (a b : EE)
  | sub (a b : EE)
  | neg (a : EE)
  | scale (s : Sym) (a : EE)
  | div (a : EE) (c : ℚ)
  | addNum (a : EE) (c : ℚ)
  | subNum (a : EE) (c : ℚ)
  | rsubNum (c : ℚ) (a : EE)
deriving DecidableEq

/-- arithmetic on Functions (`function.py` 45-72) -/
inductive FE where
  | reg (i : ℕ)
  | add (a b : FE)
  | sub (a b : FE)
  | neg (a : FE)
  | scale (c : ℚ) (a : FE)
  | div (a : FE) (c : ℚ)
deriving DecidableEq

/-- kinds of constraints (`constraint.py` 24) -/
inductive Kind where
  | inequality
  | equality
deriving DecidableEq

/-- One API call.  Arguments are registers; results are appended to the registers. -/
inductive Instr where
  /-- `problem.declare_function(...)` (`circuit_opt.py` 532-535) -/
  | declare (d : FnDecl)
  /-- function arithmetic (`function.py` 45-72) -/
  | fn (a : FE)
  /-- point arithmetic -/
  | pt (a : PE)
  /-- expression arithmetic -/
  | ex (a : EE)
  /-- `problem.set_initial_point()` (`circuit_opt.py` 538-541) -/
  | initial
  /-- `f.stationary_point(return_gradient_and_function_value=True)` -/
  | stationary (f : ℕ)
  /-- `f.oracle(x)` -/
  | oracle (f x : ℕ)
  /-- `f.gradient(x)` -/
  | gradient (f x : ℕ)
  /-- `f.value(x)`, `f(x)` -/
  | value (f x : ℕ)
  /-- `proximal_step(x0, f, gamma)` -/
  | prox (x0 f : ℕ) (gamma : Sym)
  /-- `subgrad_conjugate(g, f)` -/
  | conj (g f : ℕ)
  /-- `f.add_point((x, g, v))` -/
  | addPoint (f x g v : ℕ)
  /-- `problem.add_constraint(Constraint(e, kind))` (`circuit_opt.py` 544-546) -/
  | constr (e : ℕ) (k : Kind)
  /-- `problem.set_performance_metric(e)` (`circuit_opt.py` 44-54); its degree check is modelled in `Model/Parsing` -/
  | metric (e : ℕ)
  /-- `problem.obj = e`, the quantity to be maximised (`circuit_opt.py` 53, read in 238, 368, 487) -/
  | objective (e : Sym)
deriving DecidableEq

/-- What a script holds: its points, expressions and functions, and the attributes of the problem object
(`circuit_opt.py` 27-30, 52-53): declared functions, constraints, performance metric, objective.  Simplification: before
`set_performance_metric` the objective is `eta` (the attribute does not exist; solving fails anyway for want of a metric). -/
structure Regs where
  pts : List PtId
  exs : List ExId
  fns : List FnId
  decl : List FnId
  cons : List (ExId × Kind)
  metric : Option ExId
  obj : Sym
deriving DecidableEq

/-- a new script with a new problem (`circuit_opt.py` 21-30) -/
def Regs.empty : Regs := ⟨[], [], [], [], [], none, Sym.var "eta"⟩

/-- read a variable of the script -/
def regGet (l : List ℕ) (i : ℕ) : M ℕ := M.ofOption .dangling l[i]?

variable (C : CAS)

/-- evaluate point arithmetic (`point.py` 39-69) -/
def PE.run (ps : List PtId) : PE → M PtId
  | .reg i => regGet ps i
  | .add a b => do let x ← PE.run ps a; let y ← PE.run ps b; ptAdd C x y
  | .sub a b => do let x ← PE.run ps a; let y ← PE.run ps b; ptSub C x y
  | .neg a => do let x ← PE.run ps a; ptNeg C x
  | .scale s a => do let x ← PE.run ps a; ptScale C s x
  | .div a c => do let x ← PE.run ps a; ptDiv C x c

/-- evaluate expression arithmetic (`expression.py` 38-72, `point.py` 51-73) -/
def EE.run (ps : List PtId) (es : List ExId) : EE → M ExId
  | .reg i => regGet es i
  | .inner a b => do let x ← a.run C ps; let y ← b.run C ps; ptInner C x y
  | .pow a n => do let x ← a.run C ps; ptPow C x n
  | .add a b => do let x ← EE.run ps es a; let y ← EE.run ps es b; exAdd C x y
  | .sub a b => do let x ← EE.run ps es a; let y ← EE.run ps es b; exSub C x y
  | .neg a => do let x ← EE.run ps es a; exNeg C x
  | .scale s a => do let x ← EE.run ps es a; exScale C s x
  | .div a c => do let x ← EE.run ps es a; exDiv C x c
  | .addNum a c => do let x ← EE.run ps es a; exAddNum C x c
  | .subNum a c => do let x ← EE.run ps es a; exSubNum C x c
  | .rsubNum c a => do let x ← EE.run ps es a; exRSubNum C c x

/-- evaluate function arithmetic (`function.py` 45-72) -/
def FE.run (fs : List FnId) : FE → M FnId
  | .reg i => regGet fs i
  | .add a b => do let x ← FE.run fs a; let y ← FE.run fs b; fnAdd x y
  | .sub a b => do let x ← FE.run fs a; let y ← FE.run fs b; fnSub x y
  | .neg a => do let x ← FE.run fs a; fnNeg x
  | .scale c a => do let x ← FE.run fs a; fnScale c x
  | .div a c => do let x ← FE.run fs a; fnDiv x c

/-- one API call -/
def Instr.run (r : Regs) : Instr → M Regs
  | .declare d => do
    let f ← declareFunction d
    pure { r with fns := r.fns ++ [f], decl := r.decl ++ [f] }
  | .fn a => do
    let f ← a.run r.fns
    pure { r with fns := r.fns ++ [f] }
  | .pt a => do
    let p ← a.run C r.pts
    pure { r with pts := r.pts ++ [p] }
  | .ex a => do
    let e ← a.run C r.pts r.exs
    pure { r with exs := r.exs ++ [e] }
  | .initial => do
    let p ← newLeafPt
    pure { r with pts := r.pts ++ [p] }
  | .stationary f => do
    let f ← regGet r.fns f
    let t ← stationaryPoint C f
    pure { r with pts := r.pts ++ [t.1, t.2.1], exs := r.exs ++ [t.2.2] }
  | .oracle f x => do
    let f ← regGet r.fns f
    let x ← regGet r.pts x
    let gv ← Verif.oracle C f x
    pure { r with pts := r.pts ++ [gv.1], exs := r.exs ++ [gv.2] }
  | .gradient f x => do
    let f ← regGet r.fns f
    let x ← regGet r.pts x
    let g ← Verif.gradient C f x
    pure { r with pts := r.pts ++ [g] }
  | .value f x => do
    let f ← regGet r.fns f
    let x ← regGet r.pts x
    let v ← Verif.value C f x
    pure { r with exs := r.exs ++ [v] }
  | .prox x0 f gamma => do
    let x0 ← regGet r.pts x0
    let f ← regGet r.fns f
    let t ← proximalStep C x0 f gamma
    pure { r with pts := r.pts ++ [t.1, t.2.1], exs := r.exs ++ [t.2.2] }
  | .conj g f => do
    let g ← regGet r.pts g
    let f ← regGet r.fns f
    let x ← subgradConjugate C g f
    pure { r with pts := r.pts ++ [x] }
  | .addPoint f x g v => do
    let f ← regGet r.fns f
    let x ← regGet r.pts x
    let g ← regGet r.pts g
    let v ← regGet r.exs v
    Verif.addPoint C f (x, g, v)
    pure r
  | .constr e k => do
    let e ← regGet r.exs e
    pure { r with cons := r.cons ++ [(e, k)] }
  | .metric e => do
    let e ← regGet r.exs e
    pure { r with metric := some e, obj := Sym.var "eta" }
  | .objective e => pure { r with obj := e }

/-- a sequence of API calls -/
def runProg : List Instr → Regs → M Regs
  | [], r => pure r
  | i :: is, r => do
    let r' ← i.run C r
    runProg is r'

/-- `CircuitOpt()` (`circuit_opt.py` 21-30) followed by API calls on it, in any state of the interpreter. -/
def runProblem (prog : List Instr) (h : Heap) : Except Err (Regs × Heap) := runProg C prog Regs.empty h.reset

end Verif
