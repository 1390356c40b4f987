import Verif.Model.Program
import Verif.Spec.Safe

/-!
# Circuit builders as programs

A circuit builder of `classical_central_vi.py`, `classical_decentral_vi.py`, `new_algorithms_vi.py` (in ciropt mode, `params=None`) makes a
sequence of API calls that depends on its arguments only.  `Build α` is such a builder with result `α`: it knows how many points,
expressions and functions the script already holds, and returns the API calls it makes.  An assignment of a python variable is a call
(`pt`, `ex`, `fn`) whose result is a new register.
-/

namespace Verif

/-- a sequence of API calls with a result -/
def Build (α : Type) : Type := Counts → α × Counts × List Instr

namespace Build

variable {α β : Type}

/-- a value without API calls -/
def ret (a : α) : Build α := fun n => (a, n, [])

/-- one sequence of calls after another -/
def andThen (c : Build α) (f : α → Build β) : Build β := fun n =>
  ((f (c n).1 (c n).2.1).1, (f (c n).1 (c n).2.1).2.1, (c n).2.2 ++ (f (c n).1 (c n).2.1).2.2)

instance : Monad Build where
  pure := ret
  bind := andThen

/-- the API calls a builder makes on a new problem -/
def prog (c : Build α) : List Instr := (c ⟨0, 0, 0⟩).2.2

/-- the result of a builder on a new problem -/
def result (c : Build α) : α := (c ⟨0, 0, 0⟩).1

/-- one API call with result `a` -/
def emit (i : Instr) (a : Counts → α) : Build α := fun n => (a n, i.next n, [i])

/-- `x = <point expression>` -/
def pt (e : PE) : Build PE := emit (.pt e) fun n => .reg n.np

/-- `e = <expression>` -/
def ex (e : EE) : Build EE := emit (.ex e) fun n => .reg n.ne

/-- `f = <function expression>` -/
def fn (f : FE) : Build FE := emit (.fn f) fun n => .reg n.nf

/-- an argument of a call: an object the script holds, or a new object -/
def ptArg : PE → Build ℕ
  | .reg i => ret i
  | e => emit (.pt e) fun n => n.np

/-- an argument of a call: an object the script holds, or a new object -/
def exArg : EE → Build ℕ
  | .reg i => ret i
  | e => emit (.ex e) fun n => n.ne

/-- an argument of a call: an object the script holds, or a new object -/
def fnArg : FE → Build ℕ
  | .reg i => ret i
  | f => emit (.fn f) fun n => n.nf

/-- `define_function(problem, mu, L_smooth, package)` (`utils.py` 239-248) -/
def define (mu : ℚ) (L : Option ℚ) : Build FE := emit (.declare (defDecl mu L)) fun n => .reg n.nf

/-- `problem.set_initial_point()` -/
def initial : Build PE := emit .initial fun n => .reg n.np

/-- `f.stationary_point(return_gradient_and_function_value=True)` -/
def stationary (f : FE) : Build (PE × PE × EE) :=
  andThen (fnArg f) fun i => emit (.stationary i) fun n => (.reg n.np, .reg (n.np + 1), .reg n.ne)

/-- `f.oracle(x)` -/
def oracle (f : FE) (x : PE) : Build (PE × EE) :=
  andThen (fnArg f) fun i => andThen (ptArg x) fun j => emit (.oracle i j) fun n => (.reg n.np, .reg n.ne)

/-- `proximal_step(x0, f, gamma)` -/
def prox (x0 : PE) (f : FE) (gamma : Sym) : Build (PE × PE × EE) :=
  andThen (ptArg x0) fun j => andThen (fnArg f) fun i =>
    emit (.prox j i gamma) fun n => (.reg n.np, .reg (n.np + 1), .reg n.ne)

/-- `subgrad_conjugate(g, f)` -/
def conj (g : PE) (f : FE) : Build PE :=
  andThen (ptArg g) fun j => andThen (fnArg f) fun i => emit (.conj j i) fun n => .reg n.np

/-- `problem.add_constraint(Constraint(e, "equality"))` -/
def equality (e : EE) : Build Unit := andThen (exArg e) fun i => emit (.constr i .equality) fun _ => ()

/-- `problem.set_performance_metric(e)` -/
def metric (e : EE) : Build Unit := andThen (exArg e) fun i => emit (.metric i) fun _ => ()

/-- `for a in l: s = body(s, a)` -/
def loop {σ : Type} (body : σ → α → Build σ) : List α → σ → Build σ
  | [], s => ret s
  | a :: l, s => andThen (body s a) (loop body l)

end Build

instance : Add PE := ⟨.add⟩
instance : Sub PE := ⟨.sub⟩
instance : Neg PE := ⟨.neg⟩
instance : HMul Sym PE PE := ⟨.scale⟩
instance : HMul ℚ PE PE := ⟨fun c p => .scale (.num c) p⟩
instance : HDiv PE ℚ PE := ⟨.div⟩
/-- product of two Points (`point.py` 58-60) -/
instance : HMul PE PE EE := ⟨.inner⟩
instance : Add EE := ⟨.add⟩
instance : Sub EE := ⟨.sub⟩
instance : Neg EE := ⟨.neg⟩
instance : HMul Sym EE EE := ⟨.scale⟩
instance : HMul ℚ EE EE := ⟨fun c e => .scale (.num c) e⟩
instance : Add FE := ⟨.add⟩
instance : HDiv Sym ℚ Sym := ⟨Sym.divNum⟩
instance : HMul Sym ℚ Sym := ⟨fun s c => s * Sym.num c⟩
/-- `p ** 2` (`point.py` 71-73) -/
def PE.sq (p : PE) : EE := .pow p 2

/-- the parameters of a problem (`circuit_opt.py` 33-41) -/
def pEta : Sym := .var "eta"
def pRho : Sym := .var "rho"
def pH : Sym := .var "h"
def pAlpha : Sym := .var "alpha"
def pBeta : Sym := .var "beta"
def pGamma : Sym := .var "gamma"

/-- `problem.discretization_params` (`circuit_opt.py` 41) -/
def stdParams : List Name := ["alpha", "beta", "delta", "eta", "gamma", "h", "rho"]

/-- `1 / L_smooth`, with `1 / np.inf = 0` (`classical_central_vi.py` 231) -/
def invSmooth : Option ℚ → ℚ
  | some L => 1 / L
  | none => 0

end Verif
