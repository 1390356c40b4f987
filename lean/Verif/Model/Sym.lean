import Mathlib.Data.Real.Basic
import Mathlib.Data.String.Basic
import Mathlib.Data.List.Sort
import Mathlib.Algebra.BigOperators.Group.List.Basic
import Mathlib.Data.Rat.Cast.CharZero
import Mathlib.Tactic.Ring
import Mathlib.Tactic.Linarith
import Mathlib.Tactic.FieldSimp
import Mathlib.Tactic.NormNum

/-!
# Scalars: the fragment of SymPy used by the package

External code modelled: `sympy`.  The package multiplies and adds python numbers and `sp.symbols`
(`circuit_opt.py` 33-41, builders such as `classical_central_vi.py` 24-42).  All scalars of the package are polynomials with
numeric coefficients; they are represented by an abstract syntax tree.

Simplifications: python ints and floats are exact rationals; division by a symbol is not represented
(the package only divides by numbers and uses separate symbols `invC`, `invL` for reciprocals).
-/

namespace Verif

/-- Names of symbols: the strings given to `sp.symbols` (`circuit_opt.py` 34-40). -/
abbrev Name := String

/-- A SymPy scalar or python number (`sp.Basic`, `int`, `float` in `point.py` 52, `expression.py` 61):
a polynomial expression with rational coefficients.  Simplification: python numbers and SymPy numbers are both `num`. -/
inductive Sym where
  | num (c : ℚ)
  | var (n : Name)
  | add (a b : Sym)
  | mul (a b : Sym)
deriving DecidableEq

namespace Sym

instance : Add Sym := ⟨add⟩
instance : Mul Sym := ⟨mul⟩
/-- python unary minus on a scalar: `-1 * a`. -/
instance : Neg Sym := ⟨fun a => mul (num (-1)) a⟩
/-- python `a - b` on scalars: `a + (-1) * b`. -/
instance : Sub Sym := ⟨fun a b => add a (mul (num (-1)) b)⟩
instance : Coe ℚ Sym := ⟨num⟩
instance (n : ℕ) : OfNat Sym n := ⟨num n⟩
instance : Inhabited Sym := ⟨num 0⟩
/-- python `a / c` for a number `c` (e.g. `alpha * h / Capacitance`, `classical_central_vi.py` 33). -/
def divNum (a : Sym) (c : ℚ) : Sym := mul a (num (1 / c))

/-- Value of a scalar when every symbol is given a real value. -/
noncomputable def eval (env : Name → ℝ) : Sym → ℝ
  | num c => (c : ℝ)
  | var n => env n
  | add a b => eval env a + eval env b
  | mul a b => eval env a * eval env b

/-- `float(e)` for an expression without free symbols (`circuit_opt.py` 72, `sympy_parsing.py` 67): its rational value.
Symbols, which do not occur there, are read as 0. -/
def toFloat : Sym → ℚ
  | num c => c
  | var _ => 0
  | add a b => toFloat a + toFloat b
  | mul a b => toFloat a * toFloat b

/-- `e.free_symbols` (`circuit_opt.py` 71): the symbols occurring in the expression, with repetitions. -/
def vars : Sym → List Name
  | num _ => []
  | var n => [n]
  | add a b => vars a ++ vars b
  | mul a b => vars a ++ vars b

/-- `e.free_symbols == set()`. -/
def isNumber (e : Sym) : Bool := e.vars.isEmpty

end Sym

/-- One term of `sp.Poly(e)`: the monomial as `zip(polynomial.gens, monomial)` and its coefficient
(`sympy_parsing.py` 69-77). -/
abbrev PolyTerm := List (Name × ℕ) × ℚ

/-- Value of one polynomial term. -/
noncomputable def PolyTerm.eval (env : Name → ℝ) (t : PolyTerm) : ℝ :=
  (t.2 : ℝ) * (t.1.map fun p => env p.1 ^ p.2).prod

/-- The computer algebra system as used by the package: `sp.simplify`, python `==` between scalars,
and the list of terms `zip(polynomial.monoms(), polynomial.coeffs())` of `sp.Poly`.
It is a parameter of the model: its algorithms and the order of its results are not fixed. -/
structure CAS where
  simp : Sym → Sym
  eqB : Sym → Sym → Bool
  poly : Sym → List PolyTerm

/-- What is assumed of SymPy (part of the trusted base). -/
structure CAS.Lawful (C : CAS) : Prop where
  /-- `sp.simplify` keeps the value -/
  simp_eval : ∀ env e, (C.simp e).eval env = e.eval env
  /-- `sp.simplify` introduces no symbol -/
  simp_vars : ∀ e n, n ∈ (C.simp e).vars → n ∈ e.vars
  /-- `a == b` only for expressions of equal value -/
  eqB_sound : ∀ a b, C.eqB a b = true → ∀ env, a.eval env = b.eval env
  /-- `a == a` -/
  eqB_refl : ∀ a, C.eqB a a = true
  /-- the terms of `sp.Poly(e)` sum to `e` -/
  poly_eval : ∀ env e, ((C.poly e).map (PolyTerm.eval env)).sum = e.eval env
  /-- the generators of `sp.Poly(e)` are symbols of `e` -/
  poly_vars : ∀ e t, t ∈ C.poly e → ∀ p ∈ t.1, p.1 ∈ e.vars
  /-- all terms use the same list of distinct generators -/
  poly_gens : ∀ e, ∃ gens : List Name, gens.Nodup ∧ ∀ t ∈ C.poly e, t.1.map Prod.fst = gens
  /-- the monomials of `sp.Poly(e)` are distinct -/
  poly_nodup : ∀ e, ((C.poly e).map Prod.fst).Nodup
  /-- a term with coefficient zero has exponents zero: it is the only term of the zero polynomial -/
  poly_zero : ∀ e t, t ∈ C.poly e → t.2 = 0 → ∀ p ∈ t.1, p.2 = 0

namespace Sym

@[simp] theorem eval_num (env : Name → ℝ) (c : ℚ) : (num c).eval env = (c : ℝ) := rfl
@[simp] theorem eval_var (env : Name → ℝ) (n : Name) : (var n).eval env = env n := rfl
@[simp] theorem eval_add (env : Name → ℝ) (a b : Sym) : (a + b).eval env = a.eval env + b.eval env := rfl
@[simp] theorem eval_mul (env : Name → ℝ) (a b : Sym) : (a * b).eval env = a.eval env * b.eval env := rfl
@[simp] theorem eval_add' (env : Name → ℝ) (a b : Sym) : (add a b).eval env = a.eval env + b.eval env := rfl
@[simp] theorem eval_mul' (env : Name → ℝ) (a b : Sym) : (mul a b).eval env = a.eval env * b.eval env := rfl
@[simp] theorem eval_neg (env : Name → ℝ) (a : Sym) : (-a).eval env = -a.eval env := by
  show ((-1 : ℚ) : ℝ) * a.eval env = _
  push_cast; ring
@[simp] theorem eval_sub (env : Name → ℝ) (a b : Sym) : (a - b).eval env = a.eval env - b.eval env := by
  show a.eval env + ((-1 : ℚ) : ℝ) * b.eval env = _
  push_cast; ring
@[simp] theorem eval_ofNat (env : Name → ℝ) (n : ℕ) : (OfNat.ofNat n : Sym).eval env = (n : ℝ) := by
  show (((n : ℚ)) : ℝ) = n
  push_cast; rfl
@[simp] theorem eval_divNum (env : Name → ℝ) (a : Sym) (c : ℚ) :
    (a.divNum c).eval env = a.eval env / (c : ℝ) := by
  show a.eval env * ((1 / c : ℚ) : ℝ) = _
  push_cast; ring

/-- An expression without symbols has the value `float(e)`. -/
theorem eval_of_isNumber (env : Name → ℝ) : ∀ e : Sym, e.vars = [] → e.eval env = (e.toFloat : ℝ)
  | num c, _ => rfl
  | var n, h => by simp [vars] at h
  | add a b, h => by
      simp only [vars, List.append_eq_nil_iff] at h
      simp [toFloat, eval_of_isNumber env a h.1, eval_of_isNumber env b h.2]
  | mul a b, h => by
      simp only [vars, List.append_eq_nil_iff] at h
      simp [toFloat, eval_of_isNumber env a h.1, eval_of_isNumber env b h.2]

/-- The value only depends on the symbols that occur. -/
theorem eval_congr {env env' : Name → ℝ} : ∀ e : Sym, (∀ n ∈ e.vars, env n = env' n) → e.eval env = e.eval env'
  | num c, _ => rfl
  | var n, h => h n (by simp [vars])
  | add a b, h => by
      rw [eval_add', eval_add', eval_congr a (fun n hn => h n (by simp [vars, hn])),
        eval_congr b (fun n hn => h n (by simp [vars, hn]))]
  | mul a b, h => by
      rw [eval_mul', eval_mul', eval_congr a (fun n hn => h n (by simp [vars, hn])),
        eval_congr b (fun n hn => h n (by simp [vars, hn]))]

end Sym
end Verif
