import Verif.Model.Parsing
import Mathlib.Algebra.MvPolynomial.Degrees

/-!
# Expressions as polynomials
-/

namespace Verif

/-- the polynomial of an expression, an element of Mathlib's ring `ℚ[symbols]` -/
noncomputable def Sym.toMv : Sym → MvPolynomial Name ℚ
  | .num c => MvPolynomial.C c
  | .var n => MvPolynomial.X n
  | .add a b => a.toMv + b.toMv
  | .mul a b => a.toMv * b.toMv

/-- the polynomial after replacing every symbol `a_b_c` by the product of `a`, `b` and `c` -/
noncomputable def Sym.collapsed (e : Sym) : MvPolynomial Name ℚ :=
  MvPolynomial.aeval (fun n => ((splitU n).map (MvPolynomial.X (R := ℚ))).prod) e.toMv

/-- all coefficients of two polynomials agree up to `1e-8` -/
def CoeffClose (p q : MvPolynomial Name ℚ) : Prop := ∀ m, |p.coeff m - q.coeff m| ≤ 1 / 10 ^ 8

/-- a polynomial without symbols -/
def IsConstPoly (p : MvPolynomial Name ℚ) : Prop := ∃ c, p = MvPolynomial.C c

end Verif
