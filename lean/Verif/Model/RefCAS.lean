import Verif.Model.Sym
import Mathlib.Data.List.Dedup

/-!
# A reference computer algebra system

An executable instance of the contract `CAS.Lawful`: canonical polynomials.  It shows that the contract is satisfiable and is
used to run the model in examples.  It models no file of the repository (SymPy is external).
-/

namespace Verif
namespace RefCAS

/-- polynomial: sorted monomials with non-zero coefficients -/
abbrev P := List (List Name × ℚ)

/-- add `c * m` -/
def addTerm (m : List Name) (c : ℚ) : P → P
  | [] => if c = 0 then [] else [(m, c)]
  | (m', c') :: p =>
    if m' = m then (if c' + c = 0 then p else (m', c' + c) :: p) else (m', c') :: addTerm m c p

def add (p q : P) : P := q.foldl (fun acc t => addTerm t.1 t.2 acc) p

/-- sorted product of monomials -/
def mulMon (a b : List Name) : List Name := (a ++ b).insertionSort (· ≤ ·)

def mul (p q : P) : P :=
  p.foldl (fun acc t => q.foldl (fun acc u => addTerm (mulMon t.1 u.1) (t.2 * u.2) acc) acc) []

def norm : Sym → P
  | .num c => if c = 0 then [] else [([], c)]
  | .var n => [([n], 1)]
  | .add a b => add (norm a) (norm b)
  | .mul a b => mul (norm a) (norm b)

/-- the expression of a monomial with its coefficient -/
def monSym (c : ℚ) : List Name → Sym
  | [] => .num c
  | n :: m => .mul (monSym c m) (.var n)

/-- the expression of a polynomial -/
def toSym : P → Sym
  | [] => .num 0
  | [t] => monSym t.2 t.1
  | t :: p => .add (monSym t.2 t.1) (toSym p)

def gens (p : P) : List Name := (p.flatMap Prod.fst).dedup

end RefCAS

/-- the reference computer algebra system -/
def refCAS : CAS where
  simp e := RefCAS.toSym (RefCAS.norm e)
  eqB a b := decide (a = b) || (RefCAS.norm (a - b)).isEmpty
  poly e := let p := RefCAS.norm e
    p.map fun t => ((RefCAS.gens p).map fun n => (n, t.1.count n), t.2)

end Verif
