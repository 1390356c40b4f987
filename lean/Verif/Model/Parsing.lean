import Verif.Model.Problem
import Mathlib.Data.List.Sort

/-!
# Polynomials, long variable names and coefficient matrices (`sympy_parsing.py`)
-/

namespace Verif

/-- `s.split("_")` (`sympy_parsing.py` 83, 195, 213).  Strings are lists of characters for this purpose. -/
def splitU (s : Name) : List Name := (s.toList.splitOn '_').map String.ofList

/-- `"_".join(l)` (`sympy_parsing.py` 77, 194) -/
def joinU (l : List Name) : Name := String.ofList (['_'].intercalate (l.map String.toList))

/-- `sorted(l)` on a list of strings (`sympy_parsing.py` 75, 194): ordered by code points -/
def sortNames (l : List Name) : List Name := l.insertionSort (· ≤ ·)

/-- `variables_in_monomial += [var.name] * exp` over `zip(polynomial.gens, monomial)` (`sympy_parsing.py` 71-74, 190-192) -/
def monoNames (t : PolyTerm) : List Name := t.1.flatMap fun p => List.replicate p.2 p.1

/-- `variables_in_monomial += var.name.split("_") * exp` over `zip(polynomial.gens, monomial)` (`sympy_parsing.py` 211-213,
`sympy_to_solvers.py` 38-40) -/
def monoParts (t : PolyTerm) : List Name := t.1.flatMap fun p => (List.replicate p.2 (splitU p.1)).flatten

variable (C : CAS)

/-- `sp.simplify(expr).free_symbols == set() or expr.is_number` (`sympy_parsing.py` 10, 64, 182, 205).  An expression without symbols
has no symbols after simplification either (`CAS.Lawful.simp_vars`), so the second test adds nothing. -/
def isConst (e : Sym) : Bool := (C.simp e).vars.isEmpty

/-- `coeffs[i] * new_var` (`sympy_parsing.py` 193-198) -/
def linTerm (t : PolyTerm) : Sym :=
  if monoNames t ≠ [] then Sym.num t.2 * Sym.var (joinU (sortNames (splitU (joinU (sortNames (monoNames t))))))
  else Sym.num t.2 * Sym.num 1

/-- `lin_expr += ...` over the terms (`sympy_parsing.py` 185-197) -/
def sumTerms (f : PolyTerm → Sym) (l : List PolyTerm) : Sym := l.foldl (fun acc t => acc + f t) (Sym.num 0)

/-- `linearize_expression` (`sympy_parsing.py` 181-198) -/
def linearize (e : Sym) : Sym :=
  if isConst C e then e else C.simp (sumTerms linTerm (C.poly (C.simp e)))

/-- `sp.Mul(*[sp.symbols(name) ...])` (`sympy_parsing.py` 215) -/
def mulNames (l : List Name) : Sym := l.foldl (fun acc n => acc * Sym.var n) (Sym.num 1)

/-- `coeffs[i] * new_monomial` (`sympy_parsing.py` 214-218) -/
def collapseTerm (t : PolyTerm) : Sym :=
  if monoParts t ≠ [] then Sym.num t.2 * mulNames (monoParts t) else Sym.num t.2 * Sym.num 1

/-- `collapse_expression` (`sympy_parsing.py` 201-219) -/
def collapse (e : Sym) : Sym :=
  if isConst C e then Sym.num (C.simp e).toFloat else sumTerms collapseTerm (C.poly (C.simp e))

/-- `simplify_matrix` (`sympy_parsing.py` 260-268), on both arrays -/
def simplifyMatrix (m : FG) : FG := ⟨fun i => linearize C (m.F i), fun i j => linearize C (m.G i j)⟩

/-- `check_degree_expression` on a polynomial (`sympy_parsing.py` 171-178) -/
def checkDegree (e : Sym) (d : ℕ) : Bool :=
  (C.poly (C.simp e)).all fun t => ! decide ((t.1.map Prod.snd).sum ≥ d + 1)

/-- `check_linear_expression` (`sympy_parsing.py` 252-257) -/
def checkLinear (e : Sym) : Bool :=
  (C.poly (C.simp e)).all fun t => ! decide ((t.1.map Prod.snd).sum ≥ 2)

/-- an element of `v_names` (`sympy_parsing.py` 52): the integer 1 or a string -/
inductive VName where
  | one
  | str (s : Name)
deriving DecidableEq

/-- the local variables `v_names` and `name2idx` (`sympy_parsing.py` 52-53) -/
structure VTab where
  names : List VName
  idx : Dict VName ℕ

/-- `v_names = [1] + discretization_params; name2idx = {var : idx ...}` (`sympy_parsing.py` 52-53) -/
def VTab.init (params : List Name) : VTab :=
  ⟨.one :: params.map .str,
    (VName.one :: params.map .str).zipIdx.foldl (fun (d : Dict VName ℕ) vi => d.set vi.1 vi.2) []⟩

/-- `if prefix not in name2idx: v_names += [prefix]; name2idx[prefix] = len(name2idx)` (`sympy_parsing.py` 89-91) -/
def VTab.addName (tab : VTab) (s : Name) : VTab :=
  if tab.idx.has (.str s) then tab else ⟨tab.names ++ [.str s], tab.idx.set (.str s) tab.idx.length⟩

/-- `for el in variables_in_monomial[1:]: prefix += "_" + el; ...` (`sympy_parsing.py` 87-91); returns the last prefix -/
def VTab.addPrefixes : List Name → Name → VTab → Name × VTab
  | [], pre, tab => (pre, tab)
  | el :: rest, pre, tab => VTab.addPrefixes rest (pre ++ "_" ++ el) (tab.addName (pre ++ "_" ++ el))

/-- a coefficient matrix (`sympy_parsing.py` 58): number of columns and entries.  Simplification: entries outside are 0. -/
structure Coeff where
  cols : ℕ
  at_ : ℕ → ℕ → ℚ

/-- `coeff_matrix[i, j] = c` (`sympy_parsing.py` 63, 96); IndexError outside -/
def Coeff.put (m : Coeff) (i j : ℕ) (c : ℚ) : Except Err Coeff :=
  if j < m.cols then .ok { m with at_ := fun a b => if a = i ∧ b = j then c else m.at_ a b } else .error .index

/-- `np.hstack((coeff_matrix, zeros))` up to width `n` (`sympy_parsing.py` 95) -/
def Coeff.widen (m : Coeff) (n : ℕ) : Coeff := ⟨m.cols + (n - m.cols), m.at_⟩

/-- `var_name` (`sympy_parsing.py` 75-79) -/
def varName (t : PolyTerm) : VName :=
  if sortNames (monoNames t) ≠ [] then .str (joinU (sortNames (monoNames t))) else .one

/-- lines 80-95 of `sp_v_coeff_matrix`: the index of the monomial, after adding it to the table if it is new -/
def findIdx (t : PolyTerm) (tab : VTab) (m : Coeff) : Except Err (ℕ × VTab × Coeff) :=
  match tab.idx.get? (varName t) with
  | some i => .ok (i, tab, m)
  | none =>
    match sortNames (splitU (joinU (sortNames (monoNames t)))) with
    | a :: b :: rest =>
      if .str (VTab.addPrefixes (b :: rest) a tab).1 = varName t then
        match (VTab.addPrefixes (b :: rest) a tab).2.idx.get? (varName t) with
        | some i => .ok (i, (VTab.addPrefixes (b :: rest) a tab).2, m.widen (VTab.addPrefixes (b :: rest) a tab).2.idx.length)
        | none => .error .key
      else .error .assertion
    | _ => .error .assertion

/-- one iteration of the loop over monomials (`sympy_parsing.py` 69-97) for entry `row` -/
def coeffTerm (row : ℕ) (t : PolyTerm) (tab : VTab) (m : Coeff) : Except Err (VTab × Coeff) :=
  if t.1.any (fun p => decide ('_' ∈ p.1.toList)) then .error .assertion
  else do
    let r ← findIdx t tab m
    let m' ← r.2.2.put row r.1 t.2
    if m'.cols = r.2.1.idx.length then .ok (r.2.1, m') else .error .assertion

/-- the loop over monomials (`sympy_parsing.py` 69-97) -/
def coeffTerms (row : ℕ) : List PolyTerm → VTab → Coeff → Except Err (VTab × Coeff)
  | [], tab, m => .ok (tab, m)
  | t :: rest, tab, m => do
    let r ← coeffTerm row t tab m
    coeffTerms row rest r.1 r.2

/-- one iteration of the loop over the entries of a matrix (`sympy_parsing.py` 59-97) -/
def coeffEntry (row : ℕ) (e : Sym) (tab : VTab) (m : Coeff) : Except Err (VTab × Coeff) :=
  if isConst C e then do
    let m' ← m.put row 0 (C.simp e).toFloat
    .ok (tab, m')
  else coeffTerms row (C.poly (C.simp e)) tab m

/-- the loop over the entries (`sympy_parsing.py` 59-97) -/
def coeffEntries : List Sym → ℕ → VTab → Coeff → Except Err (VTab × Coeff)
  | [], _, tab, m => .ok (tab, m)
  | e :: rest, row, tab, m => do
    let r ← coeffEntry C row e tab m
    coeffEntries rest (row + 1) r.1 r.2

/-- one iteration of the loop over matrices (`sympy_parsing.py` 56-98) -/
def coeffMatrix (es : List Sym) (tab : VTab) : Except Err (VTab × Coeff) :=
  coeffEntries C es 0 tab ⟨tab.names.length, fun _ _ => 0⟩

/-- `Fweights.flatten(order='C')` (`sympy_parsing.py` 59) -/
def FG.flatF (m : FG) (dimF : ℕ) : List Sym := (List.range dimF).map m.F
/-- `Gweights.flatten(order='C')` (`sympy_parsing.py` 59) -/
def FG.flatG (m : FG) (dimG : ℕ) : List Sym := (List.range (dimG * dimG)).map fun i => m.G (i / dimG) (i % dimG)

/-- the loop over the keys of `sp_exp` (`sympy_parsing.py` 55-98): coefficient matrices of the F and G parts -/
def coeffLoop (dimG dimF : ℕ) : List FG → VTab → Except Err (VTab × List (Coeff × Coeff))
  | [], tab => .ok (tab, [])
  | m :: rest, tab => do
    let f ← coeffMatrix C (m.flatF dimF) tab
    let g ← coeffMatrix C (m.flatG dimG) f.1
    let r ← coeffLoop dimG dimF rest g.1
    .ok (r.1, (f.2, g.2) :: r.2)

/-- `sp_v_coeff_matrix` (`sympy_parsing.py` 31-101): the table of monomials and, per key of `sp_exp`, the coefficient matrices -/
def spCoeffMatrix (sp : Dict SpKey FG) (params : List Name) (dimG dimF : ℕ) : Except Err (VTab × List (Coeff × Coeff)) :=
  coeffLoop C dimG dimF (sp.map Prod.snd) (VTab.init params)

/-- `evaluate_monomial` (`sympy_parsing.py` 289-294); KeyError if a factor is not in `params` -/
def evalMonomial (params : Dict Name ℚ) : VName → Except Err ℚ
  | .one => .ok 1
  | .str s => (splitU s).foldlM (fun acc v => match params.get? v with
      | some x => .ok (acc * x)
      | none => .error .key) 1

end Verif
