import Verif.Model.Parsing

/-!
# Coefficients of matrices of linear expressions (`sympy_parsing.py` 6-28, 104-134)
-/

namespace Verif

/-- one iteration of the loop over monomials of `linear_matrix_expr_to_coeff_matrix` (`sympy_parsing.py` 119-129): AssertionError for a monomial of
degree two or more, KeyError for a name that is not in `name2idx` -/
def linearTerm (idx : Dict VName ℕ) (row : ℕ) (m : Coeff) (t : PolyTerm) : Except Err Coeff :=
  if (t.1.map Prod.snd).sum ≤ 1 then
    match idx.get? (varName t) with
    | some j => m.put row j t.2
    | none => .error .key
  else .error .assertion

variable (C : CAS)

/-- one iteration of the loop over the entries of `linear_matrix_expr_to_coeff_matrix` (`sympy_parsing.py` 110-129) -/
def linearEntry (idx : Dict VName ℕ) (row : ℕ) (e : Sym) (m : Coeff) : Except Err Coeff :=
  if isConst C e then m.put row 0 (C.simp e).toFloat else (C.poly (C.simp e)).foldlM (linearTerm idx row) m

/-- the loop over the entries of `linear_matrix_expr_to_coeff_matrix` (`sympy_parsing.py` 110-129) -/
def linearEntries (idx : Dict VName ℕ) : List Sym → ℕ → Coeff → Except Err Coeff
  | [], _, m => .ok m
  | e :: rest, row, m => do
    let m' ← linearEntry C idx row e m
    linearEntries idx rest (row + 1) m'

/-- `linear_matrix_expr_to_coeff_matrix` (`sympy_parsing.py` 104-130) on the entries `mat_expr.flatten(order='C')` -/
def linearMatrix (es : List Sym) (idx : Dict VName ℕ) : Except Err Coeff := linearEntries C idx es 0 ⟨idx.length, fun _ _ => 0⟩

/-- row `i` of `coeff_matrix @ sp_v[: coeff_matrix.shape[1]]` (`sympy_parsing.py` 134) -/
def rowExpr (m : Coeff) (v : List Sym) (i : ℕ) : Sym :=
  (List.range m.cols).foldl (fun acc j => acc + Sym.num (m.at_ i j) * v.getD j (Sym.num 0)) (Sym.num 0)

/-- `coeff_matrix_to_linear_matrix_expr` (`sympy_parsing.py` 133-134) for a coefficient matrix with `rows` rows and a target shape with `size` entries:
the entries of the result in C order.  ValueError if `sp_v` is shorter than a row (`@`) or if the shape has another number of entries (`reshape`). -/
def coeffToLinear (m : Coeff) (rows : ℕ) (v : List Sym) (size : ℕ) : Except Err (List Sym) :=
  if v.length < m.cols then .error .value
  else if rows ≠ size then .error .value
  else .ok ((List.range rows).map (rowExpr m v))

/-- the loop of `const_coeff_expr` (`sympy_parsing.py` 15-27): the row and the local variable `var_idx`, which keeps its value when a name is not in
`name2idx`; UnboundLocalError if it has none yet, IndexError outside the row (`len` entries) -/
def constTerm (idx : Dict VName ℕ) (st : Option ℕ × (ℕ → ℚ)) (t : PolyTerm) : Except Err (Option ℕ × (ℕ → ℚ)) :=
  if (t.1.map Prod.snd).sum ≤ 1 then
    match (idx.get? (varName t)).orElse fun _ => st.1 with
    | some j => if j < idx.length then .ok (some j, Function.update st.2 j t.2) else .error .index
    | none => .error .unbound
  else .error .assertion

/-- `const_coeff_expr` (`sympy_parsing.py` 6-28): a column of `x_size` entries; IndexError if the table is empty (`row[0]`), ValueError if the table is
larger than `x_size` (`np.zeros` of a negative size) -/
def constCoeff (e : Sym) (idx : Dict VName ℕ) (xSize : ℕ) : Except Err (ℕ → ℚ) := do
  let row ← if isConst C e then
      (if 0 < idx.length then .ok (Function.update (fun _ => 0) 0 (C.simp e).toFloat) else .error .index)
    else do
      let st ← (C.poly (C.simp e)).foldlM (constTerm idx) (none, fun _ => 0)
      .ok st.2
  if idx.length ≤ xSize then .ok row else .error .value

end Verif
