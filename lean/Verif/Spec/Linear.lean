import Verif.Model.Parsing

/-!
# Specification: linear expressions and tables of names
-/

namespace Verif

/-- the symbol of an entry of the table: `[1] + [sp.symbols(name) for name in v_names[1:]]` (`test/test_linear_coefficients.py` 25) -/
def VName.sym : VName → Sym
  | .one => Sym.num 1
  | .str s => Sym.var s

/-- value of the symbol of an entry of the table -/
def VName.symVal (env : Name → ℝ) : VName → ℝ
  | .one => 1
  | .str s => env s

/-- `name2idx` numbers the entries of `names`, without repetition, and 1 comes first -/
structure IsTable (idx : Dict VName ℕ) (names : List VName) : Prop where
  nodup : names.Nodup
  one : names[0]? = some .one
  size : idx.length = names.length
  get : ∀ k j, idx.get? k = some j ↔ names[j]? = some k

/-- the value of `e` is a constant plus a linear combination of symbols named in the table -/
def IsAffineIn (e : Sym) (names : List VName) : Prop :=
  ∃ c : VName → ℚ, ∀ env : Name → ℝ, e.eval env = (names.map fun k => (c k : ℝ) * k.symVal env).sum

end Verif
