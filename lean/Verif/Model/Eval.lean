import Verif.Model.Problem

/-!
# Evaluation of points, expressions and constraints (`point.py` 74-85, `expression.py` 77-97, `constraint.py` 30-47)

No code of the package stores a value in a leaf: `_value` of a leaf point or leaf expression stays `None`, also after `solve`.
Simplification: the cache `_value` of other objects is left out; `eval` is the only code that writes it, and it writes what it returns.
-/

namespace Verif

/-- `value += weight * v` on vectors (`point.py` 83) -/
def addScaledVec (acc : List Sym) (w : Sym) (v : List Sym) : List Sym := List.zipWith (fun a b => a + w * b) acc v

/-- `np.dot(u, v)` (`expression.py` 90) -/
def dotSym (u v : List Sym) : Sym := (List.zipWith (fun a b => a * b) u v).foldl (fun a b => a + b) (Sym.num 0)

/-- the loop `for point, weight in self.decomposition_dict.items()` (`point.py` 82-83); `ev` is `point.eval()` -/
def ptEvalLoop (ev : PtId → M (List Sym)) : Dict PtId Sym → List Sym → M (List Sym)
  | [], acc => pure acc
  | kw :: rest, acc => do
    let v ← ev kw.1
    ptEvalLoop ev rest (addScaledVec acc kw.2 v)

/-- `Point.eval` (`point.py` 74-85); the first argument is the recursion depth that python still allows -/
def ptEval : ℕ → PtId → M (List Sym)
  | 0, _ => M.throw .recursion
  | n + 1, p => do
    let o ← getPt p
    if o.leaf then M.throw .value
    else do
      let h ← M.get
      ptEvalLoop (ptEval n) o.dict (List.replicate h.ptCounter (Sym.num 0))

/-- one iteration of the loop of `Expression.eval` (`expression.py` 83-95); `ev` is `key.eval()`, `n` the recursion depth left -/
def exEvalStep (n : ℕ) (ev : ExId → M Sym) (kw : ExKey × Sym) (acc : Sym) : M Sym :=
  match kw.1 with
  | .fn e => do
    let o ← getEx e
    M.assert o.leaf
    let v ← ev e
    pure (acc + kw.2 * v)
  | .inner p q => do
    let o1 ← getPt p
    let o2 ← getPt q
    M.assert (o1.leaf && o2.leaf)
    let u ← ptEval n p
    let v ← ptEval n q
    pure (acc + kw.2 * dotSym u v)
  | .one => pure (acc + kw.2)

/-- the loop of `Expression.eval` (`expression.py` 83-95) -/
def exEvalLoop (n : ℕ) (ev : ExId → M Sym) : Dict ExKey Sym → Sym → M Sym
  | [], acc => pure acc
  | kw :: rest, acc => do
    let acc' ← exEvalStep n ev kw acc
    exEvalLoop n ev rest acc'

/-- `Expression.eval` (`expression.py` 77-97) -/
def exEval : ℕ → ExId → M Sym
  | 0, _ => M.throw .recursion
  | n + 1, e => do
    let o ← getEx e
    if o.leaf then M.throw .value
    else exEvalLoop n (exEval n) o.dict (Sym.num 0)

/-- `Constraint.eval` (`constraint.py` 30-38) of a constraint with expression `e`.  The clause `except ValueError("...")` names an
instance: when the evaluation raises anything, python compares the exception with it and raises TypeError. -/
def consEval (n : ℕ) (e : ExId) : M Sym := fun h =>
  match exEval n e h with
  | .ok r => .ok r
  | .error _ => .error .type

end Verif
