import Verif.Model.Heap

/-!
# Points and Expressions (`point.py`, `expression.py`)
-/

namespace Verif

/-- A python value given as an operand; `other` is any value that is none of the listed types (string, list, ...).
A `sym` is an `sp.Basic`, a `num` an `int` or `float`. -/
inductive PyVal where
  | num (c : ℚ)
  | sym (s : Sym)
  | pt (p : PtId)
  | ex (e : ExId)
  | other
deriving DecidableEq

/-- `Point()` (`point.py` 20-30): a new leaf point. -/
def newLeafPt : M PtId := fun h =>
  let p := h.pts.length
  .ok (p, { h with
    pts := h.pts ++ [⟨true, some h.ptCounter, [(p, Sym.num 1)]⟩]
    ptCounter := h.ptCounter + 1
    leafPts := h.leafPts ++ [p] })

/-- `Point(is_leaf=False, decomposition_dict=d)` (`point.py` 31-34). -/
def newPt (d : Dict PtId Sym) : M PtId := fun h =>
  .ok (h.pts.length, { h with pts := h.pts ++ [⟨false, none, d⟩] })

/-- `Expression()` (`expression.py` 19-29): a new leaf expression. -/
def newLeafEx : M ExId := fun h =>
  let e := h.exs.length
  .ok (e, { h with
    exs := h.exs ++ [⟨true, some h.exCounter, [(ExKey.fn e, Sym.num 1)]⟩]
    exCounter := h.exCounter + 1
    leafExs := h.leafExs ++ [e] })

/-- `Expression(is_leaf=False, decomposition_dict=d)` (`expression.py` 30-33). -/
def newEx (d : Dict ExKey Sym) : M ExId := fun h =>
  .ok (h.exs.length, { h with exs := h.exs ++ [⟨false, none, d⟩] })

variable (C : CAS)

/-- `sp.simplify(a + b)` (`sympy_parsing.py` 157) -/
def plusS (a b : Sym) : Sym := C.simp (a + b)
/-- `sp.simplify(a * b)` (`sympy_parsing.py` 143, `point.py` 56, `expression.py` 65) -/
def timesS (a b : Sym) : Sym := C.simp (a * b)
/-- `v == 0` (`sympy_parsing.py` 166) -/
def isZeroS (v : Sym) : Bool := C.eqB v (Sym.num 0)

/-- `Point.__add__` on a Point (`point.py` 39-43). -/
def ptAdd (p q : PtId) : M PtId := do
  let a ← getPt p
  let b ← getPt q
  newPt (Dict.prune (isZeroS C) (Dict.merge (plusS C) a.dict b.dict))

/-- `Point.__rmul__` on a scalar (`point.py` 52-57). -/
def ptScale (s : Sym) (p : PtId) : M PtId := do
  let a ← getPt p
  newPt (a.dict.mapVals fun v => timesS C v s)

/-- `Point.__neg__` (`point.py` 48-49). -/
def ptNeg (p : PtId) : M PtId := ptScale C (Sym.num (-1)) p

/-- `Point.__sub__` on a Point (`point.py` 45-46). -/
def ptSub (p q : PtId) : M PtId := do
  let n ← ptNeg C q
  ptAdd C p n

/-- `Point.__truediv__` by a number (`point.py` 68-69).  Division by a symbol is not modelled. -/
def ptDiv (p : PtId) (c : ℚ) : M PtId :=
  if c = 0 then M.throw .zeroDivision else ptScale C (Sym.num (1 / c)) p

/-- the dictionary of `p * q`: keys of `multiply_dicts` are pairs of leaf points (`sympy_parsing.py` 141). -/
def innerDict (d1 d2 : Dict PtId Sym) : Dict ExKey Sym :=
  (Dict.multiply (timesS C) (· + ·) d1 d2).map fun kv => (ExKey.inner kv.1.1 kv.1.2, kv.2)

/-- `Point.__rmul__` on a Point (`point.py` 58-60). -/
def ptInner (p q : PtId) : M ExId := do
  let a ← getPt p
  let b ← getPt q
  newEx (innerDict C a.dict b.dict)

/-- `Point.__pow__` (`point.py` 71-73). -/
def ptPow (p : PtId) (power : ℚ) : M ExId := do
  M.assert (power = 2)
  ptInner C p p

/-- `Point.__mul__` / `Point.__rmul__` on any python value (`point.py` 51-66). -/
def ptMulVal (p : PtId) : PyVal → M PyVal
  | .num c => do return .pt (← ptScale C (Sym.num c) p)
  | .sym s => do return .pt (← ptScale C s p)
  | .pt q => do return .ex (← ptInner C p q)
  | _ => M.throw .type

/-- `Point.__add__` on any python value (`point.py` 39-43). -/
def ptAddVal (p : PtId) : PyVal → M PyVal
  | .pt q => do return .pt (← ptAdd C p q)
  | _ => M.throw .assertion

/-- `Expression.__add__` on an Expression (`expression.py` 38-40, 46). -/
def exAdd (e f : ExId) : M ExId := do
  let a ← getEx e
  let b ← getEx f
  newEx (Dict.merge (plusS C) a.dict b.dict)

/-- `Expression.__add__` on a number (`expression.py` 41-42, 46). -/
def exAddNum (e : ExId) (c : ℚ) : M ExId := do
  let a ← getEx e
  newEx (Dict.merge (plusS C) a.dict [(ExKey.one, Sym.num c)])

/-- `Expression.__add__` / `__radd__` on any python value (`expression.py` 38-49). -/
def exAddVal (e : ExId) : PyVal → M ExId
  | .ex f => exAdd C e f
  | .num c => exAddNum C e c
  | _ => M.throw .type

/-- `Expression.__rmul__` on a scalar (`expression.py` 60-66). -/
def exScale (s : Sym) (e : ExId) : M ExId := do
  let a ← getEx e
  newEx (a.dict.mapVals fun v => timesS C v s)

/-- `Expression.__rmul__` / `__mul__` on any python value (`expression.py` 60-69). -/
def exMulVal (e : ExId) : PyVal → M ExId
  | .num c => exScale C (Sym.num c) e
  | .sym s => exScale C s e
  | _ => M.throw .assertion

/-- `Expression.__neg__` (`expression.py` 57-58). -/
def exNeg (e : ExId) : M ExId := exScale C (Sym.num (-1)) e

/-- `Expression.__sub__` on an Expression (`expression.py` 51-52). -/
def exSub (e f : ExId) : M ExId := do
  let n ← exNeg C f
  exAdd C e n

/-- `Expression.__sub__` on a number (`expression.py` 51-52). -/
def exSubNum (e : ExId) (c : ℚ) : M ExId := exAddNum C e (-c)

/-- `Expression.__rsub__`: number minus expression (`expression.py` 54-55). -/
def exRSubNum (c : ℚ) (e : ExId) : M ExId := do
  let s ← exSubNum C e c
  exNeg C s

/-- `Expression.__truediv__` by a number (`expression.py` 71-72). -/
def exDiv (e : ExId) (c : ℚ) : M ExId :=
  if c = 0 then M.throw .zeroDivision else exScale C (Sym.num (1 / c)) e

/-- `element.decomposition_dict = prune_dict(...)` for a Point (`function.py` 101). -/
def prunePt (p : PtId) : M Unit := fun h =>
  match h.pts[p]? with
  | some o => .ok ((), { h with pts := h.pts.set p { o with dict := o.dict.prune (isZeroS C) } })
  | none => .error .dangling

/-- `element.decomposition_dict = prune_dict(...)` for an Expression (`function.py` 101). -/
def pruneEx (e : ExId) : M Unit := fun h =>
  match h.exs[e]? with
  | some o => .ok ((), { h with exs := h.exs.set e { o with dict := o.dict.prune (isZeroS C) } })
  | none => .error .dangling

end Verif
