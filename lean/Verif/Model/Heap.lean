import Verif.Model.Dict

/-!
# The python heap: Point, Expression and Function objects and their class attributes

Objects are referred to by identity (an index into the list of all objects of their class), because
`Function.add_point` mutates dictionaries of objects the caller still holds, and because dictionary keys and tuples
of objects are compared by identity (the classes define no `__eq__`).
-/

namespace Verif

/-- identity of a `Point` object -/
abbrev PtId := ℕ
/-- identity of an `Expression` object -/
abbrev ExId := ℕ
/-- identity of a `Function` object -/
abbrev FnId := ℕ

/-- A `Point` object (`point.py` 20-34).  `_value` is never set (see property C39) and is left out. -/
structure PtObj where
  leaf : Bool
  counter : Option ℕ
  dict : Dict PtId Sym
deriving DecidableEq

/-- A key of `Expression.decomposition_dict` (`expression.py` 26, 40-42, `sympy_parsing.py` 141):
a leaf expression, a pair of leaf points, or the constant `1`. -/
inductive ExKey where
  | fn (e : ExId)
  | inner (p q : PtId)
  | one
deriving DecidableEq

/-- An `Expression` object (`expression.py` 19-33). -/
structure ExObj where
  leaf : Bool
  counter : Option ℕ
  dict : Dict ExKey Sym
deriving DecidableEq

/-- The class of a function object with its parameters (`function.py` 15, 202, 219, 244, 265).
`base` is `Function` itself: the class of sums and multiples (`function.py` 48, 64). -/
inductive FnClass where
  | base
  | convex
  | smoothStrongly (mu L : ℚ)
  | strongly (mu : ℚ)
  | smoothConvex (L : ℚ)
deriving DecidableEq

/-- a recorded sample `(point, gradient, value)` (`function.py` 98) -/
abbrev Triplet := PtId × PtId × ExId

/-- A `Function` object (`function.py` 20-40).  Simplification: weights of combinations are numbers (never symbols). -/
structure FnObj where
  leaf : Bool
  counter : Option ℕ
  cls : FnClass
  reuse : Bool
  dict : Dict FnId ℚ
  points : List Triplet
  stationary : List Triplet
  classCons : List ExId
deriving DecidableEq

/-- All objects, and the class attributes `Point.counter`, `Point.list_of_leaf_points` (`point.py` 17-18),
`Expression.counter`, `Expression.list_of_leaf_expressions` (`expression.py` 16-17),
`Function.counter`, `Function.list_of_functions` (`function.py` 17-18). -/
structure Heap where
  pts : List PtObj
  exs : List ExObj
  fns : List FnObj
  ptCounter : ℕ
  exCounter : ℕ
  fnCounter : ℕ
  leafPts : List PtId
  leafExs : List ExId
  fnList : List FnId
deriving DecidableEq

/-- a fresh interpreter -/
def Heap.empty : Heap := ⟨[], [], [], 0, 0, 0, [], [], []⟩

/-- `CircuitOpt._reset_classes` (`circuit_opt.py` 522-529): class attributes are reset, objects stay. -/
def Heap.reset (h : Heap) : Heap :=
  { h with ptCounter := 0, exCounter := 0, fnCounter := 0, leafPts := [], leafExs := [], fnList := [] }

/-- Python exceptions.  `dangling` is a reference to an object that does not exist, impossible in python. -/
inductive Err where
  | assertion | type | key | index | value | zeroDivision | recursion | notImplemented | unbound | attribute | dangling
deriving DecidableEq, Repr

/-- A python computation: it changes the heap and returns or raises.
Simplification: the heap after an exception is not observed. -/
def M (α : Type) : Type := Heap → Except Err (α × Heap)

namespace M

def pure {α} (a : α) : M α := fun h => .ok (a, h)
def bind {α β} (x : M α) (f : α → M β) : M β := fun h =>
  match x h with
  | .ok (a, h') => f a h'
  | .error e => .error e
instance : Monad M where
  pure := M.pure
  bind := M.bind
/-- `raise` -/
def throw {α} (e : Err) : M α := fun _ => .error e
def get : M Heap := fun h => .ok (h, h)
def set (h : Heap) : M Unit := fun _ => .ok ((), h)
/-- python `assert b` -/
def assert (b : Bool) : M Unit := if b then Pure.pure () else throw .assertion
def ofOption {α} (e : Err) : Option α → M α
  | some a => Pure.pure a
  | none => throw e
end M

/-- attributes of a `Point` -/
def getPt (p : PtId) : M PtObj := fun h =>
  match h.pts[p]? with
  | some o => .ok (o, h)
  | none => .error .dangling

/-- attributes of an `Expression` -/
def getEx (e : ExId) : M ExObj := fun h =>
  match h.exs[e]? with
  | some o => .ok (o, h)
  | none => .error .dangling

/-- attributes of a `Function` -/
def getFn (f : FnId) : M FnObj := fun h =>
  match h.fns[f]? with
  | some o => .ok (o, h)
  | none => .error .dangling

/-- assignment to attributes of a `Function` -/
def setFn (f : FnId) (o : FnObj) : M Unit := fun h => .ok ((), { h with fns := h.fns.set f o })

end Verif
