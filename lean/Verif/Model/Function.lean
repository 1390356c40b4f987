import Verif.Model.PointExpr

/-!
# Functions (`function.py`)
-/

namespace Verif

/-- `Function.__init__` of a leaf (`function.py` 20-40): a new leaf function of the given class. -/
def newLeafFn (cls : FnClass) (reuse : Bool) : M FnId := fun h =>
  let f := h.fns.length
  .ok (f, { h with
    fns := h.fns ++ [⟨true, some h.fnCounter, cls, reuse, [(f, 1)], [], [], []⟩]
    fnCounter := h.fnCounter + 1
    fnList := h.fnList ++ [f] })

/-- `Function(is_leaf=False, decomposition_dict=d, reuse_gradient=r)` (`function.py` 20-40). -/
def newFn (d : Dict FnId ℚ) (reuse : Bool) : M FnId := fun h =>
  .ok (h.fns.length, { h with
    fns := h.fns ++ [⟨false, none, .base, reuse, d, [], [], []⟩]
    fnList := h.fnList ++ [h.fns.length] })

/-- `Function.__add__` (`function.py` 45-50).  Weights are numbers, so `sp.simplify(a+b)` is `a+b`. -/
def fnAdd (f g : FnId) : M FnId := do
  let a ← getFn f
  let b ← getFn g
  newFn (Dict.merge (· + ·) a.dict b.dict) (a.reuse && b.reuse)

/-- `Function.__rmul__` by a number (`function.py` 58-66). -/
def fnScale (c : ℚ) (f : FnId) : M FnId := do
  let a ← getFn f
  newFn (a.dict.mapVals fun v => v * c) a.reuse

/-- `Function.__neg__` (`function.py` 55-56). -/
def fnNeg (f : FnId) : M FnId := fnScale (-1) f

/-- `Function.__sub__` (`function.py` 52-53). -/
def fnSub (f g : FnId) : M FnId := do
  let n ← fnNeg g
  fnAdd f n

/-- `Function.__truediv__` (`function.py` 71-72). -/
def fnDiv (f : FnId) (c : ℚ) : M FnId :=
  if c = 0 then M.throw .zeroDivision else fnScale (1 / c) f

/-- Constructors of the function classes (`function.py` 203-207, 220-229, 245-251, 266-275).  `L = none` is `np.inf`.
`reuse` is the keyword `reuse_gradient`; the smooth classes ignore it and always reuse (line 226). -/
inductive FnDecl where
  | convex (reuse : Bool)
  | strongly (mu : ℚ) (reuse : Bool)
  | smoothStrongly (mu : ℚ) (L : Option ℚ)
  | smoothConvex (L : Option ℚ)
deriving DecidableEq

/-- `CircuitOpt.declare_function` (`circuit_opt.py` 532-535) with the class constructors of `function.py`. -/
def declareFunction : FnDecl → M FnId
  | .convex reuse => newLeafFn .convex reuse
  | .strongly mu reuse => newLeafFn (.strongly mu) reuse
  | .smoothStrongly _ none => M.throw .assertion
  | .smoothStrongly mu (some L) => newLeafFn (.smoothStrongly mu L) true
  | .smoothConvex none => M.throw .assertion
  | .smoothConvex (some L) => newLeafFn (.smoothConvex L) true

/-- `def_function` (`function.py` 278-287), `define_function` in ciropt mode (`utils.py` 239-248). -/
def defDecl (mu : ℚ) (L : Option ℚ) : FnDecl :=
  if mu ≠ 0 ∧ L.isSome then .smoothStrongly mu L
  else if mu ≠ 0 then .strongly mu false
  else if L.isSome then .smoothConvex L
  else .convex false

/-- `def_function` (`function.py` 278-287), `define_function` (`utils.py` 239-248). -/
def defFunction (mu : ℚ) (L : Option ℚ) : M FnId := declareFunction (defDecl mu L)

variable (C : CAS)

/-- the loop of `_is_already_evaluated_on_point` (`function.py` 78-81) -/
def findTriplet (d : Dict PtId Sym) : List Triplet → M (Option (PtId × ExId))
  | [] => pure none
  | t :: ts => do
    let o ← getPt t.1
    if Dict.eqB C.eqB o.dict d then pure (some t.2) else findTriplet d ts

/-- `_is_already_evaluated_on_point` (`function.py` 77-81). -/
def isEvaluated (f : FnId) (x : PtId) : M (Option (PtId × ExId)) := do
  let fo ← getFn f
  let xo ← getPt x
  findTriplet C xo.dict fo.points

/-- the three lists of `_separate_leaf_functions_regarding_their_need_on_point` -/
structure Needs where
  nothing : List (FnId × ℚ)
  gradient : List (FnId × ℚ)
  both : List (FnId × ℚ)

/-- the loop of `_separate_leaf_functions_regarding_their_need_on_point` (`function.py` 87-94) -/
def separateLoop (x : PtId) : List (FnId × ℚ) → Needs → M Needs
  | [], acc => pure acc
  | kw :: rest, acc => do
    match ← isEvaluated C kw.1 x with
    | some _ =>
      let fo ← getFn kw.1
      if fo.reuse then separateLoop x rest { acc with nothing := acc.nothing ++ [kw] }
      else separateLoop x rest { acc with gradient := acc.gradient ++ [kw] }
    | none => separateLoop x rest { acc with both := acc.both ++ [kw] }

/-- `_separate_leaf_functions_regarding_their_need_on_point` (`function.py` 83-95). -/
def separate (f : FnId) (x : PtId) : M Needs := do
  let fo ← getFn f
  separateLoop C x fo.dict ⟨[], [], []⟩

/-- The methods `oracle` and `add_point` as called recursively. -/
structure Methods where
  oracle : FnId → PtId → M (PtId × ExId)
  addPoint : FnId → Triplet → M Unit

/-- the loop of `add_point` (`function.py` 117-126) over the leaf functions;
`n` is `number_of_currently_computed_gradients_and_values`. -/
def addPointLoop (r : Methods) (x : PtId) (total : ℕ) : List (FnId × ℚ) → PtId → ExId → ℕ → M Unit
  | [], _, _, _ => pure ()
  | kw :: rest, gl, vl, n =>
    if n + 1 < total then do
      let gv ← r.oracle kw.1 x
      let wg ← ptScale C (Sym.num kw.2) gv.1
      let gl' ← ptSub C gl wg
      let wv ← exScale C (Sym.num kw.2) gv.2
      let vl' ← exSub C vl wv
      addPointLoop r x total rest gl' vl' (n + 1)
    else do
      let gl' ← ptDiv C gl kw.2
      let vl' ← exDiv C vl kw.2
      r.addPoint kw.1 (x, gl', vl')
      addPointLoop r x total rest gl' vl' n

/-- lines 100-104 of `add_point` (`function.py`): prune the triplet, record it, record stationary points -/
def recordTriplet (f : FnId) (t : Triplet) : M Unit := do
  prunePt C t.1
  prunePt C t.2.1
  pruneEx C t.2.2
  let fo ← getFn f
  setFn f { fo with points := fo.points ++ [t] }
  let go ← getPt t.2.1
  if go.dict = [] then
    let fo ← getFn f
    setFn f { fo with stationary := fo.stationary ++ [t] }
  else pure ()

/-- `Function.add_point` (`function.py` 97-126). -/
def addPointBody (r : Methods) (f : FnId) (t : Triplet) : M Unit := do
  recordTriplet C f t
  let fo ← getFn f
  if fo.leaf then pure ()
  else do
    setFn f { fo with dict := fo.dict.prune (fun w => w = 0) }
    let nd ← separate C f t.1
    if nd.gradient ++ nd.both = [] then pure ()
    else do
      let fo ← getFn f
      addPointLoop C r t.1 fo.dict.length (nd.nothing ++ (nd.gradient ++ nd.both)) t.2.1 t.2.2 0

/-- `Function.value` (`function.py` 161-168). -/
def valueBody (r : Methods) (f : FnId) (x : PtId) : M ExId := do
  match ← isEvaluated C f x with
  | some gv => pure gv.2
  | none => do
    let gv ← r.oracle f x
    pure gv.2

/-- `Function.gradient` / `subgradient` (`function.py` 153-159). -/
def gradientBody (r : Methods) (f : FnId) (x : PtId) : M PtId := do
  let gv ← r.oracle f x
  pure gv.1

/-- the loop `f += weight * function.value(point)` (`function.py` 140-141) -/
def sumValues (r : Methods) (x : PtId) : List (FnId × ℚ) → ExId → M ExId
  | [], acc => pure acc
  | kw :: rest, acc => do
    let v ← valueBody C r kw.1 x
    let wv ← exScale C (Sym.num kw.2) v
    let acc' ← exAdd C acc wv
    sumValues r x rest acc'

/-- the loop `g += weight * function.gradient(point)` (`function.py` 146-147) -/
def sumGradients (r : Methods) (x : PtId) : List (FnId × ℚ) → PtId → M PtId
  | [], acc => pure acc
  | kw :: rest, acc => do
    let g ← gradientBody r kw.1 x
    let wg ← ptScale C (Sym.num kw.2) g
    let acc' ← ptAdd C acc wg
    sumGradients r x rest acc'

/-- lines 137-143 of `oracle` (`function.py`): the value -/
def oracleValue (r : Methods) (f : FnId) (x : PtId) (a : Option (PtId × ExId)) (nd : Needs) : M ExId :=
  match a with
  | some gv => pure gv.2
  | none =>
    if nd.both = [] then do
      let e ← newEx []
      let fo ← getFn f
      sumValues C r x fo.dict e
    else newLeafEx

/-- lines 144-149 of `oracle` (`function.py`): the gradient -/
def oracleGradient (r : Methods) (f : FnId) (x : PtId) (nd : Needs) : M PtId :=
  if nd.both = [] ∧ nd.gradient = [] then do
    let g ← newPt []
    let fo ← getFn f
    sumGradients C r x fo.dict g
  else newLeafPt

/-- lines 133-151 of `oracle` (`function.py`): no cached gradient may be returned -/
def oracleFresh (r : Methods) (f : FnId) (x : PtId) (a : Option (PtId × ExId)) : M (PtId × ExId) := do
  let nd ← separate C f x
  let v ← oracleValue C r f x a nd
  let g ← oracleGradient C r f x nd
  r.addPoint f (x, g, v)
  pure (g, v)

/-- `Function.oracle` (`function.py` 128-151). -/
def oracleBody (r : Methods) (f : FnId) (x : PtId) : M (PtId × ExId) := do
  let a ← isEvaluated C f x
  let fo ← getFn f
  match a with
  | some gv => if fo.reuse then pure gv else oracleFresh C r f x a
  | none => oracleFresh C r f x a

/-- `oracle` and `add_point` with at most `n` nested calls (python's recursion limit). -/
def methods : ℕ → Methods
  | 0 => ⟨fun _ _ => M.throw .recursion, fun _ _ => M.throw .recursion⟩
  | n + 1 => ⟨oracleBody C (methods n), addPointBody C (methods n)⟩

/-- Depth of nested `oracle`/`add_point` calls python allows (its recursion limit is 1000 frames). -/
def pyDepth : ℕ := 100

/-- `Function.oracle` (`function.py` 128-151) -/
def oracle (f : FnId) (x : PtId) : M (PtId × ExId) := (methods C pyDepth).oracle f x
/-- `Function.add_point` (`function.py` 97-126) -/
def addPoint (f : FnId) (t : Triplet) : M Unit := (methods C pyDepth).addPoint f t
/-- `Function.gradient` (`function.py` 153-159) -/
def gradient (f : FnId) (x : PtId) : M PtId := gradientBody (methods C pyDepth) f x
/-- `Function.value` and `Function.__call__` (`function.py` 161-171) -/
def value (f : FnId) (x : PtId) : M ExId := valueBody C (methods C pyDepth) f x

/-- `Function.stationary_point(return_gradient_and_function_value=True)` (`function.py` 173-182). -/
def stationaryPoint (f : FnId) : M Triplet := do
  let x ← newLeafPt
  let g ← newPt []
  let v ← newLeafEx
  addPoint C f (x, g, v)
  pure (x, g, v)

/-- `proximal_step` (`function.py` 185-191). -/
def proximalStep (x0 : PtId) (f : FnId) (gamma : Sym) : M Triplet := do
  let gx ← newLeafPt
  let fx ← newLeafEx
  let sg ← ptScale C gamma gx
  let x ← ptSub C x0 sg
  addPoint C f (x, gx, fx)
  pure (x, gx, fx)

/-- `subgrad_conjugate` (`function.py` 194-199). -/
def subgradConjugate (gx : PtId) (f : FnId) : M PtId := do
  let x ← newLeafPt
  let fx ← newLeafEx
  addPoint C f (x, gx, fx)
  pure x

/-- `fj - fi + gj * (xi - xj)` (`function.py` 216, 238-239, 260-261) -/
def convexPart (ti tj : Triplet) : M ExId := do
  let a ← exSub C tj.2.2 ti.2.2
  let d ← ptSub C ti.1 tj.1
  let b ← ptInner C tj.2.1 d
  exAdd C a b

/-- The interpolation inequality (an expression meant to be `≤ 0`) of an ordered pair of samples
(`function.py` 216, 238-241, 260-262). -/
def interpolation (cls : FnClass) (ti tj : Triplet) : M ExId :=
  match cls with
  | .base => M.throw .notImplemented
  | .convex => convexPart C ti tj
  | .strongly mu => do
    let c ← convexPart C ti tj
    let d ← ptSub C ti.1 tj.1
    let n ← ptPow C d 2
    let q ← exScale C (Sym.num (mu / 2)) n
    exAdd C c q
  | .smoothStrongly mu L => smooth mu L
  | .smoothConvex L => smooth 0 L
where
  /-- `function.py` 238-241 -/
  smooth (mu L : ℚ) : M ExId := do
    let c ← convexPart C ti tj
    if L = 0 then M.throw .zeroDivision
    else do
      let dg ← ptSub C ti.2.1 tj.2.1
      let n ← ptPow C dg 2
      let q ← exScale C (Sym.num (1 / (2 * L))) n
      let s ← exAdd C c q
      if 1 - mu / L = 0 then M.throw .zeroDivision
      else do
        let dx ← ptSub C ti.1 tj.1
        let dg' ← ptSub C ti.2.1 tj.2.1
        let sg ← ptScale C (Sym.num (1 / L)) dg'
        let y ← ptSub C dx sg
        let n2 ← ptPow C y 2
        let q2 ← exScale C (Sym.num (mu / (2 * (1 - mu / L)))) n2
        exAdd C s q2

/-- `self.list_of_class_constraints.append(e)` -/
def appendClassCon (f : FnId) (e : ExId) : M Unit := do
  let fo ← getFn f
  setFn f { fo with classCons := fo.classCons ++ [e] }

/-- inner loop over `point_j` of `add_class_constraints` (`function.py` 212-216) -/
def classConsInner (f : FnId) (cls : FnClass) (ti : Triplet) : List Triplet → M Unit
  | [] => pure ()
  | tj :: rest =>
    if ti ≠ tj then do
      let e ← interpolation C cls ti tj
      appendClassCon f e
      classConsInner f cls ti rest
    else classConsInner f cls ti rest

/-- outer loop over `point_i` of `add_class_constraints` (`function.py` 210-216) -/
def classConsOuter (f : FnId) (cls : FnClass) (all : List Triplet) : List Triplet → M Unit
  | [] => pure ()
  | ti :: rest => do
    classConsInner C f cls ti all
    classConsOuter f cls all rest

/-- `add_class_constraints` (`function.py` 74-75, 209-216, 231-241, 253-262). -/
def addClassConstraints (f : FnId) : M Unit := do
  let fo ← getFn f
  if fo.cls = .base then M.throw .notImplemented
  else classConsOuter C f fo.cls fo.points fo.points

end Verif
