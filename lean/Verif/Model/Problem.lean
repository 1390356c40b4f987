import Verif.Model.Program

/-!
# Translation of a problem to symbolic matrices (`circuit_opt.py` 57-160)
-/

namespace Verif

/-- `Fweights` and `Gweights` (`circuit_opt.py` 68-69): entries at indices outside the dimensions are 0.
Simplification: numpy object arrays are functions of the indices. -/
structure FG where
  F : ℕ → Sym
  G : ℕ → ℕ → Sym

/-- `np.zeros(...)` (`circuit_opt.py` 68-69, 108-109) -/
def FG.zero : FG := ⟨fun _ => Sym.num 0, fun _ _ => Sym.num 0⟩

/-- `Fweights[k] += w` (`circuit_opt.py` 75) -/
def FG.addF (m : FG) (k : ℕ) (w : Sym) : FG := { m with F := fun i => if i = k then m.F i + w else m.F i }

/-- `Gweights[k, l] += w` (`circuit_opt.py` 80-81) -/
def FG.addG (m : FG) (k l : ℕ) (w : Sym) : FG := { m with G := fun i j => if i = k ∧ j = l then m.G i j + w else m.G i j }

/-- `sum_ij_La += lamb_ij * Fweights_ij; sum_ij_AC += lamb_ij * Gweights_ij` (`circuit_opt.py` 130-131, 149-150) -/
def FG.addScaled (acc : FG) (s : Sym) (m : FG) : FG :=
  ⟨fun i => acc.F i + s * m.F i, fun i j => acc.G i j + s * m.G i j⟩

/-- `a - b` of two pairs of arrays (`circuit_opt.py` 224-225) -/
def FG.sub (a b : FG) : FG := ⟨fun i => a.F i - b.F i, fun i j => a.G i j - b.G i j⟩

variable (C : CAS)

/-- lines 71-72 of `_expression_to_matrix` (`circuit_opt.py`): `float(w)` if `w` is a number.  Simplification: `float(w)` is
computed from `sp.simplify(w)` (every stored weight is the result of `sp.simplify`). -/
def matWeight (w : Sym) : Sym := if (C.simp w).vars = [] then Sym.num (C.simp w).toFloat else w

/-- one iteration of the loop of `_expression_to_matrix` (`circuit_opt.py` 70-81).  An index outside the array is IndexError. -/
def matStep (dimG dimF : ℕ) (m : FG) (kw : ExKey × Sym) : M FG :=
  match kw.1 with
  | .fn e => do
    let o ← getEx e
    M.assert o.leaf
    let k ← M.ofOption .index o.counter
    if k < dimF then pure (m.addF k (matWeight C kw.2)) else M.throw .index
  | .inner p q => do
    let o1 ← getPt p
    let o2 ← getPt q
    M.assert (o1.leaf && o2.leaf)
    let i ← M.ofOption .index o1.counter
    let j ← M.ofOption .index o2.counter
    if i < dimG ∧ j < dimG then
      pure ((m.addG i j ((matWeight C kw.2).divNum 2)).addG j i ((matWeight C kw.2).divNum 2))
    else M.throw .index
  | .one => pure m

/-- the loop of `_expression_to_matrix` (`circuit_opt.py` 70-81) -/
def matLoop (dimG dimF : ℕ) : Dict ExKey Sym → FG → M FG
  | [], m => pure m
  | kw :: rest, m => do
    let m' ← matStep C dimG dimF m kw
    matLoop dimG dimF rest m'

/-- `CircuitOpt._expression_to_matrix` (`circuit_opt.py` 57-82) -/
def exprToMatrix (e : ExId) (dimG dimF : ℕ) : M FG := do
  let o ← getEx e
  matLoop C dimG dimF o.dict FG.zero

/-- keys of `sp_exp` (`circuit_opt.py` 121, 127, 146, 158): a 4-tuple or the string "FG_obj" -/
inductive SpKey where
  | tup (a b c d : ℕ)
  | obj
deriving DecidableEq

/-- `prefix_name + "|%d.%d|"%(i, j)` where `prefix_name` is `"lamb%d"%k` (`circuit_opt.py` 119, 122, 138, 142) -/
def lambName (k i j : ℕ) : Name := "lamb" ++ toString k ++ "|" ++ toString i ++ "." ++ toString j ++ "|"
/-- `"nu0" + "|%d.%d|"%(i, j)` (`circuit_opt.py` 125, 128); `k` is always 0 -/
def nuName (k i j : ℕ) : Name := "nu" ++ toString k ++ "|" ++ toString i ++ "." ++ toString j ++ "|"

/-- local variables of `circuit_symbolic_matrices` (`circuit_opt.py` 108-111).  `nI`, `nE` are `total_I_size`, `total_eq_size`;
in the loop over extra constraints they are equal to `ineq_idx`, `eq_idx`. -/
structure SymAcc where
  sum : FG
  ineq : Dict SpKey FG
  eq : Dict SpKey FG
  nI : ℕ
  nE : ℕ

/-- lines 118-131 of `circuit_symbolic_matrices` (`circuit_opt.py`): record the matrices of an extra constraint -/
def SymAcc.addExtra (acc : SymAcc) (k : Kind) (m : FG) : SymAcc :=
  match k with
  | .inequality =>
    ⟨acc.sum.addScaled (Sym.var (lambName 0 acc.nI 0)) m, acc.ineq.set (.tup 0 0 acc.nI 0) m, acc.eq, acc.nI + 1, acc.nE⟩
  | .equality =>
    ⟨acc.sum.addScaled (Sym.var (nuName 0 acc.nE 0)) m, acc.ineq, acc.eq.set (.tup 1 0 acc.nE 0) m, acc.nI, acc.nE + 1⟩

/-- lines 142-150 of `circuit_symbolic_matrices` (`circuit_opt.py`): record the matrices of the inequality of the pair `(i, j)` of
function `k` -/
def SymAcc.addPair (acc : SymAcc) (k i j : ℕ) (m : FG) : SymAcc :=
  { acc with
    ineq := acc.ineq.set (.tup 0 k i j) m
    sum := acc.sum.addScaled (Sym.var (lambName k i j)) m }

/-- one iteration of the loop over extra constraints (`circuit_opt.py` 115-131) -/
def extraStep (dimG dimF : ℕ) (acc : SymAcc) (c : ExId × Kind) : M SymAcc := do
  let m ← exprToMatrix C c.1 dimG dimF
  pure (acc.addExtra c.2 m)

/-- the loop over extra constraints (`circuit_opt.py` 115-131) -/
def extraLoop (dimG dimF : ℕ) : List (ExId × Kind) → SymAcc → M SymAcc
  | [], acc => pure acc
  | c :: rest, acc => do
    let acc' ← extraStep C dimG dimF acc c
    extraLoop dimG dimF rest acc'

/-- body of the double loop over `i`, `j` (`circuit_opt.py` 141-150); `k` is `f_idx + shift_f_idx`; the second component of the
state is `counter` -/
def pairStep (dimG dimF : ℕ) (f : FnId) (k : ℕ) (s : SymAcc × ℕ) (ij : ℕ × ℕ) : M (SymAcc × ℕ) :=
  if ij.1 = ij.2 then pure s
  else do
    let fo ← getFn f
    let e ← M.ofOption .index fo.classCons[s.2]?
    let m ← exprToMatrix C e dimG dimF
    pure (s.1.addPair k ij.1 ij.2 m, s.2 + 1)

/-- the double loop `for i in range(n): for j in range(n)` (`circuit_opt.py` 139-150), as a loop over the pairs -/
def pairLoop (dimG dimF : ℕ) (f : FnId) (k : ℕ) : List (ℕ × ℕ) → SymAcc × ℕ → M (SymAcc × ℕ)
  | [], s => pure s
  | ij :: rest, s => do
    let s' ← pairStep C dimG dimF f k s ij
    pairLoop dimG dimF f k rest s'

/-- the pairs `(i, j)` in the order of the double loop -/
def loopPairs (n : ℕ) : List (ℕ × ℕ) := (List.range n).flatMap fun i => (List.range n).map fun j => (i, j)

/-- one iteration of the loop over leaf functions (`circuit_opt.py` 134-152) -/
def fnStep (dimG dimF : ℕ) (f : FnId) (k : ℕ) (acc : SymAcc) : M SymAcc := do
  addClassConstraints C f
  let fo ← getFn f
  let s ← pairLoop C dimG dimF f k (loopPairs fo.points.length) (acc, 0)
  let fo' ← getFn f
  M.assert (fo'.classCons.length == fo.points.length * (fo.points.length - 1))
  pure { s.1 with nI := s.1.nI + s.2 }

/-- the loop over leaf functions (`circuit_opt.py` 134-152); `k` starts at `shift_f_idx` -/
def fnLoop (dimG dimF : ℕ) : List FnId → ℕ → SymAcc → M SymAcc
  | [], _, acc => pure acc
  | f :: rest, k, acc => do
    let acc' ← fnStep C dimG dimF f k acc
    fnLoop dimG dimF rest (k + 1) acc'

/-- `d1.update(d2)` (`circuit_opt.py` 153) -/
def Dict.update {α β : Type} [DecidableEq α] (d1 d2 : Dict α β) : Dict α β := d2.foldl (fun d kv => d.set kv.1 kv.2) d1

/-- what `circuit_symbolic_matrices` returns (`circuit_opt.py` 160) -/
structure SymMats where
  spExp : Dict SpKey FG
  nI : ℕ
  nE : ℕ
  sum : FG

/-- `CircuitOpt.circuit_symbolic_matrices` (`circuit_opt.py` 85-160) -/
def symbolicMatrices (r : Regs) (leafs : List FnId) (dimG dimF : ℕ) : M SymMats := do
  let acc ← extraLoop C dimG dimF r.cons ⟨FG.zero, [], [], 0, 0⟩
  let shift := if acc.nI ≥ 1 then 1 else 0
  let acc ← fnLoop C dimG dimF leafs shift acc
  let sp := acc.ineq.update acc.eq
  M.assert (sp.length == acc.nI + acc.nE)
  let e ← M.ofOption .attribute r.metric
  let m ← exprToMatrix C e dimG dimF
  pure ⟨sp.set .obj m, acc.nI, acc.nE, acc.sum⟩

/-- `[function for function in Function.list_of_functions if function.get_is_leaf()]` (`circuit_opt.py` 201, 275, 395) -/
def leafFnIds (h : Heap) : List FnId :=
  h.fnList.filter fun f => match h.fns[f]? with
    | some o => o.leaf
    | none => false

/-- the calls `dim_G = Point.counter`, `dim_F = Expression.counter`, `circuit_symbolic_matrices(...)` common to all solvers
(`circuit_opt.py` 170-204, 272-280, 392-400) -/
def problemMatrices (r : Regs) : M SymMats := do
  let h ← M.get
  symbolicMatrices C r (leafFnIds h) h.ptCounter h.exCounter

end Verif
