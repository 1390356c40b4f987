import Verif.Model.Graph
import Mathlib.Analysis.InnerProductSpace.Basic

/-!
# The discretized decentralized methods (`discretized_methods.py`)

Arrays whose last axis is the vector axis are functions into a vector space `V` over a field `K`.  Simplified: arithmetic is exact; progress
printing is left out; `alg_type` and the entries of `params` are one value of an inductive type (an unknown `alg_type` leaves variables unset
and raises `UnboundLocalError`).
-/

namespace Verif

variable {K V : Type} [Field K] [AddCommGroup V] [Module K V]

/-! ### Decentralized ADMM -/

/-- `alg_type` with the parameters it reads (`discretized_methods.py` 19-27) -/
inductive Dadmm (K : Type) where
  /-- `"dadmm"` -/
  | plain (R : K)
  /-- `"cir_dadmm"` -/
  | circuit (R h Inductance : K)
  /-- `"cir_dadmm_c"` -/
  | capacitor (R h Inductance Capacitance : K)

namespace Dadmm

/-- `R` (`discretized_methods.py` 20, 23, 26) -/
def R : Dadmm K → K
  | plain R => R
  | circuit R _ _ => R
  | capacitor R _ _ _ => R

/-- `step_size` (`discretized_methods.py` 21, 24, 27) -/
def stepSize : Dadmm K → K
  | plain R => 1 / R
  | circuit _ h Inductance => h / Inductance
  | capacitor _ h Inductance _ => h / Inductance

/-- the variables of the loop: `x_k[j]`, `i_L_k[j][r]`, `e_k[j][r]` -/
structure State (V : Type) where
  x : ℕ → V
  iL : ℕ → ℕ → V
  e : ℕ → ℕ → V

/-- the arrays before the loop (`discretized_methods.py` 31-34) -/
def start : State V := ⟨fun _ => 0, fun _ _ => 0, fun _ _ => 0⟩

/-- `zj` (`discretized_methods.py` 43) -/
def z (a : Dadmm K) (deg : ℕ → ℕ) (s : State V) (j : ℕ) : V :=
  (1 / (deg j : K)) • ∑ r ∈ Finset.range (deg j), (a.R • s.iL j r + s.e j r)

/-- `x_k[jj] = prox_operators[jj](zj, R/node_degrees[jj])` (`discretized_methods.py` 44) -/
def newX (a : Dadmm K) (deg : ℕ → ℕ) (prox : ℕ → V → K → V) (s : State V) (j : ℕ) : V :=
  prox j (a.z deg s j) (a.R / (deg j : K))

/-- the assignment to `e_k[j][l_idx]` (`discretized_methods.py` 49-53), `l` is the neighbour at position `r` -/
def newEAt (a : Dadmm K) (adj : ℕ → List ℕ) (s : State V) (x : ℕ → V) (j r l : ℕ) : V :=
  match a with
  | capacitor R h _ Capacitance =>
    if (j = 3 ∧ l = 4) ∨ (j = 4 ∧ l = 3) then
      s.e j r - (h / Capacitance) • (s.iL j r + s.iL l ((adj l).idxOf j) + (1 / R) • ((2 : K) • s.e j r - x j - x l))
    else (1 / 2 : K) • (x j + x l)
  | _ => (1 / 2 : K) • (x j + x l)

/-- `e_k` after the loop of lines 47-53: positions without a neighbour keep their value -/
def newE (a : Dadmm K) (adj : ℕ → List ℕ) (s : State V) (x : ℕ → V) (j r : ℕ) : V :=
  match (adj j)[r]? with
  | some l => a.newEAt adj s x j r l
  | none => s.e j r

/-- one iteration of the main loop (`discretized_methods.py` 36-55) -/
def step (a : Dadmm K) (deg : ℕ → ℕ) (adj : ℕ → List ℕ) (prox : ℕ → V → K → V) (s : State V) : State V :=
  let x := a.newX deg prox s
  let e := a.newE adj s x
  ⟨x, fun j r => s.iL j r + a.stepSize • (e j r - x j), e⟩

/-- the states after 0, 1, …, `itr` iterations -/
def states (a : Dadmm K) (deg : ℕ → ℕ) (adj : ℕ → List ℕ) (prox : ℕ → V → K → V) : ℕ → State V
  | 0 => start
  | k + 1 => a.step deg adj prox (a.states deg adj prox k)

/-- the exceptions of the first iteration: missing node, node without neighbours, neighbour without a row -/
def check (n : ℕ) (deg : List ℕ) (adj : List (List ℕ)) : Except Err Unit :=
  if (List.range n).all fun j => decide (j < deg.length) then
    if (List.range n).all fun j => decide (deg.getD j 0 ≠ 0) then
      if (List.range n).all fun j => (adj.getD j []).all fun l => decide (l < n) then .ok () else .error .index
    else .error .zeroDivision
  else .error .index

/-- the iterations of `dadmm` (`discretized_methods.py` 15-55): the function from a number of iterations to the state after them.  No later
iteration raises an exception that the first one does not raise. -/
def run (a : Dadmm K) (n itr : ℕ) (G : NxGraph) (prox : ℕ → V → K → V) : Except Err (ℕ → State V) := do
  let adj ← G.adjacency
  if itr ≠ 0 then check n G.nodeDegrees adj
  pure (a.states (G.nodeDegrees.getD · 0) (adj.getD · []) prox)

end Dadmm

section results
variable {E : Type} [NormedAddCommGroup E] [InnerProductSpace ℝ E]

/-- the four lists that `dadmm` returns -/
structure DadmmResult where
  errOptStar : List ℝ
  errOptReldiff : List ℝ
  constVio : List ℝ
  fReldiff : List ℝ

/-- `np.sqrt(np.sum((x - y)**2))` of two arrays with `n` rows -/
noncomputable def frobDist (n : ℕ) (x y : ℕ → E) : ℝ := Real.sqrt (∑ j ∈ Finset.range n, ‖x j - y j‖ ^ 2)

/-- `dadmm` (`discretized_methods.py` 7-62).  `xstar` are the rows of `x_opt_star`. -/
noncomputable def dadmm (a : Dadmm ℝ) (n itr : ℕ) (G : NxGraph) (xstar : ℕ → E) (fstar : ℝ) (prox : ℕ → E → ℝ → E) (f : ℕ → E → ℝ) :
    Except Err DadmmResult := do
  let st ← a.run n itr G prox
  pure {
    errOptStar := (List.range itr).map fun k => frobDist n (st (k + 1)).x xstar
    errOptReldiff := (List.range itr).map fun k => frobDist n (st (k + 1)).x xstar / frobDist n (fun _ => 0) xstar
    constVio := []
    fReldiff := (List.range itr).map fun k => |fstar - ∑ j ∈ Finset.range n, f j ((st (k + 1)).x j)| / fstar }

end results

/-! ### PG-EXTRA -/

/-- `alg_type` with the parameters it reads (`discretized_methods.py` 75-80); `rho` is `problem_data['rho']` -/
inductive PgExtra (K : Type) where
  /-- `"pg_extra"` -/
  | plain (rho : K)
  /-- `"pg_extra_par_c"` -/
  | parC (R h Capacitance : K)

namespace PgExtra

/-- the arrays of the loop; `w` is used by `"pg_extra"`, `iL` and `iC` by `"pg_extra_par_c"` -/
structure State (V : Type) where
  x : ℕ → V
  w : ℕ → V
  iL : ℕ → ℕ → V
  iC : ℕ → ℕ → V

/-- the arrays before the loop (`discretized_methods.py` 88-99) -/
def start : State V := ⟨fun _ => 0, fun _ => 0, fun _ _ => 0, fun _ _ => 0⟩

/-- `W[j] @ x` -/
def mix (n : ℕ) (W : ℕ → ℕ → K) (x : ℕ → V) (j : ℕ) : V := ∑ l ∈ Finset.range n, W j l • x l

/-- row `j` of `(np.eye(n) - W) @ x` -/
def laplace (n : ℕ) (W : ℕ → ℕ → K) (x : ℕ → V) (j : ℕ) : V := ∑ l ∈ Finset.range n, ((if j = l then 1 else 0) - W j l) • x l

/-- `R_matrix` (`discretized_methods.py` 80) -/
def rMatrix (R : K) (W : ℕ → ℕ → K) (j l : ℕ) : K := 1 / R * W j l

/-- `e_k_jj` (`discretized_methods.py` 114-120) -/
def eArg (a : PgExtra K) (n : ℕ) (W : ℕ → ℕ → K) (adj : ℕ → List ℕ) (grad : ℕ → V → V) (s : State V) (j : ℕ) : V :=
  match a with
  | plain rho => mix n W s.x j - s.w j - rho • grad j (s.x j)
  | parC R _ _ => mix n W s.x j - R • ((adj j).map fun l => s.iL j l + s.iC j l).sum - R • grad j (s.x j)

/-- the step handed to the proximal operators (`discretized_methods.py` 69, 77) -/
def rho : PgExtra K → K
  | plain rho => rho
  | parC R _ _ => R

/-- one iteration (`discretized_methods.py` 101-127) -/
def step (a : PgExtra K) (n : ℕ) (W : ℕ → ℕ → K) (adj : ℕ → List ℕ) (prox : ℕ → V → K → V) (grad : ℕ → V → V) (s : State V) : State V :=
  let x := fun j => prox j (a.eArg n W adj grad s j) a.rho
  match a with
  | plain _ => ⟨x, fun j => s.w j + (1 / 2 : K) • laplace n W s.x j, s.iL, s.iC⟩
  | parC R h Capacitance => ⟨x, s.w,
      fun j l => if l ∈ adj j then s.iL j l + (h * rMatrix R W j l) • (s.x j - s.x l) else s.iL j l,
      fun j l => if l ∈ adj j then s.iC j l + (Capacitance / h * rMatrix R W j l) • ((x j - x l) - (s.x j - s.x l)) else s.iC j l⟩

/-- the state after `k` iterations -/
def states (a : PgExtra K) (n : ℕ) (W : ℕ → ℕ → K) (adj : ℕ → List ℕ) (prox : ℕ → V → K → V) (grad : ℕ → V → V) : ℕ → State V
  | 0 => start
  | k + 1 => a.step n W adj prox grad (a.states n W adj prox grad k)

/-- the exceptions of the first iteration of `"pg_extra_par_c"`: a node without an adjacency list, a neighbour without a row -/
def check (n : ℕ) (adj : List (List ℕ)) : Except Err Unit :=
  if (List.range n).all fun j => decide (j < adj.length) && (adj.getD j []).all fun l => decide (l < n) then .ok () else .error .index

/-- the iterations of `pg_extra` (`discretized_methods.py` 65-127).  `"pg_extra"` does not read the graph. -/
def run (a : PgExtra K) (n itr : ℕ) (W : ℕ → ℕ → K) (G : NxGraph) (prox : ℕ → V → K → V) (grad : ℕ → V → V) : Except Err (ℕ → State V) :=
  match a with
  | plain _ => pure (a.states n W (fun _ => []) prox grad)
  | parC _ _ _ => do
    let adj ← G.adjacency
    if itr ≠ 0 then check n adj
    pure (a.states n W (adj.getD · []) prox grad)

end PgExtra

section results
variable {E : Type} [NormedAddCommGroup E] [InnerProductSpace ℝ E]

/-- the five lists that `pg_extra` returns -/
structure PgResult where
  opNorm : List ℝ
  errOptStar : List ℝ
  errOptReldiff : List ℝ
  constVio : List ℝ
  fReldiff : List ℝ

/-- `pg_extra` (`discretized_methods.py` 65-137).  `fh` is `f_plus_h`; `sc_index_set` is never read. -/
noncomputable def pgExtra (a : PgExtra ℝ) (n itr : ℕ) (W : ℕ → ℕ → ℝ) (G : NxGraph) (xstar : ℕ → E) (fstar : ℝ) (prox : ℕ → E → ℝ → E)
    (grad : ℕ → E → E) (fh : ℕ → E → ℝ) : Except Err PgResult := do
  let st ← a.run n itr W G prox grad
  pure {
    opNorm := (List.range itr).map fun k => ∑ j ∈ Finset.range n, ‖(st (k + 1)).x j - (st k).x j‖ ^ 2
    errOptStar := (List.range itr).map fun k => frobDist n (st (k + 1)).x xstar
    errOptReldiff := (List.range itr).map fun k => frobDist n (st (k + 1)).x xstar / frobDist n (fun _ => 0) xstar
    constVio := []
    fReldiff := (List.range itr).map fun k => |(∑ j ∈ Finset.range n, fh j ((st (k + 1)).x j) - fstar) / fstar| }

end results

end Verif
