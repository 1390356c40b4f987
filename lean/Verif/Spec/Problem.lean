import Verif.Model.Problem
import Verif.Spec.Denote
import Verif.Spec.Interp
import Verif.Spec.Invariant
import Mathlib.Algebra.BigOperators.Group.Finset.Basic

/-!
# What the matrices handed to a solver stand for
-/

namespace Verif
open scoped InnerProductSpace

/-- `<F, Fweights> + <G, Gweights>`: the value of a pair of weight arrays at function values `Fv` and Gram matrix `Gm`, when the
symbols have values `env` -/
noncomputable def FG.val (m : FG) (env : Name → ℝ) (dimF dimG : ℕ) (Fv : ℕ → ℝ) (Gm : ℕ → ℕ → ℝ) : ℝ :=
  ∑ k ∈ Finset.range dimF, (m.F k).eval env * Fv k +
  ∑ i ∈ Finset.range dimG, ∑ j ∈ Finset.range dimG, (m.G i j).eval env * Gm i j

variable {E : Type} [NormedAddCommGroup E] [InnerProductSpace ℝ E]

/-- the vector of values of the leaf expressions, in order of their counters -/
noncomputable def Heap.fvec (h : Heap) (ψ : ExId → ℝ) (k : ℕ) : ℝ := ψ (h.leafExs.getD k 0)

/-- the Gram matrix of the leaf points, in order of their counters -/
noncomputable def Heap.gram (h : Heap) (φ : PtId → E) (i j : ℕ) : ℝ := ⟪φ (h.leafPts.getD i 0), φ (h.leafPts.getD j 0)⟫_ℝ

/-- the numeric constant in an Expression: the weight of the key `1` -/
def Heap.exConst (h : Heap) (e : ExId) : Sym :=
  match h.exs[e]? with
  | some o => (o.dict.get? .one).getD (Sym.num 0)
  | none => Sym.num 0

/-- the symbol of the multiplier of a constraint -/
def SpKey.name : SpKey → Name
  | .tup 0 k i j => lambName k i j
  | .tup _ k i j => nuName k i j
  | .obj => ""

namespace FG

/-- a symbol occurs in some entry -/
def Occurs (m : FG) (n : Name) : Prop := (∃ k, n ∈ (m.F k).vars) ∨ ∃ i j, n ∈ (m.G i j).vars

/-- the value of `Gweights` is a symmetric matrix -/
def Symmetric (m : FG) : Prop := ∀ env i j, (m.G i j).eval env = (m.G j i).eval env

end FG

open Heap in
/-- the matrices of an expression `e`: what C13 claims -/
structure MatOf (h : Heap) (e : ExId) (m : FG) : Prop where
  val : ∀ {E : Type} [NormedAddCommGroup E] [InnerProductSpace ℝ E] (env : Name → ℝ) (φ : PtId → E) (ψ : ExId → ℝ),
    m.val env h.exCounter h.ptCounter (h.fvec ψ) (h.gram φ) + (h.exConst e).eval env = h.exVal env φ ψ e
  symm : m.Symmetric
  vars : ∀ n, m.Occurs n → ∃ o, h.exs[e]? = some o ∧ ∃ kw ∈ o.dict, n ∈ kw.2.vars

open Heap in
/-- the Expression `e` is the interpolation inequality of the ordered pair of samples `ti`, `tj` -/
structure IsIneq (h : Heap) (cls : FnClass) (ti tj : Triplet) (e : ExId) : Prop where
  livei : h.TripletLive ti
  livej : h.TripletLive tj
  live : h.ExLive e
  val : ∀ {E : Type} [NormedAddCommGroup E] [InnerProductSpace ℝ E] (env) (φ : PtId → E) (ψ : ExId → ℝ),
    h.exVal env φ ψ e = cls.lhs (h.ptVal env φ ti.1) (h.ptVal env φ ti.2.1) (h.exVal env φ ψ ti.2.2)
        (h.ptVal env φ tj.1) (h.ptVal env φ tj.2.1) (h.exVal env φ ψ tj.2.2)

/-- index pairs `(i, j)`, `i ≠ j`, in the order of the double loop -/
def offDiag (n : ℕ) : List (ℕ × ℕ) := (loopPairs n).filter (fun ij => ij.1 ≠ ij.2)


/-- the Expressions of the extra inequality constraints, in order -/
def ineqCons (cons : List (ExId × Kind)) : List ExId := (cons.filter (fun c => c.2 = .inequality)).map Prod.fst

/-- the Expressions of the extra equality constraints, in order -/
def eqCons (cons : List (ExId × Kind)) : List ExId := (cons.filter (fun c => c.2 = .equality)).map Prod.fst

/-- the number of the first function: 1 if there are extra inequalities, else 0 -/
def fnShift (cons : List (ExId × Kind)) : ℕ := if (ineqCons cons).length ≥ 1 then 1 else 0

/-- keys of the pairs of the functions number `k`, `k+1`, ... with `n` samples each -/
def fnKeys : List ℕ → ℕ → List SpKey
  | [], _ => []
  | n :: ns, k => (offDiag n).map (fun ij => SpKey.tup 0 k ij.1 ij.2) ++ fnKeys ns (k + 1)

/-- the keys of the dictionary handed to the solver when the functions have `ns` samples -/
def expectedKeys (cons : List (ExId × Kind)) (ns : List ℕ) : List SpKey :=
  (List.range (ineqCons cons).length).map (fun i => SpKey.tup 0 0 i 0) ++ fnKeys ns (fnShift cons) ++
    (List.range (eqCons cons).length).map (fun i => SpKey.tup 1 0 i 0) ++ [.obj]

/-- `m` is the matrix that belongs to the key of the dictionary handed to the solver -/
inductive Entry (h : Heap) (r : Regs) (leafs : List FnId) : SpKey → FG → Prop
  | ineq {i : ℕ} {e : ExId} {m : FG} (hi : (ineqCons r.cons)[i]? = some e) (hm : MatOf h e m) : Entry h r leafs (.tup 0 0 i 0) m
  | pair {k f i j : ℕ} {o : FnObj} {ti tj : Triplet} {e : ExId} {m : FG} (hf : leafs[k]? = some f) (ho : h.fns[f]? = some o)
      (hij : i ≠ j) (hi : o.points[i]? = some ti) (hj : o.points[j]? = some tj) (hc : e ∈ o.classCons)
      (he : IsIneq h o.cls ti tj e) (hm : MatOf h e m) : Entry h r leafs (.tup 0 (fnShift r.cons + k) i j) m
  | eq {i : ℕ} {e : ExId} {m : FG} (hi : (eqCons r.cons)[i]? = some e) (hm : MatOf h e m) : Entry h r leafs (.tup 1 0 i 0) m
  | obj {e : ExId} {m : FG} (he : r.metric = some e) (hm : MatOf h e m) : Entry h r leafs .obj m

/-- number of samples of a function -/
def nSamples (h : Heap) (f : FnId) : ℕ := match h.fns[f]? with
  | some o => o.points.length
  | none => 0

/-- `s1` is `s0` plus the sum of the matrices weighted with their multiplier symbols -/
def SumExt (s0 : FG) (new : List (SpKey × FG)) (s1 : FG) : Prop := ∀ env : Name → ℝ,
  (∀ k, (s1.F k).eval env = (s0.F k).eval env + (new.map fun en => env en.1.name * (en.2.F k).eval env).sum) ∧
  (∀ i j, (s1.G i j).eval env = (s0.G i j).eval env + (new.map fun en => env en.1.name * (en.2.G i j).eval env).sum)

/-- the problem can be translated: the formula of every declared class raises no error, and no sample was recorded twice -/
def Solvable (r : Regs) (h : Heap) : Prop := ∀ f ∈ r.decl, ∀ o, h.fns[f]? = some o → o.cls.Computable ∧ o.points.Nodup

end Verif
