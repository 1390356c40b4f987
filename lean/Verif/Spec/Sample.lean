import Verif.Spec.Denote

/-!
# Recorded samples, and when recorded samples are true samples
-/

namespace Verif

/-- Two Points denote the same vector whatever the parameters and leaf points are. -/
def Heap.SamePoint (h : Heap) (p q : PtId) : Prop :=
  ∀ (E : Type) [NormedAddCommGroup E] [InnerProductSpace ℝ E] (env : Name → ℝ) (φ : PtId → E),
    h.ptVal env φ p = h.ptVal env φ q

/-- `(g, v)` is recorded as gradient and value of function `f` at (a point denoting the same vector as) `x`. -/
def Heap.SampleOf (h : Heap) (f : FnId) (x g : PtId) (v : ExId) : Prop :=
  ∃ o p, h.fns[f]? = some o ∧ (p, g, v) ∈ o.points ∧ h.SamePoint p x

/-- `f` was evaluated at `x`: it has a sample at a point whose decomposition is equal (python `==`) to that of `x`. -/
def Heap.EvaluatedAt (C : CAS) (h : Heap) (f : FnId) (x : PtId) : Prop :=
  ∃ fo xo t yo, h.fns[f]? = some fo ∧ h.pts[x]? = some xo ∧ t ∈ fo.points ∧ h.pts[t.1]? = some yo ∧
    Dict.eqB C.eqB yo.dict xo.dict = true

/-- `(g, v)` equals `(Σ wᵢ gᵢ, Σ wᵢ vᵢ)` where `(gᵢ, vᵢ)` is a recorded sample of `fᵢ` at `x`, for `d = {f₁: w₁, f₂: w₂, ...}`. -/
def Heap.SumConsistent (h : Heap) (d : Dict FnId ℚ) (x g : PtId) (v : ExId) : Prop :=
  ∃ T : FnId → PtId × ExId, (∀ k ∈ d.keys, h.SampleOf k x (T k).1 (T k).2) ∧
    ∀ (E : Type) [NormedAddCommGroup E] [InnerProductSpace ℝ E] (env : Name → ℝ) (φ : PtId → E) (ψ : ExId → ℝ),
      h.ptVal env φ g = (d.map fun kw => (kw.2 : ℝ) • h.ptVal env φ (T kw.1).1).sum ∧
      h.exVal env φ ψ v = (d.map fun kw => (kw.2 : ℝ) * h.exVal env φ ψ (T kw.1).2).sum

variable {E : Type} [NormedAddCommGroup E] [InnerProductSpace ℝ E]

/-- `S f x g v`: "`g` is a subgradient and `v` the value at `x` of the function that `f` stands for".
`Comb S d x g v`: `(g, v)` is a combination, with the weights `d`, of samples at `x` of the functions with non-zero weight. -/
def Comb (S : FnId → E → E → ℝ → Prop) (d : Dict FnId ℚ) (x g : E) (v : ℝ) : Prop :=
  ∃ (G : FnId → E) (V : FnId → ℝ), (∀ kw ∈ d, kw.2 ≠ 0 → S kw.1 x (G kw.1) (V kw.1)) ∧
    g = d.den (fun w : ℚ => (w : ℝ)) G ∧ v = d.den (fun w : ℚ => (w : ℝ)) V

/-- Every recorded sample of every function of the problem is a true sample, when the symbols have values `env`,
the leaf points the values `φ` and the leaf expressions the values `ψ`. -/
def Heap.TrueSamples (h : Heap) (S : FnId → E → E → ℝ → Prop) (env : Name → ℝ) (φ : PtId → E) (ψ : ExId → ℝ) : Prop :=
  ∀ f ∈ h.fnList, ∀ o, h.fns[f]? = some o → ∀ t ∈ o.points,
    Comb S o.dict (h.ptVal env φ t.1) (h.ptVal env φ t.2.1) (h.exVal env φ ψ t.2.2)

/-- Samples behave as those of functions: one value per point, and one gradient per point for leaf functions with
gradient reuse. -/
structure Heap.Functional (h : Heap) (S : FnId → E → E → ℝ → Prop) : Prop where
  val : ∀ f x g v g' v', S f x g v → S f x g' v' → v = v'
  grad : ∀ f ∈ h.fnList, ∀ o, h.fns[f]? = some o → o.leaf = true → o.reuse = true →
    ∀ x g v g' v', S f x g v → S f x g' v' → g = g'

/-- The valuations agree on the leaves that exist in `h`. -/
structure Heap.Agree (h : Heap) (φ φ' : PtId → E) (ψ ψ' : ExId → ℝ) : Prop where
  pt : ∀ p ∈ h.leafPts, φ' p = φ p
  ex : ∀ e ∈ h.leafExs, ψ' e = ψ e

end Verif
