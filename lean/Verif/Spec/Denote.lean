import Verif.Model.Heap
import Mathlib.Analysis.InnerProductSpace.Basic

/-!
# What points and expressions denote

A dictionary `{key : weight}` denotes the linear combination of what its keys stand for: leaf points stand for vectors of
a real inner product space, leaf expressions for real numbers, a pair of leaf points for an inner product, the key `1` for 1.
-/

namespace Verif

/-- The linear combination `Σ weight • φ key` of a decomposition dictionary, where `ev` gives the value of a weight and
`φ` the vector (or number) a key stands for. -/
noncomputable def Dict.den {α β M : Type} [AddCommGroup M] [Module ℝ M] (ev : β → ℝ) (φ : α → M) (d : Dict α β) : M :=
  (d.map fun kv => ev kv.2 • φ kv.1).sum

open scoped InnerProductSpace

variable {E : Type} [NormedAddCommGroup E] [InnerProductSpace ℝ E]

/-- The number a key of an expression stands for, when leaf point `p` is the vector `φ p` and leaf expression `e`
the number `ψ e`. -/
noncomputable def keyVal (φ : PtId → E) (ψ : ExId → ℝ) : ExKey → ℝ
  | .fn e => ψ e
  | .inner p q => ⟪φ p, φ q⟫_ℝ
  | .one => 1

/-- The vector a Point denotes, given values `env` of the symbols and `φ` of the leaf points. -/
noncomputable def Heap.ptVal (h : Heap) (env : Name → ℝ) (φ : PtId → E) (p : PtId) : E :=
  match h.pts[p]? with
  | some o => o.dict.den (Sym.eval env) φ
  | none => 0

/-- The number an Expression denotes. -/
noncomputable def Heap.exVal (h : Heap) (env : Name → ℝ) (φ : PtId → E) (ψ : ExId → ℝ) (e : ExId) : ℝ :=
  match h.exs[e]? with
  | some o => o.dict.den (Sym.eval env) (keyVal φ ψ)
  | none => 0

/-- `p` is a Point object. -/
def Heap.IsPt (h : Heap) (p : PtId) : Prop := p < h.pts.length
/-- `e` is an Expression object. -/
def Heap.IsEx (h : Heap) (e : ExId) : Prop := e < h.exs.length

/-- Every dictionary of the heap has distinct keys (guaranteed by python's `dict`). -/
structure Heap.DictOk (h : Heap) : Prop where
  pts : ∀ o ∈ h.pts, o.dict.NodupKeys
  exs : ∀ o ∈ h.exs, o.dict.NodupKeys

/-- `h'` arises from `h` by creating new Points and Expressions that are not leaves; nothing else changed. -/
def Heap.OnlyAdds (h h' : Heap) : Prop :=
  ∃ ps es, h' = { h with pts := h.pts ++ ps, exs := h.exs ++ es } ∧
    (∀ o ∈ ps, o.leaf = false) ∧ (∀ o ∈ es, o.leaf = false)

end Verif
