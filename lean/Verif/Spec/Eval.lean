import Verif.Model.Heap

/-!
# Which objects mention leaves (C39)
-/

namespace Verif

/-- the Point is a leaf or its decomposition is not empty -/
def Heap.PtMentionsLeaf (h : Heap) (p : PtId) : Prop := ∃ o, h.pts[p]? = some o ∧ (o.leaf = true ∨ o.dict ≠ [])

/-- the Expression is a leaf or its decomposition has a key other than the constant -/
def Heap.ExMentionsLeaf (h : Heap) (e : ExId) : Prop := ∃ o, h.exs[e]? = some o ∧ (o.leaf = true ∨ ∃ k ∈ o.dict.keys, k ≠ ExKey.one)

/-- the constant part of an Expression -/
def constPart (d : Dict ExKey Sym) : Sym := d.foldl (fun a kw => a + kw.2) (Sym.num 0)

end Verif
