import Verif.Model.Heap

/-!
# The registry invariant (C04)

`PtLive`, `ExLive`: the object mentions only leaves of the current problem.  `WF`: what holds of the class attributes and of
every function of the current problem after any history of API calls.  Objects of earlier problems may still exist in the heap.
-/

namespace Verif
namespace Heap

/-- a Point whose decomposition mentions only registered leaf points -/
def PtLive (h : Heap) (p : PtId) : Prop :=
  ∃ o, h.pts[p]? = some o ∧ o.dict.NodupKeys ∧ ∀ k ∈ o.dict.keys, k ∈ h.leafPts

/-- an expression key that mentions only registered leaves -/
def KeyLive (h : Heap) : ExKey → Prop
  | .fn e => e ∈ h.leafExs
  | .inner p q => p ∈ h.leafPts ∧ q ∈ h.leafPts
  | .one => True

/-- an Expression whose decomposition mentions only registered leaves -/
def ExLive (h : Heap) (e : ExId) : Prop :=
  ∃ o, h.exs[e]? = some o ∧ o.dict.NodupKeys ∧ ∀ k ∈ o.dict.keys, h.KeyLive k

/-- a sample all of whose parts are live -/
def TripletLive (h : Heap) (t : Triplet) : Prop := h.PtLive t.1 ∧ h.PtLive t.2.1 ∧ h.ExLive t.2.2

/-- a Point none of whose coefficients is equal (python `==`) to zero.  Every Point has this form except those made by
scaling with zero: `0*p` is `{p: 0, ...}`. -/
def Pruned (C : CAS) (h : Heap) (p : PtId) : Prop :=
  ∃ o, h.pts[p]? = some o ∧ ∀ kv ∈ o.dict, C.eqB kv.2 (Sym.num 0) = false

/-- `f` is a function of the current problem -/
def FnLive (h : Heap) (f : FnId) : Prop := f ∈ h.fnList

/-- What holds of a function object `f` with attributes `o`. -/
structure FnOk (C : CAS) (h : Heap) (f : FnId) (o : FnObj) : Prop where
  nodup : o.dict.NodupKeys
  leafDict : o.leaf = true → o.dict = [(f, 1)]
  leafCls : o.leaf = true → o.cls ≠ .base
  sumKeys : o.leaf = false → ∀ k ∈ o.dict.keys, k ∈ h.fnList ∧
    ∃ ok, h.fns[k]? = some ok ∧ ok.leaf = true ∧ (o.reuse = true → ok.reuse = true)
  points : ∀ t ∈ o.points, h.TripletLive t
  pruned : ∀ t ∈ o.points, Pruned C h t.1
  stationary : ∀ t ∈ o.stationary, t ∈ o.points
  classCons : ∀ e ∈ o.classCons, h.ExLive e

/-- The registry invariant: leaf points and leaf expressions are numbered 0, 1, 2, ... in order of creation, the class
counters are the numbers of leaves, and every registered function is in order. -/
structure WF (C : CAS) (h : Heap) : Prop where
  ptCounter : h.ptCounter = h.leafPts.length
  leafPt : ∀ (i p : ℕ), h.leafPts[i]? = some p → h.pts[p]? = some (PtObj.mk true (some i) [(p, Sym.num 1)])
  exCounter : h.exCounter = h.leafExs.length
  leafEx : ∀ (i e : ℕ), h.leafExs[i]? = some e → h.exs[e]? = some (ExObj.mk true (some i) [(ExKey.fn e, Sym.num 1)])
  fnNodup : h.fnList.Nodup
  fn : ∀ f ∈ h.fnList, ∃ o, h.fns[f]? = some o ∧ FnOk C h f o

end Heap
end Verif
