import Verif.Model.Program

/-!
# What a consistent registry is (C04)

Stated on the attributes python shows: `counter`, `list_of_leaf_points`, `decomposition_dict`.
-/

namespace Verif

/-- the Point is a leaf with `counter = i`, and `i` is below the class counter, which is the size `dim_G` given to the solver -/
def Heap.LeafPtNo (h : Heap) (p : PtId) (i : ℕ) : Prop :=
  i < h.ptCounter ∧ ∃ o, h.pts[p]? = some o ∧ o.leaf = true ∧ o.counter = some i ∧ o.dict = [(p, Sym.num 1)]

/-- the Expression is a leaf with `counter = i < dim_F` -/
def Heap.LeafExNo (h : Heap) (e : ExId) (i : ℕ) : Prop :=
  i < h.exCounter ∧ ∃ o, h.exs[e]? = some o ∧ o.leaf = true ∧ o.counter = some i ∧ o.dict = [(ExKey.fn e, Sym.num 1)]

/-- every leaf the Point mentions has an index below `dim_G` -/
def Heap.PtIndexed (h : Heap) (p : PtId) : Prop :=
  ∃ o, h.pts[p]? = some o ∧ ∀ k ∈ o.dict.keys, ∃ i, h.LeafPtNo k i

/-- every leaf an Expression mentions has an index below `dim_F` resp. `dim_G` -/
def Heap.ExIndexed (h : Heap) (e : ExId) : Prop :=
  ∃ o, h.exs[e]? = some o ∧ ∀ k ∈ o.dict.keys,
    match k with
    | .fn e' => ∃ i, h.LeafExNo e' i
    | .inner p q => (∃ i, h.LeafPtNo p i) ∧ ∃ j, h.LeafPtNo q j
    | .one => True

/-- The registry after a history that left the script with the variables `r`. -/
structure RegistryOk (r : Regs) (h : Heap) : Prop where
  /-- `Point.counter` is the number of leaf points, `Expression.counter` the number of leaf expressions -/
  dimG : h.ptCounter = h.leafPts.length
  dimF : h.exCounter = h.leafExs.length
  /-- the leaf points are numbered 0, 1, 2, ... in order of creation -/
  ptNo : ∀ i p, h.leafPts[i]? = some p → h.LeafPtNo p i
  exNo : ∀ i e, h.leafExs[i]? = some e → h.LeafExNo e i
  /-- no leaf is registered twice -/
  ptNodup : h.leafPts.Nodup
  exNodup : h.leafExs.Nodup
  /-- everything the script holds mentions registered leaves only -/
  pts : ∀ p ∈ r.pts, h.PtIndexed p
  exs : ∀ e ∈ r.exs, h.ExIndexed e
  cons : ∀ c ∈ r.cons, h.ExIndexed c.1
  metric : ∀ e ∈ r.metric, h.ExIndexed e
  /-- and so do all recorded samples of all functions of the problem -/
  samples : ∀ f ∈ h.fnList, ∃ o, h.fns[f]? = some o ∧ ∀ t ∈ o.points, h.PtIndexed t.1 ∧ h.PtIndexed t.2.1 ∧ h.ExIndexed t.2.2

end Verif
