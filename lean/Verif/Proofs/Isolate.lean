import Verif.Model.Dispatch
import Verif.Proofs.Dict
import Verif.Spec.Problem

/-!
# A problem does not depend on what the interpreter did before it was created

Objects made before the call of `CircuitOpt()` stay in the heap; the objects made afterwards are the same as in a fresh interpreter, only
their identities are larger.
-/

namespace Verif

namespace Dict
variable {α β γ : Type} [DecidableEq α] [DecidableEq γ]

/-- rename the keys -/
def mapKeys (f : α → γ) (d : Dict α β) : Dict γ β := d.map fun kv => (f kv.1, kv.2)

theorem mapKeys_cons (f : α → γ) (kv : α × β) (d : Dict α β) : mapKeys f (kv :: d) = (f kv.1, kv.2) :: mapKeys f d := rfl

variable {f : α → γ} (hf : Function.Injective f)
include hf

theorem get?_mapKeys (d : Dict α β) (k : α) : (d.mapKeys f).get? (f k) = d.get? k := by
  induction d with
  | nil => rfl
  | cons kv d ih =>
    rw [mapKeys, List.map_cons, get?_cons, get?_cons]
    by_cases h : kv.1 = k
    · rw [if_pos h, if_pos (congrArg f h)]
    · rw [if_neg h, if_neg (fun hh => h (hf hh))]
      exact ih

theorem has_mapKeys (d : Dict α β) (k : α) : (d.mapKeys f).has (f k) = d.has k := by rw [has, has, get?_mapKeys hf]

theorem set_mapKeys (d : Dict α β) (k : α) (v : β) : (d.mapKeys f).set (f k) v = (d.set k v).mapKeys f := by
  rw [set, set, has_mapKeys hf]
  split
  · rw [mapKeys, mapKeys, List.map_map, List.map_map]
    refine List.map_congr_left fun kv _ => ?_
    simp only [Function.comp]
    by_cases h : kv.1 = k
    · rw [if_pos h, if_pos (congrArg f h)]
    · rw [if_neg h, if_neg (fun hh => h (hf hh))]
  · simp [mapKeys]

theorem mergeStep_mapKeys (plus : β → β → β) (d1 m : Dict α β) (kv : α × β) :
    mergeStep plus (d1.mapKeys f) (m.mapKeys f) (f kv.1, kv.2) = (mergeStep plus d1 m kv).mapKeys f := by
  rw [mergeStep, mergeStep]
  simp only [has_mapKeys hf, get?_mapKeys hf]
  split
  · split
    · rw [set_mapKeys hf]
    · rfl
  · rw [set_mapKeys hf]

theorem merge_mapKeys (plus : β → β → β) (d1 d2 : Dict α β) : merge plus (d1.mapKeys f) (d2.mapKeys f) = (merge plus d1 d2).mapKeys f := by
  have : ∀ (l m : Dict α β), (l.mapKeys f).foldl (mergeStep plus (d1.mapKeys f)) (m.mapKeys f) = (l.foldl (mergeStep plus d1) m).mapKeys f := by
    intro l
    induction l with
    | nil => intro m; rfl
    | cons kv l ih =>
      intro m
      rw [mapKeys_cons, List.foldl_cons, List.foldl_cons, mergeStep_mapKeys hf]
      exact ih _
  exact this d2 d1

omit hf [DecidableEq α] [DecidableEq γ] in
theorem prune_mapKeys (z : β → Bool) (d : Dict α β) : prune z (d.mapKeys f) = (prune z d).mapKeys f := by
  rw [prune, prune, mapKeys, mapKeys, List.filter_map]
  rfl

omit hf [DecidableEq α] [DecidableEq γ] in
theorem mapVals_mapKeys (g : β → β) (d : Dict α β) : mapVals g (d.mapKeys f) = (mapVals g d).mapKeys f := by
  rw [mapVals, mapVals, mapKeys, mapKeys, List.map_map, List.map_map]
  rfl

theorem eqB_mapKeys (veq : β → β → Bool) (d1 d2 : Dict α β) : eqB veq (d1.mapKeys f) (d2.mapKeys f) = eqB veq d1 d2 := by
  rw [eqB, eqB]
  congr 1
  · simp [mapKeys]
  · rw [show d1.mapKeys f = d1.map fun kv => (f kv.1, kv.2) from rfl, List.all_map]
    refine List.all_congr rfl fun kv => ?_
    simp only [Function.comp, get?_mapKeys hf]

theorem mulStep_mapKeys (times plus : β → β → β) (kv1 : α × β) (acc : Dict (α × α) β) (kv2 : α × β) :
    mulStep times plus (f kv1.1, kv1.2) (acc.mapKeys (Prod.map f f)) (f kv2.1, kv2.2) = (mulStep times plus kv1 acc kv2).mapKeys (Prod.map f f) := by
  have hi : Function.Injective (Prod.map f f) := hf.prodMap hf
  rw [mulStep, mulStep]
  have h1 : ((f kv1.1, kv1.2).1, (f kv2.1, kv2.2).1) = Prod.map f f (kv1.1, kv2.1) := rfl
  rw [h1, get?_mapKeys hi]
  split
  · rw [set_mapKeys hi]
  · rw [set_mapKeys hi]

theorem multiply_mapKeys (times plus : β → β → β) (d1 d2 : Dict α β) :
    multiply times plus (d1.mapKeys f) (d2.mapKeys f) = (multiply times plus d1 d2).mapKeys (Prod.map f f) := by
  have hin : ∀ (kv1 : α × β) (l : Dict α β) (m : Dict (α × α) β),
      (l.mapKeys f).foldl (mulStep times plus (f kv1.1, kv1.2)) (m.mapKeys (Prod.map f f)) = (l.foldl (mulStep times plus kv1) m).mapKeys (Prod.map f f) := by
    intro kv1 l
    induction l with
    | nil => intro m; rfl
    | cons kv l ih =>
      intro m
      rw [mapKeys_cons, List.foldl_cons, List.foldl_cons, mulStep_mapKeys hf]
      exact ih _
  have hout : ∀ (l : Dict α β) (m : Dict (α × α) β),
      (l.mapKeys f).foldl (fun acc kv1 => (d2.mapKeys f).foldl (mulStep times plus kv1) acc) (m.mapKeys (Prod.map f f)) =
        (l.foldl (fun acc kv1 => d2.foldl (mulStep times plus kv1) acc) m).mapKeys (Prod.map f f) := by
    intro l
    induction l with
    | nil => intro m; rfl
    | cons kv l ih =>
      intro m
      rw [mapKeys_cons, List.foldl_cons, List.foldl_cons, hin]
      exact ih _
  exact hout d1 []

end Dict

namespace Heap
variable (h0 : Heap)

/-- identity of a Point over the objects of `h0` -/
def ptAt (p : PtId) : PtId := h0.pts.length + p
/-- identity of an Expression over the objects of `h0` -/
def exAt (e : ExId) : ExId := h0.exs.length + e
/-- identity of a Function over the objects of `h0` -/
def fnAt (f : FnId) : FnId := h0.fns.length + f

def keyAt : ExKey → ExKey
  | .fn e => .fn (h0.exAt e)
  | .inner p q => .inner (h0.ptAt p) (h0.ptAt q)
  | .one => .one

def tripAt (t : Triplet) : Triplet := (h0.ptAt t.1, h0.ptAt t.2.1, h0.exAt t.2.2)

def ptObjAt (o : PtObj) : PtObj := ⟨o.leaf, o.counter, o.dict.mapKeys h0.ptAt⟩
def exObjAt (o : ExObj) : ExObj := ⟨o.leaf, o.counter, o.dict.mapKeys h0.keyAt⟩
def fnObjAt (o : FnObj) : FnObj :=
  ⟨o.leaf, o.counter, o.cls, o.reuse, o.dict.mapKeys h0.fnAt, o.points.map h0.tripAt, o.stationary.map h0.tripAt, o.classCons.map h0.exAt⟩

/-- the objects and class attributes of `h`, placed over the objects of `h0` -/
def over (h : Heap) : Heap :=
  ⟨h0.pts ++ h.pts.map h0.ptObjAt, h0.exs ++ h.exs.map h0.exObjAt, h0.fns ++ h.fns.map h0.fnObjAt, h.ptCounter, h.exCounter, h.fnCounter,
    h.leafPts.map h0.ptAt, h.leafExs.map h0.exAt, h.fnList.map h0.fnAt⟩

theorem over_empty : h0.over Heap.empty = h0.reset := by simp [over, Heap.empty, reset]

variable {h0}
theorem ptAt_inj : Function.Injective h0.ptAt := fun _ _ h => Nat.add_left_cancel h
theorem exAt_inj : Function.Injective h0.exAt := fun _ _ h => Nat.add_left_cancel h
theorem fnAt_inj : Function.Injective h0.fnAt := fun _ _ h => Nat.add_left_cancel h
theorem keyAt_inj : Function.Injective h0.keyAt := by
  intro a b h
  cases a <;> cases b <;> simp only [keyAt, ExKey.fn.injEq, ExKey.inner.injEq, reduceCtorEq] at h ⊢
  · exact exAt_inj h
  · exact ⟨ptAt_inj h.1, ptAt_inj h.2⟩
theorem tripAt_inj : Function.Injective h0.tripAt := by
  intro a b h
  simp only [tripAt, Prod.mk.injEq] at h
  exact Prod.ext (ptAt_inj h.1) (Prod.ext (ptAt_inj h.2.1) (exAt_inj h.2.2))

theorem over_pts (h : Heap) (p : PtId) : (h0.over h).pts[h0.ptAt p]? = (h.pts[p]?).map h0.ptObjAt := by
  simp [over, ptAt, List.getElem?_append_right]
theorem over_exs (h : Heap) (e : ExId) : (h0.over h).exs[h0.exAt e]? = (h.exs[e]?).map h0.exObjAt := by
  simp [over, exAt, List.getElem?_append_right]
theorem over_fns (h : Heap) (f : FnId) : (h0.over h).fns[h0.fnAt f]? = (h.fns[f]?).map h0.fnObjAt := by
  simp [over, fnAt, List.getElem?_append_right]

end Heap

open Heap

/-- `y` does over the objects of `h0` what `x` does in a fresh interpreter; `f` renames the results -/
def Sim (h0 : Heap) {α β : Type} (f : α → β) (x : M α) (y : M β) : Prop :=
  ∀ h, y (h0.over h) = match x h with
    | .ok (a, h') => .ok (f a, h0.over h')
    | .error e => .error e

namespace Sim
variable {h0 : Heap} {α β α' β' : Type} {f : α → β} {g : α' → β'}

theorem pure {a : α} {b : β} (h : f a = b) : Sim h0 f (Pure.pure a) (Pure.pure b) := by
  subst h
  intro h
  rfl

theorem bind {x : M α} {y : M β} {k : α → M α'} {k' : β → M β'} (hx : Sim h0 f x y) (hk : ∀ a, Sim h0 g (k a) (k' (f a))) :
    Sim h0 g (x >>= k) (y >>= k') := by
  intro h
  show M.bind y k' (h0.over h) = match M.bind x k h with | .ok (a, h') => .ok (g a, h0.over h') | .error e => .error e
  rw [M.bind, M.bind, hx h]
  cases x h with
  | error e => rfl
  | ok ah => exact hk ah.1 ah.2

theorem throw (e : Err) : Sim h0 f (M.throw e) (M.throw e) := fun _ => rfl

theorem ite {c c' : Prop} [Decidable c] [Decidable c'] (hc : c' ↔ c) {x x' : M α} {y y' : M β} (h1 : Sim h0 f x y) (h2 : Sim h0 f x' y') :
    Sim h0 f (if c then x else x') (if c' then y else y') := by
  by_cases h : c
  · rw [if_pos h, if_pos (hc.2 h)]; exact h1
  · rw [if_neg h, if_neg (fun hh => h (hc.1 hh))]; exact h2

theorem assert {b b' : Bool} (h : b' = b) : Sim h0 (id : Unit → Unit) (M.assert b) (M.assert b') := by
  subst h
  rw [M.assert]
  split
  · exact pure rfl
  · exact throw _

theorem ofOption (e : Err) (o : Option α) : Sim h0 f (M.ofOption e o) (M.ofOption e (o.map f)) := by
  cases o with
  | none => exact throw e
  | some a => exact pure rfl

theorem get : Sim h0 h0.over M.get M.get := fun _ => rfl

theorem getPt (p : PtId) : Sim h0 h0.ptObjAt (getPt p) (getPt (h0.ptAt p)) := by
  intro h
  rw [Verif.getPt, Verif.getPt, over_pts]
  cases h.pts[p]? <;> rfl
theorem getEx (p : ExId) : Sim h0 h0.exObjAt (getEx p) (getEx (h0.exAt p)) := by
  intro h
  rw [Verif.getEx, Verif.getEx, over_exs]
  cases h.exs[p]? <;> rfl
theorem getFn (p : FnId) : Sim h0 h0.fnObjAt (getFn p) (getFn (h0.fnAt p)) := by
  intro h
  rw [Verif.getFn, Verif.getFn, over_fns]
  cases h.fns[p]? <;> rfl

theorem setFn (p : FnId) (o : FnObj) : Sim h0 (id : Unit → Unit) (setFn p o) (setFn (h0.fnAt p) (h0.fnObjAt o)) := by
  intro h
  simp [Verif.setFn, over, fnAt, List.set_append_right, List.map_set]

theorem newLeafPt : Sim h0 h0.ptAt newLeafPt newLeafPt := by
  intro h
  simp [Verif.newLeafPt, over, ptAt, ptObjAt, Dict.mapKeys]
theorem newLeafEx : Sim h0 h0.exAt newLeafEx newLeafEx := by
  intro h
  simp [Verif.newLeafEx, over, exAt, exObjAt, Dict.mapKeys, keyAt]
theorem newPt (d : Dict PtId Sym) : Sim h0 h0.ptAt (newPt d) (newPt (d.mapKeys h0.ptAt)) := by
  intro h
  simp [Verif.newPt, over, ptAt, ptObjAt]
theorem newEx (d : Dict ExKey Sym) : Sim h0 h0.exAt (newEx d) (newEx (d.mapKeys h0.keyAt)) := by
  intro h
  simp [Verif.newEx, over, exAt, exObjAt]
theorem newFn (d : Dict FnId ℚ) (b : Bool) : Sim h0 h0.fnAt (newFn d b) (newFn (d.mapKeys h0.fnAt) b) := by
  intro h
  simp [Verif.newFn, over, fnAt, fnObjAt]
theorem newLeafFn (c : FnClass) (b : Bool) : Sim h0 h0.fnAt (newLeafFn c b) (newLeafFn c b) := by
  intro h
  simp [Verif.newLeafFn, over, fnAt, fnObjAt, Dict.mapKeys]

variable (C : CAS)

theorem prunePt (p : PtId) : Sim h0 (id : Unit → Unit) (prunePt C p) (prunePt C (h0.ptAt p)) := by
  intro h
  rw [Verif.prunePt, Verif.prunePt, over_pts]
  cases h.pts[p]? with
  | none => rfl
  | some o => simp [over, ptAt, ptObjAt, List.set_append_right, List.map_set, Dict.prune_mapKeys]
theorem pruneEx (p : ExId) : Sim h0 (id : Unit → Unit) (pruneEx C p) (pruneEx C (h0.exAt p)) := by
  intro h
  rw [Verif.pruneEx, Verif.pruneEx, over_exs]
  cases h.exs[p]? with
  | none => rfl
  | some o => simp [over, exAt, exObjAt, List.set_append_right, List.map_set, Dict.prune_mapKeys]

/-! ### Points and Expressions -/

theorem ptAdd (p q : PtId) : Sim h0 h0.ptAt (ptAdd C p q) (ptAdd C (h0.ptAt p) (h0.ptAt q)) := by
  refine (getPt p).bind fun a => (getPt q).bind fun b => ?_
  have : Dict.prune (isZeroS C) (Dict.merge (plusS C) (h0.ptObjAt a).dict (h0.ptObjAt b).dict) =
      (Dict.prune (isZeroS C) (Dict.merge (plusS C) a.dict b.dict)).mapKeys h0.ptAt := by
    rw [ptObjAt, ptObjAt, Dict.merge_mapKeys ptAt_inj, Dict.prune_mapKeys]
  rw [this]
  exact newPt _

theorem ptScale (s : Sym) (p : PtId) : Sim h0 h0.ptAt (ptScale C s p) (ptScale C s (h0.ptAt p)) := by
  refine (getPt p).bind fun a => ?_
  rw [ptObjAt, Dict.mapVals_mapKeys]
  exact newPt _

theorem ptNeg (p : PtId) : Sim h0 h0.ptAt (ptNeg C p) (ptNeg C (h0.ptAt p)) := ptScale C _ p
theorem ptSub (p q : PtId) : Sim h0 h0.ptAt (ptSub C p q) (ptSub C (h0.ptAt p) (h0.ptAt q)) := (ptNeg C q).bind fun _ => ptAdd C _ _
theorem ptDiv (p : PtId) (c : ℚ) : Sim h0 h0.ptAt (ptDiv C p c) (ptDiv C (h0.ptAt p) c) := ite Iff.rfl (throw _) (ptScale C _ _)

theorem innerDict (d1 d2 : Dict PtId Sym) : Verif.innerDict C (d1.mapKeys h0.ptAt) (d2.mapKeys h0.ptAt) = (Verif.innerDict C d1 d2).mapKeys h0.keyAt := by
  rw [Verif.innerDict, Verif.innerDict, Dict.multiply_mapKeys ptAt_inj, Dict.mapKeys, Dict.mapKeys, List.map_map, List.map_map]
  rfl

theorem ptInner (p q : PtId) : Sim h0 h0.exAt (ptInner C p q) (ptInner C (h0.ptAt p) (h0.ptAt q)) := by
  refine (getPt p).bind fun a => (getPt q).bind fun b => ?_
  rw [ptObjAt, ptObjAt, innerDict]
  exact newEx _

theorem ptPow (p : PtId) (c : ℚ) : Sim h0 h0.exAt (ptPow C p c) (ptPow C (h0.ptAt p) c) := (assert rfl).bind fun _ => ptInner C p p

theorem exAdd (e f : ExId) : Sim h0 h0.exAt (exAdd C e f) (exAdd C (h0.exAt e) (h0.exAt f)) := by
  refine (getEx e).bind fun a => (getEx f).bind fun b => ?_
  rw [exObjAt, exObjAt, Dict.merge_mapKeys keyAt_inj]
  exact newEx _
theorem exAddNum (e : ExId) (c : ℚ) : Sim h0 h0.exAt (exAddNum C e c) (exAddNum C (h0.exAt e) c) := by
  refine (getEx e).bind fun a => ?_
  rw [exObjAt, show [(ExKey.one, Sym.num c)] = Dict.mapKeys h0.keyAt [(ExKey.one, Sym.num c)] from rfl, Dict.merge_mapKeys keyAt_inj]
  exact newEx _
theorem exScale (s : Sym) (e : ExId) : Sim h0 h0.exAt (exScale C s e) (exScale C s (h0.exAt e)) := by
  refine (getEx e).bind fun a => ?_
  rw [exObjAt, Dict.mapVals_mapKeys]
  exact newEx _
theorem exNeg (e : ExId) : Sim h0 h0.exAt (exNeg C e) (exNeg C (h0.exAt e)) := exScale C _ e
theorem exSub (e f : ExId) : Sim h0 h0.exAt (exSub C e f) (exSub C (h0.exAt e) (h0.exAt f)) := (exNeg C f).bind fun _ => exAdd C _ _
theorem exSubNum (e : ExId) (c : ℚ) : Sim h0 h0.exAt (exSubNum C e c) (exSubNum C (h0.exAt e) c) := exAddNum C e _
theorem exRSubNum (c : ℚ) (e : ExId) : Sim h0 h0.exAt (exRSubNum C c e) (exRSubNum C c (h0.exAt e)) := (exSubNum C e c).bind fun _ => exNeg C _
theorem exDiv (e : ExId) (c : ℚ) : Sim h0 h0.exAt (exDiv C e c) (exDiv C (h0.exAt e) c) := ite Iff.rfl (throw _) (exScale C _ _)

/-! ### Functions -/

theorem fnAdd (e f : FnId) : Sim h0 h0.fnAt (fnAdd e f) (fnAdd (h0.fnAt e) (h0.fnAt f)) := by
  refine (getFn e).bind fun a => (getFn f).bind fun b => ?_
  rw [fnObjAt, fnObjAt, Dict.merge_mapKeys fnAt_inj]
  exact newFn _ _
theorem fnScale (c : ℚ) (f : FnId) : Sim h0 h0.fnAt (fnScale c f) (fnScale c (h0.fnAt f)) := by
  refine (getFn f).bind fun a => ?_
  rw [fnObjAt, Dict.mapVals_mapKeys]
  exact newFn _ _
theorem fnNeg (f : FnId) : Sim h0 h0.fnAt (fnNeg f) (fnNeg (h0.fnAt f)) := fnScale _ f
theorem fnSub (e f : FnId) : Sim h0 h0.fnAt (fnSub e f) (fnSub (h0.fnAt e) (h0.fnAt f)) := (fnNeg f).bind fun _ => fnAdd _ _
theorem fnDiv (f : FnId) (c : ℚ) : Sim h0 h0.fnAt (fnDiv f c) (fnDiv (h0.fnAt f) c) := ite Iff.rfl (throw _) (fnScale _ _)

theorem declareFunction (d : FnDecl) : Sim h0 h0.fnAt (declareFunction d) (declareFunction d) := by
  rcases d with r | ⟨mu, r⟩ | ⟨mu, _ | L⟩ | (_ | L)
  · exact newLeafFn _ _
  · exact newLeafFn _ _
  · exact throw _
  · exact newLeafFn _ _
  · exact throw _
  · exact newLeafFn _ _

/-! ### Oracles -/

/-- gradient and value -/
def gvAt (h0 : Heap) (x : PtId × ExId) : PtId × ExId := (h0.ptAt x.1, h0.exAt x.2)

theorem findTriplet (d : Dict PtId Sym) : ∀ ts : List Triplet,
    Sim h0 (Option.map (gvAt h0)) (findTriplet C d ts) (findTriplet C (d.mapKeys h0.ptAt) (ts.map h0.tripAt))
  | [] => pure rfl
  | t :: ts => by
    refine (getPt t.1).bind fun o => ?_
    refine ite ?_ (pure rfl) (findTriplet d ts)
    rw [ptObjAt, Dict.eqB_mapKeys ptAt_inj]

theorem isEvaluated (f : FnId) (x : PtId) : Sim h0 (Option.map (gvAt h0)) (isEvaluated C f x) (isEvaluated C (h0.fnAt f) (h0.ptAt x)) :=
  (getFn f).bind fun _ => (getPt x).bind fun _ => findTriplet C _ _

/-- a leaf function with its weight -/
def wAt (h0 : Heap) (x : FnId × ℚ) : FnId × ℚ := (h0.fnAt x.1, x.2)
def needsAt (h0 : Heap) (n : Needs) : Needs := ⟨n.nothing.map (wAt h0), n.gradient.map (wAt h0), n.both.map (wAt h0)⟩

theorem separateLoop (x : PtId) : ∀ (l : List (FnId × ℚ)) (acc : Needs),
    Sim h0 (needsAt h0) (separateLoop C x l acc) (separateLoop C (h0.ptAt x) (l.map (wAt h0)) (needsAt h0 acc))
  | [], acc => pure rfl
  | kw :: rest, acc => by
    refine (isEvaluated C kw.1 x).bind fun a => ?_
    cases a with
    | none =>
      have := separateLoop x rest { acc with both := acc.both ++ [kw] }
      simpa [needsAt] using this
    | some gv =>
      refine (getFn kw.1).bind fun fo => ?_
      refine ite Iff.rfl ?_ ?_
      · have := separateLoop x rest { acc with nothing := acc.nothing ++ [kw] }
        simpa [needsAt] using this
      · have := separateLoop x rest { acc with gradient := acc.gradient ++ [kw] }
        simpa [needsAt] using this

theorem separate (f : FnId) (x : PtId) : Sim h0 (needsAt h0) (separate C f x) (separate C (h0.fnAt f) (h0.ptAt x)) :=
  (getFn f).bind fun _ => separateLoop C _ _ _

/-- the recursive calls -/
structure SimMethods (h0 : Heap) (r : Methods) : Prop where
  oracle : ∀ f x, Sim h0 (gvAt h0) (r.oracle f x) (r.oracle (h0.fnAt f) (h0.ptAt x))
  addPoint : ∀ f t, Sim h0 (id : Unit → Unit) (r.addPoint f t) (r.addPoint (h0.fnAt f) (h0.tripAt t))

variable {r : Methods}

theorem addPointLoop (hr : SimMethods h0 r) (x : PtId) (total : ℕ) : ∀ (l : List (FnId × ℚ)) (gl : PtId) (vl : ExId) (n : ℕ),
    Sim h0 (id : Unit → Unit) (addPointLoop C r x total l gl vl n) (addPointLoop C r (h0.ptAt x) total (l.map (wAt h0)) (h0.ptAt gl) (h0.exAt vl) n)
  | [], _, _, _ => pure rfl
  | kw :: rest, gl, vl, n => by
    refine ite Iff.rfl ?_ ?_
    · exact (hr.oracle kw.1 x).bind fun gv => (ptScale C _ _).bind fun wg => (ptSub C _ _).bind fun gl' => (exScale C _ _).bind fun wv =>
        (exSub C _ _).bind fun vl' => addPointLoop hr x total rest gl' vl' (n + 1)
    · exact (ptDiv C _ _).bind fun gl' => (exDiv C _ _).bind fun vl' => (hr.addPoint kw.1 (x, gl', vl')).bind fun _ =>
        addPointLoop hr x total rest gl' vl' n

theorem recordTriplet (f : FnId) (t : Triplet) : Sim h0 (id : Unit → Unit) (recordTriplet C f t) (recordTriplet C (h0.fnAt f) (h0.tripAt t)) := by
  refine (prunePt C _).bind fun _ => (prunePt C _).bind fun _ => (pruneEx C _).bind fun _ => (getFn f).bind fun fo => ?_
  refine bind (f := id) ?_ fun _ => ?_
  · have := setFn (h0 := h0) f { fo with points := fo.points ++ [t] }
    simpa [fnObjAt] using this
  refine (getPt t.2.1).bind fun go => ?_
  refine ite ?_ ?_ (pure rfl)
  · simp [ptObjAt, Dict.mapKeys]
  · refine (getFn f).bind fun fo => ?_
    have := setFn (h0 := h0) f { fo with stationary := fo.stationary ++ [t] }
    simpa [fnObjAt] using this

theorem addPointBody (hr : SimMethods h0 r) (f : FnId) (t : Triplet) :
    Sim h0 (id : Unit → Unit) (addPointBody C r f t) (addPointBody C r (h0.fnAt f) (h0.tripAt t)) := by
  refine (recordTriplet C f t).bind fun _ => (getFn f).bind fun fo => ?_
  refine ite Iff.rfl (pure rfl) ?_
  refine bind (f := id) ?_ fun _ => ?_
  · have := setFn (h0 := h0) f { fo with dict := fo.dict.prune (fun w => w = 0) }
    simpa [fnObjAt, Dict.prune_mapKeys] using this
  refine (separate C f t.1).bind fun nd => ?_
  refine ite ?_ (pure rfl) ?_
  · simp [needsAt]
  · refine (getFn f).bind fun fo => ?_
    have := addPointLoop C hr t.1 fo.dict.length (nd.nothing ++ (nd.gradient ++ nd.both)) t.2.1 t.2.2 0
    simpa [fnObjAt, needsAt, Dict.mapKeys, tripAt] using this

theorem valueBody (hr : SimMethods h0 r) (f : FnId) (x : PtId) : Sim h0 h0.exAt (valueBody C r f x) (valueBody C r (h0.fnAt f) (h0.ptAt x)) := by
  refine (isEvaluated C f x).bind fun a => ?_
  cases a with
  | some gv => exact pure rfl
  | none => exact (hr.oracle f x).bind fun gv => pure rfl

theorem gradientBody (hr : SimMethods h0 r) (f : FnId) (x : PtId) : Sim h0 h0.ptAt (gradientBody r f x) (gradientBody r (h0.fnAt f) (h0.ptAt x)) :=
  (hr.oracle f x).bind fun _ => pure rfl

theorem sumValues (hr : SimMethods h0 r) (x : PtId) : ∀ (l : List (FnId × ℚ)) (acc : ExId),
    Sim h0 h0.exAt (sumValues C r x l acc) (sumValues C r (h0.ptAt x) (l.map (wAt h0)) (h0.exAt acc))
  | [], _ => pure rfl
  | kw :: rest, acc => (valueBody C hr kw.1 x).bind fun _ => (exScale C _ _).bind fun _ => (exAdd C _ _).bind fun _ => sumValues hr x rest _

theorem sumGradients (hr : SimMethods h0 r) (x : PtId) : ∀ (l : List (FnId × ℚ)) (acc : PtId),
    Sim h0 h0.ptAt (sumGradients C r x l acc) (sumGradients C r (h0.ptAt x) (l.map (wAt h0)) (h0.ptAt acc))
  | [], _ => pure rfl
  | kw :: rest, acc => (gradientBody hr kw.1 x).bind fun _ => (ptScale C _ _).bind fun _ => (ptAdd C _ _).bind fun _ => sumGradients hr x rest _

theorem oracleValue (hr : SimMethods h0 r) (f : FnId) (x : PtId) (a : Option (PtId × ExId)) (nd : Needs) :
    Sim h0 h0.exAt (oracleValue C r f x a nd) (oracleValue C r (h0.fnAt f) (h0.ptAt x) (a.map (gvAt h0)) (needsAt h0 nd)) := by
  cases a with
  | some gv => exact pure rfl
  | none =>
    refine ite ?_ ?_ newLeafEx
    · simp [needsAt]
    · exact (newEx []).bind fun e => (getFn f).bind fun fo => sumValues C hr x _ e

theorem oracleGradient (hr : SimMethods h0 r) (f : FnId) (x : PtId) (nd : Needs) :
    Sim h0 h0.ptAt (oracleGradient C r f x nd) (oracleGradient C r (h0.fnAt f) (h0.ptAt x) (needsAt h0 nd)) := by
  refine ite ?_ ?_ newLeafPt
  · simp [needsAt]
  · exact (newPt []).bind fun e => (getFn f).bind fun fo => sumGradients C hr x _ e

theorem oracleFresh (hr : SimMethods h0 r) (f : FnId) (x : PtId) (a : Option (PtId × ExId)) :
    Sim h0 (gvAt h0) (oracleFresh C r f x a) (oracleFresh C r (h0.fnAt f) (h0.ptAt x) (a.map (gvAt h0))) :=
  (separate C f x).bind fun nd => (oracleValue C hr f x a nd).bind fun v => (oracleGradient C hr f x nd).bind fun g =>
    (hr.addPoint f (x, g, v)).bind fun _ => pure rfl

theorem oracleBody (hr : SimMethods h0 r) (f : FnId) (x : PtId) :
    Sim h0 (gvAt h0) (oracleBody C r f x) (oracleBody C r (h0.fnAt f) (h0.ptAt x)) := by
  refine (isEvaluated C f x).bind fun a => (getFn f).bind fun fo => ?_
  cases a with
  | none => exact oracleFresh C hr f x none
  | some gv => exact ite Iff.rfl (pure rfl) (oracleFresh C hr f x (some gv))

theorem methods : ∀ n, SimMethods h0 (methods C n)
  | 0 => ⟨fun _ _ => throw _, fun _ _ => throw _⟩
  | n + 1 => ⟨fun f x => oracleBody C (methods n) f x, fun f t => addPointBody C (methods n) f t⟩

theorem oracle (f : FnId) (x : PtId) : Sim h0 (gvAt h0) (oracle C f x) (Verif.oracle C (h0.fnAt f) (h0.ptAt x)) := (methods C _).oracle f x
theorem addPoint (f : FnId) (t : Triplet) : Sim h0 (id : Unit → Unit) (addPoint C f t) (Verif.addPoint C (h0.fnAt f) (h0.tripAt t)) :=
  (methods C _).addPoint f t
theorem gradient (f : FnId) (x : PtId) : Sim h0 h0.ptAt (gradient C f x) (Verif.gradient C (h0.fnAt f) (h0.ptAt x)) := gradientBody (methods C _) f x
theorem value (f : FnId) (x : PtId) : Sim h0 h0.exAt (value C f x) (Verif.value C (h0.fnAt f) (h0.ptAt x)) := valueBody C (methods C _) f x

theorem stationaryPoint (f : FnId) : Sim h0 h0.tripAt (stationaryPoint C f) (Verif.stationaryPoint C (h0.fnAt f)) :=
  newLeafPt.bind fun x => (newPt []).bind fun g => newLeafEx.bind fun v => (addPoint C f (x, g, v)).bind fun _ => pure rfl

theorem proximalStep (x0 : PtId) (f : FnId) (gamma : Sym) :
    Sim h0 h0.tripAt (proximalStep C x0 f gamma) (Verif.proximalStep C (h0.ptAt x0) (h0.fnAt f) gamma) :=
  newLeafPt.bind fun gx => newLeafEx.bind fun fx => (ptScale C _ _).bind fun sg => (ptSub C _ _).bind fun x =>
    (addPoint C f (x, gx, fx)).bind fun _ => pure rfl

theorem subgradConjugate (g : PtId) (f : FnId) : Sim h0 h0.ptAt (subgradConjugate C g f) (Verif.subgradConjugate C (h0.ptAt g) (h0.fnAt f)) :=
  newLeafPt.bind fun x => newLeafEx.bind fun fx => (addPoint C f (x, g, fx)).bind fun _ => pure rfl

/-! ### Class constraints -/

theorem convexPart (ti tj : Triplet) : Sim h0 h0.exAt (convexPart C ti tj) (convexPart C (h0.tripAt ti) (h0.tripAt tj)) :=
  (exSub C _ _).bind fun _ => (ptSub C _ _).bind fun _ => (ptInner C _ _).bind fun _ => exAdd C _ _

theorem smooth (ti tj : Triplet) (mu L : ℚ) : Sim h0 h0.exAt (interpolation.smooth C ti tj mu L) (interpolation.smooth C (h0.tripAt ti) (h0.tripAt tj) mu L) :=
  (convexPart C ti tj).bind fun _ => ite Iff.rfl (throw _) ((ptSub C _ _).bind fun _ => (ptPow C _ _).bind fun _ => (exScale C _ _).bind fun _ =>
    (exAdd C _ _).bind fun _ => ite Iff.rfl (throw _) ((ptSub C _ _).bind fun _ => (ptSub C _ _).bind fun _ => (ptScale C _ _).bind fun _ =>
      (ptSub C _ _).bind fun _ => (ptPow C _ _).bind fun _ => (exScale C _ _).bind fun _ => exAdd C _ _))

theorem interpolation (cls : FnClass) (ti tj : Triplet) :
    Sim h0 h0.exAt (interpolation C cls ti tj) (Verif.interpolation C cls (h0.tripAt ti) (h0.tripAt tj)) := by
  cases cls with
  | base => exact throw _
  | convex => exact convexPart C ti tj
  | strongly mu => exact (convexPart C ti tj).bind fun _ => (ptSub C _ _).bind fun _ => (ptPow C _ _).bind fun _ => (exScale C _ _).bind fun _ => exAdd C _ _
  | smoothStrongly mu L => exact smooth C ti tj mu L
  | smoothConvex L => exact smooth C ti tj 0 L

theorem appendClassCon (f : FnId) (e : ExId) : Sim h0 (id : Unit → Unit) (appendClassCon f e) (Verif.appendClassCon (h0.fnAt f) (h0.exAt e)) := by
  refine (getFn f).bind fun fo => ?_
  have := setFn (h0 := h0) f { fo with classCons := fo.classCons ++ [e] }
  simpa [fnObjAt] using this

theorem classConsInner (f : FnId) (cls : FnClass) (ti : Triplet) : ∀ l : List Triplet,
    Sim h0 (id : Unit → Unit) (classConsInner C f cls ti l) (Verif.classConsInner C (h0.fnAt f) cls (h0.tripAt ti) (l.map h0.tripAt))
  | [] => pure rfl
  | tj :: rest => by
    refine ite ?_ ((interpolation C cls ti tj).bind fun e => (appendClassCon f e).bind fun _ => classConsInner f cls ti rest) (classConsInner f cls ti rest)
    exact tripAt_inj.ne_iff

theorem classConsOuter (f : FnId) (cls : FnClass) (all : List Triplet) : ∀ l : List Triplet,
    Sim h0 (id : Unit → Unit) (classConsOuter C f cls all l) (Verif.classConsOuter C (h0.fnAt f) cls (all.map h0.tripAt) (l.map h0.tripAt))
  | [] => pure rfl
  | ti :: rest => (classConsInner C f cls ti all).bind fun _ => classConsOuter f cls all rest

theorem addClassConstraints (f : FnId) : Sim h0 (id : Unit → Unit) (addClassConstraints C f) (Verif.addClassConstraints C (h0.fnAt f)) :=
  (getFn f).bind fun fo => ite Iff.rfl (throw _) (classConsOuter C f fo.cls fo.points fo.points)

/-! ### Programs -/

/-- the variables of a script -/
def regsAt (h0 : Heap) (r : Regs) : Regs :=
  ⟨r.pts.map h0.ptAt, r.exs.map h0.exAt, r.fns.map h0.fnAt, r.decl.map h0.fnAt, r.cons.map fun c => (h0.exAt c.1, c.2), r.metric.map h0.exAt, r.obj⟩

theorem regGet {f : ℕ → ℕ} (l : List ℕ) (i : ℕ) : Sim h0 f (regGet l i) (Verif.regGet (l.map f) i) := by
  rw [Verif.regGet, Verif.regGet, List.getElem?_map]
  exact ofOption _ _

theorem pe (ps : List PtId) : ∀ e : PE, Sim h0 h0.ptAt (e.run C ps) (e.run C (ps.map h0.ptAt))
  | .reg i => regGet ps i
  | .add a b => (pe ps a).bind fun _ => (pe ps b).bind fun _ => ptAdd C _ _
  | .sub a b => (pe ps a).bind fun _ => (pe ps b).bind fun _ => ptSub C _ _
  | .neg a => (pe ps a).bind fun _ => ptNeg C _
  | .scale s a => (pe ps a).bind fun _ => ptScale C _ _
  | .div a c => (pe ps a).bind fun _ => ptDiv C _ _

theorem ee (ps : List PtId) (es : List ExId) : ∀ e : EE, Sim h0 h0.exAt (e.run C ps es) (e.run C (ps.map h0.ptAt) (es.map h0.exAt))
  | .reg i => regGet es i
  | .inner a b => (pe C ps a).bind fun _ => (pe C ps b).bind fun _ => ptInner C _ _
  | .pow a n => (pe C ps a).bind fun _ => ptPow C _ _
  | .add a b => (ee ps es a).bind fun _ => (ee ps es b).bind fun _ => exAdd C _ _
  | .sub a b => (ee ps es a).bind fun _ => (ee ps es b).bind fun _ => exSub C _ _
  | .neg a => (ee ps es a).bind fun _ => exNeg C _
  | .scale s a => (ee ps es a).bind fun _ => exScale C _ _
  | .div a c => (ee ps es a).bind fun _ => exDiv C _ _
  | .addNum a c => (ee ps es a).bind fun _ => exAddNum C _ _
  | .subNum a c => (ee ps es a).bind fun _ => exSubNum C _ _
  | .rsubNum c a => (ee ps es a).bind fun _ => exRSubNum C _ _

theorem fe (fs : List FnId) : ∀ e : FE, Sim h0 h0.fnAt (e.run fs) (e.run (fs.map h0.fnAt))
  | .reg i => regGet fs i
  | .add a b => (fe fs a).bind fun _ => (fe fs b).bind fun _ => fnAdd _ _
  | .sub a b => (fe fs a).bind fun _ => (fe fs b).bind fun _ => fnSub _ _
  | .neg a => (fe fs a).bind fun _ => fnNeg _
  | .scale c a => (fe fs a).bind fun _ => fnScale _ _
  | .div a c => (fe fs a).bind fun _ => fnDiv _ _

theorem instr (r : Regs) (i : Instr) : Sim h0 (regsAt h0) (i.run C r) (i.run C (regsAt h0 r)) := by
  cases i with
  | declare d => exact (declareFunction d).bind fun f => pure (by simp [regsAt])
  | fn a => exact (fe _ a).bind fun f => pure (by simp [regsAt])
  | pt a => exact (pe C _ a).bind fun f => pure (by simp [regsAt])
  | ex a => exact (ee C _ _ a).bind fun f => pure (by simp [regsAt])
  | initial => exact newLeafPt.bind fun f => pure (by simp [regsAt])
  | stationary f => exact (regGet _ f).bind fun f => (stationaryPoint C f).bind fun t => pure (by simp [regsAt, tripAt])
  | oracle f x => exact (regGet _ f).bind fun f => (regGet _ x).bind fun x => (oracle C f x).bind fun t => pure (by simp [regsAt, gvAt])
  | gradient f x => exact (regGet _ f).bind fun f => (regGet _ x).bind fun x => (gradient C f x).bind fun t => pure (by simp [regsAt])
  | value f x => exact (regGet _ f).bind fun f => (regGet _ x).bind fun x => (value C f x).bind fun t => pure (by simp [regsAt])
  | prox x0 f gamma => exact (regGet _ x0).bind fun x => (regGet _ f).bind fun f => (proximalStep C x f gamma).bind fun t => pure (by simp [regsAt, tripAt])
  | conj g f => exact (regGet _ g).bind fun x => (regGet _ f).bind fun f => (subgradConjugate C x f).bind fun t => pure (by simp [regsAt])
  | addPoint f x g v => exact (regGet _ f).bind fun f => (regGet _ x).bind fun x => (regGet _ g).bind fun g => (regGet _ v).bind fun v =>
      (addPoint C f (x, g, v)).bind fun _ => pure rfl
  | constr e k => exact (regGet _ e).bind fun e => pure (by simp [regsAt])
  | metric e => exact (regGet _ e).bind fun e => pure (by simp [regsAt])
  | objective e => exact pure (by simp [regsAt])

theorem prog : ∀ (l : List Instr) (r : Regs), Sim h0 (regsAt h0) (runProg C l r) (runProg C l (regsAt h0 r))
  | [], _ => pure rfl
  | i :: is, r => (instr C r i).bind fun r' => prog is r'

/-! ### Translation -/

theorem matStep (dimG dimF : ℕ) (m : FG) (kw : ExKey × Sym) :
    Sim h0 (id : FG → FG) (matStep C dimG dimF m kw) (Verif.matStep C dimG dimF m (h0.keyAt kw.1, kw.2)) := by
  obtain ⟨k, w⟩ := kw
  cases k with
  | one => exact pure rfl
  | fn e =>
    refine (getEx e).bind fun o => (assert rfl).bind fun _ => ?_
    refine bind (f := id) ?_ fun k => ite Iff.rfl (pure rfl) (throw _)
    have := ofOption (h0 := h0) (f := (id : ℕ → ℕ)) .index o.counter
    rwa [Option.map_id] at this
  | inner p q =>
    refine (getPt p).bind fun o => (getPt q).bind fun o2 => (assert rfl).bind fun _ => ?_
    refine bind (f := id) ?_ fun k => bind (f := id) ?_ fun j => ite Iff.rfl (pure rfl) (throw _)
    · have := ofOption (h0 := h0) (f := (id : ℕ → ℕ)) .index o.counter
      rwa [Option.map_id] at this
    · have := ofOption (h0 := h0) (f := (id : ℕ → ℕ)) .index o2.counter
      rwa [Option.map_id] at this

theorem matLoop (dimG dimF : ℕ) : ∀ (l : Dict ExKey Sym) (m : FG),
    Sim h0 (id : FG → FG) (matLoop C dimG dimF l m) (Verif.matLoop C dimG dimF (l.mapKeys h0.keyAt) m)
  | [], _ => pure rfl
  | kw :: rest, m => (matStep C dimG dimF m kw).bind fun m' => matLoop dimG dimF rest m'

theorem exprToMatrix (e : ExId) (dimG dimF : ℕ) : Sim h0 (id : FG → FG) (exprToMatrix C e dimG dimF) (Verif.exprToMatrix C (h0.exAt e) dimG dimF) :=
  (getEx e).bind fun o => matLoop C dimG dimF o.dict FG.zero

theorem extraStep (dimG dimF : ℕ) (acc : SymAcc) (c : ExId × Kind) :
    Sim h0 (id : SymAcc → SymAcc) (extraStep C dimG dimF acc c) (Verif.extraStep C dimG dimF acc (h0.exAt c.1, c.2)) :=
  (exprToMatrix C c.1 dimG dimF).bind fun _ => pure rfl

theorem extraLoop (dimG dimF : ℕ) : ∀ (l : List (ExId × Kind)) (acc : SymAcc),
    Sim h0 (id : SymAcc → SymAcc) (extraLoop C dimG dimF l acc) (Verif.extraLoop C dimG dimF (l.map fun c => (h0.exAt c.1, c.2)) acc)
  | [], _ => pure rfl
  | c :: rest, acc => (extraStep C dimG dimF acc c).bind fun acc' => extraLoop dimG dimF rest acc'

theorem pairStep (dimG dimF : ℕ) (f : FnId) (k : ℕ) (s : SymAcc × ℕ) (ij : ℕ × ℕ) :
    Sim h0 (id : SymAcc × ℕ → SymAcc × ℕ) (pairStep C dimG dimF f k s ij) (Verif.pairStep C dimG dimF (h0.fnAt f) k s ij) := by
  refine ite Iff.rfl (pure rfl) ?_
  refine (getFn f).bind fun fo => bind (f := h0.exAt) ?_ fun e => (exprToMatrix C e dimG dimF).bind fun m => pure rfl
  have := ofOption (h0 := h0) (f := h0.exAt) .index fo.classCons[s.2]?
  simpa [fnObjAt] using this

theorem pairLoop (dimG dimF : ℕ) (f : FnId) (k : ℕ) : ∀ (l : List (ℕ × ℕ)) (s : SymAcc × ℕ),
    Sim h0 (id : SymAcc × ℕ → SymAcc × ℕ) (pairLoop C dimG dimF f k l s) (Verif.pairLoop C dimG dimF (h0.fnAt f) k l s)
  | [], _ => pure rfl
  | ij :: rest, s => (pairStep C dimG dimF f k s ij).bind fun s' => pairLoop dimG dimF f k rest s'

theorem fnStep (dimG dimF : ℕ) (f : FnId) (k : ℕ) (acc : SymAcc) :
    Sim h0 (id : SymAcc → SymAcc) (fnStep C dimG dimF f k acc) (Verif.fnStep C dimG dimF (h0.fnAt f) k acc) := by
  refine (addClassConstraints C f).bind fun _ => (getFn f).bind fun fo => ?_
  refine bind (f := id) ?_ fun s => (getFn f).bind fun fo' => (assert ?_).bind fun _ => pure rfl
  · have := pairLoop (h0 := h0) C dimG dimF f k (loopPairs fo.points.length) (acc, 0)
    simpa [fnObjAt] using this
  · simp [fnObjAt]

theorem fnLoop (dimG dimF : ℕ) : ∀ (l : List FnId) (k : ℕ) (acc : SymAcc),
    Sim h0 (id : SymAcc → SymAcc) (fnLoop C dimG dimF l k acc) (Verif.fnLoop C dimG dimF (l.map h0.fnAt) k acc)
  | [], _, _ => pure rfl
  | f :: rest, k, acc => (fnStep C dimG dimF f k acc).bind fun acc' => fnLoop dimG dimF rest (k + 1) acc'

theorem symbolicMatrices (r : Regs) (leafs : List FnId) (dimG dimF : ℕ) :
    Sim h0 (id : SymMats → SymMats) (symbolicMatrices C r leafs dimG dimF) (Verif.symbolicMatrices C (regsAt h0 r) (leafs.map h0.fnAt) dimG dimF) :=
  (extraLoop C dimG dimF r.cons _).bind fun acc => (fnLoop C dimG dimF leafs _ acc).bind fun acc => (assert rfl).bind fun _ =>
    (ofOption (f := h0.exAt) _ r.metric).bind fun e => (exprToMatrix C e dimG dimF).bind fun m => pure rfl

theorem leafFnIds (h : Heap) : leafFnIds (h0.over h) = (Verif.leafFnIds h).map h0.fnAt := by
  rw [Verif.leafFnIds, Verif.leafFnIds, show (h0.over h).fnList = h.fnList.map h0.fnAt from rfl, List.filter_map]
  congr 1
  refine List.filter_congr fun f _ => ?_
  simp only [Function.comp, over_fns]
  cases h.fns[f]? <;> rfl

theorem problemMatrices (r : Regs) : Sim h0 (id : SymMats → SymMats) (problemMatrices C r) (Verif.problemMatrices C (regsAt h0 r)) := by
  refine get.bind fun h => ?_
  rw [leafFnIds]
  exact symbolicMatrices C r _ _ _

/-! ### Solvers -/

theorem solveIpopt (r : Regs) (params : List Name) (bounds : List Bound) (init : List Name) :
    Sim h0 (id : Nlp → Nlp) (solveIpopt C r params bounds init) (Verif.solveIpopt C (regsAt h0 r) params bounds init) := by
  refine get.bind fun h => (problemMatrices C r).bind fun sm => get.bind fun h' => ?_
  have h1 : (Verif.leafFnIds (h0.over h)).map (nSamples (h0.over h')) = (Verif.leafFnIds h).map (nSamples h') := by
    rw [leafFnIds, List.map_map]
    refine List.map_congr_left fun f _ => ?_
    simp only [Function.comp, nSamples, over_fns]
    cases h'.fns[f]? with
    | none => rfl
    | some o => simp [fnObjAt]
  have h2 : (regsAt h0 r).cons.length = r.cons.length := by simp [regsAt]
  show Sim h0 id (match ipoptNlp C sm ((Verif.leafFnIds h).map (nSamples h')) r.cons.length h.ptCounter h.exCounter params bounds init r.obj with
      | .ok x => Pure.pure x | .error e => M.throw e : M Nlp)
    (match ipoptNlp C sm ((Verif.leafFnIds (h0.over h)).map (nSamples (h0.over h'))) (regsAt h0 r).cons.length h.ptCounter h.exCounter params bounds init r.obj with
      | .ok x => Pure.pure x | .error e => M.throw e : M Nlp)
  rw [h1, h2]
  cases ipoptNlp C sm _ r.cons.length h.ptCounter h.exCounter params bounds init r.obj with
  | ok a => exact pure rfl
  | error e => exact throw e

theorem solveQcqp (r : Regs) (params : List Name) (bounds : List Bound) (extra : ℕ) :
    Sim h0 (id : Qcqp → Qcqp) (solveQcqp C r params bounds extra) (Verif.solveQcqp C (regsAt h0 r) params bounds extra) := by
  refine get.bind fun h => (problemMatrices C r).bind fun sm => ?_
  dsimp only [id]
  rw [show (h0.over h).ptCounter = h.ptCounter from rfl, show (h0.over h).exCounter = h.exCounter from rfl]
  rw [show (regsAt h0 r).obj = r.obj from rfl]
  cases qcqpNlp C sm h.ptCounter h.exCounter params bounds extra r.obj with
  | ok a => exact pure rfl
  | error e => exact throw e

theorem solveQcqpMatrix (r : Regs) (params : List Name) (bounds : List Bound) :
    Sim h0 (id : Qcqp → Qcqp) (solveQcqpMatrix C r params bounds) (Verif.solveQcqpMatrix C (regsAt h0 r) params bounds) := by
  refine get.bind fun h => (problemMatrices C r).bind fun sm => ?_
  dsimp only [id]
  rw [show (h0.over h).ptCounter = h.ptCounter from rfl, show (h0.over h).exCounter = h.exCounter from rfl]
  rw [show (regsAt h0 r).obj = r.obj from rfl]
  cases qcqpMatrixNlp C sm h.ptCounter h.exCounter params bounds r.obj with
  | ok a => exact pure rfl
  | error e => exact throw e

theorem solveFixedSdp (r : Regs) (params : List Name) (vals : Dict Name ℚ) :
    Sim h0 (id : Sdp → Sdp) (solveFixedSdp C r params vals) (Verif.solveFixedSdp C (regsAt h0 r) params vals) := by
  refine get.bind fun h => (assert rfl).bind fun _ => (problemMatrices C r).bind fun sm => ?_
  dsimp only [id]
  rw [show (h0.over h).ptCounter = h.ptCounter from rfl, show (h0.over h).exCounter = h.exCounter from rfl]
  cases fixedSdp C sm h.ptCounter h.exCounter params vals with
  | ok a => exact pure rfl
  | error e => exact throw e

theorem solveRelaxSdp (r : Regs) (params : List Name) (bounds : List Bound) (vb : Option Name) :
    Sim h0 (id : Sdp → Sdp) (solveRelaxSdp C r params bounds vb) (Verif.solveRelaxSdp C (regsAt h0 r) params bounds vb) := by
  refine get.bind fun h => (problemMatrices C r).bind fun sm => ?_
  dsimp only [id]
  rw [show (h0.over h).ptCounter = h.ptCounter from rfl, show (h0.over h).exCounter = h.exCounter from rfl]
  rw [show (regsAt h0 r).obj = r.obj from rfl]
  cases relaxSdp C sm h.ptCounter h.exCounter params bounds vb r.obj with
  | ok a => exact pure rfl
  | error e => exact throw e

theorem solveBisection (r : Regs) (params : List Name) (vals : Dict Name ℚ) (n : ℕ) (run : ℕ → Sdp → SolveOutcome) :
    Sim h0 (id : Dict Name ℚ × ℚ → Dict Name ℚ × ℚ) (solveBisection C r params vals n run) (Verif.solveBisection C (regsAt h0 r) params vals n run) := by
  refine get.bind fun h => (assert rfl).bind fun _ => (problemMatrices C r).bind fun sm => ?_
  show Sim h0 id _ (match spCoeffMatrix C sm.spExp params h.ptCounter h.exCounter with | .error e => M.throw e | .ok _ => Pure.pure _)
  cases spCoeffMatrix C sm.spExp params h.ptCounter h.exCounter with
  | ok a => exact pure rfl
  | error e => exact throw e

theorem nlpReport (look : Name → Option (List CExp)) (keys : List Name) (o : NlpOutcome) :
    Sim h0 (id : SolveResult → SolveResult) (nlpReport look keys o) (Verif.nlpReport look keys o) := by
  cases o with
  | raised => exact pure rfl
  | returned s sol => exact (assert rfl).bind fun _ => pure rfl

theorem solve (X : External) (r : Regs) (params : List Name) (solver : String) (a : SolveArgs) :
    Sim h0 (id : SolveResult → SolveResult) (solve C X r params solver a) (Verif.solve C X (regsAt h0 r) params solver a) := by
  refine ite Iff.rfl ((solveIpopt C r _ _ _).bind fun _ => nlpReport _ _ _) ?_
  refine ite Iff.rfl ((solveQcqp C r _ _ _).bind fun _ => nlpReport _ _ _) ?_
  refine ite Iff.rfl ((solveQcqpMatrix C r _ _).bind fun _ => nlpReport _ _ _) ?_
  refine ite Iff.rfl ((solveFixedSdp C r _ _).bind fun S => ?_) ?_
  · show Sim h0 id (sdpReport a.vals (X.sdp 0 S)) (sdpReport a.vals (X.sdp 0 S))
    cases X.sdp 0 S with
    | raised => exact throw _
    | status s sol => exact pure rfl
  refine ite Iff.rfl ((solveBisection C r _ _ _ _).bind fun _ => pure rfl) (pure rfl)

end Sim

end Verif
