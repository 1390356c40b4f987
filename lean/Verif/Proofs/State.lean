import Verif.Spec.Invariant
import Verif.Model.Function
import Verif.Proofs.PointExpr

namespace Verif
namespace Heap

/-- same or pruned dictionary -/
def SameDict (C : CAS) {α : Type} (d d' : Dict α Sym) : Prop := d' = d ∨ d' = d.prune (isZeroS C)

theorem SameDict.refl {C : CAS} {α : Type} (d : Dict α Sym) : SameDict C d d := Or.inl rfl
theorem SameDict.trans {C : CAS} {α : Type} {a b c : Dict α Sym} (h1 : SameDict C a b) (h2 : SameDict C b c) :
    SameDict C a c := by
  rcases h1 with rfl | rfl
  · exact h2
  · rcases h2 with rfl | rfl
    · exact Or.inr rfl
    · exact Or.inr (Dict.prune_prune _ _)
theorem SameDict.nodup {C : CAS} {α : Type} {a b : Dict α Sym} (h1 : SameDict C a b) (h : a.NodupKeys) :
    b.NodupKeys := by
  rcases h1 with rfl | rfl
  · exact h
  · exact Dict.nodup_prune _ h
theorem SameDict.keys {C : CAS} {α : Type} {a b : Dict α Sym} (h1 : SameDict C a b) {k} (h : k ∈ b.keys) :
    k ∈ a.keys := by
  rcases h1 with rfl | rfl
  · exact h
  · exact Dict.keys_prune_subset _ _ h
theorem SameDict.den {C : CAS} (hC : C.Lawful) {α : Type} {a b : Dict α Sym} (h1 : SameDict C a b)
    {M : Type} [AddCommGroup M] [Module ℝ M] (env) (φ : α → M) : b.den (Sym.eval env) φ = a.den (Sym.eval env) φ := by
  rcases h1 with rfl | rfl
  · rfl
  · exact Dict.den_prune _ _ (isZeroS_eval hC env) _

/-- same or pruned weights -/
def SameWts (d d' : Dict FnId ℚ) : Prop := d' = d ∨ d' = d.prune (fun w => w = 0)

theorem SameWts.trans {a b c : Dict FnId ℚ} (h1 : SameWts a b) (h2 : SameWts b c) : SameWts a c := by
  rcases h1 with rfl | rfl
  · exact h2
  · rcases h2 with rfl | rfl
    · exact Or.inr rfl
    · exact Or.inr (Dict.prune_prune _ _)

/-- what may change of a function object -/
structure FnExt (o o' : FnObj) : Prop where
  leaf : o'.leaf = o.leaf
  counter : o'.counter = o.counter
  cls : o'.cls = o.cls
  reuse : o'.reuse = o.reuse
  dict : SameWts o.dict o'.dict
  points : o.points <+: o'.points
  stationary : o.stationary <+: o'.stationary
  classCons : o.classCons <+: o'.classCons

theorem FnExt.refl (o : FnObj) : FnExt o o :=
  ⟨rfl, rfl, rfl, rfl, Or.inl rfl, List.prefix_rfl, List.prefix_rfl, List.prefix_rfl⟩
theorem FnExt.trans {a b c : FnObj} (h1 : FnExt a b) (h2 : FnExt b c) : FnExt a c :=
  ⟨h2.leaf.trans h1.leaf, h2.counter.trans h1.counter, h2.cls.trans h1.cls, h2.reuse.trans h1.reuse,
    h1.dict.trans h2.dict, h1.points.trans h2.points, h1.stationary.trans h2.stationary,
    h1.classCons.trans h2.classCons⟩

/-- What any API call may do to the heap: create objects, prune dictionaries, append to lists. -/
structure Ext (C : CAS) (h h' : Heap) : Prop where
  pts : ∀ (p : ℕ) (o : PtObj), h.pts[p]? = some o → ∃ o', h'.pts[p]? = some o' ∧ o'.leaf = o.leaf ∧
    o'.counter = o.counter ∧ SameDict C o.dict o'.dict
  exs : ∀ (p : ℕ) (o : ExObj), h.exs[p]? = some o → ∃ o', h'.exs[p]? = some o' ∧ o'.leaf = o.leaf ∧
    o'.counter = o.counter ∧ SameDict C o.dict o'.dict
  fns : ∀ (f : ℕ) (o : FnObj), h.fns[f]? = some o → ∃ o', h'.fns[f]? = some o' ∧ FnExt o o'
  leafPts : h.leafPts <+: h'.leafPts
  leafExs : h.leafExs <+: h'.leafExs
  fnList : h.fnList <+: h'.fnList

variable {C : CAS}

theorem Ext.refl (h : Heap) : Ext C h h :=
  ⟨fun _ o hp => ⟨o, hp, rfl, rfl, Or.inl rfl⟩, fun _ o hp => ⟨o, hp, rfl, rfl, Or.inl rfl⟩,
    fun _ o hf => ⟨o, hf, FnExt.refl o⟩, List.prefix_rfl, List.prefix_rfl, List.prefix_rfl⟩

theorem Ext.trans {h1 h2 h3 : Heap} (a : Ext C h1 h2) (b : Ext C h2 h3) : Ext C h1 h3 := by
  refine ⟨?_, ?_, ?_, a.leafPts.trans b.leafPts, a.leafExs.trans b.leafExs, a.fnList.trans b.fnList⟩
  · intro p o hp
    obtain ⟨o', hp', e1, e2, e3⟩ := a.pts p o hp
    obtain ⟨o'', hp'', f1, f2, f3⟩ := b.pts p o' hp'
    exact ⟨o'', hp'', f1.trans e1, f2.trans e2, e3.trans f3⟩
  · intro p o hp
    obtain ⟨o', hp', e1, e2, e3⟩ := a.exs p o hp
    obtain ⟨o'', hp'', f1, f2, f3⟩ := b.exs p o' hp'
    exact ⟨o'', hp'', f1.trans e1, f2.trans e2, e3.trans f3⟩
  · intro p o hp
    obtain ⟨o', hp', e⟩ := a.fns p o hp
    obtain ⟨o'', hp'', f⟩ := b.fns p o' hp'
    exact ⟨o'', hp'', e.trans f⟩

theorem Ext.isPt {h h' : Heap} (a : Ext C h h') {p : ℕ} (hp : h.IsPt p) : h'.IsPt p := by
  obtain ⟨o, ho⟩ := hp.get
  obtain ⟨o', ho', -⟩ := a.pts p o ho
  exact isPt_of_get ho'
theorem Ext.isEx {h h' : Heap} (a : Ext C h h') {p : ℕ} (hp : h.IsEx p) : h'.IsEx p := by
  obtain ⟨o, ho⟩ := hp.get
  obtain ⟨o', ho', -⟩ := a.exs p o ho
  exact isEx_of_get ho'

theorem PtLive.isPt {h : Heap} {p : ℕ} (hp : h.PtLive p) : h.IsPt p := by
  obtain ⟨o, ho, -⟩ := hp; exact isPt_of_get ho
theorem ExLive.isEx {h : Heap} {p : ℕ} (hp : h.ExLive p) : h.IsEx p := by
  obtain ⟨o, ho, -⟩ := hp; exact isEx_of_get ho

theorem Ext.ptLive {h h' : Heap} (a : Ext C h h') {p : ℕ} (hp : h.PtLive p) : h'.PtLive p := by
  obtain ⟨o, ho, hn, hk⟩ := hp
  obtain ⟨o', ho', -, -, hs⟩ := a.pts p o ho
  exact ⟨o', ho', hs.nodup hn, fun k hkk => a.leafPts.subset (hk k (hs.keys hkk))⟩
theorem Ext.keyLive {h h' : Heap} (a : Ext C h h') {k : ExKey} (hk : h.KeyLive k) : h'.KeyLive k := by
  cases k with
  | fn e => exact a.leafExs.subset hk
  | inner p q => exact ⟨a.leafPts.subset hk.1, a.leafPts.subset hk.2⟩
  | one => trivial
theorem Ext.exLive {h h' : Heap} (a : Ext C h h') {p : ℕ} (hp : h.ExLive p) : h'.ExLive p := by
  obtain ⟨o, ho, hn, hk⟩ := hp
  obtain ⟨o', ho', -, -, hs⟩ := a.exs p o ho
  exact ⟨o', ho', hs.nodup hn, fun k hkk => a.keyLive (hk k (hs.keys hkk))⟩
theorem Ext.tripletLive {h h' : Heap} (a : Ext C h h') {t : Triplet} (ht : h.TripletLive t) : h'.TripletLive t :=
  ⟨a.ptLive ht.1, a.ptLive ht.2.1, a.exLive ht.2.2⟩
theorem Ext.fnLive {h h' : Heap} (a : Ext C h h') {f : FnId} (hf : h.FnLive f) : h'.FnLive f := a.fnList.subset hf

section val
variable {E : Type} [NormedAddCommGroup E] [InnerProductSpace ℝ E]

theorem Ext.ptVal {h h' : Heap} (hC : C.Lawful) (a : Ext C h h') {p : ℕ} (hp : h.IsPt p) (env) (φ : PtId → E) :
    h'.ptVal env φ p = h.ptVal env φ p := by
  obtain ⟨o, ho⟩ := hp.get
  obtain ⟨o', ho', -, -, hs⟩ := a.pts p o ho
  rw [ptVal_of ho, ptVal_of ho', hs.den hC]
theorem Ext.exVal {h h' : Heap} (hC : C.Lawful) (a : Ext C h h') {p : ℕ} (hp : h.IsEx p) (env) (φ : PtId → E) (ψ) :
    h'.exVal env φ ψ p = h.exVal env φ ψ p := by
  obtain ⟨o, ho⟩ := hp.get
  obtain ⟨o', ho', -, -, hs⟩ := a.exs p o ho
  rw [exVal_of ho, exVal_of ho', hs.den hC]

theorem PtLive.congr {h : Heap} {p : ℕ} (hp : h.PtLive p) (env) {φ φ' : PtId → E} (hφ : ∀ k ∈ h.leafPts, φ' k = φ k) :
    h.ptVal env φ' p = h.ptVal env φ p := by
  obtain ⟨o, ho, -, hk⟩ := hp
  rw [ptVal_of ho, ptVal_of ho]
  exact Dict.den_congr _ _ (fun k hkk => hφ k (hk k hkk))
theorem ExLive.congr {h : Heap} {p : ℕ} (hp : h.ExLive p) (env) {φ φ' : PtId → E} {ψ ψ' : ExId → ℝ}
    (hφ : ∀ k ∈ h.leafPts, φ' k = φ k) (hψ : ∀ k ∈ h.leafExs, ψ' k = ψ k) :
    h.exVal env φ' ψ' p = h.exVal env φ ψ p := by
  obtain ⟨o, ho, -, hk⟩ := hp
  rw [exVal_of ho, exVal_of ho]
  refine Dict.den_congr _ _ (fun k hkk => ?_)
  have := hk k hkk
  cases k with
  | fn e => exact hψ e this
  | inner p q => simp only [keyVal]; rw [hφ p this.1, hφ q this.2]
  | one => rfl
end val

/-! ### primitive heap changes -/

/-- the heap after `newLeafPt` -/
def addLeafPt (h : Heap) : Heap := { h with
    pts := h.pts ++ [⟨true, some h.ptCounter, [(h.pts.length, Sym.num 1)]⟩]
    ptCounter := h.ptCounter + 1
    leafPts := h.leafPts ++ [h.pts.length] }
/-- the heap after `newLeafEx` -/
def addLeafEx (h : Heap) : Heap := { h with
    exs := h.exs ++ [⟨true, some h.exCounter, [(ExKey.fn h.exs.length, Sym.num 1)]⟩]
    exCounter := h.exCounter + 1
    leafExs := h.leafExs ++ [h.exs.length] }
/-- the heap after `newLeafFn` -/
def addLeafFn (h : Heap) (cls : FnClass) (reuse : Bool) : Heap := { h with
    fns := h.fns ++ [⟨true, some h.fnCounter, cls, reuse, [(h.fns.length, 1)], [], [], []⟩]
    fnCounter := h.fnCounter + 1
    fnList := h.fnList ++ [h.fns.length] }
/-- the heap after `newFn` -/
def addFn (h : Heap) (d : Dict FnId ℚ) (reuse : Bool) : Heap := { h with
    fns := h.fns ++ [⟨false, none, .base, reuse, d, [], [], []⟩]
    fnList := h.fnList ++ [h.fns.length] }
/-- the heap after assigning to a function object -/
def putFn (h : Heap) (f : FnId) (o : FnObj) : Heap := { h with fns := h.fns.set f o }
/-- the heap after assigning to a point object -/
def putPt (h : Heap) (p : PtId) (o : PtObj) : Heap := { h with pts := h.pts.set p o }
/-- the heap after assigning to an expression object -/
def putEx (h : Heap) (e : ExId) (o : ExObj) : Heap := { h with exs := h.exs.set e o }

theorem getElem?_append_some {α} {l : List α} {i : ℕ} {a : α} (l' : List α) (h : l[i]? = some a) :
    (l ++ l')[i]? = some a := by
  rw [List.getElem?_append_left (List.getElem?_eq_some_iff.1 h).1]; exact h

theorem ext_onlyAdds {h h' : Heap} (a : h.OnlyAdds h') : Ext C h h' := by
  refine ⟨fun p o hp => ⟨o, a.pts hp, rfl, rfl, Or.inl rfl⟩, fun p o hp => ⟨o, a.exs hp, rfl, rfl, Or.inl rfl⟩, ?_, ?_, ?_, ?_⟩
  all_goals obtain ⟨ps, es, rfl, -⟩ := a
  · exact fun f o hf => ⟨o, hf, FnExt.refl o⟩
  · exact List.prefix_rfl
  · exact List.prefix_rfl
  · exact List.prefix_rfl
theorem ext_addLeafPt (h : Heap) : Ext C h h.addLeafPt :=
  ⟨fun _ o hp => ⟨o, getElem?_append_some _ hp, rfl, rfl, Or.inl rfl⟩, fun _ o hp => ⟨o, hp, rfl, rfl, Or.inl rfl⟩,
    fun _ o hf => ⟨o, hf, FnExt.refl o⟩, List.prefix_append _ _, List.prefix_rfl, List.prefix_rfl⟩
theorem ext_addLeafEx (h : Heap) : Ext C h h.addLeafEx :=
  ⟨fun _ o hp => ⟨o, hp, rfl, rfl, Or.inl rfl⟩, fun _ o hp => ⟨o, getElem?_append_some _ hp, rfl, rfl, Or.inl rfl⟩,
    fun _ o hf => ⟨o, hf, FnExt.refl o⟩, List.prefix_rfl, List.prefix_append _ _, List.prefix_rfl⟩
theorem ext_addLeafFn (h : Heap) (c r) : Ext C h (h.addLeafFn c r) :=
  ⟨fun _ o hp => ⟨o, hp, rfl, rfl, Or.inl rfl⟩, fun _ o hp => ⟨o, hp, rfl, rfl, Or.inl rfl⟩,
    fun _ o hf => ⟨o, getElem?_append_some _ hf, FnExt.refl o⟩, List.prefix_rfl, List.prefix_rfl, List.prefix_append _ _⟩
theorem ext_addFn (h : Heap) (c r) : Ext C h (h.addFn c r) :=
  ⟨fun _ o hp => ⟨o, hp, rfl, rfl, Or.inl rfl⟩, fun _ o hp => ⟨o, hp, rfl, rfl, Or.inl rfl⟩,
    fun _ o hf => ⟨o, getElem?_append_some _ hf, FnExt.refl o⟩, List.prefix_rfl, List.prefix_rfl, List.prefix_append _ _⟩
theorem ext_putFn {h : Heap} {f : ℕ} {o o' : FnObj} (hf : h.fns[f]? = some o) (ho : FnExt o o') :
    Ext C h (h.putFn f o') := by
  refine ⟨fun _ o hp => ⟨o, hp, rfl, rfl, Or.inl rfl⟩, fun _ o hp => ⟨o, hp, rfl, rfl, Or.inl rfl⟩,
    fun k ok hk => ?_, List.prefix_rfl, List.prefix_rfl, List.prefix_rfl⟩
  by_cases hkf : f = k
  · subst hkf
    rw [hf] at hk; cases hk
    exact ⟨o', by simp [putFn, (List.getElem?_eq_some_iff.1 hf).1], ho⟩
  · exact ⟨ok, by simp [putFn, List.getElem?_set, hkf, hk], FnExt.refl ok⟩
theorem ext_putPt {h : Heap} {f : ℕ} {o : PtObj} (hf : h.pts[f]? = some o) :
    Ext C h (h.putPt f { o with dict := o.dict.prune (isZeroS C) }) := by
  refine ⟨fun k ok hk => ?_, fun _ o hp => ⟨o, hp, rfl, rfl, Or.inl rfl⟩, fun _ o hf => ⟨o, hf, FnExt.refl o⟩,
    List.prefix_rfl, List.prefix_rfl, List.prefix_rfl⟩
  by_cases hkf : f = k
  · subst hkf
    rw [hf] at hk; cases hk
    exact ⟨{ o with dict := o.dict.prune (isZeroS C) }, by simp [putPt, (List.getElem?_eq_some_iff.1 hf).1], rfl, rfl, Or.inr rfl⟩
  · exact ⟨ok, by simp [putPt, List.getElem?_set, hkf, hk], rfl, rfl, Or.inl rfl⟩
theorem ext_putEx {h : Heap} {f : ℕ} {o : ExObj} (hf : h.exs[f]? = some o) :
    Ext C h (h.putEx f { o with dict := o.dict.prune (isZeroS C) }) := by
  refine ⟨fun _ o hp => ⟨o, hp, rfl, rfl, Or.inl rfl⟩, fun k ok hk => ?_, fun _ o hf => ⟨o, hf, FnExt.refl o⟩,
    List.prefix_rfl, List.prefix_rfl, List.prefix_rfl⟩
  by_cases hkf : f = k
  · subst hkf
    rw [hf] at hk; cases hk
    exact ⟨{ o with dict := o.dict.prune (isZeroS C) }, by simp [putEx, (List.getElem?_eq_some_iff.1 hf).1], rfl, rfl, Or.inr rfl⟩
  · exact ⟨ok, by simp [putEx, List.getElem?_set, hkf, hk], rfl, rfl, Or.inl rfl⟩

/-! ### preservation of the registry invariant -/

theorem prune_eq_self {α : Type} {d : Dict α Sym} (hd : ∀ kv ∈ d, C.eqB kv.2 (Sym.num 0) = false) :
    d.prune (isZeroS C) = d := by
  rw [Dict.prune, List.filter_eq_self]
  intro kv hkv; simp [isZeroS, hd kv hkv]
theorem prune_all {α : Type} (d : Dict α Sym) : ∀ kv ∈ d.prune (isZeroS C), C.eqB kv.2 (Sym.num 0) = false := by
  intro kv hkv
  simpa [Dict.prune, isZeroS] using (List.mem_filter.1 hkv).2

theorem Ext.pruned {h h' : Heap} (a : Ext C h h') {p : ℕ} (hp : Pruned C h p) : Pruned C h' p := by
  obtain ⟨o, ho, hk⟩ := hp
  obtain ⟨o', ho', -, -, hs⟩ := a.pts p o ho
  refine ⟨o', ho', ?_⟩
  rcases hs with h | h
  · rw [h]; exact hk
  · rw [h, prune_eq_self hk]; exact hk
/-- the dictionary of a pruned point never changes -/
theorem Ext.pruned_get {h h' : Heap} (a : Ext C h h') {p : ℕ} (hp : Pruned C h p) :
    ∃ o o', h.pts[p]? = some o ∧ h'.pts[p]? = some o' ∧ o'.dict = o.dict := by
  obtain ⟨o, ho, hk⟩ := hp
  obtain ⟨o', ho', -, -, hs⟩ := a.pts p o ho
  refine ⟨o, o', ho, ho', ?_⟩
  rcases hs with h | h
  · exact h
  · rw [h, prune_eq_self hk]

theorem FnOk.ext {h h' : Heap} (a : Ext C h h') {f : FnId} {o : FnObj} (ho : FnOk C h f o) : FnOk C h' f o := by
  refine ⟨ho.nodup, ho.leafDict, ho.leafCls, fun hl k hk => ?_, fun t ht => a.tripletLive (ho.points t ht),
    fun t ht => a.pruned (ho.pruned t ht), ho.stationary,
    fun e he => a.exLive (ho.classCons e he)⟩
  obtain ⟨h1, ok, h2, h3, h4⟩ := ho.sumKeys hl k hk
  obtain ⟨ok', h2', he⟩ := a.fns k ok h2
  exact ⟨a.fnList.subset h1, ok', h2', he.leaf.trans h3, fun hr => he.reuse.trans (h4 hr)⟩

theorem WF.onlyAdds {h h' : Heap} (w : WF C h) (a : h.OnlyAdds h') : WF C h' := by
  have e := ext_onlyAdds (C := C) a
  refine ⟨?_, ?_, ?_, ?_, ?_, ?_⟩
  · obtain ⟨ps, es, rfl, -⟩ := a; exact w.ptCounter
  · intro i p hi
    have : h.leafPts[i]? = some p := by obtain ⟨ps, es, rfl, -⟩ := a; exact hi
    exact a.pts (w.leafPt i p this)
  · obtain ⟨ps, es, rfl, -⟩ := a; exact w.exCounter
  · intro i p hi
    have : h.leafExs[i]? = some p := by obtain ⟨ps, es, rfl, -⟩ := a; exact hi
    exact a.exs (w.leafEx i p this)
  · obtain ⟨ps, es, rfl, -⟩ := a; exact w.fnNodup
  · intro f hf
    have : f ∈ h.fnList := by obtain ⟨ps, es, rfl, -⟩ := a; exact hf
    obtain ⟨o, ho, hok⟩ := w.fn f this
    refine ⟨o, ?_, hok.ext e⟩
    obtain ⟨ps, es, rfl, -⟩ := a; exact ho

theorem WF.addLeafPt {h : Heap} (w : WF C h) : WF C h.addLeafPt := by
  have e := ext_addLeafPt (C := C) h
  refine ⟨by simp [Heap.addLeafPt, w.ptCounter], ?_, w.exCounter, w.leafEx, w.fnNodup, ?_⟩
  · intro i p hi
    simp only [Heap.addLeafPt] at hi ⊢
    rcases lt_or_ge i h.leafPts.length with hlt | hge
    · rw [List.getElem?_append_left hlt] at hi
      exact getElem?_append_some _ (w.leafPt i p hi)
    · rw [List.getElem?_append_right hge] at hi
      have : i - h.leafPts.length = 0 := by
        by_contra hne
        rw [List.getElem?_eq_none (by simp; omega)] at hi
        cases hi
      rw [this] at hi
      simp at hi
      subst hi
      have : i = h.leafPts.length := by omega
      subst this
      simp [w.ptCounter]
  · intro f hf
    obtain ⟨o, ho, hok⟩ := w.fn f hf
    exact ⟨o, ho, hok.ext e⟩

theorem WF.addLeafEx {h : Heap} (w : WF C h) : WF C h.addLeafEx := by
  have e := ext_addLeafEx (C := C) h
  refine ⟨w.ptCounter, w.leafPt, by simp [Heap.addLeafEx, w.exCounter], ?_, w.fnNodup, ?_⟩
  · intro i p hi
    simp only [Heap.addLeafEx] at hi ⊢
    rcases lt_or_ge i h.leafExs.length with hlt | hge
    · rw [List.getElem?_append_left hlt] at hi
      exact getElem?_append_some _ (w.leafEx i p hi)
    · rw [List.getElem?_append_right hge] at hi
      have : i - h.leafExs.length = 0 := by
        by_contra hne
        rw [List.getElem?_eq_none (by simp; omega)] at hi
        cases hi
      rw [this] at hi
      simp at hi
      subst hi
      have : i = h.leafExs.length := by omega
      subst this
      simp [w.exCounter]
  · intro f hf
    obtain ⟨o, ho, hok⟩ := w.fn f hf
    exact ⟨o, ho, hok.ext e⟩

theorem WF.fn_lt {h : Heap} (w : WF C h) {f : FnId} (hf : f ∈ h.fnList) : f < h.fns.length := by
  obtain ⟨o, ho, -⟩ := w.fn f hf
  exact (List.getElem?_eq_some_iff.1 ho).1

theorem WF.addLeafFn {h : Heap} (w : WF C h) (cls : FnClass) (r : Bool) (hcls : cls ≠ .base) :
    WF C (h.addLeafFn cls r) := by
  have e := ext_addLeafFn (C := C) h cls r
  refine ⟨w.ptCounter, w.leafPt, w.exCounter, w.leafEx, ?_, ?_⟩
  · refine List.nodup_append.2 ⟨w.fnNodup, by simp, ?_⟩
    intro a ha b hb; simp at hb; subst hb
    exact (w.fn_lt ha).ne
  · intro f hf
    rcases List.mem_append.1 hf with hf | hf
    · obtain ⟨o, ho, hok⟩ := w.fn f hf
      exact ⟨o, getElem?_append_some _ ho, hok.ext e⟩
    · simp at hf; subst hf
      refine ⟨⟨true, some h.fnCounter, cls, r, [(h.fns.length, 1)], [], [], []⟩, by simp [Heap.addLeafFn], ?_⟩
      exact ⟨by simp [Dict.NodupKeys], fun _ => rfl, fun _ => hcls, by simp, by simp, by simp, by simp, by simp⟩

theorem WF.addFn {h : Heap} (w : WF C h) (d : Dict FnId ℚ) (r : Bool) (hd : d.NodupKeys)
    (hk : ∀ k ∈ d.keys, k ∈ h.fnList ∧ ∃ ok, h.fns[k]? = some ok ∧ ok.leaf = true ∧ (r = true → ok.reuse = true)) :
    WF C (h.addFn d r) := by
  have e := ext_addFn (C := C) h d r
  refine ⟨w.ptCounter, w.leafPt, w.exCounter, w.leafEx, ?_, ?_⟩
  · refine List.nodup_append.2 ⟨w.fnNodup, by simp, ?_⟩
    intro a ha b hb; simp at hb; subst hb
    exact (w.fn_lt ha).ne
  · intro f hf
    rcases List.mem_append.1 hf with hf | hf
    · obtain ⟨o, ho, hok⟩ := w.fn f hf
      exact ⟨o, getElem?_append_some _ ho, hok.ext e⟩
    · simp at hf; subst hf
      refine ⟨⟨false, none, .base, r, d, [], [], []⟩, by simp [Heap.addFn], ?_⟩
      refine ⟨hd, by simp, by simp, fun _ k hkk => ?_, by simp, by simp, by simp, by simp⟩
      obtain ⟨h1, ok, h2, h3⟩ := hk k hkk
      exact ⟨by simp [Heap.addFn, h1], ok, getElem?_append_some _ h2, h3⟩

theorem WF.putFn {h : Heap} (w : WF C h) {f : ℕ} {o o' : FnObj} (hf : h.fns[f]? = some o) (ho : FnExt o o')
    (hok : FnOk C h f o') : WF C (h.putFn f o') := by
  have e := ext_putFn (C := C) hf ho
  refine ⟨w.ptCounter, w.leafPt, w.exCounter, w.leafEx, w.fnNodup, ?_⟩
  intro k hk
  obtain ⟨ok, h1, h2⟩ := w.fn k hk
  by_cases hkf : f = k
  · subst hkf
    exact ⟨o', by simp [Heap.putFn, (List.getElem?_eq_some_iff.1 hf).1], hok.ext e⟩
  · exact ⟨ok, by simp [Heap.putFn, List.getElem?_set, hkf, h1], h2.ext e⟩

theorem WF.putPt {h : Heap} (hC : C.Lawful) (w : WF C h) {p : ℕ} {o : PtObj} (hp : h.pts[p]? = some o) :
    WF C (h.putPt p { o with dict := o.dict.prune (isZeroS C) }) := by
  have e := ext_putPt (C := C) hp
  refine ⟨w.ptCounter, ?_, w.exCounter, w.leafEx, w.fnNodup, ?_⟩
  · intro i q hi
    have := w.leafPt i q hi
    by_cases hpq : p = q
    · subst hpq
      rw [hp] at this; cases this
      simp [Heap.putPt, Dict.prune, (List.getElem?_eq_some_iff.1 hp).1, isZeroS_one hC]
    · simp [Heap.putPt, List.getElem?_set, hpq, this]
  · intro k hk
    obtain ⟨ok, h1, h2⟩ := w.fn k hk
    exact ⟨ok, h1, h2.ext e⟩

theorem WF.putEx {h : Heap} (hC : C.Lawful) (w : WF C h) {p : ℕ} {o : ExObj} (hp : h.exs[p]? = some o) :
    WF C (h.putEx p { o with dict := o.dict.prune (isZeroS C) }) := by
  have e := ext_putEx (C := C) hp
  refine ⟨w.ptCounter, w.leafPt, w.exCounter, ?_, w.fnNodup, ?_⟩
  · intro i q hi
    have := w.leafEx i q hi
    by_cases hpq : p = q
    · subst hpq
      rw [hp] at this; cases this
      simp [Heap.putEx, Dict.prune, (List.getElem?_eq_some_iff.1 hp).1, isZeroS_one hC]
    · simp [Heap.putEx, List.getElem?_set, hpq, this]
  · intro k hk
    obtain ⟨ok, h1, h2⟩ := w.fn k hk
    exact ⟨ok, h1, h2.ext e⟩

/-- A fresh problem satisfies the invariant, whatever happened before. -/
theorem wf_reset (h : Heap) : WF C h.reset :=
  ⟨rfl, by simp [reset], rfl, by simp [reset], by simp [reset], by simp [reset]⟩

end Heap

open Heap

variable {C : CAS} {h : Heap}

theorem newLeafPt_run (h : Heap) : newLeafPt h = .ok (h.pts.length, h.addLeafPt) := rfl
theorem newLeafEx_run (h : Heap) : newLeafEx h = .ok (h.exs.length, h.addLeafEx) := rfl
theorem newLeafFn_run (h : Heap) (c r) : newLeafFn c r h = .ok (h.fns.length, h.addLeafFn c r) := rfl
theorem newFn_run (h : Heap) (c r) : newFn c r h = .ok (h.fns.length, h.addFn c r) := rfl
theorem setFn_run (h : Heap) (f o) : setFn f o h = .ok ((), h.putFn f o) := rfl
theorem prunePt_run {p : ℕ} {o : PtObj} (hp : h.pts[p]? = some o) :
    prunePt C p h = .ok ((), h.putPt p { o with dict := o.dict.prune (isZeroS C) }) := by simp [prunePt, hp, putPt]
theorem pruneEx_run {p : ℕ} {o : ExObj} (hp : h.exs[p]? = some o) :
    pruneEx C p h = .ok ((), h.putEx p { o with dict := o.dict.prune (isZeroS C) }) := by simp [pruneEx, hp, putEx]

theorem addLeafPt_live (h : Heap) : h.addLeafPt.PtLive h.pts.length :=
  ⟨⟨true, some h.ptCounter, [(h.pts.length, Sym.num 1)]⟩, by simp [addLeafPt], by simp [Dict.NodupKeys],
    by simp [addLeafPt]⟩
theorem addLeafEx_live (h : Heap) : h.addLeafEx.ExLive h.exs.length :=
  ⟨⟨true, some h.exCounter, [(ExKey.fn h.exs.length, Sym.num 1)]⟩, by simp [addLeafEx], by simp [Dict.NodupKeys],
    by simp [addLeafEx, KeyLive]⟩

section
variable {E : Type} [NormedAddCommGroup E] [InnerProductSpace ℝ E]
theorem addLeafPt_val (h : Heap) (env) (φ : PtId → E) : h.addLeafPt.ptVal env φ h.pts.length = φ h.pts.length := by
  have : h.addLeafPt.pts[h.pts.length]? = some ⟨true, some h.ptCounter, [(h.pts.length, Sym.num 1)]⟩ := by
    simp [addLeafPt]
  rw [ptVal_of this]; simp
theorem addLeafEx_val (h : Heap) (env) (φ : PtId → E) (ψ) :
    h.addLeafEx.exVal env φ ψ h.exs.length = ψ h.exs.length := by
  have : h.addLeafEx.exs[h.exs.length]? = some ⟨true, some h.exCounter, [(ExKey.fn h.exs.length, Sym.num 1)]⟩ := by
    simp [addLeafEx]
  rw [exVal_of this]; simp [keyVal]
end

theorem pushPt_live {d : Dict PtId Sym} (hd : d.NodupKeys) (hk : ∀ k ∈ d.keys, k ∈ h.leafPts) :
    (h.pushPt d).PtLive h.pts.length := ⟨_, pushPt_get h d, hd, hk⟩
theorem pushEx_live (C : CAS) {d : Dict ExKey Sym} (hd : d.NodupKeys) (hk : ∀ k ∈ d.keys, h.KeyLive k) :
    (h.pushEx d).ExLive h.exs.length :=
  ⟨_, pushEx_get h d, hd, fun k hkk =>
    (ext_onlyAdds (C := C) (onlyAdds_pushEx h d)).keyLive (hk k hkk)⟩

/-- result of an operation returning a live point -/
structure PtRes (h : Heap) (run : Except Err (PtId × Heap)) (r : PtId) (h' : Heap) : Prop where
  run : run = .ok (r, h')
  adds : h.OnlyAdds h'
  live : h'.PtLive r
/-- result of an operation returning a live expression -/
structure ExRes (h : Heap) (run : Except Err (ExId × Heap)) (r : ExId) (h' : Heap) : Prop where
  run : run = .ok (r, h')
  adds : h.OnlyAdds h'
  live : h'.ExLive r

section ops
variable (hC : C.Lawful)
include hC
variable {p q : PtId} {e f : ExId}

theorem ptAdd_live (hp : h.PtLive p) (hq : h.PtLive q) : ∃ r h', PtRes h (ptAdd C p q h) r h' ∧
    ∀ {E : Type} [NormedAddCommGroup E] [InnerProductSpace ℝ E] (env) (φ : PtId → E),
      h'.ptVal env φ r = h.ptVal env φ p + h.ptVal env φ q := by
  obtain ⟨a, ha, na, ka⟩ := hp
  obtain ⟨b, hb, nb, kb⟩ := hq
  refine ⟨_, _, ⟨ptAdd_run ha hb, onlyAdds_pushPt _ _, pushPt_live (Dict.nodup_prune _ (Dict.nodup_merge _ na nb)) ?_⟩, ?_⟩
  · intro k hk
    rcases (Dict.mem_keys_merge _ na nb k).1 (Dict.keys_prune_subset _ _ hk) with h | h
    · exact ka k h
    · exact kb k h
  · intro E _ _ env φ
    rw [ptVal_pushPt, Dict.den_prune _ _ (isZeroS_eval hC env), Dict.den_merge _ _ (plusS_eval hC env) na nb,
      ptVal_of ha, ptVal_of hb]

theorem ptScale_live (s : Sym) (hp : h.PtLive p) : ∃ r h', PtRes h (ptScale C s p h) r h' ∧
    ∀ {E : Type} [NormedAddCommGroup E] [InnerProductSpace ℝ E] (env) (φ : PtId → E),
      h'.ptVal env φ r = s.eval env • h.ptVal env φ p := by
  obtain ⟨a, ha, na, ka⟩ := hp
  refine ⟨_, _, ⟨ptScale_run s ha, onlyAdds_pushPt _ _, pushPt_live (by simpa [Dict.NodupKeys] using na) (by simpa using ka)⟩, ?_⟩
  intro E _ _ env φ
  rw [ptVal_pushPt, Dict.den_mapVals (c := s.eval env) _ _ (fun v => timesS_eval hC env v s), ptVal_of ha]

theorem ptSub_live (hp : h.PtLive p) (hq : h.PtLive q) : ∃ r h', PtRes h (ptSub C p q h) r h' ∧
    ∀ {E : Type} [NormedAddCommGroup E] [InnerProductSpace ℝ E] (env) (φ : PtId → E),
      h'.ptVal env φ r = h.ptVal env φ p - h.ptVal env φ q := by
  obtain ⟨x, h1, r1, v1⟩ := ptScale_live hC (Sym.num (-1)) hq
  obtain ⟨y, h2, r2, v2⟩ := ptAdd_live hC ((ext_onlyAdds (C := C) r1.adds).ptLive hp) r1.live
  refine ⟨y, h2, ⟨?_, r1.adds.trans r2.adds, r2.live⟩, ?_⟩
  · rw [ptSub, ptNeg, M.bind_of_ok r1.run, r2.run]
  · intro E _ _ env φ
    rw [v2, v1, r1.adds.ptVal hp.isPt]; simp; abel

theorem ptDiv_live (c : ℚ) (hc : c ≠ 0) (hp : h.PtLive p) : ∃ r h', PtRes h (ptDiv C p c h) r h' ∧
    ∀ {E : Type} [NormedAddCommGroup E] [InnerProductSpace ℝ E] (env) (φ : PtId → E),
      h'.ptVal env φ r = (c : ℝ)⁻¹ • h.ptVal env φ p := by
  obtain ⟨x, h1, r1, v1⟩ := ptScale_live hC (Sym.num (1 / c)) hp
  refine ⟨x, h1, ⟨by rw [ptDiv, if_neg hc, r1.run], r1.adds, r1.live⟩, ?_⟩
  intro E _ _ env φ
  rw [v1]; simp

theorem ptInner_live (hp : h.PtLive p) (hq : h.PtLive q) : ∃ r h', ExRes h (ptInner C p q h) r h' ∧
    ∀ {E : Type} [NormedAddCommGroup E] [InnerProductSpace ℝ E] (env) (φ : PtId → E) (ψ : ExId → ℝ),
      h'.exVal env φ ψ r = inner ℝ (h.ptVal env φ p) (h.ptVal env φ q) := by
  obtain ⟨a, ha, na, ka⟩ := hp
  obtain ⟨b, hb, nb, kb⟩ := hq
  refine ⟨_, _, ⟨ptInner_run ha hb, onlyAdds_pushEx _ _, pushEx_live C (innerDict_nodup _ _) ?_⟩, ?_⟩
  · intro k hk
    obtain ⟨p', q', rfl, h1, h2⟩ := mem_innerDict hk
    exact ⟨ka _ h1, kb _ h2⟩
  · intro E _ _ env φ ψ
    rw [exVal_pushEx, den_innerDict hC, ptVal_of ha, ptVal_of hb]

theorem ptSq_live (hp : h.PtLive p) : ∃ r h', ExRes h (ptPow C p 2 h) r h' ∧
    ∀ {E : Type} [NormedAddCommGroup E] [InnerProductSpace ℝ E] (env) (φ : PtId → E) (ψ : ExId → ℝ),
      h'.exVal env φ ψ r = ‖h.ptVal env φ p‖ ^ 2 := by
  obtain ⟨x, h1, r1, v1⟩ := ptInner_live hC hp hp
  refine ⟨x, h1, ⟨?_, r1.adds, r1.live⟩, ?_⟩
  · simp [ptPow, M.bind_run, r1.run]
  · intro E _ _ env φ ψ
    rw [v1, real_inner_self_eq_norm_sq]

theorem exAdd_live (he : h.ExLive e) (hf : h.ExLive f) : ∃ r h', ExRes h (exAdd C e f h) r h' ∧
    ∀ {E : Type} [NormedAddCommGroup E] [InnerProductSpace ℝ E] (env) (φ : PtId → E) (ψ : ExId → ℝ),
      h'.exVal env φ ψ r = h.exVal env φ ψ e + h.exVal env φ ψ f := by
  obtain ⟨a, ha, na, ka⟩ := he
  obtain ⟨b, hb, nb, kb⟩ := hf
  refine ⟨_, _, ⟨exAdd_run ha hb, onlyAdds_pushEx _ _, pushEx_live C (Dict.nodup_merge _ na nb) ?_⟩, ?_⟩
  · intro k hk
    rcases (Dict.mem_keys_merge _ na nb k).1 hk with h | h
    · exact ka k h
    · exact kb k h
  · intro E _ _ env φ ψ
    rw [exVal_pushEx, Dict.den_merge _ _ (plusS_eval hC env) na nb, exVal_of ha, exVal_of hb]

theorem exAddNum_live (c : ℚ) (he : h.ExLive e) : ∃ r h', ExRes h (exAddNum C e c h) r h' ∧
    ∀ {E : Type} [NormedAddCommGroup E] [InnerProductSpace ℝ E] (env) (φ : PtId → E) (ψ : ExId → ℝ),
      h'.exVal env φ ψ r = h.exVal env φ ψ e + c := by
  obtain ⟨a, ha, na, ka⟩ := he
  have nb : Dict.NodupKeys [(ExKey.one, Sym.num c)] := by simp [Dict.NodupKeys]
  refine ⟨_, _, ⟨exAddNum_run c ha, onlyAdds_pushEx _ _, pushEx_live C (Dict.nodup_merge _ na nb) ?_⟩, ?_⟩
  · intro k hk
    rcases (Dict.mem_keys_merge _ na nb k).1 hk with h | h
    · exact ka k h
    · simp at h; subst h; trivial
  · intro E _ _ env φ ψ
    rw [exVal_pushEx, Dict.den_merge _ _ (plusS_eval hC env) na nb, exVal_of ha]
    simp [keyVal]

theorem exScale_live (s : Sym) (he : h.ExLive e) : ∃ r h', ExRes h (exScale C s e h) r h' ∧
    ∀ {E : Type} [NormedAddCommGroup E] [InnerProductSpace ℝ E] (env) (φ : PtId → E) (ψ : ExId → ℝ),
      h'.exVal env φ ψ r = s.eval env * h.exVal env φ ψ e := by
  obtain ⟨a, ha, na, ka⟩ := he
  refine ⟨_, _, ⟨exScale_run s ha, onlyAdds_pushEx _ _,
    pushEx_live C (by simpa [Dict.NodupKeys] using na) (by simpa using ka)⟩, ?_⟩
  intro E _ _ env φ ψ
  rw [exVal_pushEx, Dict.den_mapVals (c := s.eval env) _ _ (fun v => timesS_eval hC env v s), exVal_of ha, smul_eq_mul]

theorem exSub_live (he : h.ExLive e) (hf : h.ExLive f) : ∃ r h', ExRes h (exSub C e f h) r h' ∧
    ∀ {E : Type} [NormedAddCommGroup E] [InnerProductSpace ℝ E] (env) (φ : PtId → E) (ψ : ExId → ℝ),
      h'.exVal env φ ψ r = h.exVal env φ ψ e - h.exVal env φ ψ f := by
  obtain ⟨x, h1, r1, v1⟩ := exScale_live hC (Sym.num (-1)) hf
  obtain ⟨y, h2, r2, v2⟩ := exAdd_live hC ((ext_onlyAdds (C := C) r1.adds).exLive he) r1.live
  refine ⟨y, h2, ⟨?_, r1.adds.trans r2.adds, r2.live⟩, ?_⟩
  · rw [exSub, exNeg, M.bind_of_ok r1.run, r2.run]
  · intro E _ _ env φ ψ
    rw [v2, v1, r1.adds.exVal he.isEx]; simp; ring

theorem exDiv_live (c : ℚ) (hc : c ≠ 0) (he : h.ExLive e) : ∃ r h', ExRes h (exDiv C e c h) r h' ∧
    ∀ {E : Type} [NormedAddCommGroup E] [InnerProductSpace ℝ E] (env) (φ : PtId → E) (ψ : ExId → ℝ),
      h'.exVal env φ ψ r = (c : ℝ)⁻¹ * h.exVal env φ ψ e := by
  obtain ⟨x, h1, r1, v1⟩ := exScale_live hC (Sym.num (1 / c)) he
  refine ⟨x, h1, ⟨by rw [exDiv, if_neg hc, r1.run], r1.adds, r1.live⟩, ?_⟩
  intro E _ _ env φ ψ
  rw [v1]; simp
end ops

end Verif
