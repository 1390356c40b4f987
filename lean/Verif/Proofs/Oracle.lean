import Verif.Spec.Sample
import Verif.Proofs.State

namespace Verif
open Heap

variable {C : CAS} {h : Heap}

/-! ### the cache lookup -/

/-- does the recorded point `t` have the dictionary `d`? -/
def matchPt (C : CAS) (h : Heap) (d : Dict PtId Sym) (t : Triplet) : Bool :=
  match h.pts[t.1]? with
  | some o => Dict.eqB C.eqB o.dict d
  | none => false

/-- what `isEvaluated` returns -/
def lookup (C : CAS) (h : Heap) (f : FnId) (x : PtId) : Option (PtId × ExId) :=
  match h.fns[f]?, h.pts[x]? with
  | some fo, some xo => (fo.points.find? (matchPt C h xo.dict)).map (·.2)
  | _, _ => none

theorem findTriplet_run {d : Dict PtId Sym} {ts : List Triplet} (hts : ∀ t ∈ ts, h.IsPt t.1) :
    findTriplet C d ts h = .ok ((ts.find? (matchPt C h d)).map (·.2), h) := by
  induction ts with
  | nil => rfl
  | cons t ts ih =>
    obtain ⟨o, ho⟩ := (hts t (by simp)).get
    rw [findTriplet, M.bind_of_ok (getPt_run ho), List.find?_cons]
    have hm : matchPt C h d t = Dict.eqB C.eqB o.dict d := by simp [matchPt, ho]
    rw [hm]
    cases hb : Dict.eqB C.eqB o.dict d
    · simp only [Bool.false_eq_true, if_false]
      exact ih (fun t ht => hts t (by simp [ht]))
    · simp

theorem isEvaluated_run (w : WF C h) {f : FnId} (hf : f ∈ h.fnList) {x : ℕ} (hx : h.PtLive x) :
    isEvaluated C f x h = .ok (lookup C h f x, h) := by
  obtain ⟨o, ho, hok⟩ := w.fn f hf
  obtain ⟨xo, hxo, -⟩ := hx
  rw [isEvaluated, M.bind_of_ok (getFn_run ho), M.bind_of_ok (getPt_run hxo),
    findTriplet_run (fun t ht => (hok.points t ht).1.isPt)]
  simp [lookup, ho, hxo]

theorem lookup_some (hC : C.Lawful) (w : WF C h) {f : ℕ} (hf : f ∈ h.fnList) {x : ℕ} (hx : h.PtLive x) {g : PtId} {v : ExId}
    (hl : lookup C h f x = some (g, v)) : ∃ o p, h.fns[f]? = some o ∧ (p, g, v) ∈ o.points ∧ h.SamePoint p x := by
  obtain ⟨o, ho, hok⟩ := w.fn f hf
  obtain ⟨xo, hxo, nx, -⟩ := hx
  simp only [lookup, ho, hxo, Option.map_eq_some_iff] at hl
  obtain ⟨t, ht, htt⟩ := hl
  have hmem := List.mem_of_find?_eq_some ht
  have hm := List.find?_some ht
  obtain ⟨p, gv⟩ := t
  simp only at htt; subst htt
  refine ⟨o, p, ho, hmem, ?_⟩
  obtain ⟨po, hpo, np, -⟩ := (hok.points _ hmem).1
  simp only [matchPt, hpo] at hm
  intro E _ _ env φ
  rw [ptVal_of hpo, ptVal_of hxo]
  exact Dict.eqB_den _ _ (fun a b hab => hC.eqB_sound a b hab env) np nx hm

theorem lookup_some_live (w : WF C h) {f : ℕ} (hf : f ∈ h.fnList) {x : ℕ} (hx : h.PtLive x) {g : PtId} {v : ExId}
    (hl : lookup C h f x = some (g, v)) : h.PtLive g ∧ h.ExLive v := by
  obtain ⟨o, ho, hok⟩ := w.fn f hf
  obtain ⟨xo, hxo, nx, -⟩ := hx
  simp only [lookup, ho, hxo, Option.map_eq_some_iff] at hl
  obtain ⟨t, ht, htt⟩ := hl
  have hmem := List.mem_of_find?_eq_some ht
  obtain ⟨p, gv⟩ := t
  simp only at htt; subst htt
  exact (hok.points _ hmem).2

/-- `f` is a leaf function of the problem with attributes `o` -/
def IsLeafFn (h : Heap) (f : FnId) : Prop := f ∈ h.fnList ∧ ∃ o, h.fns[f]? = some o ∧ o.leaf = true

/-- the reuse flag of `f` -/
def reuseOf (h : Heap) (f : FnId) : Bool := match h.fns[f]? with | some o => o.reuse | none => false

theorem reuseOf_of {f : ℕ} {o : FnObj} (ho : h.fns[f]? = some o) : reuseOf h f = o.reuse := by simp [reuseOf, ho]

/-! ### separate -/

theorem separateLoop_spec (w : WF C h) {x : ℕ} (hx : h.PtLive x) (l : List (FnId × ℚ)) (acc : Needs)
    (hl : ∀ kw ∈ l, kw.1 ∈ h.fnList) : ∃ nd, separateLoop C x l acc h = .ok (nd, h) ∧
      (nd.nothing ++ (nd.gradient ++ nd.both)).Perm ((acc.nothing ++ (acc.gradient ++ acc.both)) ++ l) ∧
      (∀ kw ∈ nd.nothing, kw ∈ acc.nothing ∨ ((lookup C h kw.1 x).isSome ∧ reuseOf h kw.1 = true)) ∧
      (∀ kw ∈ nd.gradient, kw ∈ acc.gradient ∨ ((lookup C h kw.1 x).isSome ∧ reuseOf h kw.1 = false)) ∧
      (∀ kw ∈ nd.both, kw ∈ acc.both ∨ lookup C h kw.1 x = none) := by
  induction l generalizing acc with
  | nil => exact ⟨acc, rfl, by simp, fun _ h => Or.inl h, fun _ h => Or.inl h, fun _ h => Or.inl h⟩
  | cons kw rest ih =>
    have hk := hl kw (by simp)
    obtain ⟨o, ho, -⟩ := w.fn _ hk
    rw [separateLoop, M.bind_of_ok (isEvaluated_run w hk hx)]
    cases hlk : lookup C h kw.1 x with
    | some gv =>
      simp only
      rw [M.bind_of_ok (getFn_run ho)]
      by_cases hr : o.reuse
      · simp only [hr, if_true]
        obtain ⟨nd, h1, h2, h3, h4, h5⟩ := ih { acc with nothing := acc.nothing ++ [kw] } (fun a ha => hl a (by simp [ha]))
        refine ⟨nd, h1, ?_, ?_, h4, h5⟩
        · refine h2.trans ?_
          simp only [List.append_assoc, List.singleton_append]
          refine List.Perm.append_left _ ?_
          simpa using (List.perm_middle (l₁ := acc.gradient ++ acc.both) (a := kw) (l₂ := rest)).symm
        · intro a ha
          rcases h3 a ha with h | h
          · rcases List.mem_append.1 h with h | h
            · exact Or.inl h
            · simp at h; subst h
              exact Or.inr ⟨by simp [hlk], by rw [reuseOf_of ho, hr]⟩
          · exact Or.inr h
      · simp only [hr, Bool.false_eq_true, if_false]
        obtain ⟨nd, h1, h2, h3, h4, h5⟩ := ih { acc with gradient := acc.gradient ++ [kw] } (fun a ha => hl a (by simp [ha]))
        refine ⟨nd, h1, ?_, h3, ?_, h5⟩
        · refine h2.trans ?_
          simp only [List.append_assoc, List.singleton_append]
          refine List.Perm.append_left _ (List.Perm.append_left _ ?_)
          exact List.perm_middle.symm
        · intro a ha
          rcases h4 a ha with h | h
          · rcases List.mem_append.1 h with h | h
            · exact Or.inl h
            · simp at h; subst h
              exact Or.inr ⟨by simp [hlk], by rw [reuseOf_of ho]; simpa using hr⟩
          · exact Or.inr h
    | none =>
      simp only
      obtain ⟨nd, h1, h2, h3, h4, h5⟩ := ih { acc with both := acc.both ++ [kw] } (fun a ha => hl a (by simp [ha]))
      refine ⟨nd, h1, ?_, h3, h4, ?_⟩
      · refine h2.trans ?_
        simp [List.append_assoc]
      · intro a ha
        rcases h5 a ha with h | h
        · rcases List.mem_append.1 h with h | h
          · exact Or.inl h
          · simp at h; subst h
            exact Or.inr hlk
        · exact Or.inr h

theorem Heap.FnOk.keys_fnList {f : ℕ} {o : FnObj} (hf : f ∈ h.fnList) (ho : FnOk C h f o) : ∀ kw ∈ o.dict, kw.1 ∈ h.fnList := by
  intro kw hkw
  cases hl : o.leaf with
  | true =>
    rw [ho.leafDict hl] at hkw
    simp at hkw; subst hkw; exact hf
  | false => exact (ho.sumKeys hl kw.1 (List.mem_map_of_mem hkw)).1

theorem separate_spec (w : WF C h) {x f : ℕ} (hx : h.PtLive x) (hf : f ∈ h.fnList) {o : FnObj} (ho : h.fns[f]? = some o) :
    ∃ nd, separate C f x h = .ok (nd, h) ∧ (nd.nothing ++ (nd.gradient ++ nd.both)).Perm o.dict ∧
      (∀ kw ∈ nd.nothing, (lookup C h kw.1 x).isSome ∧ reuseOf h kw.1 = true) ∧
      (∀ kw ∈ nd.gradient, (lookup C h kw.1 x).isSome ∧ reuseOf h kw.1 = false) ∧
      (∀ kw ∈ nd.both, lookup C h kw.1 x = none) := by
  obtain ⟨o', ho', hok⟩ := w.fn f hf
  obtain rfl : o' = o := by rw [ho] at ho'; exact (Option.some.inj ho').symm
  obtain ⟨nd, h1, h2, h3, h4, h5⟩ := separateLoop_spec w hx o'.dict ⟨[], [], []⟩ (hok.keys_fnList hf)
  refine ⟨nd, ?_, by simpa using h2, ?_, ?_, ?_⟩
  · rw [separate, M.bind_of_ok (getFn_run ho), h1]
  · intro kw hkw; simpa using h3 kw hkw
  · intro kw hkw; simpa using h4 kw hkw
  · intro kw hkw; simpa using h5 kw hkw

/-! ### recording a sample -/

/-- outcome of `recordTriplet` -/
structure Recorded (C : CAS) (h : Heap) (f : FnId) (t : Triplet) (h' : Heap) : Prop where
  ext : Ext C h h'
  wf : WF C h'
  leafPts : h'.leafPts = h.leafPts
  leafExs : h'.leafExs = h.leafExs
  fnList : h'.fnList = h.fnList
  others : ∀ k, k ≠ f → h'.fns[k]? = h.fns[k]?
  ptLen : h'.pts.length = h.pts.length
  exLen : h'.exs.length = h.exs.length
  pruned : Pruned C h' t.1
  self : ∀ o, h.fns[f]? = some o → ∃ go, h'.pts[t.2.1]? = some go ∧
    h'.fns[f]? = some { o with
      points := o.points ++ [t]
      stationary := if go.dict = [] then o.stationary ++ [t] else o.stationary }

theorem getElem?_putFn_self {f : ℕ} {o o' : FnObj} (ho : h.fns[f]? = some o) : (h.putFn f o').fns[f]? = some o' := by
  simp [putFn, (List.getElem?_eq_some_iff.1 ho).1]
theorem getElem?_putFn_ne {f k : ℕ} {o' : FnObj} (hk : k ≠ f) : (h.putFn f o').fns[k]? = h.fns[k]? := by
  simp [putFn, List.getElem?_set, hk.symm]

theorem recordTriplet_spec (hC : C.Lawful) (w : WF C h) {f : FnId} (hf : f ∈ h.fnList) {t : Triplet}
    (ht : h.TripletLive t) : ∃ h', recordTriplet C f t h = .ok ((), h') ∧ Recorded C h f t h' := by
  -- prune the point
  obtain ⟨xo, hxo⟩ := ht.1.isPt.get
  have e1 := ext_putPt (C := C) hxo
  have w1 := w.putPt hC hxo
  generalize hd1 : h.putPt t.1 { xo with dict := xo.dict.prune (isZeroS C) } = h1 at e1 w1
  have ht1 := e1.tripletLive ht
  have hp1 : Pruned C h1 t.1 := by
    subst hd1
    exact ⟨{ xo with dict := xo.dict.prune (isZeroS C) }, by simp [putPt, (List.getElem?_eq_some_iff.1 hxo).1], prune_all _⟩
  obtain ⟨go, hgo⟩ := ht1.2.1.isPt.get
  have e2 := ext_putPt (C := C) hgo
  have w2 := w1.putPt hC hgo
  generalize hd2 : h1.putPt t.2.1 { go with dict := go.dict.prune (isZeroS C) } = h2 at e2 w2
  have hg2 : h2.pts[t.2.1]? = some { go with dict := go.dict.prune (isZeroS C) } := by
    subst hd2; simp [putPt, (List.getElem?_eq_some_iff.1 hgo).1]
  have ht2 := e2.tripletLive ht1
  have hp2 := e2.pruned hp1
  obtain ⟨vo, hvo⟩ := ht2.2.2.isEx.get
  have e3 := ext_putEx (C := C) hvo
  have w3 := w2.putEx hC hvo
  generalize hd3 : h2.putEx t.2.2 { vo with dict := vo.dict.prune (isZeroS C) } = h3 at e3 w3
  have ht3 := e3.tripletLive ht2
  have hp3 := e3.pruned hp2
  have fl : h3.fnList = h.fnList := by subst hd3 hd2 hd1; rfl
  have ff : h3.fns = h.fns := by subst hd3 hd2 hd1; rfl
  have flp : h3.leafPts = h.leafPts := by subst hd3 hd2 hd1; rfl
  have fle : h3.leafExs = h.leafExs := by subst hd3 hd2 hd1; rfl
  have flen : h3.pts.length = h.pts.length := by subst hd3 hd2 hd1; simp [putPt, putEx]
  have flen' : h3.exs.length = h.exs.length := by subst hd3 hd2 hd1; simp [putPt, putEx]
  have hg3 : h3.pts[t.2.1]? = some { go with dict := go.dict.prune (isZeroS C) } := by subst hd3; exact hg2
  obtain ⟨o, ho, hok⟩ := w3.fn f (by rw [fl]; exact hf)
  have x4 : FnExt o { o with points := o.points ++ [t] } :=
    ⟨rfl, rfl, rfl, rfl, Or.inl rfl, List.prefix_append _ _, List.prefix_rfl, List.prefix_rfl⟩
  have ok4 : FnOk C h3 f { o with points := o.points ++ [t] } := by
    refine ⟨hok.nodup, hok.leafDict, hok.leafCls, hok.sumKeys, ?_, ?_, ?_, hok.classCons⟩
    · intro s hs
      rcases List.mem_append.1 hs with hs | hs
      · exact hok.points s hs
      · simp at hs; subst hs; exact ht3
    · intro s hs
      rcases List.mem_append.1 hs with hs | hs
      · exact hok.pruned s hs
      · simp at hs; subst hs; exact hp3
    · intro s hs; exact List.mem_append_left _ (hok.stationary s hs)
  have e4 := ext_putFn (C := C) ho x4
  have w4 := w3.putFn ho x4 ok4
  have hrun : recordTriplet C f t h =
      (if ({ go with dict := go.dict.prune (isZeroS C) } : PtObj).dict = [] then do
        let fo ← getFn f
        setFn f { fo with stationary := fo.stationary ++ [t] }
      else pure ()) (h3.putFn f { o with points := o.points ++ [t] }) := by
    rw [recordTriplet, M.bind_of_ok (prunePt_run hxo), hd1, M.bind_of_ok (prunePt_run hgo), hd2,
      M.bind_of_ok (pruneEx_run hvo), hd3, M.bind_of_ok (getFn_run ho), M.bind_of_ok (setFn_run _ _ _),
      M.bind_of_ok (getPt_run (h := h3.putFn f { o with points := o.points ++ [t] }) hg3)]
  by_cases hz : go.dict.prune (isZeroS C) = []
  · have hrun' : recordTriplet C f t h = .ok ((), (h3.putFn f { o with points := o.points ++ [t] }).putFn f
        { o with points := o.points ++ [t], stationary := o.stationary ++ [t] }) := by
      rw [hrun, if_pos hz, M.bind_of_ok (getFn_run (getElem?_putFn_self ho)), setFn_run]
    have x5 : FnExt { o with points := o.points ++ [t] }
        { o with points := o.points ++ [t], stationary := o.stationary ++ [t] } :=
      ⟨rfl, rfl, rfl, rfl, Or.inl rfl, List.prefix_rfl, List.prefix_append _ _, List.prefix_rfl⟩
    have ok4' := ok4.ext e4
    have ok5 : FnOk C (h3.putFn f { o with points := o.points ++ [t] }) f
        { o with points := o.points ++ [t], stationary := o.stationary ++ [t] } := by
      refine ⟨ok4'.nodup, ok4'.leafDict, ok4'.leafCls, ok4'.sumKeys, ok4'.points, ok4'.pruned, ?_, ok4'.classCons⟩
      intro s hs
      rcases List.mem_append.1 hs with hs | hs
      · exact ok4'.stationary s hs
      · simp at hs; subst hs; simp
    have e5 := ext_putFn (C := C) (getElem?_putFn_self ho) x5
    have w5 := w4.putFn (getElem?_putFn_self ho) x5 ok5
    refine ⟨_, hrun', ((e1.trans e2).trans (e3.trans (e4.trans e5))), w5, flp, fle, fl, ?_, flen, flen', e5.pruned (e4.pruned hp3), ?_⟩
    · intro k hk
      rw [getElem?_putFn_ne hk, getElem?_putFn_ne hk, ff]
    · intro o'' ho''
      obtain rfl : o'' = o := by rw [ff, ho''] at ho; exact Option.some.inj ho
      refine ⟨_, hg3, ?_⟩
      rw [getElem?_putFn_self (getElem?_putFn_self ho), if_pos hz]
  · refine ⟨_, by rw [hrun, if_neg hz]; rfl, ((e1.trans e2).trans (e3.trans e4)), w4, flp, fle, fl, ?_, flen, flen', e4.pruned hp3, ?_⟩
    · intro k hk
      rw [getElem?_putFn_ne hk, ff]
    · intro o'' ho''
      obtain rfl : o'' = o := by rw [ff, ho''] at ho; exact Option.some.inj ho
      refine ⟨_, hg3, ?_⟩
      rw [getElem?_putFn_self ho, if_neg hz]

end Verif
