import Verif.Proofs.Oracle

namespace Verif
open Heap

variable {C : CAS} {h h' : Heap}

/-! ### moving along an extension -/

theorem Heap.SamePoint.ext (hC : C.Lawful) (e : Ext C h h') {p q : ℕ} (hp : h.IsPt p) (hq : h.IsPt q)
    (s : h.SamePoint p q) : h'.SamePoint p q := by
  intro E _ _ env φ
  rw [e.ptVal hC hp, e.ptVal hC hq]; exact s E env φ

theorem Heap.SampleOf.ext (hC : C.Lawful) (w : WF C h) (e : Ext C h h') {f x g : ℕ} {v : ExId} (hf : f ∈ h.fnList) (hx : h.IsPt x)
    (s : h.SampleOf f x g v) : h'.SampleOf f x g v := by
  obtain ⟨o, p, ho, hp, hs⟩ := s
  obtain ⟨o1, ho1, hok⟩ := w.fn f hf
  obtain rfl : o1 = o := by rw [ho] at ho1; exact (Option.some.inj ho1).symm
  obtain ⟨o', ho', fe⟩ := e.fns f _ ho
  exact ⟨o', p, ho', fe.points.subset hp, hs.ext hC e (hok.points _ hp).1.isPt hx⟩

section
variable {E : Type} [NormedAddCommGroup E] [InnerProductSpace ℝ E]

theorem Heap.Agree.refl (h : Heap) (φ : PtId → E) (ψ : ExId → ℝ) : h.Agree φ φ ψ ψ := ⟨fun _ _ => rfl, fun _ _ => rfl⟩
theorem Heap.Agree.trans (e : Ext C h h') {φ φ1 φ2 : PtId → E} {ψ ψ1 ψ2 : ExId → ℝ} (a : h.Agree φ φ1 ψ ψ1)
    (b : h'.Agree φ1 φ2 ψ1 ψ2) : h.Agree φ φ2 ψ ψ2 :=
  ⟨fun p hp => (b.pt p (e.leafPts.subset hp)).trans (a.pt p hp), fun p hp => (b.ex p (e.leafExs.subset hp)).trans (a.ex p hp)⟩

theorem Heap.Agree.ptVal (hC : C.Lawful) (e : Ext C h h') {φ φ' : PtId → E} {ψ ψ'} (a : h.Agree φ φ' ψ ψ') {p : ℕ}
    (hp : h.PtLive p) (env) : h'.ptVal env φ' p = h.ptVal env φ p := by
  rw [e.ptVal hC hp.isPt, hp.congr env a.pt]
theorem Heap.Agree.exVal (hC : C.Lawful) (e : Ext C h h') {φ φ' : PtId → E} {ψ ψ'} (a : h.Agree φ φ' ψ ψ') {p : ℕ}
    (hp : h.ExLive p) (env) : h'.exVal env φ' ψ' p = h.exVal env φ ψ p := by
  rw [e.exVal hC hp.isEx, hp.congr env a.pt a.ex]

theorem den_pruneW {M : Type} [AddCommGroup M] [Module ℝ M] (d : Dict FnId ℚ) (φ : FnId → M) :
    Dict.den (fun w : ℚ => (w : ℝ)) φ (d.prune (fun w => w = 0)) = Dict.den (fun w : ℚ => (w : ℝ)) φ d :=
  Dict.den_prune _ _ (fun w hw => by simpa using hw) _

theorem comb_prune {S : FnId → E → E → ℝ → Prop} {d : Dict FnId ℚ} {x g : E} {v : ℝ} :
    Comb S (d.prune (fun w => w = 0)) x g v ↔ Comb S d x g v := by
  constructor
  · rintro ⟨G, V, h1, h2, h3⟩
    refine ⟨G, V, fun kw hkw hw => h1 kw ?_ hw, ?_, ?_⟩
    · simp [Dict.prune, hkw, hw]
    · rw [h2, den_pruneW]
    · rw [h3, den_pruneW]
  · rintro ⟨G, V, h1, h2, h3⟩
    refine ⟨G, V, fun kw hkw hw => h1 kw (List.mem_of_mem_filter hkw) hw, ?_, ?_⟩
    · rw [h2, den_pruneW]
    · rw [h3, den_pruneW]

theorem comb_leaf {S : FnId → E → E → ℝ → Prop} {f : FnId} {x g : E} {v : ℝ} : Comb S [(f, 1)] x g v ↔ S f x g v := by
  constructor
  · rintro ⟨G, V, h1, rfl, rfl⟩
    simpa using h1 (f, 1) (by simp) (by simp)
  · intro hs
    exact ⟨fun _ => g, fun _ => v, by simpa using hs, by simp, by simp⟩

theorem comb_sameWts {S : FnId → E → E → ℝ → Prop} {d d' : Dict FnId ℚ} (hd : SameWts d d') {x g : E} {v : ℝ} :
    Comb S d' x g v ↔ Comb S d x g v := by
  rcases hd with rfl | rfl
  · rfl
  · exact comb_prune

theorem Heap.TrueSamples.step (hC : C.Lawful) (w : WF C h) (e : Ext C h h') (fl : h'.fnList = h.fnList)
    {S : FnId → E → E → ℝ → Prop} {env} {φ φ' : PtId → E} {ψ ψ'} (a : h.Agree φ φ' ψ ψ')
    (ts : h.TrueSamples S env φ ψ)
    (new : ∀ f ∈ h.fnList, ∀ o o', h.fns[f]? = some o → h'.fns[f]? = some o' → ∀ t ∈ o'.points, t ∈ o.points ∨
      Comb S o'.dict (h'.ptVal env φ' t.1) (h'.ptVal env φ' t.2.1) (h'.exVal env φ' ψ' t.2.2)) :
    h'.TrueSamples S env φ' ψ' := by
  intro f hf o' ho' t ht
  rw [fl] at hf
  obtain ⟨o, ho, hok⟩ := w.fn f hf
  rcases new f hf o o' ho ho' t ht with hold | hnew
  · have hl := hok.points t hold
    obtain ⟨o2, ho2, fe⟩ := e.fns f o ho
    obtain rfl : o2 = o' := by rw [ho'] at ho2; exact (Option.some.inj ho2).symm
    rw [a.ptVal hC e hl.1, a.ptVal hC e hl.2.1, a.exVal hC e hl.2.2, comb_sameWts fe.dict]
    exact ts f hf o ho t hold
  · exact hnew

theorem Heap.Functional.mono (e : Ext C h h') (w : WF C h) (fl : h'.fnList = h.fnList) {S : FnId → E → E → ℝ → Prop}
    (hS : h.Functional S) : h'.Functional S := by
  refine ⟨hS.val, fun f hf o' ho' hl hr => ?_⟩
  rw [fl] at hf
  obtain ⟨o, ho, -⟩ := w.fn f hf
  obtain ⟨o2, ho2, fe⟩ := e.fns f o ho
  obtain rfl : o2 = o' := by rw [ho'] at ho2; exact (Option.some.inj ho2).symm
  exact hS.grad f hf o ho (fe.leaf.symm.trans hl) (fe.reuse.symm.trans hr)

theorem Heap.WF.leafPt_lt (w : WF C h) {p : ℕ} (hp : p ∈ h.leafPts) : p < h.pts.length := by
  obtain ⟨i, hi⟩ := List.mem_iff_getElem?.1 hp
  exact (List.getElem?_eq_some_iff.1 (w.leafPt i p hi)).1
theorem Heap.WF.leafEx_lt (w : WF C h) {p : ℕ} (hp : p ∈ h.leafExs) : p < h.exs.length := by
  obtain ⟨i, hi⟩ := List.mem_iff_getElem?.1 hp
  exact (List.getElem?_eq_some_iff.1 (w.leafEx i p hi)).1

theorem agree_updatePt (w : WF C h) (φ : PtId → E) (ψ : ExId → ℝ) (G : E) :
    h.Agree φ (Function.update φ h.pts.length G) ψ ψ :=
  ⟨fun p hp => Function.update_of_ne (w.leafPt_lt hp).ne _ _, fun _ _ => rfl⟩
theorem agree_updateEx (w : WF C h) (φ : PtId → E) (ψ : ExId → ℝ) (V : ℝ) :
    h.Agree φ φ ψ (Function.update ψ h.exs.length V) :=
  ⟨fun _ _ => rfl, fun p hp => Function.update_of_ne (w.leafEx_lt hp).ne _ _⟩

end

theorem Recorded.trueSamples (hC : C.Lawful) (w : WF C h) {f : FnId} (hf : f ∈ h.fnList) {t : Triplet}
    (ht : h.TripletLive t) (r : Recorded C h f t h') {o : FnObj} (ho : h.fns[f]? = some o)
    {E : Type} [NormedAddCommGroup E] [InnerProductSpace ℝ E] {S : FnId → E → E → ℝ → Prop} {env} {φ : PtId → E} {ψ}
    (ts : h.TrueSamples S env φ ψ)
    (hc : Comb S o.dict (h.ptVal env φ t.1) (h.ptVal env φ t.2.1) (h.exVal env φ ψ t.2.2)) :
    h'.TrueSamples S env φ ψ := by
  refine ts.step hC w r.ext r.fnList (Agree.refl _ _ _) ?_
  intro k hk ok ok' hok hok' s hs
  by_cases hkf : k = f
  · subst hkf
    obtain rfl : ok = o := by rw [ho] at hok; exact (Option.some.inj hok).symm
    obtain ⟨go, -, hself⟩ := r.self _ ho
    rw [hok'] at hself
    obtain rfl := Option.some.inj hself
    simp only at hs
    rcases List.mem_append.1 hs with hs | hs
    · exact Or.inl hs
    · simp at hs; subst hs
      right
      rw [r.ext.ptVal hC ht.1.isPt, r.ext.ptVal hC ht.2.1.isPt, r.ext.exVal hC ht.2.2.isEx]
      exact hc
  · rw [r.others k hkf, hok] at hok'
    obtain rfl := Option.some.inj hok'
    exact Or.inl hs

/-! ### the oracle of a leaf function -/

/-- Facts about a call on a leaf function that returned `(g, v)`. -/
structure LeafRes (C : CAS) (h : Heap) (f : FnId) (x : PtId) (g : PtId) (v : ExId) (h' : Heap) : Prop where
  ext : Ext C h h'
  wf : WF C h'
  fnList : h'.fnList = h.fnList
  others : ∀ k, k ≠ f → h'.fns[k]? = h.fns[k]?
  gLive : h'.PtLive g
  vLive : h'.ExLive v
  sample : h'.SampleOf f x g v
  sim : ∀ (E : Type) [NormedAddCommGroup E] [InnerProductSpace ℝ E] (S : FnId → E → E → ℝ → Prop) (env) (φ : PtId → E) (ψ),
    h.Functional S → h.TrueSamples S env φ ψ → ∀ G V, S f (h.ptVal env φ x) G V →
    ∃ φ' ψ', h.Agree φ φ' ψ ψ' ∧ h'.TrueSamples S env φ' ψ' ∧ h'.ptVal env φ' g = G ∧ h'.exVal env φ' ψ' v = V

theorem leaf_addPoint (n : ℕ) {f : ℕ} {t : Triplet} {o : FnObj} (ho : h'.fns[f]? = some o) (hl : o.leaf = true)
    (hr : recordTriplet C f t h = .ok ((), h')) : (methods C (n + 1)).addPoint f t h = .ok ((), h') := by
  show addPointBody C (methods C n) f t h = _
  rw [addPointBody, M.bind_of_ok hr, M.bind_of_ok (getFn_run ho), if_pos hl]
  rfl

theorem samePoint_refl (h : Heap) (x : PtId) : h.SamePoint x x := fun _ _ _ _ _ => rfl

theorem Recorded.sampleOf {f : FnId} {x g : PtId} {v : ExId} (r : Recorded C h f (x, g, v) h') {o : FnObj}
    (ho : h.fns[f]? = some o) : h'.SampleOf f x g v := by
  obtain ⟨go, -, hs⟩ := r.self o ho
  exact ⟨_, x, hs, by simp, samePoint_refl _ _⟩

/-- what a call on a leaf function returns and how its list of samples grows -/
inductive OracleCase (C : CAS) (h : Heap) (f : FnId) (x g : PtId) (v : ExId) (h' : Heap) : Prop
  | hit (hl : lookup C h f x = some (g, v)) (hr : reuseOf h f = true) (hh : h' = h)
  | newGrad (g0) (hl : lookup C h f x = some (g0, v)) (hr : reuseOf h f = false) (hg : g = h.pts.length)
      (hh : Recorded C h.addLeafPt f (x, g, v) h')
  | fresh (hl : lookup C h f x = none) (hg : g = h.pts.length) (hv : v = h.exs.length)
      (hh : Recorded C h.addLeafEx.addLeafPt f (x, g, v) h')

theorem leafOracle_spec (hC : C.Lawful) (w : WF C h) {f x : ℕ} (hf : f ∈ h.fnList) (hx : h.PtLive x) {o : FnObj}
    (ho : h.fns[f]? = some o) (hl : o.leaf = true) (n : ℕ) :
    ∃ g v h', (methods C (n + 2)).oracle f x h = .ok ((g, v), h') ∧ LeafRes C h f x g v h' ∧
      OracleCase C h f x g v h' := by
  have hok : FnOk C h f o := by
    obtain ⟨o', ho', hok⟩ := w.fn f hf
    rw [ho] at ho'; cases ho'; exact hok
  have hd := hok.leafDict hl
  have hbody : (methods C (n + 2)).oracle f x = oracleBody C (methods C (n + 1)) f x := rfl
  rw [hbody, oracleBody, M.bind_of_ok (isEvaluated_run w hf hx), M.bind_of_ok (getFn_run ho)]
  obtain ⟨nd, hsep, hperm, hn, hgr, hb⟩ := separate_spec w hx hf ho
  rw [hd] at hperm
  have hmem : (f, (1 : ℚ)) ∈ nd.nothing ∨ (f, (1 : ℚ)) ∈ nd.gradient ∨ (f, (1 : ℚ)) ∈ nd.both := by
    have : (f, (1 : ℚ)) ∈ nd.nothing ++ (nd.gradient ++ nd.both) := hperm.mem_iff.2 (by simp)
    simpa using this
  have hkey : ∀ kw ∈ nd.nothing ++ (nd.gradient ++ nd.both), kw.1 = f := by
    intro kw hkw
    have := hperm.mem_iff.1 hkw
    simp at this; rw [this]
  cases hlk : lookup C h f x with
  | some gv =>
    obtain ⟨g0, v0⟩ := gv
    have hsmp := lookup_some hC w hf hx hlk
    obtain ⟨hg0, hv0⟩ := lookup_some_live w hf hx hlk
    by_cases hr : o.reuse
    · -- cached
      refine ⟨g0, v0, h, ?_, ⟨Ext.refl _, w, rfl, fun _ _ => rfl, hg0, hv0, hsmp, ?_⟩,
        .hit hlk (by rw [reuseOf_of ho, hr]) rfl⟩
      · simp only [hr, if_true]; rfl
      · intro E _ _ S env φ ψ hS ts G V hGV
        refine ⟨φ, ψ, Agree.refl _ _ _, ts, ?_⟩
        obtain ⟨o1, p, ho1, hp, hsp⟩ := hsmp
        obtain rfl : o1 = o := by rw [ho] at ho1; exact (Option.some.inj ho1).symm
        have := ts f hf _ ho _ hp
        rw [hd, comb_leaf] at this
        simp only at this
        rw [hsp E env φ] at this
        exact ⟨hS.grad f hf _ ho hl hr _ _ _ _ _ this hGV, hS.val f _ _ _ _ _ this hGV⟩
    · -- cached value, new gradient
      have hr' : reuseOf h f = false := by rw [reuseOf_of ho]; simpa using hr
      simp only [hr, Bool.false_eq_true, if_false]
      have hboth : nd.both = [] := by
        by_contra hne
        obtain ⟨kw, hkw⟩ := List.exists_mem_of_ne_nil _ hne
        have h1 := hb kw hkw
        rw [hkey kw (by simp [hkw]), hlk] at h1; cases h1
      have hgrad : nd.gradient ≠ [] := by
        intro hnil
        rcases hmem with h1 | h1 | h1
        · have := (hn _ h1).2; rw [hr'] at this; cases this
        · rw [hnil] at h1; simp at h1
        · rw [hboth] at h1; simp at h1
      have e1 := ext_addLeafPt (C := C) h
      have w1 := w.addLeafPt
      have ht : h.addLeafPt.TripletLive (x, h.pts.length, v0) := ⟨e1.ptLive hx, addLeafPt_live h, e1.exLive hv0⟩
      obtain ⟨h', hrec, r⟩ := recordTriplet_spec hC w1 (f := f) hf ht
      obtain ⟨go, -, hself⟩ := r.self o ho
      have hadd := leaf_addPoint n hself hl hrec
      have hrun : oracleFresh C (methods C (n + 1)) f x (some (g0, v0)) h = .ok ((h.pts.length, v0), h') := by
        rw [oracleFresh, M.bind_of_ok hsep]
        have hv : oracleValue C (methods C (n + 1)) f x (some (g0, v0)) nd h = .ok (v0, h) := rfl
        have hg : oracleGradient C (methods C (n + 1)) f x nd h = .ok (h.pts.length, h.addLeafPt) := by
          rw [oracleGradient, if_neg (by tauto)]; rfl
        rw [M.bind_of_ok hv, M.bind_of_ok hg, M.bind_of_ok hadd]; rfl
      refine ⟨h.pts.length, v0, h', hrun, ⟨e1.trans r.ext, r.wf, r.fnList, r.others, r.ext.ptLive ht.2.1, r.ext.exLive ht.2.2,
        r.sampleOf ho, ?_⟩, .newGrad g0 hlk hr' rfl r⟩
      intro E _ _ S env φ ψ hS ts G V hGV
      have ag := agree_updatePt w φ ψ G
      have ts1 : h.addLeafPt.TrueSamples S env (Function.update φ h.pts.length G) ψ :=
        ts.step hC w e1 rfl ag (fun k _ ok ok' hok hok' s hs => by
          have : ok = ok' := by simp [addLeafPt] at hok'; rw [hok] at hok'; exact Option.some.inj hok'
          subst this; exact Or.inl hs)
      have hgv : h.addLeafPt.ptVal env (Function.update φ h.pts.length G) h.pts.length = G := by
        rw [addLeafPt_val]; simp
      have hxv := ag.ptVal hC e1 hx env
      have hvv : h.addLeafPt.exVal env (Function.update φ h.pts.length G) ψ v0 = V := by
        rw [ag.exVal hC e1 hv0]
        obtain ⟨o1, p, ho1, hp, hsp⟩ := hsmp
        obtain rfl : o1 = o := by rw [ho] at ho1; exact (Option.some.inj ho1).symm
        have := ts f hf _ ho _ hp
        rw [hd, comb_leaf] at this
        simp only at this
        rw [hsp E env φ] at this
        exact hS.val f _ _ _ _ _ this hGV
      refine ⟨_, ψ, ag, r.trueSamples hC w1 hf ht ho ts1 ?_, ?_, ?_⟩
      · rw [hd, comb_leaf]; simp only; rw [hxv, hgv, hvv]; exact hGV
      · rw [r.ext.ptVal hC ht.2.1.isPt, hgv]
      · rw [r.ext.exVal hC ht.2.2.isEx, hvv]
  | none =>
    have hboth : nd.both ≠ [] := by
      intro hnil
      rcases hmem with h1 | h1 | h1
      · have := (hn _ h1).1; rw [hlk] at this; cases this
      · have := (hgr _ h1).1; rw [hlk] at this; cases this
      · rw [hnil] at h1; simp at h1
    have e0 := ext_addLeafEx (C := C) h
    have w0 := w.addLeafEx
    have e1 := ext_addLeafPt (C := C) h.addLeafEx
    have w1 := w0.addLeafPt
    have ht : h.addLeafEx.addLeafPt.TripletLive (x, h.pts.length, h.exs.length) :=
      ⟨e1.ptLive (e0.ptLive hx), addLeafPt_live h.addLeafEx, e1.exLive (addLeafEx_live h)⟩
    obtain ⟨h', hrec, r⟩ := recordTriplet_spec hC w1 (f := f) hf ht
    obtain ⟨go, -, hself⟩ := r.self o ho
    have hadd := leaf_addPoint n hself hl hrec
    have hrun : oracleFresh C (methods C (n + 1)) f x none h = .ok ((h.pts.length, h.exs.length), h') := by
      rw [oracleFresh, M.bind_of_ok hsep]
      have hv : oracleValue C (methods C (n + 1)) f x none nd h = .ok (h.exs.length, h.addLeafEx) := by
        simp only [oracleValue]; rw [if_neg hboth]; rfl
      have hg : oracleGradient C (methods C (n + 1)) f x nd h.addLeafEx = .ok (h.pts.length, h.addLeafEx.addLeafPt) := by
        rw [oracleGradient, if_neg (by tauto)]; rfl
      rw [M.bind_of_ok hv, M.bind_of_ok hg, M.bind_of_ok hadd]; rfl
    refine ⟨h.pts.length, h.exs.length, h', hrun, ⟨e0.trans (e1.trans r.ext), r.wf, r.fnList, r.others, r.ext.ptLive ht.2.1,
      r.ext.exLive ht.2.2, r.sampleOf ho, ?_⟩, .fresh hlk rfl rfl r⟩
    intro E _ _ S env φ ψ hS ts G V hGV
    have ag0 := agree_updateEx w φ ψ V
    have ts0 : h.addLeafEx.TrueSamples S env φ (Function.update ψ h.exs.length V) :=
      ts.step hC w e0 rfl ag0 (fun k _ ok ok' hok hok' s hs => by
        have : ok = ok' := by simp [addLeafEx] at hok'; rw [hok] at hok'; exact Option.some.inj hok'
        subst this; exact Or.inl hs)
    have ag1 : h.addLeafEx.Agree φ (Function.update φ h.pts.length G) (Function.update ψ h.exs.length V) _ :=
      agree_updatePt w0 φ (Function.update ψ h.exs.length V) G
    have ts1 : h.addLeafEx.addLeafPt.TrueSamples S env (Function.update φ h.pts.length G) (Function.update ψ h.exs.length V) :=
      ts0.step hC w0 e1 rfl ag1 (fun k _ ok ok' hok hok' s hs => by
        have : ok = ok' := by simp [addLeafPt] at hok'; rw [hok] at hok'; exact Option.some.inj hok'
        subst this; exact Or.inl hs)
    have ag := ag0.trans e0 ag1
    have hgv : h.addLeafEx.addLeafPt.ptVal env (Function.update φ h.pts.length G) h.pts.length = G := by
      have := addLeafPt_val h.addLeafEx env (Function.update φ h.pts.length G)
      rw [show h.addLeafEx.pts.length = h.pts.length from rfl] at this
      rw [this]; simp
    have hxv := ag.ptVal hC (e0.trans e1) hx env
    have hvv : h.addLeafEx.addLeafPt.exVal env (Function.update φ h.pts.length G) (Function.update ψ h.exs.length V) h.exs.length = V := by
      rw [ag1.exVal hC e1 (addLeafEx_live h), addLeafEx_val]; simp
    refine ⟨_, _, ag, r.trueSamples hC w1 hf ht ho ts1 ?_, ?_, ?_⟩
    · rw [hd, comb_leaf]; simp only
      erw [hxv, hgv, hvv]; exact hGV
    · rw [r.ext.ptVal hC ht.2.1.isPt, hgv]
    · rw [r.ext.exVal hC ht.2.2.isEx, hvv]

end Verif
