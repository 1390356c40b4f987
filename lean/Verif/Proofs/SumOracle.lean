import Verif.Proofs.LeafOracle

namespace Verif
open Heap

variable {C : CAS} {h h' : Heap}

theorem Heap.OnlyAdds.fns (a : h.OnlyAdds h') : h'.fns = h.fns := by obtain ⟨ps, es, rfl, -⟩ := a; rfl
theorem Heap.OnlyAdds.fnList (a : h.OnlyAdds h') : h'.fnList = h.fnList := by obtain ⟨ps, es, rfl, -⟩ := a; rfl
theorem Heap.OnlyAdds.leafPts (a : h.OnlyAdds h') : h'.leafPts = h.leafPts := by obtain ⟨ps, es, rfl, -⟩ := a; rfl
theorem Heap.OnlyAdds.leafExs (a : h.OnlyAdds h') : h'.leafExs = h.leafExs := by obtain ⟨ps, es, rfl, -⟩ := a; rfl

theorem Heap.TrueSamples.onlyAdds (hC : C.Lawful) (w : WF C h) (a : h.OnlyAdds h') {E : Type} [NormedAddCommGroup E]
    [InnerProductSpace ℝ E] {S : FnId → E → E → ℝ → Prop} {env} {φ : PtId → E} {ψ}
    (ts : h.TrueSamples S env φ ψ) : h'.TrueSamples S env φ ψ := by
  refine ts.step hC w (ext_onlyAdds a) a.fnList (Agree.refl _ _ _) ?_
  intro k _ ok ok' hok hok' s hs
  rw [a.fns, hok] at hok'
  obtain rfl := Option.some.inj hok'
  exact Or.inl hs

/-! ### the cache along an extension -/

theorem matchPt_ext (e : Ext C h h') {t : Triplet} (ht : Pruned C h t.1) (d : Dict PtId Sym) :
    matchPt C h' d t = matchPt C h d t := by
  obtain ⟨o, o', h1, h2, h3⟩ := e.pruned_get ht
  simp [matchPt, h1, h2, h3]

theorem find?_ext (e : Ext C h h') {l : List Triplet} (hl : ∀ t ∈ l, Pruned C h t.1) (d : Dict PtId Sym) :
    l.find? (matchPt C h' d) = l.find? (matchPt C h d) := by
  induction l with
  | nil => rfl
  | cons t l ih =>
    rw [List.find?_cons, List.find?_cons, matchPt_ext e (hl t (by simp)), ih (fun s hs => hl s (by simp [hs]))]

/-- the cache of `f` at a pruned point does not depend on later calls, as long as no sample is added to `f` -/
theorem lookup_ext (w : WF C h) (e : Ext C h h') {f x : ℕ} (hf : f ∈ h.fnList) (hx : Pruned C h x)
    (hp : ∀ o o', h.fns[f]? = some o → h'.fns[f]? = some o' → o'.points = o.points) :
    lookup C h' f x = lookup C h f x := by
  obtain ⟨o, ho, hok⟩ := w.fn f hf
  obtain ⟨o', ho', -⟩ := e.fns f o ho
  obtain ⟨xo, xo', h1, h2, h3⟩ := e.pruned_get hx
  simp only [lookup, ho, ho', h1, h2, h3]
  rw [hp o o' ho ho', find?_ext e hok.pruned]

/-- once found, always found -/
theorem lookup_ext_some (w : WF C h) (e : Ext C h h') {f x : ℕ} (hf : f ∈ h.fnList) (hx : Pruned C h x) {gv}
    (hl : lookup C h f x = some gv) : lookup C h' f x = some gv := by
  obtain ⟨o, ho, hok⟩ := w.fn f hf
  obtain ⟨o', ho', fe⟩ := e.fns f o ho
  obtain ⟨xo, xo', h1, h2, h3⟩ := e.pruned_get hx
  simp only [lookup, ho, ho', h1, h2, h3] at hl ⊢
  obtain ⟨l, hl'⟩ := fe.points
  rw [← hl', List.find?_append, find?_ext e hok.pruned]
  rw [Option.map_eq_some_iff] at hl ⊢
  obtain ⟨t, ht, rfl⟩ := hl
  exact ⟨t, by rw [ht]; rfl, rfl⟩

/-- a sample recorded at a point where nothing was found is found afterwards -/
theorem lookup_record (hC : C.Lawful) (w : WF C h) (e : Ext C h h') (w' : WF C h') {f x g : ℕ} {v : ExId} (hf : f ∈ h.fnList)
    (hx : Pruned C h x) (hxl : h.PtLive x) (hl : lookup C h f x = none)
    (hp : ∀ o o', h.fns[f]? = some o → h'.fns[f]? = some o' → o'.points = o.points ++ [(x, g, v)]) :
    lookup C h' f x = some (g, v) := by
  obtain ⟨o, ho, hok⟩ := w.fn f hf
  obtain ⟨o', ho', fe⟩ := e.fns f o ho
  obtain ⟨xo, xo', h1, h2, h3⟩ := e.pruned_get hx
  simp only [lookup, ho, ho', h1, h2, h3, Option.map_eq_none_iff] at hl ⊢
  rw [hp o o' ho ho', List.find?_append, find?_ext e hok.pruned, hl]
  have hm : matchPt C h' xo.dict (x, g, v) = true := by
    simp only [matchPt, h2, h3]
    obtain ⟨xo2, hx2, hn, -⟩ := hxl
    rw [h1] at hx2; cases hx2
    exact Dict.eqB_refl (fun a => hC.eqB_refl a) hn
  simp [hm]

theorem reuseOf_ext (w : WF C h) (e : Ext C h h') {f : ℕ} (hf : f ∈ h.fnList) : reuseOf h' f = reuseOf h f := by
  obtain ⟨o, ho, -⟩ := w.fn f hf
  obtain ⟨o', ho', fe⟩ := e.fns f o ho
  rw [reuseOf_of ho, reuseOf_of ho', fe.reuse]

theorem isLeafFn_ext (e : Ext C h h') {f : ℕ} (hf : IsLeafFn h f) : IsLeafFn h' f := by
  obtain ⟨h1, o, ho, hl⟩ := hf
  obtain ⟨o', ho', fe⟩ := e.fns f o ho
  exact ⟨e.fnList.subset h1, o', ho', fe.leaf.trans hl⟩

/-! ### the loop of add_point -/

/-- the weighted sum `Σ w • φ key` over a list of weighted functions -/
noncomputable abbrev wsum {M : Type} [AddCommGroup M] [Module ℝ M] (l : List (FnId × ℚ)) (φ : FnId → M) : M :=
  Dict.den (fun w : ℚ => (w : ℝ)) φ (l : Dict FnId ℚ)

theorem Recorded.once {f : FnId} {t : Triplet} (r : Recorded C h f t h') {k : FnId} {o o' : FnObj} (ho : h.fns[k]? = some o)
    (ho' : h'.fns[k]? = some o') : List.Sublist (o'.points.map Prod.fst) (o.points.map Prod.fst ++ [t.1]) := by
  by_cases hk : k = f
  · subst hk
    obtain ⟨go, -, hs⟩ := r.self o ho
    rw [ho'] at hs; cases hs
    simp
  · rw [r.others k hk, ho] at ho'; cases ho'
    exact List.sublist_append_left _ _

theorem OracleCase.once {f : FnId} {x g : PtId} {v : ExId} (c : OracleCase C h f x g v h') {k : FnId} {o o' : FnObj} (ho : h.fns[k]? = some o)
    (ho' : h'.fns[k]? = some o') : List.Sublist (o'.points.map Prod.fst) (o.points.map Prod.fst ++ [x]) := by
  cases c with
  | hit hl hr hh => subst hh; rw [ho] at ho'; cases ho'; exact List.sublist_append_left _ _
  | newGrad g0 hl hr hg hh => exact hh.once (t := (x, g, v)) ho ho'
  | fresh hl hg hv hh => exact hh.once (t := (x, g, v)) ho ho'

/-- Facts about the loop over the leaf functions `l` that distributes `(gl, vl)` over them. -/
structure LoopRes (C : CAS) (h : Heap) (x : PtId) (l : List (FnId × ℚ)) (gl : PtId) (vl : ExId) (h' : Heap) : Prop where
  ext : Ext C h h'
  wf : WF C h'
  fnList : h'.fnList = h.fnList
  others : ∀ k, k ∉ l.map Prod.fst → h'.fns[k]? = h.fns[k]?
  once : ∀ (k : FnId) (ko ko' : FnObj), h.fns[k]? = some ko → h'.fns[k]? = some ko' → List.Sublist (ko'.points.map Prod.fst) (ko.points.map Prod.fst ++ [x])
  samples : ∃ T : FnId → PtId × ExId, (∀ kw ∈ l, h'.SampleOf kw.1 x (T kw.1).1 (T kw.1).2 ∧
      h'.PtLive (T kw.1).1 ∧ h'.ExLive (T kw.1).2) ∧
    ∀ (E : Type) [NormedAddCommGroup E] [InnerProductSpace ℝ E] (env) (φ : PtId → E) (ψ),
      h'.ptVal env φ gl = wsum l (fun k => h'.ptVal env φ (T k).1) ∧
      h'.exVal env φ ψ vl = wsum l (fun k => h'.exVal env φ ψ (T k).2)
  sim : ∀ (E : Type) [NormedAddCommGroup E] [InnerProductSpace ℝ E] (S : FnId → E → E → ℝ → Prop) (env) (φ : PtId → E) (ψ),
    h.Functional S → h.TrueSamples S env φ ψ → ∀ G V, (∀ kw ∈ l, S kw.1 (h.ptVal env φ x) (G kw.1) (V kw.1)) →
    h.ptVal env φ gl = wsum l G → h.exVal env φ ψ vl = wsum l V →
    ∃ φ' ψ', h.Agree φ φ' ψ ψ' ∧ h'.TrueSamples S env φ' ψ'

theorem wsum_congr {M : Type} [AddCommGroup M] [Module ℝ M] {l : List (FnId × ℚ)} {φ φ' : FnId → M}
    (hh : ∀ kw ∈ l, φ kw.1 = φ' kw.1) : wsum l φ = wsum l φ' :=
  Dict.den_congr _ _ (fun k hk => by
    obtain ⟨kw, hkw, rfl⟩ := List.mem_map.1 hk
    exact hh kw hkw)

theorem addPointLoop_spec (hC : C.Lawful) (n : ℕ) (l : List (FnId × ℚ)) (hne : l ≠ []) :
    ∀ {h : Heap} (_ : WF C h) {x gl : ℕ} {vl : ExId} (_ : h.PtLive x) (_ : h.PtLive gl) (_ : h.ExLive vl)
      (_ : (l.map Prod.fst).Nodup) (_ : ∀ kw ∈ l, kw.2 ≠ 0) (_ : ∀ kw ∈ l, IsLeafFn h kw.1) (m total : ℕ)
      (_ : m + l.length = total), ∃ h', addPointLoop C (methods C (n + 2)) x total l gl vl m h = .ok ((), h') ∧
        LoopRes C h x l gl vl h' := by
  induction l with
  | nil => exact absurd rfl hne
  | cons kw rest ih =>
    intro h w x gl vl hx hgl hvl hnd hw hleaf m total hm
    obtain ⟨hkf, ko, hko, hkl⟩ := hleaf kw (by simp)
    have hkd : ko.dict = [(kw.1, 1)] := by
      obtain ⟨o', ho', hok⟩ := w.fn _ hkf
      rw [hko] at ho'; cases ho'; exact hok.leafDict hkl
    have hwk := hw kw (by simp)
    have hwkR : (kw.2 : ℝ) ≠ 0 := by exact_mod_cast hwk
    by_cases hrest : rest = []
    · subst hrest
      have hlt : ¬ m + 1 < total := by simp at hm; omega
      obtain ⟨g1, h1, r1, v1⟩ := ptDiv_live hC kw.2 hwk hgl
      have e1 := ext_onlyAdds (C := C) r1.adds
      obtain ⟨x2, h2, r2, v2⟩ := exDiv_live hC kw.2 hwk (e1.exLive hvl)
      have e2 := ext_onlyAdds (C := C) r2.adds
      have a12 := r1.adds.trans r2.adds
      have w2 := w.onlyAdds a12
      have ht : h2.TripletLive (x, g1, x2) := ⟨e2.ptLive (e1.ptLive hx), e2.ptLive r1.live, r2.live⟩
      have hk2 : kw.1 ∈ h2.fnList := by rw [a12.fnList]; exact hkf
      obtain ⟨h3, hrec, r⟩ := recordTriplet_spec hC w2 hk2 ht
      have hko2 : h2.fns[kw.1]? = some ko := by rw [a12.fns]; exact hko
      obtain ⟨go, -, hself⟩ := r.self ko hko2
      have hadd := leaf_addPoint (n + 1) hself hkl hrec
      have e := (e1.trans e2).trans r.ext
      have hvg : ∀ {E : Type} [NormedAddCommGroup E] [InnerProductSpace ℝ E] (env) (φ : PtId → E),
          h2.ptVal env φ g1 = (kw.2 : ℝ)⁻¹ • h.ptVal env φ gl := by
        intro E _ _ env φ
        rw [r2.adds.ptVal r1.live.isPt, v1]
      have hvv : ∀ {E : Type} [NormedAddCommGroup E] [InnerProductSpace ℝ E] (env) (φ : PtId → E) (ψ),
          h2.exVal env φ ψ x2 = (kw.2 : ℝ)⁻¹ * h.exVal env φ ψ vl := by
        intro E _ _ env φ ψ
        rw [v2, r1.adds.exVal hvl.isEx]
      refine ⟨h3, ?_, e, r.wf, by rw [r.fnList, a12.fnList], ?_, ?_, ?_, ?_⟩
      · rw [addPointLoop, if_neg hlt, M.bind_of_ok r1.run, M.bind_of_ok r2.run, M.bind_of_ok hadd]; rfl
      · intro k hk
        rw [r.others k (by simpa using hk), a12.fns]
      · intro k o1 o2 h1' h2'
        exact r.once (by rw [a12.fns]; exact h1') h2'
      · refine ⟨fun _ => (g1, x2), ?_, ?_⟩
        · intro kw' hkw'
          simp at hkw'; subst hkw'
          exact ⟨r.sampleOf hko2, r.ext.ptLive ht.2.1, r.ext.exLive ht.2.2⟩
        · intro E _ _ env φ ψ
          constructor
          · simp only [wsum, Dict.den_cons, Dict.den_nil, add_zero]
            rw [r.ext.ptVal hC ht.2.1.isPt, hvg, e.ptVal hC hgl.isPt, smul_smul, mul_inv_cancel₀ hwkR, one_smul]
          · simp only [wsum, Dict.den_cons, Dict.den_nil, add_zero, smul_eq_mul]
            rw [r.ext.exVal hC ht.2.2.isEx, hvv, e.exVal hC hvl.isEx, ← mul_assoc, mul_inv_cancel₀ hwkR, one_mul]
      · intro E _ _ S env φ ψ hS ts G V hGV hg hv
        refine ⟨φ, ψ, Agree.refl _ _ _, r.trueSamples hC w2 hk2 ht hko2 (ts.onlyAdds hC w a12) ?_⟩
        rw [hkd, comb_leaf]
        simp only
        rw [hvg, hvv, hg, hv, a12.ptVal hx.isPt]
        simp only [wsum, Dict.den_cons, Dict.den_nil, add_zero, smul_eq_mul]
        rw [smul_smul, inv_mul_cancel₀ hwkR, one_smul, ← mul_assoc, inv_mul_cancel₀ hwkR, one_mul]
        exact hGV kw (by simp)
    · have hlen : 0 < rest.length := List.length_pos_iff.2 hrest
      have hlt : m + 1 < total := by simp at hm; omega
      obtain ⟨g, v, h1, hor, res, ocase⟩ := leafOracle_spec hC w hkf hx hko hkl n
      obtain ⟨g2, h2, r2, v2⟩ := ptScale_live hC (Sym.num kw.2) res.gLive
      have e2 := ext_onlyAdds (C := C) r2.adds
      obtain ⟨g3, h3, r3, v3⟩ := ptSub_live hC (e2.ptLive (res.ext.ptLive hgl)) r2.live
      have e3 := ext_onlyAdds (C := C) r3.adds
      obtain ⟨x4, h4, r4, v4⟩ := exScale_live hC (Sym.num kw.2) (e3.exLive (e2.exLive res.vLive))
      have e4 := ext_onlyAdds (C := C) r4.adds
      obtain ⟨x5, h5, r5, v5⟩ := exSub_live hC (e4.exLive (e3.exLive (e2.exLive (res.ext.exLive hvl)))) r4.live
      have e5 := ext_onlyAdds (C := C) r5.adds
      have a23 := r2.adds.trans r3.adds
      have a45 := r4.adds.trans r5.adds
      have a := a23.trans a45
      have ea := ext_onlyAdds (C := C) a
      have e := res.ext.trans ea
      have w5 := res.wf.onlyAdds a
      have hnd' : (rest.map Prod.fst).Nodup ∧ kw.1 ∉ rest.map Prod.fst := by
        simp only [List.map_cons, List.nodup_cons] at hnd; exact ⟨hnd.2, hnd.1⟩
      obtain ⟨h6, hloop, lr⟩ := ih hrest w5 (e.ptLive hx) (e5.ptLive (e4.ptLive r3.live)) r5.live hnd'.1
        (fun k hk => hw k (by simp [hk])) (fun k hk => isLeafFn_ext e (hleaf k (by simp [hk]))) (m + 1) total
        (by simp at hm; omega)
      -- values of the remainders
      have hvg : ∀ {E : Type} [NormedAddCommGroup E] [InnerProductSpace ℝ E] (env) (φ : PtId → E),
          h5.ptVal env φ g3 = h1.ptVal env φ gl - (kw.2 : ℝ) • h1.ptVal env φ g := by
        intro E _ _ env φ
        rw [a45.ptVal r3.live.isPt, v3, v2, r2.adds.ptVal (res.ext.isPt hgl.isPt)]; simp
      have hvv : ∀ {E : Type} [NormedAddCommGroup E] [InnerProductSpace ℝ E] (env) (φ : PtId → E) (ψ),
          h5.exVal env φ ψ x5 = h1.exVal env φ ψ vl - (kw.2 : ℝ) * h1.exVal env φ ψ v := by
        intro E _ _ env φ ψ
        rw [v5, v4, r4.adds.exVal (e3.isEx (e2.isEx (res.ext.isEx hvl.isEx))), a23.exVal (res.ext.isEx hvl.isEx),
          a23.exVal res.vLive.isEx]; simp
      have elr := lr.ext
      refine ⟨h6, ?_, e.trans elr, lr.wf, by rw [lr.fnList, a.fnList, res.fnList], ?_, ?_, ?_, ?_⟩
      · rw [addPointLoop, if_pos hlt, M.bind_of_ok hor, M.bind_of_ok r2.run, M.bind_of_ok r3.run, M.bind_of_ok r4.run,
          M.bind_of_ok r5.run, hloop]
      · intro k hk
        simp only [List.map_cons, List.mem_cons, not_or] at hk
        rw [lr.others k hk.2, a.fns, res.others k hk.1]
      · intro k o1 o2 ho1 ho2
        by_cases hkk : k = kw.1
        · rw [lr.others k (hkk ▸ hnd'.2), a.fns] at ho2
          exact ocase.once ho1 ho2
        · exact lr.once k o1 o2 (by rw [a.fns, res.others k hkk]; exact ho1) ho2
      · obtain ⟨T, hT, hTv⟩ := lr.samples
        refine ⟨Function.update T kw.1 (g, v), ?_, ?_⟩
        · intro kw' hkw'
          rcases List.mem_cons.1 hkw' with rfl | hkw'
          · simp only [Function.update_self]
            have hk1 : kw'.1 ∈ h1.fnList := by rw [res.fnList]; exact hkf
            have hk5 : kw'.1 ∈ h5.fnList := by rw [a.fnList]; exact hk1
            have s5 := res.sample.ext hC res.wf ea hk1 (res.ext.isPt hx.isPt)
            exact ⟨s5.ext hC w5 elr hk5 (e.isPt hx.isPt), elr.ptLive (ea.ptLive res.gLive), elr.exLive (ea.exLive res.vLive)⟩
          · have : kw'.1 ≠ kw.1 := fun he => hnd'.2 (he ▸ List.mem_map_of_mem hkw')
            rw [Function.update_of_ne this]
            exact hT kw' hkw'
        · intro E _ _ env φ ψ
          obtain ⟨hg, hv⟩ := hTv E env φ ψ
          have hne : ∀ kw' ∈ rest, kw'.1 ≠ kw.1 := fun kw' hkw' he => hnd'.2 (he ▸ List.mem_map_of_mem hkw')
          constructor
          · simp only [wsum, Dict.den_cons, Function.update_self]
            have h1' : Dict.den (fun w : ℚ => (w : ℝ)) (fun k => h6.ptVal env φ (Function.update T kw.1 (g, v) k).1) rest =
                h6.ptVal env φ g3 := by
              rw [hg]; exact wsum_congr (fun kw' hkw' => by rw [Function.update_of_ne (hne kw' hkw')])
            rw [h1', elr.ptVal hC (a45.isPt r3.live.isPt), hvg, (ea.trans elr).ptVal hC res.gLive.isPt,
              (ea.trans elr).ptVal hC (res.ext.isPt hgl.isPt)]
            abel
          · simp only [wsum, Dict.den_cons, Function.update_self, smul_eq_mul]
            have h1' : Dict.den (fun w : ℚ => (w : ℝ)) (fun k => h6.exVal env φ ψ (Function.update T kw.1 (g, v) k).2) rest =
                h6.exVal env φ ψ x5 := by
              rw [hv]; exact wsum_congr (fun kw' hkw' => by rw [Function.update_of_ne (hne kw' hkw')])
            rw [h1', elr.exVal hC r5.live.isEx, hvv, (ea.trans elr).exVal hC res.vLive.isEx,
              (ea.trans elr).exVal hC (res.ext.isEx hvl.isEx)]
            ring
      · intro E _ _ S env φ ψ hS ts G V hGV hg hv
        obtain ⟨φ1, ψ1, ag1, ts1, hg1, hv1⟩ := res.sim E S env φ ψ hS ts (G kw.1) (V kw.1) (hGV kw (by simp))
        have ts5 := ts1.onlyAdds hC res.wf a
        have hS5 : h5.Functional S := (hS.mono res.ext w res.fnList).mono ea res.wf a.fnList
        have hx5 : h5.ptVal env φ1 x = h.ptVal env φ x := by
          rw [ea.ptVal hC (res.ext.isPt hx.isPt)]; exact ag1.ptVal hC res.ext hx env
        obtain ⟨φ2, ψ2, ag2, ts2⟩ := lr.sim E S env φ1 ψ1 hS5 ts5 G V
          (fun kw' hkw' => by rw [hx5]; exact hGV kw' (by simp [hkw']))
          (by
            rw [hvg, hg1, ag1.ptVal hC res.ext hgl, hg]
            simp only [wsum, Dict.den_cons]; abel)
          (by
            rw [hvv, hv1, ag1.exVal hC res.ext hvl, hv]
            simp only [wsum, Dict.den_cons, smul_eq_mul]; ring)
        exact ⟨φ2, ψ2, ag1.trans e (C := C) ag2, ts2⟩

end Verif
