import Verif.Proofs.AddPoint

namespace Verif
open Heap

variable {C : CAS} {h h' : Heap}

theorem lookup_onlyAdds (a : h.OnlyAdds h') (w : WF C h) {f x : ℕ} (hf : f ∈ h.fnList) (hx : h.IsPt x) :
    lookup C h' f x = lookup C h f x := by
  obtain ⟨o, ho, hok⟩ := w.fn f hf
  obtain ⟨xo, hxo⟩ := hx.get
  simp only [lookup, a.fns, ho, hxo, a.pts hxo]
  congr 1
  have : ∀ t ∈ o.points, matchPt C h' xo.dict t = matchPt C h xo.dict t := by
    intro t ht
    obtain ⟨po, hpo⟩ := (hok.points t ht).1.isPt.get
    simp [matchPt, hpo, a.pts hpo]
  clear hok ho
  generalize o.points = l at this
  induction l with
  | nil => rfl
  | cons t l ih =>
    rw [List.find?_cons, List.find?_cons, this t (by simp), ih (fun s hs => this s (by simp [hs]))]

/-- cached gradient and value -/
def cached (C : CAS) (h : Heap) (x : PtId) (k : FnId) : PtId × ExId :=
  match lookup C h k x with
  | some gv => gv
  | none => (0, 0)

theorem cached_of {k x : ℕ} (hk : (lookup C h k x).isSome) : lookup C h k x = some (cached C h x k) := by
  obtain ⟨gv, hgv⟩ := Option.isSome_iff_exists.1 hk
  simp [cached, hgv]

theorem oracle_hit (w : WF C h) {f x : ℕ} (hf : f ∈ h.fnList) (hx : h.PtLive x) {gv} (hl : lookup C h f x = some gv)
    (hr : reuseOf h f = true) (n : ℕ) : (methods C (n + 1)).oracle f x h = .ok (gv, h) := by
  obtain ⟨o, ho, -⟩ := w.fn f hf
  rw [reuseOf_of ho] at hr
  show oracleBody C (methods C n) f x h = _
  rw [oracleBody, M.bind_of_ok (isEvaluated_run w hf hx), M.bind_of_ok (getFn_run ho), hl]
  simp only [hr, if_true]; rfl

theorem sumValues_spec (hC : C.Lawful) (r : Methods) (x : ℕ) (l : List (FnId × ℚ)) :
    ∀ {h : Heap} (_ : WF C h) (_ : h.PtLive x) {acc : ExId} (_ : h.ExLive acc)
      (_ : ∀ kw ∈ l, kw.1 ∈ h.fnList ∧ (lookup C h kw.1 x).isSome), ∃ e h', ExRes h (sumValues C r x l acc h) e h' ∧
      ∀ {E : Type} [NormedAddCommGroup E] [InnerProductSpace ℝ E] (env) (φ : PtId → E) (ψ),
        h'.exVal env φ ψ e = h.exVal env φ ψ acc + wsum l (fun k => h.exVal env φ ψ (cached C h x k).2) := by
  induction l with
  | nil =>
    intro h w hx acc hacc _
    exact ⟨acc, h, ⟨rfl, onlyAdds_refl h, hacc⟩, by intros; simp [wsum]⟩
  | cons kw l ih =>
    intro h w hx acc hacc hl
    obtain ⟨hkf, hks⟩ := hl kw (by simp)
    have hc := cached_of hks
    obtain ⟨-, hcv⟩ := lookup_some_live (g := (cached C h x kw.1).1) (v := (cached C h x kw.1).2) w hkf hx hc
    have hval : valueBody C r kw.1 x h = .ok ((cached C h x kw.1).2, h) := by
      rw [valueBody, M.bind_of_ok (isEvaluated_run w hkf hx), hc]; rfl
    obtain ⟨e1, h1, r1, v1⟩ := exScale_live hC (Sym.num kw.2) hcv
    have x1 := ext_onlyAdds (C := C) r1.adds
    obtain ⟨e2, h2, r2, v2⟩ := exAdd_live hC (x1.exLive hacc) r1.live
    have a := r1.adds.trans r2.adds
    have xa := ext_onlyAdds (C := C) a
    obtain ⟨e3, h3, r3, v3⟩ := ih (w.onlyAdds a) (xa.ptLive hx) r2.live (fun k hk => by
      obtain ⟨h5, h6⟩ := hl k (by simp [hk])
      exact ⟨by rw [a.fnList]; exact h5, by rw [lookup_onlyAdds a w h5 hx.isPt]; exact h6⟩)
    refine ⟨e3, h3, ⟨?_, a.trans r3.adds, r3.live⟩, ?_⟩
    · rw [sumValues, M.bind_of_ok hval, M.bind_of_ok r1.run, M.bind_of_ok r2.run, r3.run]
    · intro E _ _ env φ ψ
      rw [v3, v2, v1, r1.adds.exVal hacc.isEx]
      have : wsum l (fun k => h2.exVal env φ ψ (cached C h2 x k).2) = wsum l (fun k => h.exVal env φ ψ (cached C h x k).2) := by
        refine wsum_congr (fun k hk => ?_)
        obtain ⟨h5, h6⟩ := hl k (by simp [hk])
        have hc' := cached_of h6
        obtain ⟨-, hl'⟩ := lookup_some_live (g := (cached C h x k.1).1) (v := (cached C h x k.1).2) w h5 hx hc'
        have : cached C h2 x k.1 = cached C h x k.1 := by simp only [cached, lookup_onlyAdds a w h5 hx.isPt]
        rw [this, a.exVal hl'.isEx]
      rw [this]
      simp only [wsum, Dict.den_cons, smul_eq_mul, Sym.eval_num]
      ring

theorem sumGradients_spec (hC : C.Lawful) (n : ℕ) (x : ℕ) (l : List (FnId × ℚ)) :
    ∀ {h : Heap} (_ : WF C h) (_ : h.PtLive x) {acc : PtId} (_ : h.PtLive acc)
      (_ : ∀ kw ∈ l, kw.1 ∈ h.fnList ∧ (lookup C h kw.1 x).isSome ∧ reuseOf h kw.1 = true),
      ∃ e h', PtRes h (sumGradients C (methods C (n + 1)) x l acc h) e h' ∧
      ∀ {E : Type} [NormedAddCommGroup E] [InnerProductSpace ℝ E] (env) (φ : PtId → E),
        h'.ptVal env φ e = h.ptVal env φ acc + wsum l (fun k => h.ptVal env φ (cached C h x k).1) := by
  induction l with
  | nil =>
    intro h w hx acc hacc _
    exact ⟨acc, h, ⟨rfl, onlyAdds_refl h, hacc⟩, by intros; simp [wsum]⟩
  | cons kw l ih =>
    intro h w hx acc hacc hl
    obtain ⟨hkf, hks, hkr⟩ := hl kw (by simp)
    have hc := cached_of hks
    obtain ⟨hcg, -⟩ := lookup_some_live (g := (cached C h x kw.1).1) (v := (cached C h x kw.1).2) w hkf hx hc
    have hval : gradientBody (methods C (n + 1)) kw.1 x h = .ok ((cached C h x kw.1).1, h) := by
      rw [gradientBody, M.bind_of_ok (oracle_hit w hkf hx hc hkr n)]; rfl
    obtain ⟨e1, h1, r1, v1⟩ := ptScale_live hC (Sym.num kw.2) hcg
    have x1 := ext_onlyAdds (C := C) r1.adds
    obtain ⟨e2, h2, r2, v2⟩ := ptAdd_live hC (x1.ptLive hacc) r1.live
    have a := r1.adds.trans r2.adds
    have xa := ext_onlyAdds (C := C) a
    obtain ⟨e3, h3, r3, v3⟩ := ih (w.onlyAdds a) (xa.ptLive hx) r2.live (fun k hk => by
      obtain ⟨h5, h6, h7⟩ := hl k (by simp [hk])
      exact ⟨by rw [a.fnList]; exact h5, by rw [lookup_onlyAdds a w h5 hx.isPt]; exact h6,
        by rw [reuseOf_ext w xa h5]; exact h7⟩)
    refine ⟨e3, h3, ⟨?_, a.trans r3.adds, r3.live⟩, ?_⟩
    · rw [sumGradients, M.bind_of_ok hval, M.bind_of_ok r1.run, M.bind_of_ok r2.run, r3.run]
    · intro E _ _ env φ
      rw [v3, v2, v1, r1.adds.ptVal hacc.isPt]
      have : wsum l (fun k => h2.ptVal env φ (cached C h2 x k).1) = wsum l (fun k => h.ptVal env φ (cached C h x k).1) := by
        refine wsum_congr (fun k hk => ?_)
        obtain ⟨h5, h6, -⟩ := hl k (by simp [hk])
        have hc' := cached_of h6
        obtain ⟨hl', -⟩ := lookup_some_live (g := (cached C h x k.1).1) (v := (cached C h x k.1).2) w h5 hx hc'
        have : cached C h2 x k.1 = cached C h x k.1 := by simp only [cached, lookup_onlyAdds a w h5 hx.isPt]
        rw [this, a.ptVal hl'.isPt]
      rw [this]
      simp only [wsum, Dict.den_cons, Sym.eval_num]
      abel

/-- Facts about the preparation of gradient and value (before `add_point`). -/
structure PrepRes (C : CAS) (h h' : Heap) : Prop where
  ext : Ext C h h'
  wf : WF C h'
  fnList : h'.fnList = h.fnList
  fns : h'.fns = h.fns

theorem PrepRes.trans {h1 h2 h3 : Heap} (a : PrepRes C h1 h2) (b : PrepRes C h2 h3) : PrepRes C h1 h3 :=
  ⟨a.ext.trans b.ext, b.wf, b.fnList.trans a.fnList, b.fns.trans a.fns⟩
theorem prep_onlyAdds (w : WF C h) (a : h.OnlyAdds h') : PrepRes C h h' :=
  ⟨ext_onlyAdds a, w.onlyAdds a, a.fnList, a.fns⟩

theorem PrepRes.trueSamples (hC : C.Lawful) (w : WF C h) (p : PrepRes C h h') {E : Type} [NormedAddCommGroup E]
    [InnerProductSpace ℝ E] {S : FnId → E → E → ℝ → Prop} {env} {φ φ' : PtId → E} {ψ ψ'} (ag : h.Agree φ φ' ψ ψ')
    (ts : h.TrueSamples S env φ ψ) : h'.TrueSamples S env φ' ψ' := by
  refine ts.step hC w p.ext p.fnList ag ?_
  intro k _ ok ok' hok hok' s hs
  rw [p.fns, hok] at hok'
  obtain rfl := Option.some.inj hok'
  exact Or.inl hs

/-- value of a true sample recorded at a point with the value of `x` -/
theorem comb_val_unique {E : Type} [NormedAddCommGroup E] [InnerProductSpace ℝ E] {S : FnId → E → E → ℝ → Prop}
    (hS : h.Functional S) {d : Dict FnId ℚ} {x g : E} {v : ℝ} {G : FnId → E} {V : FnId → ℝ}
    (hGV : ∀ kw ∈ d, kw.2 ≠ 0 → S kw.1 x (G kw.1) (V kw.1)) (hc : Comb S d x g v) : v = wsum d V := by
  obtain ⟨G', V', h1, -, rfl⟩ := hc
  unfold wsum Dict.den
  congr 1
  refine List.map_congr_left (fun kw hkw => ?_)
  by_cases hw : kw.2 = 0
  · simp [hw]
  · rw [hS.val _ _ _ _ _ _ (h1 kw hkw hw) (hGV kw hkw hw)]

theorem newEx_nil_live (h : Heap) : ∃ h', ExRes h (newEx [] h) h.exs.length h' ∧
    ∀ {E : Type} [NormedAddCommGroup E] [InnerProductSpace ℝ E] (env) (φ : PtId → E) (ψ), h'.exVal env φ ψ h.exs.length = 0 :=
  ⟨h.pushEx [], ⟨newEx_run h [], onlyAdds_pushEx h [], pushEx_live ⟨id, fun _ _ => true, fun _ => []⟩ (by simp [Dict.NodupKeys]) (by simp)⟩, by
    intros; rw [exVal_pushEx]; simp⟩
theorem newPt_nil_live (h : Heap) : ∃ h', PtRes h (newPt [] h) h.pts.length h' ∧
    ∀ {E : Type} [NormedAddCommGroup E] [InnerProductSpace ℝ E] (env) (φ : PtId → E), h'.ptVal env φ h.pts.length = 0 :=
  ⟨h.pushPt [], ⟨newPt_run h [], onlyAdds_pushPt h [], pushPt_live (by simp [Dict.NodupKeys]) (by simp)⟩, by
    intros; rw [ptVal_pushPt]; simp⟩

theorem wsum_congr0 {M : Type} [AddCommGroup M] [Module ℝ M] {l : List (FnId × ℚ)} {φ φ' : FnId → M}
    (hh : ∀ kw ∈ l, kw.2 ≠ 0 → φ kw.1 = φ' kw.1) : wsum l φ = wsum l φ' := by
  unfold wsum Dict.den
  congr 1
  refine List.map_congr_left (fun kw hkw => ?_)
  by_cases hw : kw.2 = 0
  · simp [hw]
  · rw [hh kw hkw hw]

section
variable (hC : C.Lawful) (w : WF C h) {f x : ℕ} (hf : f ∈ h.fnList) (hx : h.PtLive x) {o : FnObj}
  (ho : h.fns[f]? = some o) {nd : Needs} (hperm : (nd.nothing ++ (nd.gradient ++ nd.both)).Perm o.dict)
  (hn : ∀ kw ∈ nd.nothing, (lookup C h kw.1 x).isSome ∧ reuseOf h kw.1 = true)
  (hgr : ∀ kw ∈ nd.gradient, (lookup C h kw.1 x).isSome ∧ reuseOf h kw.1 = false)
include hC w hf hx ho hperm hn hgr

theorem keys_isSome (hb : nd.both = []) : ∀ kw ∈ o.dict, kw.1 ∈ h.fnList ∧ (lookup C h kw.1 x).isSome := by
  intro kw hkw
  obtain ⟨o', ho', hok⟩ := w.fn f hf
  rw [ho] at ho'; cases ho'
  refine ⟨hok.keys_fnList hf kw hkw, ?_⟩
  have := hperm.mem_iff.2 hkw
  simp only [List.mem_append, hb, List.not_mem_nil, or_false] at this
  rcases this with h1 | h1
  · exact (hn kw h1).1
  · exact (hgr kw h1).1

theorem oracleValue_spec (r : Methods) (a : Option (PtId × ExId)) (ha : a = lookup C h f x) :
    ∃ v h', oracleValue C r f x a nd h = .ok (v, h') ∧ PrepRes C h h' ∧ h'.ExLive v ∧
      (∀ gv, a = some gv → v = gv.2) ∧
      (a = none → nd.both = [] → ∀ {E : Type} [NormedAddCommGroup E] [InnerProductSpace ℝ E] (env) (φ : PtId → E) (ψ),
        h'.exVal env φ ψ v = wsum o.dict (fun k => h.exVal env φ ψ (cached C h x k).2)) ∧
      ∀ (E : Type) [NormedAddCommGroup E] [InnerProductSpace ℝ E] (S : FnId → E → E → ℝ → Prop) (env) (φ : PtId → E) (ψ),
        h.Functional S → h.TrueSamples S env φ ψ → ∀ (G : FnId → E) (V : FnId → ℝ), (∀ kw ∈ o.dict, kw.2 ≠ 0 → S kw.1 (h.ptVal env φ x) (G kw.1) (V kw.1)) →
        ∃ ψ', h.Agree φ φ ψ ψ' ∧ h'.exVal env φ ψ' v = wsum o.dict V := by
  cases a with
  | some gv =>
    obtain ⟨g0, v0⟩ := gv
    refine ⟨v0, h, rfl, ⟨Ext.refl _, w, rfl, rfl⟩, (lookup_some_live w hf hx ha.symm).2, ?_, by simp, ?_⟩
    · intro gv hgv; cases hgv; rfl
    · intro E _ _ S env φ ψ hS ts G V hGV
      refine ⟨ψ, Agree.refl _ _ _, ?_⟩
      obtain ⟨o1, p, ho1, hp, hsp⟩ := lookup_some hC w hf hx ha.symm
      obtain rfl : o1 = o := by rw [ho] at ho1; exact (Option.some.inj ho1).symm
      have := ts f hf _ ho _ hp
      simp only at this
      rw [hsp E env φ] at this
      exact comb_val_unique hS hGV this
  | none =>
    by_cases hb : nd.both = []
    · obtain ⟨h1, r1, v1⟩ := newEx_nil_live h
      have x1 := ext_onlyAdds (C := C) r1.adds
      have hks := keys_isSome hC w hf hx ho hperm hn hgr hb
      obtain ⟨e, h2, r2, v2⟩ := sumValues_spec hC r x o.dict (w.onlyAdds r1.adds) (x1.ptLive hx) r1.live (fun kw hkw => by
        obtain ⟨h5, h6⟩ := hks kw hkw
        exact ⟨by rw [r1.adds.fnList]; exact h5, by rw [lookup_onlyAdds r1.adds w h5 hx.isPt]; exact h6⟩)
      have a := r1.adds.trans r2.adds
      have hval : ∀ {E : Type} [NormedAddCommGroup E] [InnerProductSpace ℝ E] (env) (φ : PtId → E) (ψ),
          h2.exVal env φ ψ e = wsum o.dict (fun k => h.exVal env φ ψ (cached C h x k).2) := by
        intro E _ _ env φ ψ
        rw [v2, v1, zero_add]
        refine wsum_congr (fun kw hkw => ?_)
        obtain ⟨h5, h6⟩ := hks kw hkw
        obtain ⟨-, hl'⟩ := lookup_some_live (g := (cached C h x kw.1).1) (v := (cached C h x kw.1).2) w h5 hx (cached_of h6)
        have : cached C h1 x kw.1 = cached C h x kw.1 := by simp only [cached, lookup_onlyAdds r1.adds w h5 hx.isPt]
        rw [this, r1.adds.exVal hl'.isEx]
      refine ⟨e, h2, ?_, prep_onlyAdds w a, r2.live, by simp, fun _ _ => hval, ?_⟩
      · simp only [oracleValue]
        have hg : getFn f h1 = .ok (o, h1) := getFn_run (by rw [r1.adds.fns]; exact ho)
        rw [if_pos hb, M.bind_of_ok r1.run, M.bind_of_ok hg, r2.run]
      · intro E _ _ S env φ ψ hS ts G V hGV
        refine ⟨ψ, Agree.refl _ _ _, ?_⟩
        rw [hval]
        refine wsum_congr0 (fun kw hkw hw => ?_)
        obtain ⟨h5, h6⟩ := hks kw hkw
        obtain ⟨ok, p, hok, hp, hsp⟩ := lookup_some (g := (cached C h x kw.1).1) (v := (cached C h x kw.1).2) hC w h5 hx (cached_of h6)
        have hts := ts kw.1 h5 ok hok _ hp
        simp only at hts
        have hleaf : ok.dict = [(kw.1, 1)] := by
          obtain ⟨ok', hok', hokok⟩ := w.fn kw.1 h5
          rw [hok] at hok'; cases hok'
          refine hokok.leafDict ?_
          obtain ⟨o', ho', hoo⟩ := w.fn f hf
          rw [ho] at ho'; cases ho'
          cases hl : o.leaf with
          | true =>
            rw [hoo.leafDict hl] at hkw; simp at hkw
            subst hkw
            rw [ho] at hok; cases hok; exact hl
          | false =>
            obtain ⟨-, ok2, hok2, hl2, -⟩ := hoo.sumKeys hl kw.1 (List.mem_map_of_mem hkw)
            rw [hok] at hok2; cases hok2; exact hl2
        rw [hleaf, comb_leaf, hsp E env φ] at hts
        exact hS.val _ _ _ _ _ _ hts (hGV kw hkw hw)
    · refine ⟨h.exs.length, h.addLeafEx, ?_, ⟨ext_addLeafEx h, w.addLeafEx, rfl, rfl⟩, addLeafEx_live h, by simp,
        fun _ hb' => absurd hb' hb, ?_⟩
      · simp only [oracleValue]; rw [if_neg hb]; rfl
      · intro E _ _ S env φ ψ hS ts G V hGV
        refine ⟨Function.update ψ h.exs.length (wsum o.dict V), agree_updateEx w φ ψ _, ?_⟩
        rw [addLeafEx_val]; simp

theorem oracleGradient_spec (n : ℕ) : 
    ∃ g h', oracleGradient C (methods C (n + 1)) f x nd h = .ok (g, h') ∧ PrepRes C h h' ∧ h'.PtLive g ∧
      ((nd.both = [] ∧ nd.gradient = []) ∨ (g = h.pts.length ∧ h' = h.addLeafPt)) ∧
      (nd.both = [] → nd.gradient = [] → ∀ {E : Type} [NormedAddCommGroup E] [InnerProductSpace ℝ E] (env) (φ : PtId → E),
        h'.ptVal env φ g = wsum o.dict (fun k => h.ptVal env φ (cached C h x k).1)) ∧
      ∀ (E : Type) [NormedAddCommGroup E] [InnerProductSpace ℝ E] (S : FnId → E → E → ℝ → Prop) (env) (φ : PtId → E) (ψ),
        h.Functional S → h.TrueSamples S env φ ψ → ∀ (G : FnId → E) (V : FnId → ℝ), (∀ kw ∈ o.dict, kw.2 ≠ 0 → S kw.1 (h.ptVal env φ x) (G kw.1) (V kw.1)) →
        ∃ φ', h.Agree φ φ' ψ ψ ∧ h'.ptVal env φ' g = wsum o.dict G := by
  by_cases hb : nd.both = [] ∧ nd.gradient = []
  · obtain ⟨h1, r1, v1⟩ := newPt_nil_live h
    have x1 := ext_onlyAdds (C := C) r1.adds
    have hks' := keys_isSome hC w hf hx ho hperm hn hgr hb.1
    have hks : ∀ kw ∈ o.dict, kw.1 ∈ h.fnList ∧ (lookup C h kw.1 x).isSome ∧ reuseOf h kw.1 = true := by
      intro kw hkw
      refine ⟨(hks' kw hkw).1, (hks' kw hkw).2, ?_⟩
      have := hperm.mem_iff.2 hkw
      simp only [List.mem_append, hb.1, hb.2, List.not_mem_nil, or_false] at this
      exact (hn kw this).2
    obtain ⟨e, h2, r2, v2⟩ := sumGradients_spec hC n x o.dict (w.onlyAdds r1.adds) (x1.ptLive hx) r1.live (fun kw hkw => by
      obtain ⟨h5, h6, h7⟩ := hks kw hkw
      exact ⟨by rw [r1.adds.fnList]; exact h5, by rw [lookup_onlyAdds r1.adds w h5 hx.isPt]; exact h6,
        by rw [reuseOf_ext w x1 h5]; exact h7⟩)
    have a := r1.adds.trans r2.adds
    have hval : ∀ {E : Type} [NormedAddCommGroup E] [InnerProductSpace ℝ E] (env) (φ : PtId → E),
        h2.ptVal env φ e = wsum o.dict (fun k => h.ptVal env φ (cached C h x k).1) := by
      intro E _ _ env φ
      rw [v2, v1, zero_add]
      refine wsum_congr (fun kw hkw => ?_)
      obtain ⟨h5, h6⟩ := hks' kw hkw
      obtain ⟨hl', -⟩ := lookup_some_live (g := (cached C h x kw.1).1) (v := (cached C h x kw.1).2) w h5 hx (cached_of h6)
      have : cached C h1 x kw.1 = cached C h x kw.1 := by simp only [cached, lookup_onlyAdds r1.adds w h5 hx.isPt]
      rw [this, r1.adds.ptVal hl'.isPt]
    refine ⟨e, h2, ?_, prep_onlyAdds w a, r2.live, Or.inl hb, fun _ _ => hval, ?_⟩
    · have hg : getFn f h1 = .ok (o, h1) := getFn_run (by rw [r1.adds.fns]; exact ho)
      rw [oracleGradient, if_pos hb, M.bind_of_ok r1.run, M.bind_of_ok hg, r2.run]
    · intro E _ _ S env φ ψ hS ts G V hGV
      refine ⟨φ, Agree.refl _ _ _, ?_⟩
      rw [hval]
      refine wsum_congr0 (fun kw hkw hw => ?_)
      obtain ⟨h5, h6, h7⟩ := hks kw hkw
      obtain ⟨ok, p, hok, hp, hsp⟩ := lookup_some (g := (cached C h x kw.1).1) (v := (cached C h x kw.1).2) hC w h5 hx (cached_of h6)
      have hts := ts kw.1 h5 ok hok _ hp
      simp only at hts
      obtain ⟨ok', hok', hokok⟩ := w.fn kw.1 h5
      rw [hok] at hok'; cases hok'
      have hleaf : ok.leaf = true := by
        obtain ⟨o', ho', hoo⟩ := w.fn f hf
        rw [ho] at ho'; cases ho'
        cases hl : o.leaf with
        | true =>
          rw [hoo.leafDict hl] at hkw; simp at hkw
          subst hkw
          rw [ho] at hok; cases hok; exact hl
        | false =>
          obtain ⟨-, ok2, hok2, hl2, -⟩ := hoo.sumKeys hl kw.1 (List.mem_map_of_mem hkw)
          rw [hok] at hok2; cases hok2; exact hl2
      rw [hokok.leafDict hleaf, comb_leaf, hsp E env φ] at hts
      rw [reuseOf_of hok] at h7
      exact hS.grad _ h5 _ hok hleaf h7 _ _ _ _ _ hts (hGV kw hkw hw)
  · refine ⟨h.pts.length, h.addLeafPt, ?_, ⟨ext_addLeafPt h, w.addLeafPt, rfl, rfl⟩, addLeafPt_live h, Or.inr ⟨rfl, rfl⟩,
      fun h1 h2 => absurd ⟨h1, h2⟩ hb, ?_⟩
    · rw [oracleGradient, if_neg hb]; rfl
    · intro E _ _ S env φ ψ hS ts G V hGV
      refine ⟨Function.update φ h.pts.length (wsum o.dict G), agree_updatePt w φ ψ _, ?_⟩
      rw [addLeafPt_val]; simp
end

/-- outcome of `oracle` on any function -/
structure OracleRes (C : CAS) (h : Heap) (f : FnId) (x g : PtId) (v : ExId) (h' : Heap) : Prop where
  ext : Ext C h h'
  wf : WF C h'
  fnList : h'.fnList = h.fnList
  gLive : h'.PtLive g
  vLive : h'.ExLive v
  cases : (lookup C h f x = some (g, v) ∧ reuseOf h f = true ∧ h' = h) ∨
    ((lookup C h f x = none ∨ reuseOf h f = false) ∧
     (∀ gv, lookup C h f x = some gv → v = gv.2) ∧
     (∀ o o', h.fns[f]? = some o → h'.fns[f]? = some o' → o'.points = o.points ++ [(x, g, v)]) ∧
     (∀ o, h.fns[f]? = some o → (∀ kw ∈ o.dict, kw.2 ≠ 0) → ((∀ k ∈ o.dict.keys, reuseOf h k = true) → o.reuse = true) →
        Pruned C h x → h'.SumConsistent o.dict x g v))
  sim : ∀ o, h.fns[f]? = some o → ∀ (E : Type) [NormedAddCommGroup E] [InnerProductSpace ℝ E]
    (S : FnId → E → E → ℝ → Prop) (env) (φ : PtId → E) (ψ), h.Functional S → h.TrueSamples S env φ ψ →
    ∀ (G : FnId → E) (V : FnId → ℝ), (∀ kw ∈ o.dict, kw.2 ≠ 0 → S kw.1 (h.ptVal env φ x) (G kw.1) (V kw.1)) →
    ∃ φ' ψ', h.Agree φ φ' ψ ψ' ∧ h'.TrueSamples S env φ' ψ' ∧ h'.ptVal env φ' g = wsum o.dict G ∧
      h'.exVal env φ' ψ' v = wsum o.dict V


theorem oracle_spec (hC : C.Lawful) (w : WF C h) {f x : ℕ} (hf : f ∈ h.fnList) (hx : h.PtLive x) (n : ℕ) :
    ∃ g v h', (methods C (n + 4)).oracle f x h = .ok ((g, v), h') ∧ OracleRes C h f x g v h' := by
  obtain ⟨o, ho, hok⟩ := w.fn f hf
  by_cases hhit : ∃ gv, lookup C h f x = some gv ∧ reuseOf h f = true
  · obtain ⟨⟨g, v⟩, hl, hr⟩ := hhit
    have hlive := lookup_some_live w hf hx hl
    refine ⟨g, v, h, oracle_hit w hf hx hl hr (n + 3), Ext.refl _, w, rfl, hlive.1, hlive.2, Or.inl ⟨hl, hr, rfl⟩, ?_⟩
    intro o' ho' E _ _ S env φ ψ hS ts G V hGV
    rw [ho] at ho'; obtain rfl := Option.some.inj ho'
    refine ⟨φ, ψ, Agree.refl _ _ _, ts, ?_⟩
    obtain ⟨o1, p, ho1, hp, hsp⟩ := lookup_some hC w hf hx hl
    obtain rfl : o1 = o := by rw [ho] at ho1; exact (Option.some.inj ho1).symm
    have hc := ts f hf _ ho _ hp
    simp only at hc
    rw [hsp E env φ] at hc
    refine ⟨?_, comb_val_unique hS hGV hc⟩
    obtain ⟨G', V', h1, h2, -⟩ := hc
    rw [h2]
    refine wsum_congr0 (fun kw hkw hw => ?_)
    have hro : o1.reuse = true := by rw [reuseOf_of ho] at hr; exact hr
    cases hl' : o1.leaf with
    | true =>
      have hk : kw = (f, 1) := by rw [hok.leafDict hl'] at hkw; simpa using hkw
      subst hk
      exact hS.grad f hf _ ho hl' hro _ _ _ _ _ (h1 _ hkw hw) (hGV _ hkw hw)
    | false =>
      obtain ⟨h5, ok, h6, h7, h8⟩ := hok.sumKeys hl' kw.1 (List.mem_map_of_mem hkw)
      exact hS.grad _ h5 _ h6 h7 (h8 hro) _ _ _ _ _ (h1 _ hkw hw) (hGV _ hkw hw)
  · have hmiss : lookup C h f x = none ∨ reuseOf h f = false := by
      cases hl : lookup C h f x with
      | none => exact Or.inl rfl
      | some gv =>
        right
        by_contra hr
        exact hhit ⟨gv, hl, by simpa using hr⟩
    obtain ⟨nd, hsep, hperm, hn, hgr, hb⟩ := separate_spec w hx hf ho
    obtain ⟨v, h1, hv, p1, vl, hvc, hvs, vsim⟩ := oracleValue_spec hC w hf hx ho hperm hn hgr (methods C (n + 3)) _ rfl
    have hkf := hok.keys_fnList hf
    -- the cache is unchanged in h1
    have hf1 : f ∈ h1.fnList := by rw [p1.fnList]; exact hf
    have ho1 : h1.fns[f]? = some o := by rw [p1.fns]; exact ho
    have hlk1 : ∀ k ∈ h.fnList, lookup C h1 k x = lookup C h k x := by
      -- preparation of the value does not change any point
      intro k hk
      cases hlk : lookup C h f x with
      | some gv =>
        rw [hlk] at hv
        have : h1 = h := by simp only [oracleValue] at hv; cases hv; rfl
        rw [this]
      | none =>
        rw [hlk] at hv
        by_cases hbo : nd.both = []
        · obtain ⟨h1', r1, v1⟩ := newEx_nil_live h
          have x1 := ext_onlyAdds (C := C) r1.adds
          have hks := keys_isSome hC w hf hx ho hperm hn hgr hbo
          obtain ⟨e, h2, r2, v2⟩ := sumValues_spec hC (methods C (n + 3)) x o.dict (w.onlyAdds r1.adds) (x1.ptLive hx) r1.live (fun kw hkw => by
            obtain ⟨h5, h6⟩ := hks kw hkw
            exact ⟨by rw [r1.adds.fnList]; exact h5, by rw [lookup_onlyAdds r1.adds w h5 hx.isPt]; exact h6⟩)
          have hg : getFn f h1' = .ok (o, h1') := getFn_run (by rw [r1.adds.fns]; exact ho)
          simp only [oracleValue] at hv
          rw [if_pos hbo, M.bind_of_ok r1.run, M.bind_of_ok hg, r2.run] at hv
          cases hv
          exact lookup_onlyAdds (r1.adds.trans r2.adds) w hk hx.isPt
        · simp only [oracleValue] at hv
          rw [if_neg hbo, newLeafEx_run] at hv
          cases hv
          rfl
    have hn1 : ∀ kw ∈ nd.nothing, (lookup C h1 kw.1 x).isSome ∧ reuseOf h1 kw.1 = true := by
      intro kw hkw
      have hk := hkf kw (hperm.mem_iff.1 (by simp [hkw]))
      rw [hlk1 _ hk, reuseOf_ext w p1.ext hk]; exact hn kw hkw
    have hgr1 : ∀ kw ∈ nd.gradient, (lookup C h1 kw.1 x).isSome ∧ reuseOf h1 kw.1 = false := by
      intro kw hkw
      have hk := hkf kw (hperm.mem_iff.1 (by simp [hkw]))
      rw [hlk1 _ hk, reuseOf_ext w p1.ext hk]; exact hgr kw hkw
    obtain ⟨g, h2, hg, p2, gl, hgc, hgs, gsim⟩ := oracleGradient_spec hC p1.wf hf1 (p1.ext.ptLive hx) ho1 hperm hn1 hgr1 (n + 2)
    have p := p1.trans p2
    have ht : h2.TripletLive (x, g, v) := ⟨p.ext.ptLive hx, gl, p2.ext.exLive vl⟩
    have hf2 : f ∈ h2.fnList := by rw [p.fnList]; exact hf
    have ho2 : h2.fns[f]? = some o := by rw [p.fns]; exact ho
    obtain ⟨h3, hadd, ar⟩ := addPoint_spec hC p.wf hf2 ht n
    have e := p.ext.trans ar.ext
    have hfresh : oracleFresh C (methods C (n + 3)) f x (lookup C h f x) h = .ok ((g, v), h3) := by
      rw [oracleFresh, M.bind_of_ok hsep, M.bind_of_ok hv, M.bind_of_ok hg, M.bind_of_ok hadd]; rfl
    have hrun : (methods C (n + 4)).oracle f x h = .ok ((g, v), h3) := by
      show oracleBody C (methods C (n + 3)) f x h = _
      rw [oracleBody, M.bind_of_ok (isEvaluated_run w hf hx), M.bind_of_ok (getFn_run ho)]
      rcases hmiss with hm | hm
      · rw [hm] at hfresh ⊢; exact hfresh
      · cases hl : lookup C h f x with
        | none => rw [hl] at hfresh; exact hfresh
        | some gv =>
          rw [hl] at hfresh
          rw [reuseOf_of ho] at hm
          simp only [hm, Bool.false_eq_true, if_false]; exact hfresh
    refine ⟨g, v, h3, hrun, e, ar.wf, by rw [ar.fnList, p.fnList], ar.ext.ptLive gl, ar.ext.exLive ht.2.2, Or.inr ⟨hmiss, hvc, ?_, ?_⟩, ?_⟩
    · intro o' o'' ho' ho''
      rw [ho] at ho'; obtain rfl := Option.some.inj ho'
      obtain ⟨h1', o1, o2, r, -, hr1, hr2, hr3, -⟩ := ar.self
      obtain ⟨go, -, hs⟩ := r.self o ho2
      rw [hs] at hr1; obtain rfl := Option.some.inj hr1
      rw [ho''] at hr2; obtain rfl := Option.some.inj hr2
      rw [hr3]
    · intro o' ho' hwt hru hpr
      rw [ho] at ho'; obtain rfl := Option.some.inj ho'
      cases hl : o.leaf with
      | true =>
        -- a leaf: the sample itself
        have hd := hok.leafDict hl
        obtain ⟨h1', o1, o2, r, er, hr1, hr2, hr3, -⟩ := ar.self
        have hsm := r.sampleOf ho2
        refine ⟨fun _ => (g, v), ?_, ?_⟩
        · intro k hk
          rw [hd] at hk; simp at hk; subst hk
          exact hsm.ext hC r.wf er (by rw [r.fnList]; exact hf2) (r.ext.isPt ht.1.isPt)
        · intro E _ _ env φ ψ; rw [hd]; simp
      | false =>
        by_cases hneed : nd.both = [] ∧ nd.gradient = []
        · -- everything cached
          have hks := keys_isSome hC w hf hx ho hperm hn hgr hneed.1
          have hallreuse : ∀ k ∈ o.dict.keys, reuseOf h k = true := by
            intro k hk
            obtain ⟨kw, hkw, rfl⟩ := List.mem_map.1 hk
            have := hperm.mem_iff.2 hkw
            simp only [List.mem_append, hneed.1, hneed.2, List.not_mem_nil, or_false] at this
            exact (hn kw this).2
          have hlk0 : lookup C h f x = none := by
            rcases hmiss with hm | hm
            · exact hm
            · rw [reuseOf_of ho, hru hallreuse] at hm; cases hm
          refine ⟨cached C h x, ?_, ?_⟩
          · intro k hk
            obtain ⟨kw, hkw, rfl⟩ := List.mem_map.1 hk
            obtain ⟨h5, h6⟩ := hks kw hkw
            have := lookup_some (g := (cached C h x kw.1).1) (v := (cached C h x kw.1).2) hC w h5 hx (cached_of h6)
            exact SampleOf.ext hC w e h5 hx.isPt this
          · intro E _ _ env φ ψ
            have hg' := hgs hneed.1 hneed.2 env φ
            have hv' := hvs hlk0 hneed.1 env φ ψ
            constructor
            · rw [ar.ext.ptVal hC gl.isPt, hg']
              show wsum o.dict _ = wsum o.dict (fun k => h3.ptVal env φ (cached C h x k).1)
              refine wsum_congr (fun kw hkw => ?_)
              obtain ⟨h5, h6⟩ := hks kw hkw
              obtain ⟨h7, -⟩ := lookup_some_live (g := (cached C h x kw.1).1) (v := (cached C h x kw.1).2) w h5 hx (cached_of h6)
              have : cached C h1 x kw.1 = cached C h x kw.1 := by simp only [cached, hlk1 _ h5]
              rw [this, e.ptVal hC h7.isPt, p1.ext.ptVal hC h7.isPt]
            · rw [(p2.ext.trans ar.ext).exVal hC vl.isEx, hv']
              show wsum o.dict _ = wsum o.dict (fun k => h3.exVal env φ ψ (cached C h x k).2)
              refine wsum_congr (fun kw hkw => ?_)
              obtain ⟨h5, h6⟩ := hks kw hkw
              obtain ⟨-, h7⟩ := lookup_some_live (g := (cached C h x kw.1).1) (v := (cached C h x kw.1).2) w h5 hx (cached_of h6)
              rw [e.exVal hC h7.isEx]
        · refine ar.tied o ho2 hl hwt (p.ext.pruned hpr) ?_
          have hex : ∃ kw, kw ∈ nd.gradient ∨ kw ∈ nd.both := by
            by_contra hcon
            push Not at hcon
            refine hneed ⟨?_, ?_⟩
            · exact List.eq_nil_iff_forall_not_mem.2 (fun kw => (hcon kw).2)
            · exact List.eq_nil_iff_forall_not_mem.2 (fun kw => (hcon kw).1)
          obtain ⟨kw, hkw⟩ := hex
          have hkd : kw ∈ o.dict := hperm.mem_iff.1 (by rcases hkw with h | h <;> simp [h])
          refine ⟨kw.1, List.mem_map_of_mem hkd, ?_⟩
          have hk := hkf kw hkd
          rcases hkw with hkw | hkw
          · right; rw [reuseOf_ext w p.ext hk]; exact (hgr kw hkw).2
          · left
            rw [lookup_ext w p.ext hk hpr (fun a b ha hb => by rw [p.fns, ha] at hb; cases hb; rfl)]
            exact hb kw hkw
    · intro o' ho' E _ _ S env φ ψ hS ts G V hGV
      rw [ho] at ho'; obtain rfl := Option.some.inj ho'
      obtain ⟨ψ1, ag1, hv1⟩ := vsim E S env φ ψ hS ts G V hGV
      have ts1 := p1.trueSamples hC w ag1 ts
      have hx1 := ag1.ptVal hC p1.ext hx env
      obtain ⟨φ2, ag2, hg2⟩ := gsim E S env φ ψ1 (hS.mono p1.ext w p1.fnList) ts1 G V (fun kw hkw hw => by rw [hx1]; exact hGV kw hkw hw)
      have ts2 := p2.trueSamples hC p1.wf ag2 ts1
      have ag := ag1.trans p1.ext ag2
      have hx2 := ag.ptVal hC p.ext hx env
      have hv2 : h2.exVal env φ2 ψ1 v = wsum o.dict V := by rw [ag2.exVal hC p2.ext vl, hv1]
      obtain ⟨φ3, ψ3, ag3, ts3⟩ := ar.sim o ho2 E S env φ2 ψ1 (hS.mono p.ext w p.fnList) ts2
        ⟨G, V, fun kw hkw hw => by simp only; rw [hx2]; exact hGV kw hkw hw, hg2, hv2⟩
      refine ⟨φ3, ψ3, ag.trans p.ext ag3, ts3, ?_, ?_⟩
      · rw [ag3.ptVal hC ar.ext gl, hg2]
      · rw [ag3.exVal hC ar.ext ht.2.2, hv2]

end Verif
