import Verif.Proofs.SumOracle

namespace Verif
open Heap

variable {C : CAS} {h h' : Heap}

theorem wsum_perm {M : Type} [AddCommGroup M] [Module ℝ M] {l l' : List (FnId × ℚ)} (hp : l.Perm l') (φ : FnId → M) :
    wsum l φ = wsum l' φ := (hp.map _).sum_eq

/-- outcome of `add_point` -/
structure AddRes (C : CAS) (h : Heap) (f : FnId) (t : Triplet) (h' : Heap) : Prop where
  ext : Ext C h h'
  wf : WF C h'
  fnList : h'.fnList = h.fnList
  self : ∃ h1 o1 o', Recorded C h f t h1 ∧ Ext C h1 h' ∧ h1.fns[f]? = some o1 ∧ h'.fns[f]? = some o' ∧
    o'.points = o1.points ∧ o'.stationary = o1.stationary
  others : ∀ o, h.fns[f]? = some o → ∀ k, k ≠ f → (k ∈ o.dict.keys → o.leaf = true) → h'.fns[k]? = h.fns[k]?
  once : ∀ (k : FnId) (o o' : FnObj), h.fns[k]? = some o → h'.fns[k]? = some o' → List.Sublist (o'.points.map Prod.fst) (o.points.map Prod.fst ++ [t.1])
  tied : ∀ o, h.fns[f]? = some o → o.leaf = false → (∀ kw ∈ o.dict, kw.2 ≠ 0) → Pruned C h t.1 →
    (∃ k ∈ o.dict.keys, lookup C h k t.1 = none ∨ reuseOf h k = false) →
    h'.SumConsistent o.dict t.1 t.2.1 t.2.2
  sim : ∀ o, h.fns[f]? = some o → ∀ (E : Type) [NormedAddCommGroup E] [InnerProductSpace ℝ E]
    (S : FnId → E → E → ℝ → Prop) (env) (φ : PtId → E) (ψ), h.Functional S → h.TrueSamples S env φ ψ →
    Comb S o.dict (h.ptVal env φ t.1) (h.ptVal env φ t.2.1) (h.exVal env φ ψ t.2.2) →
    ∃ φ' ψ', h.Agree φ φ' ψ ψ' ∧ h'.TrueSamples S env φ' ψ'

theorem addPoint_spec (hC : C.Lawful) (w : WF C h) {f : ℕ} (hf : f ∈ h.fnList) {t : Triplet} (ht : h.TripletLive t) (n : ℕ) :
    ∃ h', (methods C (n + 3)).addPoint f t h = .ok ((), h') ∧ AddRes C h f t h' := by
  obtain ⟨o, ho, hok⟩ := w.fn f hf
  obtain ⟨h1, hrec, r⟩ := recordTriplet_spec hC w hf ht
  obtain ⟨go, hgo, hself⟩ := r.self o ho
  generalize hst : (if go.dict = [] then o.stationary ++ [t] else o.stationary) = st at hself
  cases hl : o.leaf with
  | true =>
    refine ⟨h1, leaf_addPoint (n + 2) hself hl hrec, r.ext, r.wf, r.fnList,
      ⟨h1, _, _, r, Ext.refl _, hself, hself, rfl, rfl⟩, ?_, ?_, ?_, ?_⟩
    · intro o1 ho1 k hk _; exact r.others k hk
    · intro k a b ha hb; exact r.once ha hb
    · intro o1 ho1 hl1; rw [ho] at ho1; cases ho1; rw [hl] at hl1; cases hl1
    · intro o1 ho1 E _ _ S env φ ψ hS ts hc
      exact ⟨φ, ψ, Agree.refl _ _ _, r.trueSamples hC w hf ht ho1 ts hc⟩
  | false =>
    have hf1 : f ∈ h1.fnList := by rw [r.fnList]; exact hf
    obtain ⟨o1', ho1', hok1⟩ := r.wf.fn f hf1
    rw [hself] at ho1'
    obtain rfl := Option.some.inj ho1'
    generalize ho1 : ({ o with points := o.points ++ [t], stationary := st } : FnObj) = o1 at hself hok1
    have hl1 : o1.leaf = false := by subst ho1; exact hl
    have hd1 : o1.dict = o.dict := by subst ho1; rfl
    have hr1 : o1.reuse = o.reuse := by subst ho1; rfl
    have x2 : FnExt o1 { o1 with dict := o1.dict.prune (fun w => w = 0) } :=
      ⟨rfl, rfl, rfl, rfl, Or.inr rfl, List.prefix_rfl, List.prefix_rfl, List.prefix_rfl⟩
    have ok2 : FnOk C h1 f { o1 with dict := o1.dict.prune (fun w => w = 0) } := by
      have hnp := Dict.nodup_prune (fun w : ℚ => decide (w = 0)) hok1.nodup
      refine ⟨hnp, ?_, hok1.leafCls, ?_, hok1.points, hok1.pruned, hok1.stationary, hok1.classCons⟩
      · intro hh; simp only at hh; rw [hl1] at hh; cases hh
      · intro hh k hk
        exact hok1.sumKeys hh k (Dict.keys_prune_subset (fun w : ℚ => decide (w = 0)) _ hk)
    have e2 := ext_putFn (C := C) hself x2
    have w2 := r.wf.putFn hself x2 ok2
    have ok2' := ok2.ext e2
    have hget2 := getElem?_putFn_self (o' := { o1 with dict := o1.dict.prune (fun w => w = 0) }) hself
    generalize ho2 : ({ o1 with dict := o1.dict.prune (fun w => w = 0) } : FnObj) = o2 at *
    have hd2 : o2.dict = o.dict.prune (fun w => w = 0) := by subst ho2; rw [← hd1]
    have hl2 : o2.leaf = false := by subst ho2; exact hl1
    have hoth2 : ∀ k, k ≠ f → (h1.putFn f o2).fns[k]? = h1.fns[k]? := fun k hk => getElem?_putFn_ne hk
    generalize hh2 : h1.putFn f o2 = h2 at *
    have hl1' : ({ leaf := o.leaf, counter := o.counter, cls := o.cls, reuse := o.reuse, dict := o.dict, points := o.points ++ [t], stationary := st, classCons := o.classCons } : FnObj) = o1 := ho1
    have hf2 : f ∈ h2.fnList := by subst hh2; exact hf1
    have fl2 : h2.fnList = h.fnList := by subst hh2; exact r.fnList
    have ht2 := e2.tripletLive (r.ext.tripletLive ht)
    obtain ⟨nd, hsep, hperm, hn, hgr, hb⟩ := separate_spec w2 ht2.1 hf2 hget2
    have e12 := r.ext.trans e2
    have hnn : (nd.nothing ++ (nd.gradient ++ nd.both)).map Prod.fst |>.Nodup :=
      (hperm.map Prod.fst).nodup_iff.2 ok2'.nodup
    have hrun : (methods C (n + 3)).addPoint f t h =
        (if nd.gradient ++ nd.both = [] then pure () else do
          let fo ← getFn f
          addPointLoop C (methods C (n + 2)) t.1 fo.dict.length (nd.nothing ++ (nd.gradient ++ nd.both)) t.2.1 t.2.2 0) h2 := by
      show addPointBody C (methods C (n + 2)) f t h = _
      rw [addPointBody, M.bind_of_ok hrec, M.bind_of_ok (getFn_run hself), if_neg (by rw [hl1]; simp), ho2,
        M.bind_of_ok (setFn_run _ _ _), hh2, M.bind_of_ok hsep]
    have hts2 : ∀ {E : Type} [NormedAddCommGroup E] [InnerProductSpace ℝ E] {S : FnId → E → E → ℝ → Prop} {env}
        {φ : PtId → E} {ψ}, h.TrueSamples S env φ ψ →
        Comb S o.dict (h.ptVal env φ t.1) (h.ptVal env φ t.2.1) (h.exVal env φ ψ t.2.2) → h2.TrueSamples S env φ ψ := by
      intro E _ _ S env φ ψ ts hc
      refine (r.trueSamples hC w hf ht ho ts hc).step hC r.wf e2 (by rw [fl2, r.fnList]) (Agree.refl _ _ _) ?_
      intro k hk ok ok' hka hkb s hs
      by_cases hkf : k = f
      · subst hkf
        rw [hself] at hka; rw [hget2] at hkb
        obtain rfl := Option.some.inj hka
        obtain rfl := Option.some.inj hkb
        left; subst ho2; exact hs
      · rw [hoth2 k hkf, hka] at hkb
        obtain rfl := Option.some.inj hkb
        exact Or.inl hs
    have honce2 : ∀ {k : FnId} {a b : FnObj}, h.fns[k]? = some a → h2.fns[k]? = some b → List.Sublist (b.points.map Prod.fst) (a.points.map Prod.fst ++ [t.1]) := by
      intro k a b ha hb
      by_cases hk : k = f
      · subst hk
        rw [hget2] at hb; obtain rfl := Option.some.inj hb
        have := r.once ha hself
        subst ho2; exact this
      · exact r.once ha (by rw [← hb, hoth2 k hk])
    by_cases hnil : nd.gradient ++ nd.both = []
    · refine ⟨h2, by rw [hrun, if_pos hnil]; rfl, e12, w2, fl2,
        ⟨h1, o1, o2, r, e2, hself, hget2, by subst ho2; rfl, by subst ho2; rfl⟩, ?_, ?_, ?_, ?_⟩
      · intro _ _ k hk _
        rw [hoth2 k hk, r.others k hk]
      · exact fun k a b ha hb => honce2 ha hb
      · -- nothing was needed
        intro o' ho' _ hwt hpr hneed
        rw [ho] at ho'; obtain rfl := Option.some.inj ho'
        exfalso
        obtain ⟨k, hk, hkk⟩ := hneed
        have hk2 : k ∈ o2.dict.keys := by
          rw [hd2]
          obtain ⟨kw, hkw, rfl⟩ := List.mem_map.1 hk
          exact List.mem_map_of_mem (by simp [Dict.prune, hkw, hwt kw hkw])
        obtain ⟨kw, hkw, rfl⟩ := List.mem_map.1 hk2
        have hmem := hperm.mem_iff.2 hkw
        rw [hnil, List.append_nil] at hmem
        obtain ⟨hs1, hs2⟩ := hn kw hmem
        have hkfl := (hok.sumKeys hl kw.1 hk)
        have hkf : kw.1 ≠ f := by
          rintro rfl
          obtain ⟨-, ok, hok', hlk, -⟩ := hkfl
          rw [ho] at hok'; cases hok'; rw [hl] at hlk; cases hlk
        rcases hkk with hkk | hkk
        · rw [lookup_ext w e12 hkfl.1 hpr, hkk] at hs1
          · cases hs1
          · intro a b ha hb
            rw [hoth2 _ hkf, r.others _ hkf, ha] at hb
            cases hb; rfl
        · rw [reuseOf_ext w e12 hkfl.1, hkk] at hs2; cases hs2
      · intro o' ho' E _ _ S env φ ψ hS ts hc
        rw [ho] at ho'; obtain rfl := Option.some.inj ho'
        exact ⟨φ, ψ, Agree.refl _ _ _, hts2 ts hc⟩
    · have hne : nd.nothing ++ (nd.gradient ++ nd.both) ≠ [] := by
        intro hh; exact hnil (List.append_eq_nil_iff.1 hh).2
      have hleafs : ∀ kw ∈ nd.nothing ++ (nd.gradient ++ nd.both), IsLeafFn h2 kw.1 := by
        intro kw hkw
        obtain ⟨h1', ok, h2', h3', -⟩ := ok2'.sumKeys hl2 kw.1 (List.mem_map_of_mem (hperm.mem_iff.1 hkw))
        exact ⟨h1', ok, h2', h3'⟩
      obtain ⟨h3, hloop, lr⟩ := addPointLoop_spec hC n _ hne w2 ht2.1 ht2.2.1 ht2.2.2 hnn
        (fun kw hkw => by
          have := hperm.mem_iff.1 hkw
          rw [hd2] at this
          simpa [Dict.prune] using (List.mem_filter.1 this).2)
        hleafs 0 o2.dict.length (by rw [Nat.zero_add]; exact hperm.length_eq)
      generalize hll : nd.nothing ++ (nd.gradient ++ nd.both) = l at *
      have hfl : f ∉ l.map Prod.fst := by
        intro hh
        obtain ⟨kw, hkw, rfl⟩ := List.mem_map.1 hh
        obtain ⟨-, ok, hok', hlk⟩ := hleafs kw hkw
        rw [hget2] at hok'; cases hok'; rw [hl2] at hlk; cases hlk
      refine ⟨h3, by rw [hrun, if_neg hnil, M.bind_of_ok (getFn_run hget2), hloop], e12.trans lr.ext, lr.wf, by rw [lr.fnList, fl2],
        ⟨h1, o1, o2, r, e2.trans lr.ext, hself, by rw [lr.others f hfl, hget2], by subst ho2; rfl, by subst ho2; rfl⟩, ?_, ?_, ?_, ?_⟩
      · intro o' ho' k hk hkd
        rw [ho] at ho'; obtain rfl := Option.some.inj ho'
        have : k ∉ l.map Prod.fst := by
          intro hh
          obtain ⟨kw, hkw, rfl⟩ := List.mem_map.1 hh
          have h5 := hperm.mem_iff.1 hkw
          rw [hd2] at h5
          have h6 := hkd (Dict.keys_prune_subset _ _ (List.mem_map_of_mem h5))
          rw [hl] at h6; cases h6
        rw [lr.others k this, hoth2 k hk, r.others k hk]
      · intro k a b ha hb
        by_cases hk : k = f
        · exact honce2 ha (by rw [← hb, hk, lr.others f hfl])
        · exact lr.once k a b (by rw [hoth2 k hk, r.others k hk]; exact ha) hb
      · intro o' ho' _ hwt hpr hneed
        rw [ho] at ho'; obtain rfl := Option.some.inj ho'
        have hdd : o2.dict = o.dict := by
          rw [hd2, Dict.prune, List.filter_eq_self]
          intro kw hkw; simpa using hwt kw hkw
        rw [hdd] at hperm
        obtain ⟨T, hT, hTv⟩ := lr.samples
        refine ⟨T, ?_, ?_⟩
        · intro k hk
          obtain ⟨kw, hkw, rfl⟩ := List.mem_map.1 hk
          exact (hT kw (hperm.mem_iff.2 hkw)).1
        · intro E _ _ env φ ψ
          obtain ⟨h5, h6⟩ := hTv E env φ ψ
          rw [h5, h6, wsum_perm hperm, wsum_perm hperm]
          exact ⟨rfl, rfl⟩
      · intro o' ho' E _ _ S env φ ψ hS ts hc
        rw [ho] at ho'; obtain rfl := Option.some.inj ho'
        have ts2 := hts2 ts hc
        obtain ⟨G, V, hGV, hg, hv⟩ := comb_prune.2 hc
        rw [← hd2] at hGV hg hv
        obtain ⟨φ', ψ', ag, ts'⟩ := lr.sim E S env φ ψ (hS.mono e12 w fl2) ts2 G V
          (fun kw hkw => by
            have h5 := hperm.mem_iff.1 hkw
            rw [e12.ptVal hC ht.1.isPt]
            refine hGV kw h5 ?_
            rw [hd2] at h5
            simpa [Dict.prune] using (List.mem_filter.1 h5).2)
          (by rw [e12.ptVal hC ht.2.1.isPt, hg, wsum_perm hperm])
          (by rw [e12.exVal hC ht.2.2.isEx, hv, wsum_perm hperm])
        exact ⟨φ', ψ', (Agree.refl _ _ _).trans e12 ag, ts'⟩

end Verif
