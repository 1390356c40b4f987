import Verif.Proofs.Realize
import Verif.Props.Oracle
import Verif.Spec.Standard

/-!
# In a standard program every recorded sample of a sum is the sum of recorded samples
-/

namespace Verif
open Heap

variable {C : CAS} {h h' : Heap} {r r' : Regs}

structure Tied (bs : List Bool) (fns : List FnId) (h : Heap) : Prop where
  cons : ∀ f ∈ h.fnList, ∀ o, h.fns[f]? = some o → o.leaf = false → ∀ t ∈ o.points, h.SumConsistent o.dict t.1 t.2.1 t.2.2
  len : bs.length = fns.length
  leaf : ∀ k (hk : k < fns.length), bs.getD k false = true → ∀ o, h.fns[fns[k]]? = some o → o.leaf = true
  pos : ∀ f ∈ fns, ∀ o, h.fns[f]? = some o → o.dict ≠ [] ∧ ∀ kw ∈ o.dict, 0 < kw.2

theorem prune_of_pos {d : Dict FnId ℚ} (hd : ∀ kw ∈ d, 0 < kw.2) : d.prune (fun w => w = 0) = d := by
  rw [Dict.prune, List.filter_eq_self]
  intro kw hkw
  have := (hd kw hkw).ne'
  simpa using this

theorem SameWts.of_pos {d d' : Dict FnId ℚ} (s : SameWts d d') (hd : ∀ kw ∈ d, 0 < kw.2) : d' = d := by
  rcases s with h | h
  · exact h
  · rw [h, prune_of_pos hd]

theorem sumConsistent_prune {d : Dict FnId ℚ} {x g : PtId} {v : ExId} (hs : h.SumConsistent d x g v) :
    h.SumConsistent (d.prune (fun w => w = 0)) x g v := by
  obtain ⟨T, h1, h2⟩ := hs
  refine ⟨T, fun k hk => h1 k (Dict.keys_prune_subset _ _ hk), ?_⟩
  intro E _ _ env φ ψ
  obtain ⟨h3, h4⟩ := h2 E env φ ψ
  rw [h3, h4]
  have e1 := Dict.den_prune (fun w : ℚ => (w : ℝ)) (fun k => h.ptVal env φ (T k).1) (z := fun w => decide (w = 0))
    (fun w hw => by simpa using hw) d
  have e2 := Dict.den_prune (fun w : ℚ => (w : ℝ)) (fun k => h.exVal env φ ψ (T k).2) (z := fun w => decide (w = 0))
    (fun w hw => by simpa using hw) d
  simp only [Dict.den, smul_eq_mul] at e1 e2
  exact ⟨e1.symm, e2.symm⟩

theorem sumConsistent_same {d d' : Dict FnId ℚ} (s : SameWts d d') {x g : PtId} {v : ExId} (hs : h.SumConsistent d x g v) :
    h.SumConsistent d' x g v := by
  rcases s with rfl | rfl
  · exact hs
  · exact sumConsistent_prune hs

section
variable (hC : C.Lawful) {bs : List Bool}
include hC

theorem Tied.mono {fns : List FnId} (t : Tied bs fns h) (w : WF C h) (hfns : ∀ f ∈ fns, f ∈ h.fnList) (e : Ext C h h') (fl : h'.fnList = h.fnList)
    (hp : ∀ f ∈ h.fnList, ∀ o o', h.fns[f]? = some o → h'.fns[f]? = some o' → o.leaf = false →
      ∀ s ∈ o'.points, s ∈ o.points ∨ h'.SumConsistent o'.dict s.1 s.2.1 s.2.2) : Tied bs fns h' := by
  have back : ∀ f ∈ h.fnList, ∀ o', h'.fns[f]? = some o' → ∃ o, h.fns[f]? = some o ∧ FnExt o o' ∧ FnOk C h f o := by
    intro f hf o' ho'
    obtain ⟨o, ho, ok⟩ := w.fn f hf
    obtain ⟨o2, ho2, fe⟩ := e.fns f o ho
    rw [ho'] at ho2; cases ho2
    exact ⟨o, ho, fe, ok⟩
  refine ⟨?_, t.len, ?_, ?_⟩
  · intro f hf o' ho' hl s hs
    rw [fl] at hf
    obtain ⟨o, ho, fe, ok⟩ := back f hf o' ho'
    have hl' : o.leaf = false := fe.leaf ▸ hl
    rcases hp f hf o o' ho ho' hl' s hs with hm | hm
    · have tl := ok.points s hm
      exact sumConsistent_same fe.dict (sumConsistent_ext hC w e (fun k hk => by
        obtain ⟨kw, hkw, rfl⟩ := List.mem_map.1 hk
        exact ok.keys_fnList hf kw hkw) tl.1.isPt tl.2.1.isPt tl.2.2.isEx (t.cons f hf o ho hl' s hm))
    · exact hm
  · intro k hk hb o' ho'
    obtain ⟨o, ho, fe, -⟩ := back _ (hfns _ (List.getElem_mem hk)) o' ho'
    rw [fe.leaf]; exact t.leaf k hk hb o ho
  · intro f hf o' ho'
    obtain ⟨o, ho, fe, -⟩ := back _ (hfns _ hf) o' ho'
    have := t.pos f hf o ho
    rw [SameWts.of_pos fe.dict this.2]; exact this

theorem Tied.only {fns : List FnId} (t : Tied bs fns h) (w : WF C h) (hfns : ∀ f ∈ fns, f ∈ h.fnList) (e : Ext C h h') (fl : h'.fnList = h.fnList)
    (hp : ∀ f ∈ h.fnList, ∀ o, h.fns[f]? = some o → o.leaf = false → h'.fns[f]? = h.fns[f]?) : Tied bs fns h' := by
  refine t.mono hC w hfns e fl ?_
  intro f hf o o' ho ho' hl s hs
  rw [hp f hf o ho hl, ho] at ho'
  cases ho'
  exact Or.inl hs


theorem Tied.addLeaf {fns : List FnId} (t : Tied bs fns h) (w : WF C h) (hfns : ∀ f ∈ fns, f ∈ h.fnList) {h1 : Heap} (p : Prep C h h1)
    {f : ℕ} {tr : Triplet} (a : AddRes C h1 f tr h') {o : FnObj} (ho : h.fns[f]? = some o) (hl : o.leaf = true) : Tied bs fns h' := by
  refine t.only hC w hfns (p.ext.trans a.ext) (a.fnList.trans p.fnList) ?_
  intro k hk ok hok hkl
  have hne : k ≠ f := by rintro rfl; rw [ho] at hok; cases hok; rw [hl] at hkl; cases hkl
  rw [a.others o (by rw [p.fns]; exact ho) k hne (fun _ => hl), p.fns]

theorem Tied.stationary {fns : List FnId} (t : Tied bs fns h) (w : WF C h) (hfns : ∀ f ∈ fns, f ∈ h.fnList) {f : ℕ} (hf : f ∈ fns)
    {tr : Triplet} (hrun : stationaryPoint C f h = .ok (tr, h')) : Tied bs fns h' := by
  have hfl := hfns f hf
  obtain ⟨o, hfo, ok⟩ := w.fn f hfl
  obtain ⟨h1, hr, a⟩ := stationary_run hC w hfl
  rw [hrun] at hr; cases hr
  have p := statHeap_prep w
  cases hl : o.leaf with
  | true => exact t.addLeaf hC w hfns p a hfo hl
  | false =>
    obtain ⟨hne, hpos⟩ := t.pos f hf o hfo
    have hx : (statHeap h).pts[h.pts.length]? = some (PtObj.mk true (some h.ptCounter) [(h.pts.length, Sym.num 1)]) := by
      show ((h.pts ++ [PtObj.mk true (some h.ptCounter) [(h.pts.length, Sym.num 1)]]) ++ _)[h.pts.length]? = _
      rw [List.getElem?_append_left (by simp)]; simp
    have tied := a.tied o (by rw [p.fns]; exact hfo) hl (fun kw hkw => (hpos kw hkw).ne') ⟨_, hx, by
        intro kv hkv
        simp only [List.mem_singleton] at hkv
        rw [hkv]
        by_contra hb
        have := hC.eqB_sound _ _ (Bool.eq_true_of_not_eq_false hb) (fun _ => 0)
        norm_num at this⟩ (by
      obtain ⟨kw, hkw⟩ := List.exists_mem_of_ne_nil _ hne
      refine ⟨kw.1, List.mem_map_of_mem hkw, Or.inl (lookup_none_iff.2 (fresh_not_evaluated w ?_ p.fns hx ?_))⟩
      · exact ok.keys_fnList hfl kw hkw
      · intro q qo hq
        show ((h.pts ++ [_]) ++ _)[q]? = _
        have := (List.getElem?_eq_some_iff.1 hq).1
        rw [List.getElem?_append_left (by simp; omega), List.getElem?_append_left this, hq])
    refine t.mono hC w hfns (p.ext.trans a.ext) (a.fnList.trans p.fnList) ?_
    intro k hk o1 o1' h1 h1' hl1 s hs
    by_cases hkf : k = f
    · subst hkf
      rw [hfo] at h1; cases h1
      obtain ⟨o2, h2, h3⟩ := a.points (o := o) (by rw [p.fns]; exact hfo)
      rw [h1'] at h2; cases h2
      rw [h3] at hs
      rcases List.mem_append.1 hs with hs | hs
      · exact Or.inl hs
      · right
        rw [List.mem_singleton] at hs
        subst hs
        obtain ⟨o3, h4, fe⟩ := (p.ext.trans a.ext).fns k o hfo
        rw [h1'] at h4; cases h4
        rw [SameWts.of_pos fe.dict hpos]
        exact tied
    · left
      have : h'.fns[k]? = h.fns[k]? := by
        rw [a.others o (by rw [p.fns]; exact hfo) k hkf ?_, p.fns]
        intro hmem
        obtain ⟨-, okk, h2, h3, -⟩ := (dict_leaf_keys w hfl hfo).2 k hmem
        rw [h1] at h2; cases h2; rw [hl1] at h3; cases h3
      rw [this, h1] at h1'; cases h1'
      exact hs

theorem Tied.oracle {fns : List FnId} (t : Tied bs fns h) (w : WF C h) (hfns : ∀ f ∈ fns, f ∈ h.fnList) {f x : ℕ} (hf : f ∈ h.fnList)
    (hx : h.PtLive x) {o : FnObj} (ho : h.fns[f]? = some o) (hl : o.leaf = true) {gv : PtId × ExId}
    (hrun : Verif.oracle C f x h = .ok (gv, h')) : Tied bs fns h' := by
  obtain ⟨g, v, h1, hr, lr, -⟩ := leafOracle_spec hC w hf hx ho hl 98
  have e : (methods C 100).oracle f x h = .ok (gv, h') := hrun
  rw [e] at hr; cases hr
  refine t.only hC w hfns lr.ext lr.fnList ?_
  intro k hk ok hok hkl
  exact lr.others k (by rintro rfl; rw [ho] at hok; cases hok; rw [hl] at hkl; cases hkl)

end

theorem Dict.mem_set {α β : Type} [DecidableEq α] {d : Dict α β} {k : α} {v : β} {kv : α × β} (h : kv ∈ d.set k v) :
    kv ∈ d ∨ kv = (k, v) := by
  unfold Dict.set at h
  split at h
  · obtain ⟨a, ha, rfl⟩ := List.mem_map.1 h
    split
    · exact Or.inr rfl
    · exact Or.inl ha
  · rcases List.mem_append.1 h with h | h
    · exact Or.inl h
    · exact Or.inr (by simpa using h)

theorem Dict.set_ne_nil {α β : Type} [DecidableEq α] {d : Dict α β} (hd : d ≠ []) (k : α) (v : β) : d.set k v ≠ [] := by
  unfold Dict.set
  split <;> simp [hd]

theorem merge_pos {a b : Dict FnId ℚ} (ha : a ≠ [] ∧ ∀ kw ∈ a, 0 < kw.2) (hb : ∀ kw ∈ b, 0 < kw.2) :
    Dict.merge (· + ·) a b ≠ [] ∧ ∀ kw ∈ Dict.merge (· + ·) a b, 0 < kw.2 := by
  unfold Dict.merge
  suffices H : ∀ (m : Dict FnId ℚ), (m ≠ [] ∧ ∀ kw ∈ m, 0 < kw.2) →
      (b.foldl (Dict.mergeStep (· + ·) a) m ≠ [] ∧ ∀ kw ∈ b.foldl (Dict.mergeStep (· + ·) a) m, 0 < kw.2) from H a ha
  induction b with
  | nil => intro m hm; exact hm
  | cons kv b ih =>
    intro m hm
    rw [List.foldl_cons]
    refine ih (fun kw h => hb kw (by simp [h])) _ ?_
    have hkv := hb kv (by simp)
    unfold Dict.mergeStep
    split
    · cases hg : m.get? kv.1 with
      | none => exact hm
      | some w =>
        refine ⟨Dict.set_ne_nil hm.1 _ _, fun kw h => ?_⟩
        rcases Dict.mem_set h with h | rfl
        · exact hm.2 kw h
        · exact add_pos (hm.2 _ (Dict.mem_of_get? hg)) hkv
    · refine ⟨Dict.set_ne_nil hm.1 _ _, fun kw h => ?_⟩
      rcases Dict.mem_set h with h | rfl
      · exact hm.2 kw h
      · exact hkv

/-- positive weights -/
def PosFn (h : Heap) (f : FnId) : Prop := ∀ o, h.fns[f]? = some o → o.dict ≠ [] ∧ ∀ kw ∈ o.dict, 0 < kw.2

theorem PosFn.adds {f : ℕ} (hf : f < h.fns.length) (p : PosFn h f) (a : FnAdds C h h') : PosFn h' f := by
  intro o ho
  rw [a.old f hf] at ho
  exact p o ho

theorem scale_pos {f q : ℕ} {c : ℚ} (hc : 0 < c) (p : PosFn h f) (hr : fnScale c f h = .ok (q, h')) : PosFn h' q := by
  obtain ⟨a, h1, e1, hr⟩ := M.bind_ok_iff.1 hr
  cases ha : h.fns[f]? with
  | none => simp [getFn, ha] at e1
  | some a' =>
    simp only [getFn, ha, Except.ok.injEq, Prod.mk.injEq] at e1
    obtain ⟨rfl, rfl⟩ := e1
    rw [newFn_run] at hr
    cases hr
    intro o ho
    simp [Heap.addFn] at ho
    rw [← ho]
    have := p a' ha
    refine ⟨by simp [Dict.mapVals, this.1], fun kw hkw => ?_⟩
    obtain ⟨x, hx, rfl⟩ := List.mem_map.1 hkw
    exact mul_pos (this.2 x hx) hc

theorem add_pos_fn {f g q : ℕ} (p : PosFn h f) (p' : PosFn h g) (hr : fnAdd f g h = .ok (q, h')) : PosFn h' q := by
  obtain ⟨a, h1, e1, hr⟩ := M.bind_ok_iff.1 hr
  obtain ⟨b, h2, e2, hr⟩ := M.bind_ok_iff.1 hr
  cases ha : h.fns[f]? with
  | none => simp [getFn, ha] at e1
  | some a' =>
    simp only [getFn, ha, Except.ok.injEq, Prod.mk.injEq] at e1
    obtain ⟨rfl, rfl⟩ := e1
    cases hb : h.fns[g]? with
    | none => simp [getFn, hb] at e2
    | some b' =>
      simp only [getFn, hb, Except.ok.injEq, Prod.mk.injEq] at e2
      obtain ⟨rfl, rfl⟩ := e2
      rw [newFn_run] at hr
      cases hr
      intro o ho
      simp [Heap.addFn] at ho
      rw [← ho]
      exact merge_pos (p a' ha) (p' b' hb).2

theorem FE.positive_safe {n : ℕ} (a : FE) (h : a.Positive n = true) : a.Safe n = true := by
  induction a with
  | reg i => simpa [FE.Positive, FE.Safe] using h
  | add a b iha ihb =>
    simp only [FE.Positive, Bool.and_eq_true] at h
    simp [FE.Safe, iha h.1, ihb h.2]
  | sub | neg => simp [FE.Positive] at h
  | scale c a ih =>
    simp only [FE.Positive, Bool.and_eq_true] at h
    simp [FE.Safe, ih h.2]
  | div a c ih =>
    simp only [FE.Positive, Bool.and_eq_true, decide_eq_true_eq] at h
    simp [FE.Safe, ih h.2, h.1.ne']

theorem FE.run_pos {fs : List FnId} (a : FE) : ∀ {h : Heap}, WF C h → (∀ f ∈ fs, f ∈ h.fnList ∧ PosFn h f) → a.Positive fs.length = true →
    ∀ {q h'}, a.run fs h = .ok (q, h') → PosFn h' q := by
  induction a with
  | reg i =>
    intro h w hf hp q h' hr
    have hi : i < fs.length := by simpa [FE.Positive] using hp
    rw [FE.run, regGet_run hi h] at hr
    cases hr
    exact (hf _ (List.getElem_mem hi)).2
  | sub | neg => intro h w hf hp; simp [FE.Positive] at hp
  | add a b iha ihb =>
    intro h w hf hp q h' hr
    simp only [FE.Positive, Bool.and_eq_true] at hp
    obtain ⟨x, h1, r1, a1, m1, -⟩ := FE.run_live a w (fun f h => (hf f h).1) (a.positive_safe hp.1)
    have f1 : ∀ f ∈ fs, f ∈ h1.fnList ∧ PosFn h1 f := fun f h =>
      ⟨a1.ext.fnList.subset (hf f h).1, (hf f h).2.adds (w.fn_lt (hf f h).1) a1⟩
    obtain ⟨y, h2, r2, a2, m2, -⟩ := FE.run_live b a1.wf (fun f h => (f1 f h).1) (b.positive_safe hp.2)
    rw [FE.run, M.bind_of_ok r1, M.bind_of_ok r2] at hr
    exact add_pos_fn ((iha w hf hp.1 r1).adds (a1.wf.fn_lt m1) a2) (ihb a1.wf f1 hp.2 r2) hr
  | scale c a iha =>
    intro h w hf hp q h' hr
    simp only [FE.Positive, Bool.and_eq_true, decide_eq_true_eq] at hp
    obtain ⟨x, h1, r1, a1, m1, -⟩ := FE.run_live a w (fun f h => (hf f h).1) (a.positive_safe hp.2)
    rw [FE.run, M.bind_of_ok r1] at hr
    exact scale_pos hp.1 (iha w hf hp.2 r1) hr
  | div a c iha =>
    intro h w hf hp q h' hr
    simp only [FE.Positive, Bool.and_eq_true, decide_eq_true_eq] at hp
    obtain ⟨x, h1, r1, a1, m1, -⟩ := FE.run_live a w (fun f h => (hf f h).1) (a.positive_safe hp.2)
    rw [FE.run, M.bind_of_ok r1, fnDiv, if_neg hp.1.ne'] at hr
    exact scale_pos (by have := hp.1; positivity) (iha w hf hp.2 r1) hr

theorem Tied.fn {bs : List Bool} {fns : List FnId} (t : Tied bs fns h) (hC : C.Lawful) (w : WF C h) (hfns : ∀ f ∈ fns, f ∈ h.fnList)
    {a : FE} (hp : a.Positive bs.length = true) {q : FnId} (hr : a.run fns h = .ok (q, h')) : Tied (bs ++ [false]) (fns ++ [q]) h' := by
  rw [t.len] at hp
  obtain ⟨q', h1, r1, ad, m1, -⟩ := FE.run_live a w hfns (a.positive_safe hp)
  rw [hr] at r1; cases r1
  have hq := FE.run_pos (C := C) a w (fun f h => ⟨hfns f h, t.pos f h⟩) hp hr
  refine ⟨?_, by simp [t.len], ?_, ?_⟩
  · intro f hf o ho hl s hs
    obtain ⟨l, h1, h2⟩ := ad.new
    rw [h1] at hf
    rcases List.mem_append.1 hf with hf | hf
    · rw [ad.old f (w.fn_lt hf)] at ho
      obtain ⟨o', ho', ok⟩ := w.fn f hf
      rw [ho] at ho'; cases ho'
      have tl := ok.points s hs
      exact sumConsistent_ext hC w ad.ext (fun k hk => by
        obtain ⟨kw, hkw, rfl⟩ := List.mem_map.1 hk
        exact ok.keys_fnList hf kw hkw) tl.1.isPt tl.2.1.isPt tl.2.2.isEx (t.cons f hf o ho hl s hs)
    · obtain ⟨o', h3, h4, h5⟩ := h2 f hf
      rw [ho] at h3; cases h3
      rw [h5] at hs; simp at hs
  · intro k hk hb o ho
    by_cases hk' : k < fns.length
    · rw [List.getElem_append_left hk'] at ho
      rw [ad.old _ (w.fn_lt (hfns _ (List.getElem_mem hk')))] at ho
      refine t.leaf k hk' ?_ o ho
      rwa [List.getD_eq_getElem?_getD, List.getElem?_append_left (by rw [t.len]; exact hk'), ← List.getD_eq_getElem?_getD] at hb
    · rw [List.getD_eq_getElem?_getD, List.getElem?_append_right (by rw [t.len]; omega)] at hb
      have : k - bs.length = 0 := by rw [t.len]; simp at hk; omega
      simp [this] at hb
  · intro f hf
    rcases List.mem_append.1 hf with hf | hf
    · exact PosFn.adds (w.fn_lt (hfns f hf)) (t.pos f hf) ad
    · rw [List.mem_singleton] at hf; subst hf; exact hq

theorem declare_run {d : FnDecl} {f : FnId} (hr : declareFunction d h = .ok (f, h')) :
    ∃ cls re, newLeafFn cls re h = .ok (f, h') := by
  cases d with
  | convex re => exact ⟨_, _, hr⟩
  | strongly mu re => exact ⟨_, _, hr⟩
  | smoothStrongly mu L => cases L with | none => cases hr | some L => exact ⟨_, _, hr⟩
  | smoothConvex L => cases L with | none => cases hr | some L => exact ⟨_, _, hr⟩

theorem Tied.declare {bs : List Bool} {fns : List FnId} (t : Tied bs fns h) (hC : C.Lawful) (w : WF C h) (hfns : ∀ f ∈ fns, f ∈ h.fnList)
    {d : FnDecl} {q : FnId} (hr : declareFunction d h = .ok (q, h')) (e : Ext C h h') : Tied (bs ++ [true]) (fns ++ [q]) h' := by
  obtain ⟨cls, re, hr⟩ := declare_run hr
  simp only [newLeafFn, Except.ok.injEq, Prod.mk.injEq] at hr
  obtain ⟨rfl, rfl⟩ := hr
  have old : ∀ k, k < h.fns.length → ∀ (x : FnObj), (h.fns ++ [x])[k]? = h.fns[k]? := fun k hk x => List.getElem?_append_left hk
  refine ⟨?_, by simp [t.len], ?_, ?_⟩
  · intro f hf o ho hl s hs
    rcases List.mem_append.1 hf with hf | hf
    · simp only [old f (w.fn_lt hf)] at ho
      obtain ⟨o', ho', ok⟩ := w.fn f hf
      rw [ho] at ho'; cases ho'
      have tl := ok.points s hs
      exact sumConsistent_ext hC w e (fun k hk => by
        obtain ⟨kw, hkw, rfl⟩ := List.mem_map.1 hk
        exact ok.keys_fnList hf kw hkw) tl.1.isPt tl.2.1.isPt tl.2.2.isEx (t.cons f hf o ho hl s hs)
    · rw [List.mem_singleton] at hf; subst hf
      simp at ho
      rw [← ho] at hl; cases hl
  · intro k hk hb o ho
    by_cases hk' : k < fns.length
    · rw [List.getElem_append_left hk'] at ho
      simp only [old _ (w.fn_lt (hfns _ (List.getElem_mem hk')))] at ho
      refine t.leaf k hk' ?_ o ho
      rwa [List.getD_eq_getElem?_getD, List.getElem?_append_left (by rw [t.len]; exact hk'), ← List.getD_eq_getElem?_getD] at hb
    · rw [List.getElem_append_right (by omega)] at ho
      simp at ho
      rw [← ho]
  · intro f hf
    rcases List.mem_append.1 hf with hf | hf
    · intro o ho
      simp only [old f (w.fn_lt (hfns f hf))] at ho
      exact t.pos f hf o ho
    · rw [List.mem_singleton] at hf; subst hf
      intro o ho
      simp at ho
      rw [← ho]
      simp

variable (hC : C.Lawful) (i : Inv C r h)
include hC i

theorem tied_step {bs : List Bool} (t : Tied bs r.fns h) {ins : Instr} (hst : ins.Standard bs = true)
    (hr : ins.run C r h = .ok (r', h')) : Tied (ins.declares bs) r'.fns h' := by
  have hs := Instr.safe_of_ok hr
  have leaf : ∀ {f : ℕ} (hf : f < r.fns.length), bs.getD f false = true → ∃ o, h.fns[r.fns[f]]? = some o ∧ o.leaf = true := by
    intro f hf hb
    obtain ⟨o, ho, -⟩ := i.wf.fn _ (i.fns _ (List.getElem_mem hf))
    exact ⟨o, ho, t.leaf f hf hb o ho⟩
  cases ins with
  | declare d =>
    obtain ⟨r1, h1, hr1, st⟩ := step_all hC i (.declare d) hs
    rw [hr] at hr1; cases hr1
    obtain ⟨f, h2, e1, hr2⟩ := M.bind_ok_iff.1 hr
    cases hr2
    exact t.declare hC i.wf i.fns e1 st.ext
  | fn a =>
    obtain ⟨f, h2, e1, hr2⟩ := M.bind_ok_iff.1 hr
    cases hr2
    exact t.fn hC i.wf i.fns hst e1
  | pt a =>
    obtain ⟨q, h1, pr, hv⟩ := PE.run_live hC a i.pts hs
    have p := Prep.onlyAdds i.wf pr.adds
    rw [Instr.run, M.bind_of_ok pr.run] at hr
    cases hr
    exact t.only hC i.wf i.fns p.ext p.fnList fun _ _ _ _ _ => by rw [p.fns]
  | ex a =>
    obtain ⟨q, h1, pr, hv⟩ := EE.run_live hC a i.pts i.exs hs
    have p := Prep.onlyAdds i.wf pr.adds
    rw [Instr.run, M.bind_of_ok pr.run] at hr
    cases hr
    exact t.only hC i.wf i.fns p.ext p.fnList fun _ _ _ _ _ => by rw [p.fns]
  | initial =>
    have p := Prep.leafPt i.wf
    rw [Instr.run, M.bind_of_ok (newLeafPt_run h)] at hr
    cases hr
    exact t.only hC i.wf i.fns p.ext p.fnList fun _ _ _ _ _ => by rw [p.fns]
  | stationary f =>
    have hf : f < r.fns.length := by simp only [Instr.Safe, decide_eq_true_eq] at hs; exact hs
    rw [Instr.run, M.bind_of_ok (regGet_run hf h)] at hr
    obtain ⟨tr, h2, e1, hr2⟩ := M.bind_ok_iff.1 hr
    cases hr2
    exact t.stationary hC i.wf i.fns (List.getElem_mem hf) e1
  | oracle f x =>
    have ⟨hf, hx⟩ : f < r.fns.length ∧ x < r.pts.length := by simp only [Instr.Safe, Bool.and_eq_true, decide_eq_true_eq] at hs; exact hs
    rw [Instr.run, M.bind_of_ok (regGet_run hf h), M.bind_of_ok (regGet_run hx h)] at hr
    obtain ⟨tr, h2, e1, hr2⟩ := M.bind_ok_iff.1 hr
    cases hr2
    obtain ⟨o, ho, hl⟩ := leaf hf hst
    exact t.oracle hC i.wf i.fns (i.fns _ (List.getElem_mem hf)) (i.pts _ (List.getElem_mem hx)) ho hl e1
  | gradient f x =>
    have ⟨hf, hx⟩ : f < r.fns.length ∧ x < r.pts.length := by simp only [Instr.Safe, Bool.and_eq_true, decide_eq_true_eq] at hs; exact hs
    obtain ⟨g, v, h1, hr1, -⟩ := oracle_run hC i.wf (i.fns _ (List.getElem_mem hf)) (i.pts _ (List.getElem_mem hx))
    rw [Instr.run, M.bind_of_ok (regGet_run hf h), M.bind_of_ok (regGet_run hx h), M.bind_of_ok (gradient_run hr1)] at hr
    cases hr
    obtain ⟨o, ho, hl⟩ := leaf hf hst
    exact t.oracle hC i.wf i.fns (i.fns _ (List.getElem_mem hf)) (i.pts _ (List.getElem_mem hx)) ho hl hr1
  | value f x =>
    have ⟨hf, hx⟩ : f < r.fns.length ∧ x < r.pts.length := by simp only [Instr.Safe, Bool.and_eq_true, decide_eq_true_eq] at hs; exact hs
    rcases value_run hC i.wf (i.fns _ (List.getElem_mem hf)) (i.pts _ (List.getElem_mem hx)) with ⟨g, v, hl, hr1⟩ | ⟨-, g, v, h1, hor, hr1⟩
    · rw [Instr.run, M.bind_of_ok (regGet_run hf h), M.bind_of_ok (regGet_run hx h), M.bind_of_ok hr1] at hr
      cases hr
      exact t
    · rw [Instr.run, M.bind_of_ok (regGet_run hf h), M.bind_of_ok (regGet_run hx h), M.bind_of_ok hr1] at hr
      cases hr
      obtain ⟨o, ho, hl⟩ := leaf hf hst
      exact t.oracle hC i.wf i.fns (i.fns _ (List.getElem_mem hf)) (i.pts _ (List.getElem_mem hx)) ho hl hor
  | prox x0 f gamma =>
    have ⟨hg, hf⟩ : x0 < r.pts.length ∧ f < r.fns.length := by simp only [Instr.Safe, Bool.and_eq_true, decide_eq_true_eq] at hs; exact hs
    obtain ⟨q, h1, h2, hadds, hq, hval, hr1, ha⟩ := prox_run hC i.wf gamma (i.fns _ (List.getElem_mem hf)) (i.pts _ (List.getElem_mem hg))
    have p1 := conjHeap_prep i.wf
    have p := p1.trans (Prep.onlyAdds p1.wf hadds)
    rw [Instr.run, M.bind_of_ok (regGet_run hg h), M.bind_of_ok (regGet_run hf h), M.bind_of_ok hr1] at hr
    cases hr
    obtain ⟨o, ho, hl⟩ := leaf hf hst
    exact t.addLeaf hC i.wf i.fns p ha ho hl
  | conj g f =>
    have ⟨hg, hf⟩ : g < r.pts.length ∧ f < r.fns.length := by simp only [Instr.Safe, Bool.and_eq_true, decide_eq_true_eq] at hs; exact hs
    obtain ⟨h1, hr1, ha⟩ := conj_run hC i.wf (i.fns _ (List.getElem_mem hf)) (i.pts _ (List.getElem_mem hg))
    rw [Instr.run, M.bind_of_ok (regGet_run hg h), M.bind_of_ok (regGet_run hf h), M.bind_of_ok hr1] at hr
    cases hr
    obtain ⟨o, ho, hl⟩ := leaf hf hst
    exact t.addLeaf hC i.wf i.fns (conjHeap_prep i.wf) ha ho hl
  | addPoint f x g v =>
    have ⟨⟨⟨hf, hx⟩, hg⟩, hv⟩ : ((f < r.fns.length ∧ x < r.pts.length) ∧ g < r.pts.length) ∧ v < r.exs.length := by
      simp only [Instr.Safe, Bool.and_eq_true, decide_eq_true_eq] at hs; exact hs
    obtain ⟨h1, hr1, ha⟩ := addPoint_run hC i.wf (i.fns _ (List.getElem_mem hf)) (t := (r.pts[x], r.pts[g], r.exs[v]))
      ⟨i.pts _ (List.getElem_mem hx), i.pts _ (List.getElem_mem hg), i.exs _ (List.getElem_mem hv)⟩
    rw [Instr.run, M.bind_of_ok (regGet_run hf h), M.bind_of_ok (regGet_run hx h), M.bind_of_ok (regGet_run hg h),
        M.bind_of_ok (regGet_run hv h), M.bind_of_ok hr1] at hr
    cases hr
    obtain ⟨o, ho, hl⟩ := leaf hf hst
    exact t.addLeaf hC i.wf i.fns (Prep.refl i.wf) ha ho hl
  | constr e k =>
    have he : e < r.exs.length := by simp only [Instr.Safe, decide_eq_true_eq] at hs; exact hs
    rw [Instr.run, M.bind_of_ok (regGet_run he h)] at hr
    cases hr
    exact t
  | metric e =>
    have he : e < r.exs.length := by simp only [Instr.Safe, decide_eq_true_eq] at hs; exact hs
    rw [Instr.run, M.bind_of_ok (regGet_run he h)] at hr
    cases hr
    exact t
  | objective e =>
    cases hr
    exact t

omit i in
theorem tied_prog (prog : List Instr) : ∀ {r r' : Regs} {h h' : Heap} {bs : List Bool}, Inv C r h → Tied bs r.fns h →
    standardFrom bs prog = true → runProg C prog r h = .ok (r', h') → ∃ bs', Tied bs' r'.fns h' := by
  induction prog with
  | nil =>
    intro r r' h h' bs i t hst hr
    obtain ⟨rfl, rfl⟩ : r = r' ∧ h = h' := by simpa [runProg, pure, M.pure] using hr
    exact ⟨bs, t⟩
  | cons ins prog ih =>
    intro r r' h h' bs i t hst hr
    simp only [standardFrom, Bool.and_eq_true] at hst
    obtain ⟨r1, h1, e1, hr⟩ := M.bind_ok_iff.1 hr
    have i1 : Inv C r1 h1 := (prog_all hC [ins] i (r' := r1) (h' := h1)
      (by rw [runProg, M.bind_of_ok e1]; rfl)).inv
    exact ih i1 (tied_step hC i t hst.1 e1) hst.2 hr

omit i in
/-- after a standard program every recorded sample of a sum is the sum of recorded samples -/
theorem tied_problem {prog : List Instr} (hst : Standard prog = true) (hr : runProblem C prog h = .ok (r', h')) :
    ∀ f ∈ h'.fnList, ∀ o, h'.fns[f]? = some o → o.leaf = false → ∀ t ∈ o.points, h'.SumConsistent o.dict t.1 t.2.1 t.2.2 := by
  have t0 : Tied [] Regs.empty.fns h.reset := by
    refine ⟨?_, rfl, ?_, ?_⟩
    · intro f hf; simp [Heap.reset] at hf
    · intro k hk; simp [Regs.empty] at hk
    · intro f hf; simp [Regs.empty] at hf
  obtain ⟨bs, t⟩ := tied_prog hC prog (inv_reset h) t0 hst hr
  exact t.cons

end Verif
