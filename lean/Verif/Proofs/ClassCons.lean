import Verif.Proofs.Interp
import Verif.Proofs.Matrix

namespace Verif
open Heap

/-- what solving may do to the heap: new objects, new class constraints -/
structure Grow (h h' : Heap) : Prop where
  pts : ∀ (p : ℕ) (o : PtObj), h.pts[p]? = some o → h'.pts[p]? = some o
  exs : ∀ (p : ℕ) (o : ExObj), h.exs[p]? = some o → h'.exs[p]? = some o
  leafPts : h'.leafPts = h.leafPts
  leafExs : h'.leafExs = h.leafExs
  ptCounter : h'.ptCounter = h.ptCounter
  exCounter : h'.exCounter = h.exCounter
  fnList : h'.fnList = h.fnList
  fns : ∀ (f : ℕ) (o : FnObj), h.fns[f]? = some o → ∃ l, h'.fns[f]? = some { o with classCons := o.classCons ++ l }

theorem Grow.refl (h : Heap) : Grow h h :=
  ⟨fun _ _ h => h, fun _ _ h => h, rfl, rfl, rfl, rfl, rfl, fun f o ho => ⟨[], by simpa using ho⟩⟩

theorem Grow.trans {h1 h2 h3 : Heap} (a : Grow h1 h2) (b : Grow h2 h3) : Grow h1 h3 := by
  refine ⟨fun p o hp => b.pts p o (a.pts p o hp), fun p o hp => b.exs p o (a.exs p o hp), b.leafPts.trans a.leafPts,
    b.leafExs.trans a.leafExs, b.ptCounter.trans a.ptCounter, b.exCounter.trans a.exCounter, b.fnList.trans a.fnList, ?_⟩
  intro f o ho
  obtain ⟨l, hl⟩ := a.fns f o ho
  obtain ⟨l', hl'⟩ := b.fns f _ hl
  exact ⟨l ++ l', by simpa using hl'⟩

theorem Heap.OnlyAdds.grow {h h' : Heap} (a : h.OnlyAdds h') : Grow h h' := by
  refine ⟨fun p o hp => a.pts hp, fun p o hp => a.exs hp, ?_, ?_, ?_, ?_, ?_, ?_⟩
  all_goals obtain ⟨ps, es, rfl, -⟩ := a
  · rfl
  · rfl
  · rfl
  · rfl
  · rfl
  · exact fun f o ho => ⟨[], by simpa using ho⟩

theorem grow_putFn {h : Heap} {f : ℕ} {o : FnObj} (ho : h.fns[f]? = some o) (l : List ExId) :
    Grow h (h.putFn f { o with classCons := o.classCons ++ l }) := by
  refine ⟨fun _ _ h => h, fun _ _ h => h, rfl, rfl, rfl, rfl, rfl, ?_⟩
  intro k ok hk
  by_cases hkf : f = k
  · subst hkf
    rw [ho] at hk; cases hk
    exact ⟨l, getElem?_putFn_self ho⟩
  · exact ⟨[], by simp [Heap.putFn, List.getElem?_set, hkf, hk]⟩

theorem Grow.ext {C : CAS} {h h' : Heap} (a : Grow h h') : Ext C h h' := by
  refine ⟨fun p o hp => ⟨o, a.pts p o hp, rfl, rfl, Or.inl rfl⟩, fun p o hp => ⟨o, a.exs p o hp, rfl, rfl, Or.inl rfl⟩, ?_,
    by rw [a.leafPts], by rw [a.leafExs], by rw [a.fnList]⟩
  intro f o ho
  obtain ⟨l, hl⟩ := a.fns f o ho
  exact ⟨_, hl, rfl, rfl, rfl, rfl, Or.inl rfl, List.prefix_rfl, List.prefix_rfl, List.prefix_append _ _⟩

theorem Grow.exVal {h h' : Heap} (a : Grow h h') {e : ExId} (he : h.IsEx e) {E : Type} [NormedAddCommGroup E] [InnerProductSpace ℝ E]
    (env) (φ : PtId → E) (ψ) : h'.exVal env φ ψ e = h.exVal env φ ψ e := by
  obtain ⟨o, ho⟩ := he.get
  rw [exVal_of ho, exVal_of (a.exs _ _ ho)]

theorem Grow.ptVal {h h' : Heap} (a : Grow h h') {e : PtId} (he : h.IsPt e) {E : Type} [NormedAddCommGroup E] [InnerProductSpace ℝ E]
    (env) (φ : PtId → E) : h'.ptVal env φ e = h.ptVal env φ e := by
  obtain ⟨o, ho⟩ := he.get
  rw [ptVal_of ho, ptVal_of (a.pts _ _ ho)]

theorem Grow.ptLive {h h' : Heap} (a : Grow h h') {p : PtId} (hp : h.PtLive p) : h'.PtLive p := by
  obtain ⟨o, ho, hn, hk⟩ := hp
  exact ⟨o, a.pts _ _ ho, hn, by rw [a.leafPts]; exact hk⟩

theorem Grow.keyLive {h h' : Heap} (a : Grow h h') {k : ExKey} (hk : h.KeyLive k) : h'.KeyLive k := by
  cases k with
  | fn e => simpa [KeyLive, a.leafExs] using hk
  | inner p q => simpa [KeyLive, a.leafPts] using hk
  | one => trivial

theorem Grow.exLive {h h' : Heap} (a : Grow h h') {p : ExId} (hp : h.ExLive p) : h'.ExLive p := by
  obtain ⟨o, ho, hn, hk⟩ := hp
  exact ⟨o, a.exs _ _ ho, hn, fun k hkk => a.keyLive (hk k hkk)⟩

theorem Grow.tripletLive {h h' : Heap} (a : Grow h h') {t : Triplet} (ht : h.TripletLive t) : h'.TripletLive t :=
  ⟨a.ptLive ht.1, a.ptLive ht.2.1, a.exLive ht.2.2⟩

theorem MatOf.grow {h h' : Heap} (a : Grow h h') {e : ExId} (he : h.IsEx e) {m : FG} (hm : MatOf h e m) : MatOf h' e m := by
  obtain ⟨o, ho⟩ := he.get
  have hc : h'.exConst e = h.exConst e := by simp [exConst, ho, a.exs _ _ ho]
  refine ⟨?_, hm.symm, ?_⟩
  · intro E _ _ env φ ψ
    rw [a.exVal he, hc, ← hm.val, a.exCounter, a.ptCounter]
    have h1 : h'.fvec ψ = h.fvec ψ := by funext k; simp [fvec, a.leafExs]
    have h2 : h'.gram φ = h.gram φ := by funext i j; simp [gram, a.leafPts]
    rw [h1, h2]
  · intro n hn
    obtain ⟨o', ho', hv⟩ := hm.vars n hn
    exact ⟨o', a.exs _ _ ho', hv⟩

theorem IsIneq.grow {h h' : Heap} (a : Grow h h') {cls ti tj e} (i : IsIneq h cls ti tj e) : IsIneq h' cls ti tj e := by
  refine ⟨a.tripletLive i.livei, a.tripletLive i.livej, a.exLive i.live, ?_⟩
  intro E _ _ env φ ψ
  rw [a.exVal i.live.isEx, i.val, a.ptVal i.livei.1.isPt, a.ptVal i.livei.2.1.isPt, a.exVal i.livei.2.2.isEx,
    a.ptVal i.livej.1.isPt, a.ptVal i.livej.2.1.isPt, a.exVal i.livej.2.2.isEx]

section
variable {C : CAS} (hC : C.Lawful)

/-- the class constraints of a function grow by `es` -/
structure Appends (C : CAS) (h : Heap) (f : FnId) (o : FnObj) (h' : Heap) (es : List ExId) : Prop where
  grow : Grow h h'
  wf : WF C h'
  fns : h'.fns = h.fns.set f { o with classCons := o.classCons ++ es }

theorem Appends.get {h h' : Heap} {f : ℕ} {o : FnObj} {es} (a : Appends C h f o h' es) (ho : h.fns[f]? = some o) :
    h'.fns[f]? = some { o with classCons := o.classCons ++ es } := by
  rw [a.fns]; exact getElem?_putFn_self (h := h) ho

theorem Appends.trans {h h1 h2 : Heap} {f : ℕ} {o : FnObj} {es es'} (a : Appends C h f o h1 es)
    (b : Appends C h1 f { o with classCons := o.classCons ++ es } h2 es') : Appends C h f o h2 (es ++ es') := by
  refine ⟨a.grow.trans b.grow, b.wf, ?_⟩
  rw [b.fns, a.fns, List.set_set, List.append_assoc]

theorem Appends.refl {h : Heap} (w : WF C h) {f : ℕ} {o : FnObj} (ho : h.fns[f]? = some o) : Appends C h f o h [] := by
  refine ⟨Grow.refl h, w, ?_⟩
  obtain ⟨h1, h2⟩ := List.getElem?_eq_some_iff.1 ho
  have : ({ o with classCons := o.classCons ++ [] } : FnObj) = h.fns[f] := by rw [h2]; simp
  rw [this, List.set_getElem_self]

theorem append_one {h : Heap} (w : WF C h) {f : ℕ} {o : FnObj} (hf : f ∈ h.fnList) (ho : h.fns[f]? = some o) {e : ExId} (he : h.ExLive e) :
    appendClassCon f e h = .ok ((), h.putFn f { o with classCons := o.classCons ++ [e] }) ∧
    Appends C h f o (h.putFn f { o with classCons := o.classCons ++ [e] }) [e] := by
  refine ⟨?_, grow_putFn ho _, ?_, rfl⟩
  · rw [appendClassCon, M.bind_of_ok (getFn_run ho), setFn_run]
  · obtain ⟨o', ho', hok⟩ := w.fn f hf
    rw [ho] at ho'; cases ho'
    refine w.putFn ho ⟨rfl, rfl, rfl, rfl, Or.inl rfl, List.prefix_rfl, List.prefix_rfl, List.prefix_append _ _⟩ ?_
    refine ⟨hok.nodup, hok.leafDict, hok.leafCls, hok.sumKeys, hok.points, hok.pruned, hok.stationary, ?_⟩
    intro e' he'
    rcases List.mem_append.1 he' with h1 | h1
    · exact hok.classCons e' h1
    · rw [List.mem_singleton] at h1; rw [h1]; exact he

include hC

theorem classConsInner_spec {f : FnId} {cls : FnClass} (hcls : cls.Computable) {ti : Triplet} (l : List Triplet) :
    ∀ {h : Heap} {o : FnObj}, WF C h → f ∈ h.fnList → h.fns[f]? = some o → h.TripletLive ti → (∀ t ∈ l, h.TripletLive t) →
    ∃ h' es, classConsInner C f cls ti l h = .ok ((), h') ∧ Appends C h f o h' es ∧
      List.Forall₂ (IsIneq h' cls ti) (l.filter (fun t => ti ≠ t)) es := by
  induction l with
  | nil => intro h o w hf ho hi hl; exact ⟨h, [], rfl, Appends.refl w ho, .nil⟩
  | cons tj l ih =>
    intro h o w hf ho hi hl
    by_cases hij : ti = tj
    · obtain ⟨h', es, hr, ha, hF⟩ := ih w hf ho hi (fun t ht => hl t (by simp [ht]))
      refine ⟨h', es, ?_, ha, ?_⟩
      · rw [classConsInner, if_neg (by simpa using hij), hr]
      · simpa [hij] using hF
    · have hj := hl tj (by simp)
      obtain ⟨e, h1, r1, v1⟩ := interpolation_live hC hcls hi hj
      have g1 := r1.adds.grow
      have w1 := w.onlyAdds r1.adds
      have ho1 : h1.fns[f]? = some o := by rw [r1.adds.fns]; exact ho
      have hf1 : f ∈ h1.fnList := by rw [g1.fnList]; exact hf
      obtain ⟨r2, a2⟩ := append_one w1 hf1 ho1 r1.live
      have i1 : IsIneq h1 cls ti tj e := by
        refine ⟨g1.tripletLive hi, g1.tripletLive hj, r1.live, ?_⟩
        intro E _ _ env φ ψ
        rw [v1, g1.ptVal hi.1.isPt, g1.ptVal hi.2.1.isPt, g1.exVal hi.2.2.isEx, g1.ptVal hj.1.isPt, g1.ptVal hj.2.1.isPt,
          g1.exVal hj.2.2.isEx]
      have g2 := g1.trans a2.grow
      obtain ⟨h', es, hr, ha, hF⟩ := ih a2.wf (by rw [g2.fnList]; exact hf) (a2.get ho1) (g2.tripletLive hi)
        (fun t ht => g2.tripletLive (hl t (by simp [ht])))
      have a12 : Appends C h f o _ [e] := ⟨g2, a2.wf, by rw [a2.fns, r1.adds.fns]⟩
      refine ⟨h', e :: es, ?_, a12.trans ha, ?_⟩
      · rw [classConsInner, if_pos hij, M.bind_of_ok r1.run, M.bind_of_ok r2, hr]
      · simp only [ne_eq, hij, not_false_eq_true, decide_true, List.filter_cons_of_pos]
        exact .cons ((i1.grow a2.grow).grow ha.grow) hF

/-- ordered pairs of different samples, in the order of the double loop -/
def samplePairs (all l : List Triplet) : List (Triplet × Triplet) := l.flatMap fun ti => (all.filter (fun t => ti ≠ t)).map fun tj => (ti, tj)

theorem classConsOuter_spec {f : FnId} {cls : FnClass} (hcls : cls.Computable) (all l : List Triplet) :
    ∀ {h : Heap} {o : FnObj}, WF C h → f ∈ h.fnList → h.fns[f]? = some o → (∀ t ∈ all, h.TripletLive t) → (∀ t ∈ l, h.TripletLive t) →
    ∃ h' es, classConsOuter C f cls all l h = .ok ((), h') ∧ Appends C h f o h' es ∧
      List.Forall₂ (fun p e => IsIneq h' cls p.1 p.2 e) (samplePairs all l) es := by
  induction l with
  | nil => intro h o w hf ho hi hl; exact ⟨h, [], rfl, Appends.refl w ho, .nil⟩
  | cons ti l ih =>
    intro h o w hf ho hall hl
    obtain ⟨h1, es1, r1, a1, F1⟩ := classConsInner_spec hC hcls all w hf ho (hl ti (by simp)) hall
    obtain ⟨h2, es2, r2, a2, F2⟩ := ih a1.wf (by rw [a1.grow.fnList]; exact hf) (a1.get ho) (fun t ht => a1.grow.tripletLive (hall t ht))
      (fun t ht => a1.grow.tripletLive (hl t (by simp [ht])))
    refine ⟨h2, es1 ++ es2, ?_, a1.trans a2, ?_⟩
    · rw [classConsOuter, M.bind_of_ok r1, r2]
    · rw [samplePairs, List.flatMap_cons]
      refine List.rel_append ?_ F2
      rw [List.forall₂_map_left_iff]
      exact F1.imp fun _ _ hh => hh.grow a2.grow

/-- `add_class_constraints` appends the inequalities of all ordered pairs of different samples -/
theorem addClassConstraints_spec {h : Heap} (w : WF C h) {f : ℕ} {o : FnObj} (hf : f ∈ h.fnList) (ho : h.fns[f]? = some o)
    (hcls : o.cls.Computable) :
    ∃ h' es, addClassConstraints C f h = .ok ((), h') ∧ Appends C h f o h' es ∧
      List.Forall₂ (fun p e => IsIneq h' o.cls p.1 p.2 e) (samplePairs o.points o.points) es := by
  obtain ⟨o', ho', hok⟩ := w.fn f hf
  rw [ho] at ho'; cases ho'
  obtain ⟨h', es, r, a, F⟩ := classConsOuter_spec hC hcls o.points o.points w hf ho hok.points hok.points
  refine ⟨h', es, ?_, a, F⟩
  have hb : o.cls ≠ .base := fun hb => by rw [hb] at hcls; exact hcls
  rw [addClassConstraints, M.bind_of_ok (getFn_run ho), if_neg hb, r]

end

/-! ### index pairs and sample pairs -/

theorem offDiag_eq (n : ℕ) : offDiag n = (List.range n).flatMap fun i => ((List.range n).filter (fun j => i ≠ j)).map fun j => (i, j) := by
  rw [offDiag, loopPairs, List.filter_flatMap]
  congr 1; funext i
  rw [List.filter_map]; rfl

theorem mem_offDiag {n i j : ℕ} : (i, j) ∈ offDiag n ↔ i < n ∧ j < n ∧ i ≠ j := by
  simp [offDiag, loopPairs]; tauto

theorem nodup_loopPairs (n : ℕ) : (loopPairs n).Nodup := by
  rw [loopPairs]
  have : (List.range n).flatMap (fun i => (List.range n).map fun j => (i, j)) = (List.range n) ×ˢ (List.range n) := rfl
  rw [this]
  exact List.nodup_range.product List.nodup_range

theorem nodup_offDiag (n : ℕ) : (offDiag n).Nodup := (nodup_loopPairs n).filter _

theorem length_offDiag (n : ℕ) : (offDiag n).length = n * (n - 1) := by
  rw [offDiag_eq, List.length_flatMap]
  have : ∀ i ∈ List.range n, (List.map (fun j => (i, j)) (List.filter (fun j => decide (i ≠ j)) (List.range n))).length = n - 1 := by
    intro i hi
    rw [List.length_map]
    have h1 := List.length_eq_length_filter_add (l := List.range n) (fun j => decide (i ≠ j))
    have h2 : ((List.range n).filter (fun j => !decide (i ≠ j))).length = 1 := by
      have : (List.range n).filter (fun j => !decide (i ≠ j)) = (List.range n).filter (· == i) := by
        congr 1; funext j; simp [eq_comm, beq_eq_decide]
      rw [this, ← List.count_eq_length_filter, List.count_eq_one_of_mem List.nodup_range hi]
    rw [h2, List.length_range] at h1
    omega
  rw [List.map_congr_left this]
  simp

theorem samplePairs_eq {l : List Triplet} (hl : l.Nodup) :
    samplePairs l l = (offDiag l.length).map (fun ij => (l.getD ij.1 (0, 0, 0), l.getD ij.2 (0, 0, 0))) := by
  have hg : (List.range l.length).map (fun i => l.getD i (0, 0, 0)) = l := by
    apply List.ext_getElem
    · simp
    · intro i h1 h2; simp [List.getD_eq_getElem?_getD, h2]
  have hinj : ∀ i j, i < l.length → j < l.length → l.getD i (0, 0, 0) = l.getD j (0, 0, 0) → i = j := by
    intro i j hi hj hij
    simp only [List.getD_eq_getElem?_getD, List.getElem?_eq_getElem hi, List.getElem?_eq_getElem hj, Option.getD_some] at hij
    exact (List.Nodup.getElem_inj_iff hl).1 hij
  rw [offDiag_eq, List.map_flatMap, samplePairs]
  conv_lhs => rw [← hg]
  rw [List.flatMap_map]
  apply List.flatMap_congr
  intro i hi
  rw [List.filter_map, List.map_map, List.map_map]
  have : (List.range l.length).filter ((fun t => decide (l.getD i (0, 0, 0) ≠ t)) ∘ fun i => l.getD i (0, 0, 0)) =
      (List.range l.length).filter (fun j => decide (i ≠ j)) := by
    apply List.filter_congr
    intro j hj
    have hi' := List.mem_range.1 hi
    have hj' := List.mem_range.1 hj
    by_cases hij : i = j
    · simp [hij]
    · have : l.getD i (0, 0, 0) ≠ l.getD j (0, 0, 0) := fun hh => hij (hinj i j hi' hj' hh)
      simpa [hij] using this
  simp only [Function.comp_def] at this ⊢
  rw [hg] at *
  rw [this]

end Verif
