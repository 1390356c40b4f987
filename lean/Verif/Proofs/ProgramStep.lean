import Verif.Proofs.Program

namespace Verif
open Heap

variable {C : CAS} {h h' : Heap}

/-- creation of points and expressions before a sample is recorded -/
structure Prep (C : CAS) (h h1 : Heap) : Prop where
  ext : Ext C h h1
  wf : WF C h1
  fns : h1.fns = h.fns
  fnList : h1.fnList = h.fnList

theorem Prep.trans {h1 h2 h3 : Heap} (a : Prep C h1 h2) (b : Prep C h2 h3) : Prep C h1 h3 :=
  ⟨a.ext.trans b.ext, b.wf, b.fns.trans a.fns, b.fnList.trans a.fnList⟩
theorem Prep.leafPt (w : WF C h) : Prep C h h.addLeafPt := ⟨ext_addLeafPt h, w.addLeafPt, rfl, rfl⟩
theorem Prep.leafEx (w : WF C h) : Prep C h h.addLeafEx := ⟨ext_addLeafEx h, w.addLeafEx, rfl, rfl⟩
theorem Prep.onlyAdds (w : WF C h) (a : h.OnlyAdds h') : Prep C h h' := ⟨ext_onlyAdds a, w.onlyAdds a, a.fns, a.fnList⟩
theorem Prep.refl (w : WF C h) : Prep C h h := ⟨Ext.refl h, w, rfl, rfl⟩

theorem Prep.trueSamples (hC : C.Lawful) (w : WF C h) (p : Prep C h h') {E : Type} [NormedAddCommGroup E] [InnerProductSpace ℝ E]
    {S : FnId → E → E → ℝ → Prop} {env} {φ φ' : PtId → E} {ψ ψ'} (a : h.Agree φ φ' ψ ψ')
    (ts : h.TrueSamples S env φ ψ) : h'.TrueSamples S env φ' ψ' := by
  refine ts.step hC w p.ext p.fnList a ?_
  intro f hf o o' ho ho' t ht
  rw [p.fns, ho] at ho'
  obtain rfl := Option.some.inj ho'
  exact Or.inl ht

theorem addPoint_run (hC : C.Lawful) (w : WF C h) {f : ℕ} (hf : f ∈ h.fnList) {t : Triplet} (ht : h.TripletLive t) :
    ∃ h', addPoint C f t h = .ok ((), h') ∧ AddRes C h f t h' := addPoint_spec hC w hf ht 97
theorem oracle_run (hC : C.Lawful) (w : WF C h) {f x : ℕ} (hf : f ∈ h.fnList) (hx : h.PtLive x) :
    ∃ g v h', oracle C f x h = .ok ((g, v), h') ∧ OracleRes C h f x g v h' := oracle_spec hC w hf hx 96

theorem value_run (hC : C.Lawful) (w : WF C h) {f x : ℕ} (hf : f ∈ h.fnList) (hx : h.PtLive x) :
    (∃ g v, lookup C h f x = some (g, v) ∧ value C f x h = .ok (v, h)) ∨
    (lookup C h f x = none ∧ ∃ g v h', oracle C f x h = .ok ((g, v), h') ∧ value C f x h = .ok (v, h')) := by
  have hr := isEvaluated_run w hf hx
  cases hl : lookup C h f x with
  | some gv =>
    left
    refine ⟨gv.1, gv.2, rfl, ?_⟩
    rw [value, valueBody, M.bind_of_ok hr, hl]; rfl
  | none =>
    right
    obtain ⟨g, v, h', ho, -⟩ := oracle_run hC w hf hx
    refine ⟨rfl, g, v, h', ho, ?_⟩
    rw [value, valueBody, M.bind_of_ok hr, hl]
    show ((methods C pyDepth).oracle f x >>= fun gv => pure gv.2) h = _
    rw [M.bind_of_ok (show (methods C pyDepth).oracle f x h = _ from ho)]; rfl

theorem gradient_run {f x g : ℕ} {v : ExId} (ho : oracle C f x h = .ok ((g, v), h')) :
    gradient C f x h = .ok (g, h') := by
  rw [gradient, gradientBody, M.bind_of_ok (show (methods C pyDepth).oracle f x h = _ from ho)]; rfl

/-- heap before the sample of `stationary_point` is recorded -/
def statHeap (h : Heap) : Heap := ((h.addLeafPt).pushPt []).addLeafEx

theorem statHeap_prep (w : WF C h) : Prep C h (statHeap h) :=
  ((Prep.leafPt w).trans (Prep.onlyAdds (Prep.leafPt w).wf (onlyAdds_pushPt _ _))).trans
    (Prep.leafEx ((Prep.onlyAdds (Prep.leafPt w).wf (onlyAdds_pushPt _ _)).wf))

theorem statHeap_live (w : WF C h) : (statHeap h).TripletLive (h.pts.length, h.pts.length + 1, h.exs.length) := by
  have p1 := Prep.leafPt w
  have p2 := Prep.onlyAdds p1.wf (onlyAdds_pushPt h.addLeafPt [])
  have p3 := Prep.leafEx p2.wf
  have hl : (h.addLeafPt).pts.length = h.pts.length + 1 := by simp [Heap.addLeafPt]
  refine ⟨(p2.trans p3).ext.ptLive (addLeafPt_live h), ?_, addLeafEx_live _⟩
  have := pushPt_live (h := h.addLeafPt) (d := []) (by simp [Dict.NodupKeys]) (by simp)
  rw [hl] at this
  exact p3.ext.ptLive this

theorem statHeap_val (hC : C.Lawful) (w : WF C h) {E : Type} [NormedAddCommGroup E] [InnerProductSpace ℝ E] (env) (φ : PtId → E) (ψ) :
    (statHeap h).ptVal env φ h.pts.length = φ h.pts.length ∧ (statHeap h).ptVal env φ (h.pts.length + 1) = 0 ∧
    (statHeap h).exVal env φ ψ h.exs.length = ψ h.exs.length := by
  have p1 := Prep.leafPt w
  have p2 := Prep.onlyAdds p1.wf (onlyAdds_pushPt h.addLeafPt [])
  have p3 := Prep.leafEx p2.wf
  have hl : (h.addLeafPt).pts.length = h.pts.length + 1 := by simp [Heap.addLeafPt]
  refine ⟨?_, ?_, addLeafEx_val _ _ _ _⟩
  · rw [statHeap, (p2.trans p3).ext.ptVal hC (addLeafPt_live h).isPt, addLeafPt_val]
  · have hlive := pushPt_live (h := h.addLeafPt) (d := []) (by simp [Dict.NodupKeys]) (by simp)
    have hv := ptVal_pushPt h.addLeafPt [] env φ
    rw [hl] at hlive hv
    rw [statHeap, p3.ext.ptVal hC hlive.isPt, hv]; simp

theorem stationary_run (hC : C.Lawful) (w : WF C h) {f : ℕ} (hf : f ∈ h.fnList) :
    ∃ h', stationaryPoint C f h = .ok ((h.pts.length, h.pts.length + 1, h.exs.length), h') ∧
      AddRes C (statHeap h) f (h.pts.length, h.pts.length + 1, h.exs.length) h' := by
  obtain ⟨h', hr, ha⟩ := addPoint_run hC (statHeap_prep w).wf (by rw [(statHeap_prep w).fnList]; exact hf) (statHeap_live w)
  refine ⟨h', ?_, ha⟩
  have hl : (h.addLeafPt).pts.length = h.pts.length + 1 := by simp [Heap.addLeafPt]
  have e1 : newPt [] h.addLeafPt = .ok (h.pts.length + 1, h.addLeafPt.pushPt []) := by rw [← hl]; rfl
  have e2 : newLeafEx (h.addLeafPt.pushPt []) = .ok (h.exs.length, statHeap h) := rfl
  rw [stationaryPoint, M.bind_of_ok (newLeafPt_run h), M.bind_of_ok e1, M.bind_of_ok e2, M.bind_of_ok hr]; rfl

/-- heap before the sample of `subgrad_conjugate` is recorded -/
def conjHeap (h : Heap) : Heap := (h.addLeafPt).addLeafEx

theorem conjHeap_prep (w : WF C h) : Prep C h (conjHeap h) := (Prep.leafPt w).trans (Prep.leafEx w.addLeafPt)

theorem conjHeap_val (hC : C.Lawful) (w : WF C h) {E : Type} [NormedAddCommGroup E] [InnerProductSpace ℝ E] (env) (φ : PtId → E) (ψ) :
    (conjHeap h).ptVal env φ h.pts.length = φ h.pts.length ∧
    (conjHeap h).exVal env φ ψ h.exs.length = ψ h.exs.length := by
  refine ⟨?_, addLeafEx_val _ _ _ _⟩
  rw [conjHeap, (Prep.leafEx w.addLeafPt).ext.ptVal hC (addLeafPt_live h).isPt, addLeafPt_val]

theorem conjHeap_live (w : WF C h) : (conjHeap h).PtLive h.pts.length ∧ (conjHeap h).ExLive h.exs.length :=
  ⟨(Prep.leafEx w.addLeafPt).ext.ptLive (addLeafPt_live h), addLeafEx_live _⟩

theorem conj_run (hC : C.Lawful) (w : WF C h) {f g : ℕ} (hf : f ∈ h.fnList) (hg : h.PtLive g) :
    ∃ h', subgradConjugate C g f h = .ok (h.pts.length, h') ∧
      AddRes C (conjHeap h) f (h.pts.length, g, h.exs.length) h' := by
  obtain ⟨h', hr, ha⟩ := addPoint_run hC (conjHeap_prep w).wf (by rw [(conjHeap_prep w).fnList]; exact hf)
    (t := (h.pts.length, g, h.exs.length)) ⟨(conjHeap_live w).1, (conjHeap_prep w).ext.ptLive hg, (conjHeap_live w).2⟩
  refine ⟨h', ?_, ha⟩
  have e2 : newLeafEx h.addLeafPt = .ok (h.exs.length, conjHeap h) := rfl
  rw [subgradConjugate, M.bind_of_ok (newLeafPt_run h), M.bind_of_ok e2, M.bind_of_ok hr]; rfl

theorem prox_run (hC : C.Lawful) (w : WF C h) {f x0 : ℕ} (gamma : Sym) (hf : f ∈ h.fnList) (hx : h.PtLive x0) :
    ∃ x h1 h', (conjHeap h).OnlyAdds h1 ∧ h1.PtLive x ∧
      (∀ {E : Type} [NormedAddCommGroup E] [InnerProductSpace ℝ E] (env) (φ : PtId → E),
        h1.ptVal env φ x = h.ptVal env φ x0 - gamma.eval env • φ h.pts.length) ∧
      proximalStep C x0 f gamma h = .ok ((x, h.pts.length, h.exs.length), h') ∧
      AddRes C h1 f (x, h.pts.length, h.exs.length) h' := by
  have p1 := conjHeap_prep w
  have hl := conjHeap_live w
  obtain ⟨sg, h2, r2, v2⟩ := ptScale_live hC gamma hl.1
  have p2 := Prep.onlyAdds p1.wf r2.adds
  obtain ⟨x, h3, r3, v3⟩ := ptSub_live hC (p2.ext.ptLive (p1.ext.ptLive hx)) r2.live
  have p3 := Prep.onlyAdds p2.wf r3.adds
  have ht : h3.TripletLive (x, h.pts.length, h.exs.length) :=
    ⟨r3.live, (p2.trans p3).ext.ptLive hl.1, (p2.trans p3).ext.exLive hl.2⟩
  obtain ⟨h', hr, ha⟩ := addPoint_run hC p3.wf (by rw [p3.fnList, p2.fnList, p1.fnList]; exact hf) ht
  refine ⟨x, h3, h', r2.adds.trans r3.adds, r3.live, ?_, ?_, ha⟩
  · intro E _ _ env φ
    rw [v3, v2, (conjHeap_val hC w env φ (fun _ => 0)).1, p2.ext.ptVal hC (p1.ext.ptLive hx).isPt, p1.ext.ptVal hC hx.isPt]
  · have e2 : newLeafEx h.addLeafPt = .ok (h.exs.length, conjHeap h) := rfl
    rw [proximalStep, M.bind_of_ok (newLeafPt_run h), M.bind_of_ok e2, M.bind_of_ok r2.run, M.bind_of_ok r3.run,
      M.bind_of_ok hr]; rfl

end Verif
