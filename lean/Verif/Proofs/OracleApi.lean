import Verif.Proofs.Registry

namespace Verif
open Heap
variable {C : CAS} {h h' : Heap}

theorem lookup_none_iff {f x : ℕ} : lookup C h f x = none ↔ ¬ h.EvaluatedAt C f x := by
  unfold lookup EvaluatedAt
  constructor
  · rintro hl ⟨fo, xo, t, yo, h1, h2, h3, h4, h5⟩
    simp only [h1, h2, Option.map_eq_none_iff, List.find?_eq_none] at hl
    apply hl t h3
    simp [matchPt, h4, h5]
  · intro hn
    cases h1 : h.fns[f]? with
    | none => rfl
    | some fo =>
      cases h2 : h.pts[x]? with
      | none => rfl
      | some xo =>
        simp only [Option.map_eq_none_iff, List.find?_eq_none]
        intro t ht hm
        apply hn
        unfold matchPt at hm
        cases h4 : h.pts[t.1]? with
        | none => simp [h4] at hm
        | some yo => rw [h4] at hm; exact ⟨fo, xo, t, yo, h1, h2, ht, h4, hm⟩

theorem lookup_isSome_iff {f x : ℕ} : (lookup C h f x).isSome ↔ h.EvaluatedAt C f x := by
  rw [← not_iff_not, ← lookup_none_iff]; simp

theorem evaluatedAt_self (hC : C.Lawful) (w : WF C h) {f : ℕ} (hf : f ∈ h.fnList) {o : FnObj} (ho : h.fns[f]? = some o)
    {t : Triplet} (ht : t ∈ o.points) : h.EvaluatedAt C f t.1 := by
  obtain ⟨o', ho', ok⟩ := w.fn f hf
  rw [ho] at ho'; cases ho'
  obtain ⟨xo, hxo, hn, -⟩ := (ok.points t ht).1
  exact ⟨o, xo, t, xo, ho, hxo, ht, hxo, Dict.eqB_refl (fun a => hC.eqB_refl a) hn⟩

theorem oracle_hit' (hC : C.Lawful) (w : WF C h) {f x : ℕ} (hf : f ∈ h.fnList) (hx : h.PtLive x) {g : PtId} {v : ExId}
    (hl : lookup C h f x = some (g, v)) (hr : reuseOf h f = true) :
    oracle C f x h = .ok ((g, v), h) ∧ gradient C f x h = .ok (g, h) ∧ value C f x h = .ok (v, h) := by
  have ho := oracle_hit w hf hx hl hr 99
  refine ⟨ho, gradient_run ho, ?_⟩
  rcases value_run hC w hf hx with ⟨g', v', hl', hv⟩ | ⟨hn, -⟩
  · rw [hl] at hl'; cases hl'; exact hv
  · rw [hl] at hn; cases hn

theorem value_hit' (hC : C.Lawful) (w : WF C h) {f x : ℕ} (hf : f ∈ h.fnList) (hx : h.PtLive x) {g : PtId} {v : ExId}
    (hl : lookup C h f x = some (g, v)) : value C f x h = .ok (v, h) := by
  rcases value_run hC w hf hx with ⟨g', v', hl', hv⟩ | ⟨hn, -⟩
  · rw [hl] at hl'; cases hl'; exact hv
  · rw [hl] at hn; cases hn

theorem sumConsistent_ext (hC : C.Lawful) (w : WF C h) (e : Ext C h h') {d : Dict FnId ℚ} {x g : ℕ} {v : ExId}
    (hd : ∀ k ∈ d.keys, k ∈ h.fnList) (hx : h.IsPt x) (hg : h.IsPt g) (hv : h.IsEx v) (hs : h.SumConsistent d x g v) :
    h'.SumConsistent d x g v := by
  obtain ⟨T, h1, h2⟩ := hs
  refine ⟨T, fun k hk => (h1 k hk).ext hC w e (hd k hk) hx, ?_⟩
  intro E _ _ env φ ψ
  have hl : ∀ k ∈ d.keys, h.IsPt (T k).1 ∧ h.IsEx (T k).2 := by
    intro k hk
    obtain ⟨o, p, ho, hm, -⟩ := h1 k hk
    obtain ⟨o', ho', ok⟩ := w.fn k (hd k hk)
    rw [ho] at ho'; cases ho'
    exact ⟨(ok.points _ hm).2.1.isPt, (ok.points _ hm).2.2.isEx⟩
  rw [e.ptVal hC hg, e.exVal hC hv, (h2 E env φ ψ).1, (h2 E env φ ψ).2]
  refine ⟨congrArg _ (List.map_congr_left ?_), congrArg _ (List.map_congr_left ?_)⟩
  · intro kw hkw
    rw [e.ptVal hC (hl kw.1 (List.mem_map_of_mem hkw)).1]
  · intro kw hkw
    rw [e.exVal hC (hl kw.1 (List.mem_map_of_mem hkw)).2]

theorem leafPtNo_next (w' : WF C h') (hp : h.leafPts ++ [x] <+: h'.leafPts) (w : WF C h) : h'.LeafPtNo x h.ptCounter := by
  apply w'.leafPtNo
  obtain ⟨l, hl⟩ := hp
  rw [← hl, w.ptCounter]; simp
theorem leafExNo_next {x : ℕ} (w' : WF C h') (hp : h.leafExs ++ [x] <+: h'.leafExs) (w : WF C h) : h'.LeafExNo x h.exCounter := by
  apply w'.leafExNo
  obtain ⟨l, hl⟩ := hp
  rw [← hl, w.exCounter]; simp

theorem AddRes.points {f : ℕ} {t : Triplet} {h1 : Heap} (a : AddRes C h1 f t h') {o : FnObj} (ho : h1.fns[f]? = some o) :
    ∃ o', h'.fns[f]? = some o' ∧ o'.points = o.points ++ [t] := by
  obtain ⟨h2, o1, o', hr, -, ho1, ho', hp, -⟩ := a.self
  obtain ⟨go, -, hs⟩ := hr.self o ho
  rw [ho1] at hs; cases hs
  exact ⟨o', ho', hp⟩

theorem AddRes.stationary {f : ℕ} {t : Triplet} {h1 : Heap} (a : AddRes C h1 f t h') {o : FnObj} (ho : h1.fns[f]? = some o)
    {go : PtObj} (hg : h1.pts[t.2.1]? = some go) (hd : go.dict = []) :
    ∃ o', h'.fns[f]? = some o' ∧ o'.points = o.points ++ [t] ∧ o'.stationary = o.stationary ++ [t] := by
  obtain ⟨h2, o1, o', hr, -, ho1, ho', hp, hst⟩ := a.self
  obtain ⟨go', hgo', hs⟩ := hr.self o ho
  rw [ho1] at hs; cases hs
  obtain ⟨go2, h3, -, -, sd⟩ := hr.ext.pts _ _ hg
  rw [hgo'] at h3; cases h3
  have : go'.dict = [] := by
    rcases sd with h | h
    · rw [h, hd]
    · rw [h, hd]; rfl
  exact ⟨o', ho', hp, by rw [hst]; simp [this]⟩

end Verif
