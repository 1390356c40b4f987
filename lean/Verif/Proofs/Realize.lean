import Verif.Proofs.StepAll
import Verif.Proofs.ProgramAll
import Verif.Proofs.OracleApi
import Verif.Proofs.Represent

/-!
# From true samples back to an execution

If every sample recorded by a run is a true sample under some values of the leaves, then these values are an execution of the program.
-/

namespace Verif
open Heap

variable {C : CAS} {h h' : Heap} {r r' : Regs}

section
variable {E : Type} [NormedAddCommGroup E] [InnerProductSpace ℝ E]

theorem support_of_den {D : List FnId} {d : Dict FnId ℚ} {k : ℕ}
    (hk : k ∈ (Dict.den (fun w : ℚ => (w : ℝ)) (fun k => Finsupp.single (D.idxOf k) (1 : ℝ)) d).support) :
    ∃ kw ∈ d, kw.2 ≠ 0 ∧ D.idxOf kw.1 = k := by
  induction d with
  | nil => simp at hk
  | cons a d ih =>
    rw [Dict.den_cons] at hk
    rcases Finset.mem_union.1 (Finsupp.support_add hk) with h1 | h1
    · refine ⟨a, by simp, ?_, ?_⟩
      · intro h0; rw [h0] at h1; simp at h1
      · have := Finsupp.support_smul h1
        rw [Finsupp.support_single _ one_ne_zero, Finset.mem_singleton] at this
        exact this.symm
    · obtain ⟨kw, h2, h3⟩ := ih h1
      exact ⟨kw, by simp [h2], h3⟩

theorem sum_of_comb {D : List FnId} {d : Dict FnId ℚ} (hD : ∀ k ∈ d.keys, k ∈ D) {SR : ℕ → E → E → ℝ → Prop} {x g : E} {v : ℝ}
    (s : Comb (SRel D SR) d x g v) :
    SumSample SR (Dict.den (fun w : ℚ => (w : ℝ)) (fun k => Finsupp.single (D.idxOf k) (1 : ℝ)) d) x g v := by
  obtain ⟨G, V, hs, hg, hv⟩ := s
  have hget : ∀ k ∈ d.keys, D.getD (D.idxOf k) 0 = k := by
    intro k hk
    have hlt := List.idxOf_lt_length_of_mem (hD k hk)
    rw [List.getD_eq_getElem?_getD, List.getElem?_eq_getElem hlt]
    exact List.getElem_idxOf hlt
  refine ⟨fun k => G (D.getD k 0), fun k => V (D.getD k 0), ?_, ?_, ?_⟩
  · intro k hk
    obtain ⟨kw, h1, h2, rfl⟩ := support_of_den hk
    have := hs kw h1 h2
    simp only [hget kw.1 (List.mem_map_of_mem h1)]
    exact this
  · rw [hg, weights_sum]
    exact Dict.den_congr _ _ fun k hk => by rw [hget k hk]
  · rw [hv]
    have := weights_sum D d fun k => V (D.getD k 0)
    simp only [smul_eq_mul] at this
    rw [this]
    exact Dict.den_congr _ _ fun k hk => by rw [hget k hk]

theorem sim_sample (i : Inv C r h) {SR : ℕ → E → E → ℝ → Prop} {env} {φ : PtId → E} {ψ} {D : List FnId} {rr : RRegs E}
    (s : SimRegs D env φ ψ r h rr) (hD : r.decl <+: D) (ht : h.TrueSamples (SRel D SR) env φ ψ) {f : ℕ} (hf : f < r.fns.length)
    {o : FnObj} (ho : h.fns[r.fns[f]]? = some o) {t : Triplet} (hm : t ∈ o.points) :
    SumSample SR (rr.fns.getD f 0) (h.ptVal env φ t.1) (h.ptVal env φ t.2.1) (h.exVal env φ ψ t.2.2) := by
  have hl := i.fns _ (List.getElem_mem hf)
  rw [s.fns, getD_map _ _ _ hf, fnW_of ho]
  exact sum_of_comb (fun k hk => hD.subset (i.keys_decl hl ho k hk)) (ht _ hl o ho t hm)

/-- true samples after a call were true samples before it -/
theorem Heap.TrueSamples.anti (hC : C.Lawful) (w : WF C h) (e : Ext C h h') {S : FnId → E → E → ℝ → Prop} {env} {φ : PtId → E} {ψ}
    (ht : h'.TrueSamples S env φ ψ) : h.TrueSamples S env φ ψ := by
  intro f hf o ho t hm
  obtain ⟨o', ho', fe⟩ := e.fns f o ho
  have := ht f (e.fnList.subset hf) o' ho' t (fe.points.subset hm)
  obtain ⟨o2, ho2, ok⟩ := w.fn f hf
  rw [ho] at ho2; cases ho2
  have tl := ok.points t hm
  rw [e.ptVal hC tl.1.isPt, e.ptVal hC tl.2.1.isPt, e.exVal hC tl.2.2.isEx] at this
  rcases fe.dict with hd | hd
  · rwa [hd] at this
  · rw [hd] at this
    exact comb_prune.1 this

end

/-- a call that succeeded can be taken on real data -/
def BackRes (ins : Instr) (r : Regs) (h : Heap) (r' : Regs) (h' : Heap) : Prop :=
  ∀ (E : Type) [NormedAddCommGroup E] [InnerProductSpace ℝ E] (SR : ℕ → E → E → ℝ → Prop) (env) (φ : PtId → E) (ψ)
    (D : List FnId) (rr : RRegs E), r'.decl <+: D → h'.TrueSamples (SRel D SR) env φ ψ → SimRegs D env φ ψ r h rr →
    ∃ rr', Step SR env ins rr rr' ∧ SimRegs D env φ ψ r' h' rr'

theorem backRes_of (hC : C.Lawful) {ins : Instr} (i : Inv C r h) (e : Ext C h h') (w : WF C h') (fl : h'.fnList = h.fnList)
    (ps : List PtId) (es : List ExId)
    (back : ∀ (E : Type) [NormedAddCommGroup E] [InnerProductSpace ℝ E] (SR : ℕ → E → E → ℝ → Prop) (env) (φ : PtId → E) (ψ)
      (D : List FnId) (rr : RRegs E), r.decl <+: D → Inv C r h' → h'.TrueSamples (SRel D SR) env φ ψ → SimRegs D env φ ψ r h rr →
      SimRegs D env φ ψ r h' rr →
      Step SR env ins rr { rr with pts := rr.pts ++ ps.map (h'.ptVal env φ), exs := rr.exs ++ es.map (h'.exVal env φ ψ) }) :
    BackRes ins r h { r with pts := r.pts ++ ps, exs := r.exs ++ es } h' := by
  intro E _ _ SR env φ ψ D rr hD ht s
  have s' := s.mono hC i e (Agree.refl _ _ _)
  refine ⟨_, back E SR env φ ψ D rr hD (i.mono e w (leafFns_ext i.wf e fl)) ht s s', ?_⟩
  exact ⟨by simp [s'.pts], by simp [s'.exs], s'.fns, s'.ndecl, s'.cons, s'.metric⟩

/-- the sample recorded by `add_point` -/
theorem add_sample {h1 : Heap} {f : ℕ} {t : Triplet} (a : AddRes C h1 f t h') {o : FnObj} (ho : h1.fns[f]? = some o) :
    ∃ o', h'.fns[f]? = some o' ∧ t ∈ o'.points := by
  obtain ⟨o', h1, h2⟩ := a.points ho
  exact ⟨o', h1, by rw [h2]; simp⟩

variable (hC : C.Lawful) (i : Inv C r h)
include hC i

theorem back_pt {a : PE} (hr : (Instr.pt a).run C r h = .ok (r', h')) : BackRes (.pt a) r h r' h' := by
  have hs := Instr.safe_of_ok hr
  obtain ⟨q, h1, pr, hv⟩ := PE.run_live hC a i.pts hs
  have p := Prep.onlyAdds i.wf pr.adds
  rw [Instr.run, M.bind_of_ok pr.run] at hr
  cases hr
  have := backRes_of (ins := .pt a) hC i p.ext p.wf p.fnList [q] [] ?_
  · simpa using this
  · intro E _ _ SR env φ ψ D rr hD i' ht s s'
    have e : [q].map (h'.ptVal env φ) = [a.den env rr.pts] := by simp [hv E env φ, s.pts]
    rw [e]; simpa using Step.pt rr a

theorem back_ex {a : EE} (hr : (Instr.ex a).run C r h = .ok (r', h')) : BackRes (.ex a) r h r' h' := by
  have hs := Instr.safe_of_ok hr
  obtain ⟨q, h1, pr, hv⟩ := EE.run_live hC a i.pts i.exs hs
  have p := Prep.onlyAdds i.wf pr.adds
  rw [Instr.run, M.bind_of_ok pr.run] at hr
  cases hr
  have := backRes_of (ins := .ex a) hC i p.ext p.wf p.fnList [] [q] ?_
  · simpa using this
  · intro E _ _ SR env φ ψ D rr hD i' ht s s'
    have e : [q].map (h'.exVal env φ ψ) = [a.den env rr.pts rr.exs] := by simp [hv E env φ ψ, s.pts, s.exs]
    rw [e]; simpa using Step.ex rr a

theorem back_initial (hr : (Instr.initial).run C r h = .ok (r', h')) : BackRes .initial r h r' h' := by
  have p := Prep.leafPt i.wf
  rw [Instr.run, M.bind_of_ok (newLeafPt_run h)] at hr
  cases hr
  have := backRes_of (ins := .initial) hC i p.ext p.wf p.fnList [h.pts.length] [] ?_
  · simpa using this
  · intro E _ _ SR env φ ψ D rr hD i' ht s s'
    simpa using Step.initial rr _

theorem back_stationary {f : ℕ} (hr : (Instr.stationary f).run C r h = .ok (r', h')) : BackRes (.stationary f) r h r' h' := by
  have hs := Instr.safe_of_ok hr
  have hf : f < r.fns.length := by simp only [Instr.Safe, decide_eq_true_eq] at hs; exact hs
  have hm := i.fns _ (List.getElem_mem hf)
  obtain ⟨o, ho, -⟩ := i.wf.fn _ hm
  obtain ⟨h1, hr1, ha⟩ := stationary_run hC i.wf hm
  have p := statHeap_prep i.wf
  have hl := statHeap_live i.wf
  rw [Instr.run, M.bind_of_ok (regGet_run hf h), M.bind_of_ok hr1] at hr
  cases hr
  refine backRes_of hC i (p.ext.trans ha.ext) ha.wf (ha.fnList.trans p.fnList) [_, _] [_] ?_
  intro E _ _ SR env φ ψ D rr hD i' ht s s'
  have hv := statHeap_val hC i.wf env φ ψ
  obtain ⟨o', ho', hmem⟩ := add_sample ha (by rw [p.fns]; exact ho)
  have hss := sim_sample i' s' hD ht hf ho' hmem
  have h0 : h'.ptVal env φ (h.pts.length + 1) = 0 := by rw [ha.ext.ptVal hC hl.2.1.isPt]; exact hv.2.1
  simp only [List.map_cons, List.map_nil]
  simp only at hss
  rw [h0] at hss ⊢
  exact Step.stationary rr f _ _ hss

theorem back_conj {g f : ℕ} (hr : (Instr.conj g f).run C r h = .ok (r', h')) : BackRes (.conj g f) r h r' h' := by
  have hs := Instr.safe_of_ok hr
  have ⟨hg, hf⟩ : g < r.pts.length ∧ f < r.fns.length := by simp only [Instr.Safe, Bool.and_eq_true, decide_eq_true_eq] at hs; exact hs
  have hm := i.fns _ (List.getElem_mem hf)
  have hgl := i.pts _ (List.getElem_mem hg)
  obtain ⟨o, ho, -⟩ := i.wf.fn _ hm
  obtain ⟨h1, hr1, ha⟩ := conj_run hC i.wf hm hgl
  have p := conjHeap_prep i.wf
  rw [Instr.run, M.bind_of_ok (regGet_run hg h), M.bind_of_ok (regGet_run hf h), M.bind_of_ok hr1] at hr
  cases hr
  have := backRes_of (ins := .conj g f) hC i (p.ext.trans ha.ext) ha.wf (ha.fnList.trans p.fnList) [h.pts.length] [] ?_
  · simpa using this
  intro E _ _ SR env φ ψ D rr hD i' ht s s'
  obtain ⟨o', ho', hmem⟩ := add_sample ha (by rw [p.fns]; exact ho)
  have hss := sim_sample i' s' hD ht hf ho' hmem
  simp only at hss
  have : h'.ptVal env φ r.pts[g] = rr.pts.getD g 0 := by rw [s'.pts, getD_map _ _ _ hg]
  rw [this] at hss
  simpa using Step.conj rr g f _ _ hss

theorem back_prox {x0 f : ℕ} {gamma : Sym} (hr : (Instr.prox x0 f gamma).run C r h = .ok (r', h')) :
    BackRes (.prox x0 f gamma) r h r' h' := by
  have hs := Instr.safe_of_ok hr
  have ⟨hg, hf⟩ : x0 < r.pts.length ∧ f < r.fns.length := by simp only [Instr.Safe, Bool.and_eq_true, decide_eq_true_eq] at hs; exact hs
  have hm := i.fns _ (List.getElem_mem hf)
  have hgl := i.pts _ (List.getElem_mem hg)
  obtain ⟨o, ho, -⟩ := i.wf.fn _ hm
  obtain ⟨q, h1, h2, hadds, hq, hval, hr1, ha⟩ := prox_run hC i.wf gamma hm hgl
  have p1 := conjHeap_prep i.wf
  have p2 := Prep.onlyAdds p1.wf hadds
  have p := p1.trans p2
  have hl := conjHeap_live i.wf
  have l1 := p2.ext.ptLive hl.1
  rw [Instr.run, M.bind_of_ok (regGet_run hg h), M.bind_of_ok (regGet_run hf h), M.bind_of_ok hr1] at hr
  cases hr
  refine backRes_of hC i (p.ext.trans ha.ext) ha.wf (ha.fnList.trans p.fnList) [_, _] [_] ?_
  intro E _ _ SR env φ ψ D rr hD i' ht s s'
  obtain ⟨o', ho', hmem⟩ := add_sample ha (by rw [p.fns]; exact ho)
  have hss := sim_sample i' s' hD ht hf ho' hmem
  simp only at hss
  have hv := conjHeap_val hC i.wf env φ ψ
  have hx : h'.ptVal env φ q + gamma.eval env • h'.ptVal env φ h.pts.length = rr.pts.getD x0 0 := by
    rw [ha.ext.ptVal hC hq.isPt, ha.ext.ptVal hC l1.isPt, p2.ext.ptVal hC hl.1.isPt, hval, hv.1, s.pts, getD_map _ _ _ hg]
    simp
  exact Step.prox rr x0 f gamma _ _ _ hss hx

theorem back_addPoint {f x g v : ℕ} (hr : (Instr.addPoint f x g v).run C r h = .ok (r', h')) : BackRes (.addPoint f x g v) r h r' h' := by
  have hs := Instr.safe_of_ok hr
  have ⟨⟨⟨hf, hx⟩, hg⟩, hv⟩ : ((f < r.fns.length ∧ x < r.pts.length) ∧ g < r.pts.length) ∧ v < r.exs.length := by
    simp only [Instr.Safe, Bool.and_eq_true, decide_eq_true_eq] at hs; exact hs
  have hm := i.fns _ (List.getElem_mem hf)
  obtain ⟨o, ho, -⟩ := i.wf.fn _ hm
  obtain ⟨h1, hr1, ha⟩ := addPoint_run hC i.wf hm (t := (r.pts[x], r.pts[g], r.exs[v]))
    ⟨i.pts _ (List.getElem_mem hx), i.pts _ (List.getElem_mem hg), i.exs _ (List.getElem_mem hv)⟩
  rw [Instr.run, M.bind_of_ok (regGet_run hf h), M.bind_of_ok (regGet_run hx h), M.bind_of_ok (regGet_run hg h),
      M.bind_of_ok (regGet_run hv h), M.bind_of_ok hr1] at hr
  cases hr
  have := backRes_of (ins := .addPoint f x g v) hC i ha.ext ha.wf ha.fnList [] [] ?_
  · simpa using this
  intro E _ _ SR env φ ψ D rr hD i' ht s s'
  obtain ⟨o', ho', hmem⟩ := add_sample ha ho
  have hss := sim_sample i' s' hD ht hf ho' hmem
  simp only at hss
  have e1 : h'.ptVal env φ r.pts[x] = rr.pts.getD x 0 := by rw [s'.pts, getD_map _ _ _ hx]
  have e2 : h'.ptVal env φ r.pts[g] = rr.pts.getD g 0 := by rw [s'.pts, getD_map _ _ _ hg]
  have e3 : h'.exVal env φ ψ r.exs[v] = rr.exs.getD v 0 := by rw [s'.exs, getD_map _ _ _ hv]
  rw [e1, e2, e3] at hss
  simpa using Step.addPoint rr f x g v hss

theorem back_oracle_aux {f x : ℕ} (hf : f < r.fns.length) (hx : x < r.pts.length) {g : PtId} {v : ExId}
    (ho : OracleRes C h r.fns[f] r.pts[x] g v h') {E : Type} [NormedAddCommGroup E] [InnerProductSpace ℝ E]
    {SR : ℕ → E → E → ℝ → Prop} {env} {φ : PtId → E} {ψ} {D : List FnId} {rr : RRegs E} (hD : r.decl <+: D) (i' : Inv C r h')
    (ht : h'.TrueSamples (SRel D SR) env φ ψ) (s' : SimRegs D env φ ψ r h' rr) :
    SumSample SR (rr.fns.getD f 0) (rr.pts.getD x 0) (h'.ptVal env φ g) (h'.exVal env φ ψ v) := by
  have hm := i.fns _ (List.getElem_mem hf)
  have hx' : h'.ptVal env φ r.pts[x] = rr.pts.getD x 0 := by rw [s'.pts, getD_map _ _ _ hx]
  rcases ho.cases with ⟨hl, -, rfl⟩ | ⟨-, -, hpts, -⟩
  · obtain ⟨o, p, hfo, hmem, hsp⟩ := lookup_some hC i.wf hm (i.pts _ (List.getElem_mem hx)) hl
    have hss := sim_sample i' s' hD ht hf hfo hmem
    simp only at hss
    rwa [hsp E env φ, hx'] at hss
  · obtain ⟨o, hfo, -⟩ := i.wf.fn _ hm
    obtain ⟨o', ho', -⟩ := ho.ext.fns _ _ hfo
    have hss := sim_sample i' s' hD ht hf ho' (t := (r.pts[x], g, v)) (by rw [hpts o o' hfo ho']; simp)
    simp only at hss
    rwa [hx'] at hss

theorem back_oracle {f x : ℕ} (hr : (Instr.oracle f x).run C r h = .ok (r', h')) : BackRes (.oracle f x) r h r' h' := by
  have hs := Instr.safe_of_ok hr
  have ⟨hf, hx⟩ : f < r.fns.length ∧ x < r.pts.length := by simp only [Instr.Safe, Bool.and_eq_true, decide_eq_true_eq] at hs; exact hs
  obtain ⟨g, v, h1, hr1, ho⟩ := oracle_run hC i.wf (i.fns _ (List.getElem_mem hf)) (i.pts _ (List.getElem_mem hx))
  rw [Instr.run, M.bind_of_ok (regGet_run hf h), M.bind_of_ok (regGet_run hx h), M.bind_of_ok hr1] at hr
  cases hr
  refine backRes_of hC i ho.ext ho.wf ho.fnList [g] [v] ?_
  intro E _ _ SR env φ ψ D rr hD i' ht s s'
  exact Step.oracle rr f x _ _ (back_oracle_aux hC i hf hx ho hD i' ht s')

theorem back_gradient {f x : ℕ} (hr : (Instr.gradient f x).run C r h = .ok (r', h')) : BackRes (.gradient f x) r h r' h' := by
  have hs := Instr.safe_of_ok hr
  have ⟨hf, hx⟩ : f < r.fns.length ∧ x < r.pts.length := by simp only [Instr.Safe, Bool.and_eq_true, decide_eq_true_eq] at hs; exact hs
  obtain ⟨g, v, h1, hr1, ho⟩ := oracle_run hC i.wf (i.fns _ (List.getElem_mem hf)) (i.pts _ (List.getElem_mem hx))
  rw [Instr.run, M.bind_of_ok (regGet_run hf h), M.bind_of_ok (regGet_run hx h), M.bind_of_ok (gradient_run hr1)] at hr
  cases hr
  have := backRes_of (ins := .gradient f x) hC i ho.ext ho.wf ho.fnList [g] [] ?_
  · simpa using this
  intro E _ _ SR env φ ψ D rr hD i' ht s s'
  simpa using Step.gradient rr f x _ _ (back_oracle_aux hC i hf hx ho hD i' ht s')

theorem back_value {f x : ℕ} (hr : (Instr.value f x).run C r h = .ok (r', h')) : BackRes (.value f x) r h r' h' := by
  have hs := Instr.safe_of_ok hr
  have ⟨hf, hx⟩ : f < r.fns.length ∧ x < r.pts.length := by simp only [Instr.Safe, Bool.and_eq_true, decide_eq_true_eq] at hs; exact hs
  have hm := i.fns _ (List.getElem_mem hf)
  have hxl := i.pts _ (List.getElem_mem hx)
  rcases value_run hC i.wf hm hxl with ⟨g, v, hl, hr1⟩ | ⟨-, g, v, h1, hor, hr1⟩
  · rw [Instr.run, M.bind_of_ok (regGet_run hf h), M.bind_of_ok (regGet_run hx h), M.bind_of_ok hr1] at hr
    cases hr
    have := backRes_of (ins := .value f x) hC i (Ext.refl h) i.wf rfl [] [v] ?_
    · simpa using this
    intro E _ _ SR env φ ψ D rr hD i' ht s s'
    obtain ⟨o, p, hfo, hmem, hsp⟩ := lookup_some hC i.wf hm hxl hl
    have hss := sim_sample i' s' hD ht hf hfo hmem
    have hx' : h.ptVal env φ r.pts[x] = rr.pts.getD x 0 := by rw [s'.pts, getD_map _ _ _ hx]
    simp only at hss
    rw [hsp E env φ, hx'] at hss
    simpa using Step.value rr f x _ _ hss
  · obtain ⟨g', v', h'', hor', ho⟩ := oracle_run hC i.wf hm hxl
    rw [hor] at hor'
    cases hor'
    rw [Instr.run, M.bind_of_ok (regGet_run hf h), M.bind_of_ok (regGet_run hx h), M.bind_of_ok hr1] at hr
    cases hr
    have := backRes_of (ins := .value f x) hC i ho.ext ho.wf ho.fnList [] [v] ?_
    · simpa using this
    intro E _ _ SR env φ ψ D rr hD i' ht s s'
    simpa using Step.value rr f x _ _ (back_oracle_aux hC i hf hx ho hD i' ht s')

omit hC i in
theorem back_constr {e : ℕ} {k : Kind} (hr : (Instr.constr e k).run C r h = .ok (r', h')) : BackRes (.constr e k) r h r' h' := by
  have hs := Instr.safe_of_ok hr
  have he : e < r.exs.length := by simp only [Instr.Safe, decide_eq_true_eq] at hs; exact hs
  rw [Instr.run, M.bind_of_ok (regGet_run he h)] at hr
  cases hr
  intro E _ _ SR env φ ψ D rr hD ht s
  refine ⟨_, Step.constr rr e k, s.pts, s.exs, s.fns, s.ndecl, ?_, s.metric⟩
  simp only [List.map_append, List.map_cons, List.map_nil]
  rw [s.cons, s.exs, getD_map _ _ _ he]

omit hC i in
theorem back_metric {e : ℕ} (hr : (Instr.metric e).run C r h = .ok (r', h')) : BackRes (.metric e) r h r' h' := by
  have hs := Instr.safe_of_ok hr
  have he : e < r.exs.length := by simp only [Instr.Safe, decide_eq_true_eq] at hs; exact hs
  rw [Instr.run, M.bind_of_ok (regGet_run he h)] at hr
  cases hr
  intro E _ _ SR env φ ψ D rr hD ht s
  refine ⟨_, Step.metric rr e, s.pts, s.exs, s.fns, s.ndecl, s.cons, ?_⟩
  simp only [Option.map_some]
  rw [s.exs, getD_map _ _ _ he]

omit hC i in
theorem back_objective {e : Sym} (hr : (Instr.objective e).run C r h = .ok (r', h')) : BackRes (.objective e) r h r' h' := by
  cases hr
  intro E _ _ SR env φ ψ D rr hD ht s
  exact ⟨_, Step.objective rr e, s.pts, s.exs, s.fns, s.ndecl, s.cons, s.metric⟩

theorem back_fn {a : FE} (hr : (Instr.fn a).run C r h = .ok (r', h')) : BackRes (.fn a) r h r' h' := by
  have hs := Instr.safe_of_ok hr
  obtain ⟨q, h1, hr1, ad, hq, hv⟩ := FE.run_live a i.wf i.fns hs
  rw [Instr.run, M.bind_of_ok hr1] at hr
  cases hr
  intro E _ _ SR env φ ψ D rr hD ht s
  have s' := s.mono hC i ad.ext (Agree.refl _ _ _)
  refine ⟨_, Step.fn rr a, s'.pts, s'.exs, ?_, s'.ndecl, s'.cons, s'.metric⟩
  show rr.fns ++ [a.den rr.fns] = List.map (fnW D h') (r.fns ++ [q])
  rw [List.map_append, ← s'.fns, List.map_singleton, hv D, ← s.fns]

theorem back_declare {d : FnDecl} (hr : (Instr.declare d).run C r h = .ok (r', h')) : BackRes (.declare d) r h r' h' := by
  -- the simulation lemma of `declare` gives the registers of its only execution
  have hs := Instr.safe_of_ok hr
  obtain ⟨r1, h1, hr1, st⟩ := step_all hC i (.declare d) hs
  rw [hr] at hr1
  cases hr1
  intro E _ _ SR env φ ψ D rr hD ht s
  have step := Step.declare (SR := SR) (env := env) rr d
  refine ⟨_, step, ?_⟩
  have s' := s.mono hC i st.ext (Agree.refl _ _ _)
  obtain ⟨f, h2, e1, hr2⟩ := M.bind_ok_iff.1 hr
  simp only [pure, M.pure, Except.ok.injEq, Prod.mk.injEq] at hr2
  obtain ⟨rfl, rfl⟩ := hr2
  refine ⟨s'.pts, s'.exs, ?_, ?_, s'.cons, s'.metric⟩
  · obtain ⟨o, ho, hl, -, -⟩ := declare_declared e1
    have hm : f ∈ h2.fnList := st.inv.fns f (by simp)
    obtain ⟨o2, ho2, ok⟩ := st.inv.wf.fn f hm
    rw [ho] at ho2; cases ho2
    show rr.fns ++ _ = List.map (fnW D h2) (r.fns ++ [f])
    rw [List.map_append, ← s'.fns, List.map_singleton]
    congr 2
    rw [fnW_of ho, ok.leafDict hl]
    have hidx : List.idxOf f D = r.decl.length := by
      obtain ⟨t, rfl⟩ := hD
      have hnot : f ∉ r.decl := by
        have := st.inv.declNodup
        intro hh
        exact (List.nodup_append.1 this).2.2 f hh f (by simp) rfl
      simp only [List.append_assoc]
      rw [List.idxOf_append_of_notMem hnot]; simp
    simp only [Dict.den, List.map_cons, List.map_nil, List.sum_cons, List.sum_nil, hidx, s.ndecl]
    simp
  · simp [s.ndecl]

theorem back_all (ins : Instr) (hr : ins.run C r h = .ok (r', h')) : BackRes ins r h r' h' := by
  cases ins with
  | declare d => exact back_declare hC i hr
  | fn a => exact back_fn hC i hr
  | pt a => exact back_pt hC i hr
  | ex a => exact back_ex hC i hr
  | initial => exact back_initial hC i hr
  | stationary f => exact back_stationary hC i hr
  | oracle f x => exact back_oracle hC i hr
  | gradient f x => exact back_gradient hC i hr
  | value f x => exact back_value hC i hr
  | prox x0 f gamma => exact back_prox hC i hr
  | conj g f => exact back_conj hC i hr
  | addPoint f x g v => exact back_addPoint hC i hr
  | constr e k => exact back_constr hr
  | metric e => exact back_metric hr
  | objective e => exact back_objective hr

omit i in
theorem prog_back (prog : List Instr) : ∀ {r r' : Regs} {h h' : Heap}, Inv C r h → runProg C prog r h = .ok (r', h') →
    ∀ {E : Type} [NormedAddCommGroup E] [InnerProductSpace ℝ E] {SR : ℕ → E → E → ℝ → Prop} {env} {φ : PtId → E} {ψ}
      {D : List FnId} {rr : RRegs E}, r'.decl <+: D → h'.TrueSamples (SRel D SR) env φ ψ → SimRegs D env φ ψ r h rr →
    ∃ rr', Exec SR env prog rr rr' ∧ SimRegs D env φ ψ r' h' rr' := by
  induction prog with
  | nil =>
    intro r r' h h' i hr E _ _ SR env φ ψ D rr hD ht s
    obtain ⟨rfl, rfl⟩ : r = r' ∧ h = h' := by simpa [runProg, pure, M.pure] using hr
    exact ⟨rr, .nil _, s⟩
  | cons ins prog ih =>
    intro r r' h h' i hr E _ _ SR env φ ψ D rr hD ht s
    obtain ⟨r1, h1, e1, hr⟩ := M.bind_ok_iff.1 hr
    have i1 : Inv C r1 h1 := (prog_all hC [ins] i (r' := r1) (h' := h1)
      (by rw [runProg, M.bind_of_ok e1]; rfl)).inv
    have pr := prog_all hC prog i1 hr
    obtain ⟨rr1, st, s1⟩ := back_all hC i ins e1 E SR env φ ψ D rr (pr.decl.trans hD) (ht.anti hC i1.wf pr.ext) s
    obtain ⟨rr2, ex, s2⟩ := ih i1 hr hD ht s1
    exact ⟨rr2, .cons st ex, s2⟩

end Verif
