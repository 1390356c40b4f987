import Verif.Proofs.ProgramStep

namespace Verif
open Heap

variable {C : CAS} {h h' : Heap} {r : Regs}

theorem sim_comb (i : Inv C r h) {E : Type} [NormedAddCommGroup E] [InnerProductSpace ℝ E] {SR : ℕ → E → E → ℝ → Prop}
    {env} {φ : PtId → E} {ψ} {D : List FnId} {rr : RRegs E} (s : SimRegs D env φ ψ r h rr) (hD : r.decl <+: D)
    {f : ℕ} (hf : f < r.fns.length) {o : FnObj} (ho : h.fns[r.fns[f]]? = some o) {x g : E} {v : ℝ}
    (hs : SumSample SR (rr.fns.getD f 0) x g v) : Comb (SRel D SR) o.dict x g v := by
  have hm := i.fns _ (List.getElem_mem hf)
  rw [s.fns, getD_map _ _ _ hf, fnW_of ho] at hs
  exact comb_of_sum (dict_leaf_keys i.wf hm ho).1 (fun k hk => hD.subset (i.keys_decl hm ho k hk)) hs

theorem stepRes_of (hC : C.Lawful) {ins : Instr} (i : Inv C r h) (e : Ext C h h') (w : WF C h') (fl : h'.fnList = h.fnList)
    (ps : List PtId) (es : List ExId) (hps : ∀ p ∈ ps, h'.PtLive p) (hes : ∀ p ∈ es, h'.ExLive p)
    (hc : ins.next r.counts = ⟨r.pts.length + ps.length, r.exs.length + es.length, r.fns.length⟩)
    (sim : ∀ (E : Type) [NormedAddCommGroup E] [InnerProductSpace ℝ E] (SR : ℕ → E → E → ℝ → Prop) (env) (φ : PtId → E) (ψ)
      (D : List FnId) (rr rr' : RRegs E), r.decl <+: D → D.Nodup → h'.Functional (SRel D SR) →
      SimRegs D env φ ψ r h rr → h.TrueSamples (SRel D SR) env φ ψ → Step SR env ins rr rr' →
      ∃ φ' ψ', h.Agree φ φ' ψ ψ' ∧ h'.TrueSamples (SRel D SR) env φ' ψ' ∧
        rr' = { rr with pts := rr.pts ++ ps.map (h'.ptVal env φ'), exs := rr.exs ++ es.map (h'.exVal env φ' ψ') }) :
    StepRes C ins r h { r with pts := r.pts ++ ps, exs := r.exs ++ es } h' := by
  have i' := (((i.mono e w (leafFns_ext i.wf e fl)).appendPts hps).appendExs (r := { r with pts := r.pts ++ ps }) hes)
  refine ⟨e, i', ?_, List.prefix_rfl, ?_⟩
  · rw [hc]; simp [Regs.counts]
  · intro E _ _ SR env φ ψ D rr rr' hD hn hF hs ht st
    obtain ⟨φ', ψ', a, t', rfl⟩ := sim E SR env φ ψ D rr rr' hD hn hF hs ht st
    refine ⟨φ', ψ', a, ?_, t'⟩
    have s' := hs.mono hC i e a
    exact ⟨by simp [s'.pts], by simp [s'.exs], s'.fns, s'.ndecl, s'.cons, s'.metric⟩

/-- samples after a point was added -/
theorem sim_add (hC : C.Lawful) (w : WF C h) {h1 : Heap} (p : Prep C h h1) {f : ℕ} {t : Triplet} (a : AddRes C h1 f t h') {o : FnObj}
    (ho : h.fns[f]? = some o) {E : Type} [NormedAddCommGroup E] [InnerProductSpace ℝ E] {S : FnId → E → E → ℝ → Prop}
    {env} {φ φ1 : PtId → E} {ψ ψ1} (hF : h'.Functional S) (ht : h.TrueSamples S env φ ψ) (ag : h.Agree φ φ1 ψ ψ1)
    (hc : Comb S o.dict (h1.ptVal env φ1 t.1) (h1.ptVal env φ1 t.2.1) (h1.exVal env φ1 ψ1 t.2.2)) :
    ∃ φ' ψ', h.Agree φ φ' ψ ψ' ∧ h'.TrueSamples S env φ' ψ' ∧ (∀ q : ℕ, h1.PtLive q → h'.ptVal env φ' q = h1.ptVal env φ1 q) ∧
      ∀ q : ℕ, h1.ExLive q → h'.exVal env φ' ψ' q = h1.exVal env φ1 ψ1 q := by
  obtain ⟨φ', ψ', b, t'⟩ := a.sim o (by rw [p.fns]; exact ho) E S env φ1 ψ1 (hF.anti a.ext) (p.trueSamples hC w ag ht) hc
  exact ⟨φ', ψ', ag.trans p.ext b, t', fun q hq => b.ptVal hC a.ext hq env, fun q hq => b.exVal hC a.ext hq env⟩

theorem agree_update2 (w : WF C h) {E : Type} [NormedAddCommGroup E] [InnerProductSpace ℝ E] (φ : PtId → E) (ψ : ExId → ℝ) (G : E) (V : ℝ) :
    h.Agree φ (Function.update φ h.pts.length G) ψ (Function.update ψ h.exs.length V) :=
  ⟨(agree_updatePt w φ ψ G).pt, (agree_updateEx w φ ψ V).ex⟩

variable (hC : C.Lawful) (i : Inv C r h)
include hC i

theorem step_pt {a : PE} (hs : (Instr.pt a).Safe r.counts = true) :
    ∃ r' h', (Instr.pt a).run C r h = .ok (r', h') ∧ StepRes C (.pt a) r h r' h' := by
  obtain ⟨q, h', pr, hv⟩ := PE.run_live hC a i.pts hs
  have p := Prep.onlyAdds i.wf pr.adds
  refine ⟨_, h', by rw [Instr.run, M.bind_of_ok pr.run]; rfl, ?_⟩
  have := stepRes_of (ins := .pt a) hC i p.ext p.wf p.fnList [q] [] (by simpa using pr.live) (by simp) rfl ?_
  · simpa using this
  · intro E _ _ SR env φ ψ D rr rr' hD hn hF s ht st
    cases st
    refine ⟨φ, ψ, Agree.refl _ _ _, p.trueSamples hC i.wf (Agree.refl _ _ _) ht, ?_⟩
    simp [hv E env φ, s.pts]

theorem step_ex {a : EE} (hs : (Instr.ex a).Safe r.counts = true) :
    ∃ r' h', (Instr.ex a).run C r h = .ok (r', h') ∧ StepRes C (.ex a) r h r' h' := by
  obtain ⟨q, h', pr, hv⟩ := EE.run_live hC a i.pts i.exs hs
  have p := Prep.onlyAdds i.wf pr.adds
  refine ⟨_, h', by rw [Instr.run, M.bind_of_ok pr.run]; rfl, ?_⟩
  have := stepRes_of (ins := .ex a) hC i p.ext p.wf p.fnList [] [q] (by simp) (by simpa using pr.live) rfl ?_
  · simpa using this
  · intro E _ _ SR env φ ψ D rr rr' hD hn hF s ht st
    cases st
    refine ⟨φ, ψ, Agree.refl _ _ _, p.trueSamples hC i.wf (Agree.refl _ _ _) ht, ?_⟩
    simp [hv E env φ ψ, s.pts, s.exs]

theorem step_initial : ∃ r' h', (Instr.initial).run C r h = .ok (r', h') ∧ StepRes C .initial r h r' h' := by
  have p := Prep.leafPt i.wf
  refine ⟨_, _, by rw [Instr.run, M.bind_of_ok (newLeafPt_run h)]; rfl, ?_⟩
  have := stepRes_of (ins := .initial) hC i p.ext p.wf p.fnList [h.pts.length] [] (by simpa using addLeafPt_live h) (by simp) rfl ?_
  · simpa using this
  · intro E _ _ SR env φ ψ D rr rr' hD hn hF s ht st
    cases st with
    | initial _ x =>
    refine ⟨_, ψ, agree_updatePt i.wf φ ψ x, p.trueSamples hC i.wf (agree_updatePt i.wf φ ψ x) ht, ?_⟩
    simp [addLeafPt_val]

theorem step_stationary {f : ℕ} (hs : (Instr.stationary f).Safe r.counts = true) :
    ∃ r' h', (Instr.stationary f).run C r h = .ok (r', h') ∧ StepRes C (.stationary f) r h r' h' := by
  have hf : f < r.fns.length := by simp only [Instr.Safe, Bool.and_eq_true, decide_eq_true_eq] at hs; exact hs
  have hm := i.fns _ (List.getElem_mem hf)
  obtain ⟨o, ho, -⟩ := i.wf.fn _ hm
  obtain ⟨h', hr, ha⟩ := stationary_run hC i.wf hm
  have p := statHeap_prep i.wf
  have hl := statHeap_live i.wf
  refine ⟨_, h', by rw [Instr.run, M.bind_of_ok (regGet_run hf h), M.bind_of_ok hr]; rfl, ?_⟩
  refine stepRes_of hC i (p.ext.trans ha.ext) ha.wf (ha.fnList.trans p.fnList) [_, _] [_] ?_ ?_ rfl ?_
  · simp only [List.mem_cons, List.not_mem_nil, or_false, forall_eq_or_imp, forall_eq]
    exact ⟨ha.ext.ptLive hl.1, ha.ext.ptLive hl.2.1⟩
  · simpa using ha.ext.exLive hl.2.2
  · intro E _ _ SR env φ ψ D rr rr' hD hn hF s ht st
    cases st with
    | stationary _ _ x v hss =>
    have hv := statHeap_val hC i.wf env (Function.update φ h.pts.length x) (Function.update ψ h.exs.length v)
    obtain ⟨φ', ψ', ag, t', hp, he⟩ := sim_add hC i.wf p ha ho hF ht (agree_update2 i.wf φ ψ x v)
      (by
        show Comb _ _ ((statHeap h).ptVal env _ h.pts.length) ((statHeap h).ptVal env _ (h.pts.length + 1))
          ((statHeap h).exVal env _ _ h.exs.length)
        rw [hv.1, hv.2.1, hv.2.2]
        simpa using sim_comb i s hD hf ho hss)
    refine ⟨φ', ψ', ag, t', ?_⟩
    simp [hp _ hl.1, hp _ hl.2.1, he _ hl.2.2, hv.1, hv.2.1, hv.2.2]

theorem step_conj {g f : ℕ} (hs : (Instr.conj g f).Safe r.counts = true) :
    ∃ r' h', (Instr.conj g f).run C r h = .ok (r', h') ∧ StepRes C (.conj g f) r h r' h' := by
  have ⟨hg, hf⟩ : g < r.pts.length ∧ f < r.fns.length := by simp only [Instr.Safe, Bool.and_eq_true, decide_eq_true_eq] at hs; exact hs
  have hm := i.fns _ (List.getElem_mem hf)
  have hgl := i.pts _ (List.getElem_mem hg)
  obtain ⟨o, ho, -⟩ := i.wf.fn _ hm
  obtain ⟨h', hr, ha⟩ := conj_run hC i.wf hm hgl
  have p := conjHeap_prep i.wf
  have hl := conjHeap_live i.wf
  refine ⟨_, h', by
    rw [Instr.run, M.bind_of_ok (regGet_run hg h), M.bind_of_ok (regGet_run hf h), M.bind_of_ok hr]; rfl, ?_⟩
  have := stepRes_of (ins := .conj g f) hC i (p.ext.trans ha.ext) ha.wf (ha.fnList.trans p.fnList) [h.pts.length] []
    (by simpa using ha.ext.ptLive hl.1) (by simp) rfl ?_
  · simpa using this
  · intro E _ _ SR env φ ψ D rr rr' hD hn hF s ht st
    cases st with
    | conj _ _ _ x v hss =>
    have hv := conjHeap_val hC i.wf env (Function.update φ h.pts.length x) (Function.update ψ h.exs.length v)
    have ag0 := agree_update2 i.wf φ ψ x v
    obtain ⟨φ', ψ', ag, t', hp, he⟩ := sim_add hC i.wf p ha ho hF ht ag0
      (by
        show Comb _ _ ((conjHeap h).ptVal env _ h.pts.length) ((conjHeap h).ptVal env _ _)
          ((conjHeap h).exVal env _ _ h.exs.length)
        rw [hv.1, hv.2, ag0.ptVal hC p.ext hgl env]
        have := sim_comb i s hD hf ho hss
        rw [s.pts, getD_map _ _ _ hg] at this
        simpa using this)
    refine ⟨φ', ψ', ag, t', ?_⟩
    simp [hp _ hl.1, hv.1]

theorem step_prox {x0 f : ℕ} {gamma : Sym} (hs : (Instr.prox x0 f gamma).Safe r.counts = true) :
    ∃ r' h', (Instr.prox x0 f gamma).run C r h = .ok (r', h') ∧ StepRes C (.prox x0 f gamma) r h r' h' := by
  have ⟨hg, hf⟩ : x0 < r.pts.length ∧ f < r.fns.length := by simp only [Instr.Safe, Bool.and_eq_true, decide_eq_true_eq] at hs; exact hs
  have hm := i.fns _ (List.getElem_mem hf)
  have hgl := i.pts _ (List.getElem_mem hg)
  obtain ⟨o, ho, -⟩ := i.wf.fn _ hm
  obtain ⟨q, h1, h', hadds, hq, hval, hr, ha⟩ := prox_run hC i.wf gamma hm hgl
  have p1 := conjHeap_prep i.wf
  have p2 := Prep.onlyAdds p1.wf hadds
  have p := p1.trans p2
  have hl := conjHeap_live i.wf
  have l1 := p2.ext.ptLive hl.1
  have l2 := p2.ext.exLive hl.2
  refine ⟨_, h', by
    rw [Instr.run, M.bind_of_ok (regGet_run hg h), M.bind_of_ok (regGet_run hf h), M.bind_of_ok hr]; rfl, ?_⟩
  refine stepRes_of hC i (p.ext.trans ha.ext) ha.wf (ha.fnList.trans p.fnList) [_, _] [_] ?_ ?_ rfl ?_
  · simp only [List.mem_cons, List.not_mem_nil, or_false, forall_eq_or_imp, forall_eq]
    exact ⟨ha.ext.ptLive hq, ha.ext.ptLive l1⟩
  · simpa using ha.ext.exLive l2
  · intro E _ _ SR env φ ψ D rr rr' hD hn hF s ht st
    cases st with
    | prox _ _ _ _ x g v hss hx =>
    have hv := conjHeap_val hC i.wf env (Function.update φ h.pts.length g) (Function.update ψ h.exs.length v)
    rw [← p2.ext.ptVal hC hl.1.isPt, ← p2.ext.exVal hC hl.2.isEx] at hv
    have ag0 := agree_update2 i.wf φ ψ g v
    have hxv : h1.ptVal env (Function.update φ h.pts.length g) q = x := by
      rw [hval, hgl.congr env ag0.pt]
      rw [s.pts, getD_map _ _ _ hg] at hx
      simp [← hx]
    obtain ⟨φ', ψ', ag, t', hp, he⟩ := sim_add hC i.wf p ha ho hF ht ag0
      (by
        show Comb _ _ (h1.ptVal env _ q) (h1.ptVal env _ h.pts.length) (h1.exVal env _ _ h.exs.length)
        rw [hv.1, hv.2, hxv]
        simpa using sim_comb i s hD hf ho hss)
    refine ⟨φ', ψ', ag, t', ?_⟩
    simp [hp _ hq, hp _ l1, he _ l2, hv.1, hv.2, hxv]

theorem step_addPoint {f x g v : ℕ} (hs : (Instr.addPoint f x g v).Safe r.counts = true) :
    ∃ r' h', (Instr.addPoint f x g v).run C r h = .ok (r', h') ∧ StepRes C (.addPoint f x g v) r h r' h' := by
  have ⟨⟨⟨hf, hx⟩, hg⟩, hv⟩ : ((f < r.fns.length ∧ x < r.pts.length) ∧ g < r.pts.length) ∧ v < r.exs.length := by
    simp only [Instr.Safe, Bool.and_eq_true, decide_eq_true_eq] at hs; exact hs
  have hm := i.fns _ (List.getElem_mem hf)
  have hxl := i.pts _ (List.getElem_mem hx)
  have hgl := i.pts _ (List.getElem_mem hg)
  have hvl := i.exs _ (List.getElem_mem hv)
  obtain ⟨o, ho, -⟩ := i.wf.fn _ hm
  obtain ⟨h', hr, ha⟩ := addPoint_run hC i.wf hm (t := (r.pts[x], r.pts[g], r.exs[v])) ⟨hxl, hgl, hvl⟩
  refine ⟨_, h', by
    rw [Instr.run, M.bind_of_ok (regGet_run hf h), M.bind_of_ok (regGet_run hx h), M.bind_of_ok (regGet_run hg h),
      M.bind_of_ok (regGet_run hv h), M.bind_of_ok hr]; rfl, ?_⟩
  have := stepRes_of (ins := .addPoint f x g v) hC i ha.ext ha.wf ha.fnList [] [] (by simp) (by simp) rfl ?_
  · simpa using this
  · intro E _ _ SR env φ ψ D rr rr' hD hn hF s ht st
    cases st with
    | addPoint _ _ _ _ _ hss =>
    have hc := sim_comb i s hD hf ho hss
    rw [s.pts, s.exs, getD_map _ _ _ hx, getD_map _ _ _ hg, getD_map _ _ _ hv] at hc
    obtain ⟨φ', ψ', ag, t', hp, he⟩ := sim_add hC i.wf (Prep.refl i.wf) ha ho hF ht (Agree.refl _ _ _) hc
    exact ⟨φ', ψ', ag, t', by simp⟩

theorem step_oracle_aux {f x : ℕ} (hf : f < r.fns.length) (hx : x < r.pts.length) {g : PtId} {v : ExId}
    (ho : OracleRes C h r.fns[f] r.pts[x] g v h') {E : Type} [NormedAddCommGroup E] [InnerProductSpace ℝ E]
    {SR : ℕ → E → E → ℝ → Prop} {env} {φ : PtId → E} {ψ} {D : List FnId} {rr : RRegs E} (hD : r.decl <+: D)
    (hF : h'.Functional (SRel D SR)) (s : SimRegs D env φ ψ r h rr) (ht : h.TrueSamples (SRel D SR) env φ ψ) {g0 : E} {v0 : ℝ}
    (hss : SumSample SR (rr.fns.getD f 0) (rr.pts.getD x 0) g0 v0) :
    ∃ φ' ψ', h.Agree φ φ' ψ ψ' ∧ h'.TrueSamples (SRel D SR) env φ' ψ' ∧ h'.ptVal env φ' g = g0 ∧ h'.exVal env φ' ψ' v = v0 := by
  obtain ⟨o, ho', -⟩ := i.wf.fn _ (i.fns _ (List.getElem_mem hf))
  obtain ⟨G, V, hGV, rfl, rfl⟩ := sim_comb i s hD hf ho' hss
  rw [s.pts, getD_map _ _ _ hx] at hGV
  exact ho.sim o ho' E (SRel D SR) env φ ψ (hF.anti ho.ext) ht G V hGV

theorem step_oracle {f x : ℕ} (hs : (Instr.oracle f x).Safe r.counts = true) :
    ∃ r' h', (Instr.oracle f x).run C r h = .ok (r', h') ∧ StepRes C (.oracle f x) r h r' h' := by
  have ⟨hf, hx⟩ : f < r.fns.length ∧ x < r.pts.length := by simp only [Instr.Safe, Bool.and_eq_true, decide_eq_true_eq] at hs; exact hs
  obtain ⟨g, v, h', hr, ho⟩ := oracle_run hC i.wf (i.fns _ (List.getElem_mem hf)) (i.pts _ (List.getElem_mem hx))
  refine ⟨_, h', by
    rw [Instr.run, M.bind_of_ok (regGet_run hf h), M.bind_of_ok (regGet_run hx h), M.bind_of_ok hr]; rfl, ?_⟩
  refine stepRes_of hC i ho.ext ho.wf ho.fnList [g] [v] (by simpa using ho.gLive) (by simpa using ho.vLive) rfl ?_
  intro E _ _ SR env φ ψ D rr rr' hD hn hF s ht st
  cases st with
  | oracle _ _ _ g0 v0 hss =>
  obtain ⟨φ', ψ', ag, t', hg, hv⟩ := step_oracle_aux hC i hf hx ho hD hF s ht hss
  exact ⟨φ', ψ', ag, t', by simp [hg, hv]⟩

theorem step_gradient {f x : ℕ} (hs : (Instr.gradient f x).Safe r.counts = true) :
    ∃ r' h', (Instr.gradient f x).run C r h = .ok (r', h') ∧ StepRes C (.gradient f x) r h r' h' := by
  have ⟨hf, hx⟩ : f < r.fns.length ∧ x < r.pts.length := by simp only [Instr.Safe, Bool.and_eq_true, decide_eq_true_eq] at hs; exact hs
  obtain ⟨g, v, h', hr, ho⟩ := oracle_run hC i.wf (i.fns _ (List.getElem_mem hf)) (i.pts _ (List.getElem_mem hx))
  refine ⟨_, h', by
    rw [Instr.run, M.bind_of_ok (regGet_run hf h), M.bind_of_ok (regGet_run hx h), M.bind_of_ok (gradient_run hr)]; rfl, ?_⟩
  have := stepRes_of (ins := .gradient f x) hC i ho.ext ho.wf ho.fnList [g] [] (by simpa using ho.gLive) (by simp) rfl ?_
  · simpa using this
  intro E _ _ SR env φ ψ D rr rr' hD hn hF s ht st
  cases st with
  | gradient _ _ _ g0 v0 hss =>
  obtain ⟨φ', ψ', ag, t', hg, hv⟩ := step_oracle_aux hC i hf hx ho hD hF s ht hss
  exact ⟨φ', ψ', ag, t', by simp [hg]⟩

theorem step_value {f x : ℕ} (hs : (Instr.value f x).Safe r.counts = true) :
    ∃ r' h', (Instr.value f x).run C r h = .ok (r', h') ∧ StepRes C (.value f x) r h r' h' := by
  have ⟨hf, hx⟩ : f < r.fns.length ∧ x < r.pts.length := by simp only [Instr.Safe, Bool.and_eq_true, decide_eq_true_eq] at hs; exact hs
  have hm := i.fns _ (List.getElem_mem hf)
  have hxl := i.pts _ (List.getElem_mem hx)
  rcases value_run hC i.wf hm hxl with ⟨g, v, hl, hr⟩ | ⟨-, g, v, h', hor, hr⟩
  · have hvl := (lookup_some_live i.wf hm hxl hl).2
    refine ⟨_, h, by
      rw [Instr.run, M.bind_of_ok (regGet_run hf h), M.bind_of_ok (regGet_run hx h), M.bind_of_ok hr]; rfl, ?_⟩
    have := stepRes_of (ins := .value f x) hC i (Ext.refl h) i.wf rfl [] [v] (by simp) (by simpa using hvl) rfl ?_
    · simpa using this
    intro E _ _ SR env φ ψ D rr rr' hD hn hF s ht st
    cases st with
    | value _ _ _ g0 v0 hss =>
    refine ⟨φ, ψ, Agree.refl _ _ _, ht, ?_⟩
    obtain ⟨o, p, ho, hmem, hsp⟩ := lookup_some hC i.wf hm hxl hl
    obtain ⟨G, V, hGV, rfl, rfl⟩ := sim_comb i s hD hf ho hss
    have hc := ht _ hm o ho _ hmem
    dsimp only at hc
    rw [hsp E env φ] at hc
    rw [s.pts, getD_map _ _ _ hx] at hGV
    have := comb_val_unique hF hGV hc
    simp [this]
  · obtain ⟨g', v', h'', hor', ho⟩ := oracle_run hC i.wf hm hxl
    rw [hor] at hor'
    cases hor'
    refine ⟨_, h', by
      rw [Instr.run, M.bind_of_ok (regGet_run hf h), M.bind_of_ok (regGet_run hx h), M.bind_of_ok hr]; rfl, ?_⟩
    have := stepRes_of (ins := .value f x) hC i ho.ext ho.wf ho.fnList [] [v] (by simp) (by simpa using ho.vLive) rfl ?_
    · simpa using this
    intro E _ _ SR env φ ψ D rr rr' hD hn hF s ht st
    cases st with
    | value _ _ _ g0 v0 hss =>
    obtain ⟨φ', ψ', ag, t', hg, hv⟩ := step_oracle_aux hC i hf hx ho hD hF s ht hss
    exact ⟨φ', ψ', ag, t', by simp [hv]⟩

omit hC in
theorem step_constr {e : ℕ} {k : Kind} (hs : (Instr.constr e k).Safe r.counts = true) :
    ∃ r' h', (Instr.constr e k).run C r h = .ok (r', h') ∧ StepRes C (.constr e k) r h r' h' := by
  have he : e < r.exs.length := by simp only [Instr.Safe, Bool.and_eq_true, decide_eq_true_eq] at hs; exact hs
  refine ⟨{ r with cons := r.cons ++ [(r.exs[e], k)] }, h, by rw [Instr.run, M.bind_of_ok (regGet_run he h)]; rfl, Ext.refl h, ?_, rfl, List.prefix_rfl, ?_⟩
  · refine ⟨i.wf, i.pts, i.exs, i.fns, i.decl, ?_, i.metric⟩
    intro c hc
    rcases List.mem_append.1 hc with hc | hc
    · exact i.cons c hc
    · simp at hc; subst hc; exact i.exs _ (List.getElem_mem he)
  · intro E _ _ SR env φ ψ D rr rr' hD hn hF s ht st
    cases st
    refine ⟨φ, ψ, Agree.refl _ _ _, ⟨s.pts, s.exs, s.fns, s.ndecl, ?_, s.metric⟩, ht⟩
    rw [s.cons, s.exs, getD_map _ _ _ he]; simp

omit hC in
theorem step_metric {e : ℕ} (hs : (Instr.metric e).Safe r.counts = true) :
    ∃ r' h', (Instr.metric e).run C r h = .ok (r', h') ∧ StepRes C (.metric e) r h r' h' := by
  have he : e < r.exs.length := by simp only [Instr.Safe, Bool.and_eq_true, decide_eq_true_eq] at hs; exact hs
  refine ⟨{ r with metric := some r.exs[e], obj := Sym.var "eta" }, h, by rw [Instr.run, M.bind_of_ok (regGet_run he h)]; rfl, Ext.refl h, ?_, rfl, List.prefix_rfl, ?_⟩
  · refine ⟨i.wf, i.pts, i.exs, i.fns, i.decl, i.cons, ?_⟩
    intro c hc
    simp at hc; subst hc; exact i.exs _ (List.getElem_mem he)
  · intro E _ _ SR env φ ψ D rr rr' hD hn hF s ht st
    cases st
    refine ⟨φ, ψ, Agree.refl _ _ _, ⟨s.pts, s.exs, s.fns, s.ndecl, s.cons, ?_⟩, ht⟩
    rw [s.exs, getD_map _ _ _ he]; simp

omit hC in
theorem step_objective {e : Sym} : ∃ r' h', (Instr.objective e).run C r h = .ok (r', h') ∧ StepRes C (.objective e) r h r' h' := by
  refine ⟨{ r with obj := e }, h, rfl, Ext.refl h, ⟨i.wf, i.pts, i.exs, i.fns, i.decl, i.cons, i.metric⟩, rfl, List.prefix_rfl, ?_⟩
  intro E _ _ SR env φ ψ D rr rr' hD hn hF s ht st
  cases st
  exact ⟨φ, ψ, Agree.refl _ _ _, ⟨s.pts, s.exs, s.fns, s.ndecl, s.cons, s.metric⟩, ht⟩

theorem trueSamples_adds {h' : Heap} (a : FnAdds C h h') {E : Type} [NormedAddCommGroup E] [InnerProductSpace ℝ E]
    {S : FnId → E → E → ℝ → Prop} {env} {φ : PtId → E} {ψ} (ht : h.TrueSamples S env φ ψ) : h'.TrueSamples S env φ ψ := by
  obtain ⟨l, hl, hp⟩ := a.new
  intro f hf o ho t htt
  rw [hl] at hf
  rcases List.mem_append.1 hf with hf | hf
  · rw [a.old f (i.wf.fn_lt hf)] at ho
    have := ht f hf o ho t htt
    obtain ⟨o2, ho2, ok⟩ := i.wf.fn f hf
    rw [ho] at ho2; cases ho2
    have tl := ok.points t htt
    rw [a.ext.ptVal hC tl.1.isPt, a.ext.ptVal hC tl.2.1.isPt, a.ext.exVal hC tl.2.2.isEx]
    exact this
  · obtain ⟨o2, ho2, -, h3⟩ := hp f hf
    rw [ho] at ho2; cases ho2
    rw [h3] at htt; simp at htt

theorem step_fn {a : FE} (hs : (Instr.fn a).Safe r.counts = true) :
    ∃ r' h', (Instr.fn a).run C r h = .ok (r', h') ∧ StepRes C (.fn a) r h r' h' := by
  obtain ⟨q, h', hr, ad, hq, hv⟩ := FE.run_live a i.wf i.fns hs
  have i1 := i.mono ad.ext ad.wf (leafFns_adds i.wf ad)
  refine ⟨{ r with fns := r.fns ++ [q] }, h', by rw [Instr.run, M.bind_of_ok hr]; rfl, ad.ext, ?_, ?_, List.prefix_rfl, ?_⟩
  · refine ⟨i1.wf, i1.pts, i1.exs, ?_, i1.decl, i1.cons, i1.metric⟩
    intro f hf
    rcases List.mem_append.1 hf with hf | hf
    · exact i1.fns f hf
    · simp at hf; subst hf; exact hq
  · simp [Regs.counts, Instr.next]
  · intro E _ _ SR env φ ψ D rr rr' hD hn hF s ht st
    cases st
    have s' := s.mono hC i ad.ext (Agree.refl _ _ _)
    refine ⟨φ, ψ, Agree.refl _ _ _, ⟨s'.pts, s'.exs, ?_, s'.ndecl, s'.cons, s'.metric⟩, trueSamples_adds hC i ad ht⟩
    show rr.fns ++ [a.den rr.fns] = List.map (fnW D h') (r.fns ++ [q])
    rw [List.map_append, ← s'.fns, List.map_singleton, hv D, ← s.fns]

theorem step_leafFn {cls : FnClass} {re : Bool} (hcls : cls ≠ .base) {d : FnDecl} (hd : declareFunction d = newLeafFn cls re) :
    ∃ r' h', (Instr.declare d).run C r h = .ok (r', h') ∧ StepRes C (.declare d) r h r' h' := by
  have e := ext_addLeafFn (C := C) h cls re
  have w' := i.wf.addLeafFn cls re hcls
  have hnew : (h.addLeafFn cls re).fns[h.fns.length]? = some ⟨true, some h.fnCounter, cls, re, [(h.fns.length, 1)], [], [], []⟩ := by
    simp [addLeafFn]
  have hnot : h.fns.length ∉ r.decl := by
    rw [i.decl]; intro hh
    exact absurd (i.wf.fn_lt (List.mem_filter.1 hh).1) (lt_irrefl _)
  refine ⟨{ r with fns := r.fns ++ [h.fns.length], decl := r.decl ++ [h.fns.length] }, h.addLeafFn cls re, by rw [Instr.run, hd, M.bind_of_ok (newLeafFn_run h cls re)]; rfl, e, ?_, ?_,
    List.prefix_append _ _, ?_⟩
  · refine ⟨w', fun p hp => e.ptLive (i.pts p hp), fun p hp => e.exLive (i.exs p hp), ?_, ?_,
      fun c hc => e.exLive (i.cons c hc), fun p hp => e.exLive (i.metric p hp)⟩
    · intro f hf
      rcases List.mem_append.1 hf with hf | hf
      · exact e.fnList.subset (i.fns f hf)
      · simp at hf; subst hf; simp [addLeafFn]
    · show r.decl ++ [h.fns.length] = _
      rw [i.decl, leafFns, leafFns]
      show _ = List.filter _ (h.fnList ++ [h.fns.length])
      rw [List.filter_append, List.filter_congr (fun f hf => leafOf_ext i.wf e hf)]
      congr 1
      rw [List.filter_singleton, leafOf_of hnew]; rfl
  · simp [Regs.counts, Instr.next]
  · intro E _ _ SR env φ ψ D rr rr' hD hn hF s ht st
    cases st
    have s' := s.mono hC i e (Agree.refl _ _ _)
    refine ⟨φ, ψ, Agree.refl _ _ _, ⟨s'.pts, s'.exs, ?_, ?_, s'.cons, s'.metric⟩, ?_⟩
    · rw [s'.fns, List.map_append, List.map_singleton]
      congr 2
      rw [fnW_of hnew]
      obtain ⟨t, rfl⟩ := hD
      have : List.idxOf h.fns.length ((r.decl ++ [h.fns.length]) ++ t) = r.decl.length := by
        rw [List.append_assoc, List.idxOf_append_of_notMem hnot]; simp
      simp only [Dict.den, List.map_cons, List.map_nil, List.sum_cons, List.sum_nil, this, s.ndecl]
      simp
    · simp [s.ndecl]
    · intro f hf o ho t htt
      simp only [addLeafFn] at hf
      rcases List.mem_append.1 hf with hf | hf
      · obtain ⟨o2, ho2, ok⟩ := i.wf.fn f hf
        have : (h.addLeafFn cls re).fns[f]? = some o2 := by
          simp only [addLeafFn]; exact getElem?_append_some _ ho2
        rw [ho] at this; cases this
        have tl := ok.points t htt
        rw [e.ptVal hC tl.1.isPt, e.ptVal hC tl.2.1.isPt, e.exVal hC tl.2.2.isEx]
        exact ht f hf o ho2 t htt
      · simp at hf; subst hf
        rw [hnew] at ho; cases ho
        simp at htt

/-- every API call succeeds, keeps the invariant and simulates the real call -/
theorem step_all (ins : Instr) (hs : ins.Safe r.counts = true) :
    ∃ r' h', ins.run C r h = .ok (r', h') ∧ StepRes C ins r h r' h' := by
  cases ins with
  | declare d =>
    cases d with
    | convex re => exact step_leafFn hC i (by simp) rfl
    | strongly mu re => exact step_leafFn hC i (by simp) rfl
    | smoothStrongly mu L =>
      cases L with
      | none => simp [Instr.Safe, FnDecl.Safe] at hs
      | some L => exact step_leafFn hC i (by simp) rfl
    | smoothConvex L =>
      cases L with
      | none => simp [Instr.Safe, FnDecl.Safe] at hs
      | some L => exact step_leafFn hC i (by simp) rfl
  | fn a => exact step_fn hC i hs
  | pt a => exact step_pt hC i hs
  | ex a => exact step_ex hC i hs
  | initial => exact step_initial hC i
  | stationary f => exact step_stationary hC i hs
  | oracle f x => exact step_oracle hC i hs
  | gradient f x => exact step_gradient hC i hs
  | value f x => exact step_value hC i hs
  | prox x0 f g => exact step_prox hC i hs
  | conj g f => exact step_conj hC i hs
  | addPoint f x g v => exact step_addPoint hC i hs
  | constr e k => exact step_constr i hs
  | metric e => exact step_metric i hs
  | objective e => exact step_objective i

end Verif
