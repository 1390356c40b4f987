import Verif.Proofs.SlaterRun

/-!
# Differentiable functions have at most one sample at each point

A function with `reuse_gradient` answers a repeated call at a point with the recorded pair, so a program may evaluate it again at a point that
it has been evaluated at; what must be different are the values of different registers.
-/

namespace Verif
open Heap

variable {C : CAS} {h h' : Heap} {r r' : Regs}

/-- calls whose sample is at a new point, or that look up the point first -/
def Instr.Fresh : Instr → Bool
  | .addPoint .. => false
  | _ => true

theorem getPt_same {p : PtId} {o : PtObj} (hr : getPt p h = .ok (o, h')) : h' = h := by
  unfold getPt at hr
  split at hr
  · injection hr with hr; exact (Prod.mk.inj hr).2.symm
  · cases hr

theorem ptScale_new {s : Sym} {p q : PtId} (hr : ptScale C s p h = .ok (q, h')) : q = h.pts.length ∧ h.pts.length ≤ h'.pts.length := by
  obtain ⟨o, h1, e1, hr⟩ := M.bind_ok_iff.1 hr
  cases getPt_same e1
  cases hr
  exact ⟨rfl, by simp⟩

theorem ptSub_new {p p' q : PtId} (hr : ptSub C p p' h = .ok (q, h')) : h.pts.length ≤ q := by
  obtain ⟨n, h1, e1, hr⟩ := M.bind_ok_iff.1 hr
  have := (ptScale_new e1).2
  obtain ⟨a, h2, e2, hr⟩ := M.bind_ok_iff.1 hr
  cases getPt_same e2
  obtain ⟨b, h3, e3, hr⟩ := M.bind_ok_iff.1 hr
  cases getPt_same e3
  cases hr
  exact this

/-- the point of a proximal step is new -/
theorem prox_new {x0 : PtId} {f : FnId} {gamma : Sym} {t : Triplet} (hr : proximalStep C x0 f gamma h = .ok (t, h')) : h.pts.length ≤ t.1 := by
  obtain ⟨gx, h1, e1, hr⟩ := M.bind_ok_iff.1 hr
  cases e1
  obtain ⟨fx, h2, e2, hr⟩ := M.bind_ok_iff.1 hr
  cases e2
  obtain ⟨sg, h3, e3, hr⟩ := M.bind_ok_iff.1 hr
  have l3 := (ptScale_new e3).2
  obtain ⟨x, h4, e4, hr⟩ := M.bind_ok_iff.1 hr
  have l4 := ptSub_new e4
  obtain ⟨_, h5, e5, hr⟩ := M.bind_ok_iff.1 hr
  cases hr
  simp at l3
  show h.pts.length ≤ x
  omega

/-- differentiable functions have at most one sample at each point -/
def OneEach (r : Regs) (h : Heap) : Prop :=
  ∀ f ∈ r.decl, ∀ o, h.fns[f]? = some o → o.reuse = true → (o.points.map Prod.fst).Nodup

theorem OneEach.mono (c : OneEach r h) (i : Inv C r h) (e : Ext C h h') (hdecl : r'.decl = r.decl)
    (hs : ∀ f ∈ r.decl, ∀ o o', h.fns[f]? = some o → h'.fns[f]? = some o' → o.reuse = true → (o.points.map Prod.fst).Nodup → (o'.points.map Prod.fst).Nodup) :
    OneEach r' h' := by
  intro f hf o' ho' hre
  rw [hdecl] at hf
  have hm : f ∈ leafFns h := by rw [← i.decl]; exact hf
  obtain ⟨o, ho, -⟩ := i.wf.fn f (List.mem_filter.1 hm).1
  obtain ⟨o2, ho2, fe⟩ := e.fns f o ho
  rw [ho'] at ho2; cases ho2
  rw [fe.reuse] at hre
  exact hs f hf o o' ho ho' hre (c f hf o ho hre)

theorem OneEach.same (c : OneEach r h) (hdecl : r'.decl = r.decl) (hh : h'.fns = h.fns) : OneEach r' h' := by
  intro f hf o ho
  rw [hdecl] at hf
  rw [hh] at ho
  exact c f hf o ho

/-- samples at a new point -/
theorem OneEach.fresh (c : OneEach r h) (i : Inv C r h) (e : Ext C h h') (hdecl : r'.decl = r.decl) {x : PtId} (hx : h.pts.length ≤ x)
    (once : ∀ (k : FnId) (o o' : FnObj), h.fns[k]? = some o → h'.fns[k]? = some o' →
      List.Sublist (o'.points.map Prod.fst) (o.points.map Prod.fst ++ [x])) : OneEach r' h' := by
  refine c.mono i e hdecl fun f hf o o' ho ho' _ hn => (once f o o' ho ho').nodup ?_
  have hm : f ∈ leafFns h := by rw [← i.decl]; exact hf
  obtain ⟨o2, ho2, ok⟩ := i.wf.fn f (List.mem_filter.1 hm).1
  rw [ho] at ho2; cases ho2
  rw [List.nodup_append]
  refine ⟨hn, by simp, ?_⟩
  intro a ha b hb hab
  simp only [List.mem_singleton] at hb
  obtain ⟨t, ht, rfl⟩ := List.mem_map.1 ha
  obtain ⟨xo, hxo, -⟩ := (ok.points t ht).1
  have := (List.getElem?_eq_some_iff.1 hxo).1
  rw [hab, hb] at this
  omega

variable (hC : C.Lawful) (i : Inv C r h)
include hC i

theorem oneEach_step {bs : List Bool} (t : Tied bs r.fns h) (c : OneEach r h) {ins : Instr} (hst : ins.Standard bs = true) (hfr : ins.Fresh = true)
    (hr : ins.run C r h = .ok (r', h')) : OneEach r' h' := by
  have hs := Instr.safe_of_ok hr
  have leaf : ∀ {f : ℕ} (hf : f < r.fns.length), bs.getD f false = true → ∃ o, h.fns[r.fns[f]]? = some o ∧ o.leaf = true := by
    intro f hf hb
    obtain ⟨o, ho, -⟩ := i.wf.fn _ (i.fns _ (List.getElem_mem hf))
    exact ⟨o, ho, t.leaf f hf hb o ho⟩
  -- an oracle call
  have orc : ∀ {f x : ℕ} (hf : f < r.fns.length) (hb : bs.getD f false = true) (hx : x < r.pts.length) {gv : PtId × ExId} {h' : Heap} {r' : Regs},
      Verif.oracle C r.fns[f] r.pts[x] h = .ok (gv, h') → r'.decl = r.decl → OneEach r' h' := by
    intro f x hf hb hx gv h' r' hrun h2
    obtain ⟨o, ho, hl⟩ := leaf hf hb
    obtain ⟨g, v, h3, hr, lr, oc⟩ := leafOracle_spec hC i.wf (i.fns _ (List.getElem_mem hf)) (i.pts _ (List.getElem_mem hx)) ho hl 98
    have e : (methods C 100).oracle r.fns[f] r.pts[x] h = .ok (gv, h') := hrun
    rw [e] at hr; cases hr
    refine c.mono i lr.ext h2 fun k hk a b ha hb' hre hn => ?_
    by_cases hkf : k = r.fns[f]
    · have once := oc.once ha hb'
      cases oc with
      | hit hl hr hh => subst hh; rw [ha] at hb'; cases hb'; exact hn
      | newGrad g0 hl hr hg hh => rw [← hkf, reuseOf_of ha, hre] at hr; cases hr
      | fresh hl hg hv hh =>
        refine once.nodup ?_
        rw [List.nodup_append]
        refine ⟨hn, by simp, ?_⟩
        intro p hp q hq hpq
        simp only [List.mem_singleton] at hq
        obtain ⟨t, ht, rfl⟩ := List.mem_map.1 hp
        have hev := evaluatedAt_self hC i.wf (i.fns _ (List.getElem_mem hf)) (by rw [← hkf]; exact ha) ht
        rw [hpq, hq, ← lookup_isSome_iff, hl] at hev
        cases hev
    · rw [lr.others k hkf, ha] at hb'; cases hb'; exact hn
  cases ins with
  | declare d =>
    obtain ⟨f, h2, e1, hr2⟩ := M.bind_ok_iff.1 hr
    cases hr2
    obtain ⟨cls, re, hr⟩ := declare_run e1
    simp only [newLeafFn, Except.ok.injEq, Prod.mk.injEq] at hr
    obtain ⟨rfl, rfl⟩ := hr
    intro g hg o ho hre
    rcases List.mem_append.1 hg with hg | hg
    · have hm : g ∈ leafFns h := by rw [← i.decl]; exact hg
      simp only [List.getElem?_append_left (i.wf.fn_lt (List.mem_filter.1 hm).1)] at ho
      exact c g hg o ho hre
    · simp only [List.mem_singleton] at hg
      subst hg
      simp at ho
      rw [← ho]; simp
  | fn a =>
    obtain ⟨f, h2, e1, hr2⟩ := M.bind_ok_iff.1 hr
    cases hr2
    obtain ⟨q', h1, r1, ad, m1, -⟩ := FE.run_live a i.wf i.fns (a.positive_safe (by rw [← t.len]; exact hst))
    rw [e1] at r1; cases r1
    intro g hg o ho hre
    have hm : g ∈ leafFns h := by rw [← i.decl]; exact hg
    rw [ad.old _ (i.wf.fn_lt (List.mem_filter.1 hm).1)] at ho
    exact c g hg o ho hre
  | pt a =>
    obtain ⟨q, h1, pr, hv⟩ := PE.run_live hC a i.pts hs
    have p := Prep.onlyAdds i.wf pr.adds
    rw [Instr.run, M.bind_of_ok pr.run] at hr
    cases hr
    exact c.same rfl p.fns
  | ex a =>
    obtain ⟨q, h1, pr, hv⟩ := EE.run_live hC a i.pts i.exs hs
    have p := Prep.onlyAdds i.wf pr.adds
    rw [Instr.run, M.bind_of_ok pr.run] at hr
    cases hr
    exact c.same rfl p.fns
  | initial =>
    have p := Prep.leafPt i.wf
    rw [Instr.run, M.bind_of_ok (newLeafPt_run h)] at hr
    cases hr
    exact c.same rfl p.fns
  | stationary f =>
    have hf : f < r.fns.length := by simp only [Instr.Safe, decide_eq_true_eq] at hs; exact hs
    obtain ⟨h2, hr1, ha⟩ := stationary_run hC i.wf (i.fns _ (List.getElem_mem hf))
    rw [Instr.run, M.bind_of_ok (regGet_run hf h), M.bind_of_ok hr1] at hr
    cases hr
    exact c.fresh i ((statHeap_prep i.wf).ext.trans ha.ext) rfl le_rfl fun k o o' ho ho' => ha.once k o o' (by rw [(statHeap_prep i.wf).fns]; exact ho) ho'
  | oracle f x =>
    have ⟨hf, hx⟩ : f < r.fns.length ∧ x < r.pts.length := by simp only [Instr.Safe, Bool.and_eq_true, decide_eq_true_eq] at hs; exact hs
    rw [Instr.run, M.bind_of_ok (regGet_run hf h), M.bind_of_ok (regGet_run hx h)] at hr
    obtain ⟨tr, h2, e1, hr2⟩ := M.bind_ok_iff.1 hr
    cases hr2
    exact orc hf hst hx e1 rfl
  | gradient f x =>
    have ⟨hf, hx⟩ : f < r.fns.length ∧ x < r.pts.length := by simp only [Instr.Safe, Bool.and_eq_true, decide_eq_true_eq] at hs; exact hs
    obtain ⟨g, v, h1, hr1, -⟩ := oracle_run hC i.wf (i.fns _ (List.getElem_mem hf)) (i.pts _ (List.getElem_mem hx))
    rw [Instr.run, M.bind_of_ok (regGet_run hf h), M.bind_of_ok (regGet_run hx h), M.bind_of_ok (gradient_run hr1)] at hr
    cases hr
    exact orc hf hst hx hr1 rfl
  | value f x =>
    have ⟨hf, hx⟩ : f < r.fns.length ∧ x < r.pts.length := by simp only [Instr.Safe, Bool.and_eq_true, decide_eq_true_eq] at hs; exact hs
    rcases value_run hC i.wf (i.fns _ (List.getElem_mem hf)) (i.pts _ (List.getElem_mem hx)) with ⟨g, v, hl, hr1⟩ | ⟨-, g, v, h1, hor, hr1⟩
    · rw [Instr.run, M.bind_of_ok (regGet_run hf h), M.bind_of_ok (regGet_run hx h), M.bind_of_ok hr1] at hr
      cases hr
      exact c.same rfl rfl
    · rw [Instr.run, M.bind_of_ok (regGet_run hf h), M.bind_of_ok (regGet_run hx h), M.bind_of_ok hr1] at hr
      cases hr
      exact orc hf hst hx hor rfl
  | prox x0 f gamma =>
    have ⟨hg, hf⟩ : x0 < r.pts.length ∧ f < r.fns.length := by simp only [Instr.Safe, Bool.and_eq_true, decide_eq_true_eq] at hs; exact hs
    obtain ⟨q, h1, h2, hadds, hq, hval, hr1, ha⟩ := prox_run hC i.wf gamma (i.fns _ (List.getElem_mem hf)) (i.pts _ (List.getElem_mem hg))
    have p1 := conjHeap_prep i.wf
    have p := p1.trans (Prep.onlyAdds p1.wf hadds)
    rw [Instr.run, M.bind_of_ok (regGet_run hg h), M.bind_of_ok (regGet_run hf h), M.bind_of_ok hr1] at hr
    cases hr
    exact c.fresh i (p.ext.trans ha.ext) rfl (prox_new hr1) fun k o o' ho ho' => ha.once k o o' (by rw [p.fns]; exact ho) ho'
  | conj g f =>
    have ⟨hg, hf⟩ : g < r.pts.length ∧ f < r.fns.length := by simp only [Instr.Safe, Bool.and_eq_true, decide_eq_true_eq] at hs; exact hs
    obtain ⟨h1, hr1, ha⟩ := conj_run hC i.wf (i.fns _ (List.getElem_mem hf)) (i.pts _ (List.getElem_mem hg))
    rw [Instr.run, M.bind_of_ok (regGet_run hg h), M.bind_of_ok (regGet_run hf h), M.bind_of_ok hr1] at hr
    cases hr
    exact c.fresh i ((conjHeap_prep i.wf).ext.trans ha.ext) rfl le_rfl fun k o o' ho ho' => ha.once k o o' (by rw [(conjHeap_prep i.wf).fns]; exact ho) ho'
  | addPoint f x g v => cases hfr
  | constr e k =>
    have he : e < r.exs.length := by simp only [Instr.Safe, decide_eq_true_eq] at hs; exact hs
    rw [Instr.run, M.bind_of_ok (regGet_run he h)] at hr
    cases hr
    exact c.same rfl rfl
  | metric e =>
    have he : e < r.exs.length := by simp only [Instr.Safe, decide_eq_true_eq] at hs; exact hs
    rw [Instr.run, M.bind_of_ok (regGet_run he h)] at hr
    cases hr
    exact c.same rfl rfl
  | objective e =>
    cases hr
    exact c.same rfl rfl

omit i in
theorem oneEach_prog (prog : List Instr) : ∀ {r r' : Regs} {h h' : Heap} {bs : List Bool}, Inv C r h → Tied bs r.fns h → OneEach r h →
    standardFrom bs prog = true → (∀ ins ∈ prog, ins.Fresh = true) → runProg C prog r h = .ok (r', h') → OneEach r' h' := by
  induction prog with
  | nil =>
    intro r r' h h' bs i t c hst hfr hr
    obtain ⟨rfl, rfl⟩ : r = r' ∧ h = h' := by simpa [runProg, pure, M.pure] using hr
    exact c
  | cons ins prog ih =>
    intro r r' h h' bs i t c hst hfr hr
    simp only [standardFrom, Bool.and_eq_true] at hst
    obtain ⟨r1, h1, e1, hr⟩ := M.bind_ok_iff.1 hr
    obtain ⟨r2, h2, e2, st⟩ := step_all hC i ins (Instr.safe_of_ok e1)
    rw [e1] at e2; cases e2
    exact ih st.inv (tied_step hC i t hst.1 e1) (oneEach_step hC i t c hst.1 (hfr _ (by simp)) e1) hst.2 (fun j hj => hfr j (by simp [hj])) hr

omit i in
/-- after a standard program without `add_point` every differentiable function has at most one sample at each point -/
theorem oneEach_problem {prog : List Instr} (hst : Standard prog = true) (hfr : ∀ ins ∈ prog, ins.Fresh = true)
    (hr : runProblem C prog h = .ok (r', h')) : OneEach r' h' := by
  have t0 : Tied [] Regs.empty.fns h.reset := by
    refine ⟨?_, rfl, ?_, ?_⟩
    · intro f hf; simp [Heap.reset] at hf
    · intro k hk; simp [Regs.empty] at hk
    · intro f hf; simp [Regs.empty] at hf
  exact oneEach_prog hC prog (inv_reset h) t0 (fun f hf => by simp [Regs.empty] at hf) hst hfr hr

section
variable {E : Type} [NormedAddCommGroup E] [InnerProductSpace ℝ E] {prog : List Instr}

/-- the calls of every declared function are at different points, except that a differentiable function may be called several times at one register -/
def Apart (prog : List Instr) (rr : RRegs E) : Prop := ∀ k d, (decls prog)[k]? = some d → (∀ n ∈ calls k prog, n < rr.pts.length) ∧
  (((calls k prog).map fun n => rr.pts.getD n 0).Nodup ∨
    d.reuse = true ∧ ∀ a ∈ calls k prog, ∀ b ∈ calls k prog, rr.pts.getD a 0 = rr.pts.getD b 0 → a = b)

omit i in
theorem samples_apart {h0 : Heap} (hr : runProblem C prog h0 = .ok (r, h)) (hst : Standard prog = true) (hfr : ∀ ins ∈ prog, ins.Fresh = true)
    {env : Name → ℝ} {rr : RRegs E} (hdist : Apart prog rr) {φ : PtId → E}
    (hp : r.pts.map (h.ptVal env φ) = rr.pts) {k : ℕ} {f : FnId} {o : FnObj} (hk : r.decl[k]? = some f) (ho : h.fns[f]? = some o) :
    (o.points.map fun t => h.ptVal env φ t.1).Nodup := by
  obtain ⟨hlen, hcls⟩ := C32_classes hC hr
  have hkl : k < (decls prog).length := by rw [← hlen]; exact (List.getElem?_eq_some_iff.1 hk).1
  obtain ⟨h1, h2⟩ := hdist k _ (List.getElem?_eq_getElem hkl)
  have hcall := called_problem hC hst hr hk ho
  have val : ∀ n ∈ calls k prog, h.ptVal env φ (r.pts.getD n 0) = rr.pts.getD n 0 := by
    intro n hn
    have := h1 n hn
    rw [← hp] at this ⊢
    rw [List.length_map] at this
    simp [List.getD, this]
  rw [show (o.points.map fun t => h.ptVal env φ t.1) = (o.points.map Prod.fst).map (h.ptVal env φ) by rw [List.map_map]; rfl]
  rcases h2 with h2 | ⟨hre, h2⟩
  · refine (hcall.map (h.ptVal env φ)).nodup ?_
    rw [List.map_map]
    have e : (calls k prog).map (h.ptVal env φ ∘ fun n => r.pts.getD n 0) = (calls k prog).map fun n => rr.pts.getD n 0 := List.map_congr_left fun n hn => val n hn
    rw [e]; exact h2
  · obtain ⟨o2, ho2, -, -, hreo⟩ := hcls k f _ hk (List.getElem?_eq_getElem hkl)
    rw [ho] at ho2; cases ho2
    have hn := oneEach_problem hC hst hfr hr f (List.mem_of_getElem? hk) o ho (by rw [hreo]; exact hre)
    have hsub := hcall.subset
    refine hn.map_on ?_
    intro a ha b hb hab
    obtain ⟨m, hm, rfl⟩ := List.mem_map.1 (hsub ha)
    obtain ⟨n, hn', rfl⟩ := List.mem_map.1 (hsub hb)
    rw [val m hm, val n hn'] at hab
    rw [h2 m hm n hn' hab]
end

omit hC i in
/-- completeness from executions in which differentiable functions may be evaluated several times at the same register -/
theorem complete_of_repeats {C : CAS} {prog : List Instr} {params : List Name} (hC : C.Lawful) (hs : SafeProg prog ⟨0, 0, 0⟩ = true)
    (hclean : ∀ i ∈ prog, i.Clean {n | n ∈ params}) (hst : Standard prog = true) (hfr : ∀ ins ∈ prog, ins.Fresh = true)
    (hd : ∀ d ∈ decls prog, d.Ok ∧ d.Default = true)
    (s : SimpleParams params) (hmet : ∃ e, Instr.metric e ∈ prog) {Gen : (Name → ℝ) → Prop} (hne : ∃ env, Gen env)
    (hw : ∀ env, Gen env → ∃ (fs : ℕ → CFun ℝ) (rr : RRegs ℝ), Instance prog fs ∧ (∀ k d, (decls prog)[k]? = some d → (fs k).StrictIn d.cls) ∧
      RealExec fs env prog rr ∧ Apart prog rr ∧ ∀ c ∈ rr.cons, c.2 = .inequality ∧ c.1 < 0) :
    ∃ r h nlp h', runProblem C prog Heap.empty = .ok (r, h) ∧ solveIpopt C r params [] [] h = .ok (nlp, h') ∧
      ∀ env, Gen env → ((∃ σ, nlp.state.Sat σ ∧ ∀ n ∈ scalarNames params, nlp.state.value σ n = env n) ↔
        Guaranteed prog env ∧ InvOk params env ∧ ∀ n ∈ ["eta", "rho", "h"], 0 ≤ env n) := by
  obtain ⟨⟨r, h⟩, hr⟩ := (C04_errors hC prog Heap.empty).2 hs
  have hok : ∀ d ∈ decls prog, d.Ok := fun d hm => (hd d hm).1
  obtain ⟨env0, h0⟩ := hne
  obtain ⟨fs0, rr0, hf0, -, ex0, hdist0, -⟩ := hw env0 h0
  obtain ⟨nlp, h', hn⟩ := (C63_ipopt (bounds := []) (init := []) hC hr hclean s hok (by simp) (by simp)).2
    ⟨hmet, fun f hfm o ho => by
      obtain ⟨k, hk⟩ := List.getElem?_of_mem hfm
      obtain ⟨φ, ψ, hp, -⟩ := C32_represent hC hr fs0 hf0 env0 ex0
      exact (samples_apart hC hr hst hfr hdist0 hp hk ho).of_map⟩
  obtain ⟨sm, hm, hiff⟩ := C68_ipopt hC hr hclean hst hd s (by simp) hn
  refine ⟨r, h, nlp, h', hr, hn, fun env hg => ?_⟩
  obtain ⟨fs, rr, hf, hstr, ex, hdist, hcons⟩ := hw env hg
  have t := translate_of hC hr (solvable_of_ok hC hr hok hm) hm
  rw [hiff env (strict_of_nodup hC hr t (qcqp_clean hC hr hclean hm) hf hstr ex
    (fun _ hp _ _ _ hk ho => samples_apart hC hr hst hfr hdist hp hk ho) hcons)]
  simp [BoundsOk]

/-- as `StrictRun`; a differentiable function may be called several times at one register -/
structure RepeatRun (prog : List Instr) (env : Name → ℝ) (fs : ℕ → CFun ℝ) (V : Vals ℝ) : Prop where
  inst : Instance prog fs
  strict : ∀ k d, (decls prog)[k]? = some d → (fs k).StrictIn d.cls
  meets : MeetsAll (fun k => (fs k).Sample) env V prog ⟨0, 0, 0⟩ 0
  cons : ∀ c ∈ consVals V prog, c.2 = .inequality ∧ c.1 < 0
  dist : ∀ k d, (decls prog)[k]? = some d → ((calls k prog).map V.pt).Nodup ∨
    d.reuse = true ∧ ∀ a ∈ calls k prog, ∀ b ∈ calls k prog, V.pt a = V.pt b → a = b

omit hC i in
theorem RepeatRun.exec {prog : List Instr} {env : Name → ℝ} {fs : ℕ → CFun ℝ} {V : Vals ℝ} (s : RepeatRun prog env fs V) (hs : SafeProg prog ⟨0, 0, 0⟩ = true) :
    ∃ rr, RealExec fs env prog rr ∧ Apart prog rr ∧ ∀ c ∈ rr.cons, c.2 = .inequality ∧ c.1 < 0 := by
  obtain ⟨rr, ex, h1, h2⟩ := exec_of_meets_pts (m := none) (cs := []) prog hs s.meets (rr := RRegs.empty ℝ) ⟨rfl, rfl, rfl, rfl, rfl, rfl⟩
  refine ⟨rr, ex, fun k d hk => ?_, by rw [h1]; exact s.cons⟩
  have hlt : ∀ n ∈ calls k prog, n < (countsAfter prog ⟨0, 0, 0⟩).np := calls_lt k prog hs
  have hv : ∀ n ∈ calls k prog, rr.pts.getD n 0 = V.pt n := fun n hn => by rw [h2, getD_range_map _ _ (hlt n hn)]
  refine ⟨fun n hn => by rw [h2]; simpa using hlt n hn, (s.dist k d hk).imp (fun h => ?_) fun h => ⟨h.1, fun a ha b hb e => h.2 a ha b hb ?_⟩⟩
  · rw [List.map_congr_left hv]; exact h
  · rw [← hv a ha, ← hv b hb, e]

end Verif
