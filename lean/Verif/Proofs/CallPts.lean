import Verif.Proofs.Tied
import Verif.Spec.Calls

/-!
# The samples of a declared function are taken at the points of the calls
-/

namespace Verif
open Heap

variable {C : CAS} {h h' : Heap} {r r' : Regs}

/-- the samples of the `k`-th declared function are at the points `L k` -/
structure Called (bs : List Bool) (L : ℕ → List PtId) (r : Regs) (h : Heap) : Prop where
  pts : ∀ k f o, r.decl[k]? = some f → h.fns[f]? = some o → List.Sublist (o.points.map Prod.fst) (L k)
  idx : ∀ f, bs.getD f false = true → r.fns[f]? = r.decl[declIndex bs f]?
  cnt : bs.count true = r.decl.length

theorem Called.mono {bs : List Bool} {L L' : ℕ → List PtId} (c : Called bs L r h) (hL : ∀ k f o o', r.decl[k]? = some f → h.fns[f]? = some o →
      h'.fns[f]? = some o' → List.Sublist (o.points.map Prod.fst) (L k) → List.Sublist (o'.points.map Prod.fst) (L' k))
    (i : Inv C r h) (hfns : r'.fns = r.fns) (hdecl : r'.decl = r.decl) : Called bs L' r' h' := by
  refine ⟨?_, ?_, ?_⟩
  · intro k f o' hk ho'
    rw [hdecl] at hk
    have hm : f ∈ leafFns h := by rw [← i.decl]; exact List.mem_of_getElem? hk
    obtain ⟨o, ho, -⟩ := i.wf.fn f (List.mem_filter.1 hm).1
    exact hL k f o o' hk ho ho' (c.pts k f o hk ho)
  · intro f hf; rw [hfns, hdecl]; exact c.idx f hf
  · rw [hdecl]; exact c.cnt

theorem Called.same {bs : List Bool} {L : ℕ → List PtId} (c : Called bs L r h) (i : Inv C r h) (hfns : r'.fns = r.fns) (hdecl : r'.decl = r.decl)
    (hh : h'.fns = h.fns) : Called bs L r' h' := by
  refine c.mono (C := C) ?_ i hfns hdecl
  intro k f o o' _ ho ho' hs
  rw [hh, ho] at ho'; cases ho'; exact hs

/-- one more sample at the point `x` of the declared function in register `f` -/
theorem Called.one {bs : List Bool} {L L' : ℕ → List PtId} (c : Called bs L r h) (i : Inv C r h) (hfns : r'.fns = r.fns) (hdecl : r'.decl = r.decl)
    {f : ℕ} (hf : f < r.fns.length) (hb : bs.getD f false = true) {x : PtId}
    (once : ∀ (k : FnId) (o o' : FnObj), h.fns[k]? = some o → h'.fns[k]? = some o' →
      List.Sublist (o'.points.map Prod.fst) (o.points.map Prod.fst ++ [x]))
    (others : ∀ k, k ≠ r.fns[f] → k ∈ r.decl → h'.fns[k]? = h.fns[k]?)
    (hL : L' (declIndex bs f) = L (declIndex bs f) ++ [x]) (hL' : ∀ k, k ≠ declIndex bs f → L' k = L k) : Called bs L' r' h' := by
  refine c.mono (C := C) ?_ i hfns hdecl
  intro k g o o' hk ho ho' hs
  by_cases hkk : k = declIndex bs f
  · rw [hkk, hL]; rw [hkk] at hs
    exact (once g o o' ho ho').trans (hs.append_right _)
  · rw [hL' k hkk]
    have : g ≠ r.fns[f] := by
      intro hg
      have h1 := c.idx f hb
      rw [List.getElem?_eq_getElem hf, ← hg, ← hk] at h1
      have hn := i.declNodup
      have hlt := (List.getElem?_eq_some_iff.1 hk).1
      exact hkk ((List.getElem?_inj hlt hn).1 h1)
    rw [others g this (List.mem_of_getElem? hk), ho] at ho'
    cases ho'
    exact hs

variable (hC : C.Lawful) (i : Inv C r h)
include hC i

theorem called_step {bs : List Bool} {L : ℕ → List PtId} (t : Tied bs r.fns h) (c : Called bs L r h) {ins : Instr} (hst : ins.Standard bs = true)
    (hr : ins.run C r h = .ok (r', h')) {D : List PtId} (hD : r'.pts <+: D) :
    Called (ins.declares bs) (fun k => L k ++ (ins.callsOf bs r.pts.length k).map fun n => D.getD n 0) r' h' := by
  have hs := Instr.safe_of_ok hr
  have leaf : ∀ {f : ℕ} (hf : f < r.fns.length), bs.getD f false = true → ∃ o, h.fns[r.fns[f]]? = some o ∧ o.leaf = true := by
    intro f hf hb
    obtain ⟨o, ho, -⟩ := i.wf.fn _ (i.fns _ (List.getElem_mem hf))
    exact ⟨o, ho, t.leaf f hf hb o ho⟩
  have hold : ∀ {l : List PtId} {x : ℕ} (_ : r.pts ++ l <+: D) (hx : x < r.pts.length), D.getD x 0 = r.pts[x] := by
    intro l x hp hx
    obtain ⟨s, rfl⟩ := hp
    simp [List.getD, List.getElem?_append_left, hx]
  have hnew : ∀ {l : List PtId} {x : PtId} (_ : r.pts ++ x :: l <+: D), D.getD r.pts.length 0 = x := by
    intro l x hp
    obtain ⟨s, rfl⟩ := hp
    simp [List.getD]
  have noPts : ∀ {e : Instr}, (∀ k, e.callsOf bs r.pts.length k = []) → (fun k => L k ++ (e.callsOf bs r.pts.length k).map fun n => D.getD n 0) = L := by
    intro e he; funext k; rw [he k]; simp
  -- an oracle call
  have orc : ∀ {f x : ℕ} (hf : f < r.fns.length) (hb : bs.getD f false = true) (hx : x < r.pts.length) {gv : PtId × ExId} {h' : Heap} {r' : Regs},
      Verif.oracle C r.fns[f] r.pts[x] h = .ok (gv, h') → r'.fns = r.fns → r'.decl = r.decl → D.getD x 0 = r.pts[x] →
      Called bs (fun k => L k ++ ((if declIndex bs f = k then [x] else []).map fun n => D.getD n 0)) r' h' := by
    intro f x hf hb hx gv h' r' hrun h1 h2 hDx
    obtain ⟨o, ho, hl⟩ := leaf hf hb
    obtain ⟨g, v, h3, hr, lr, oc⟩ := leafOracle_spec hC i.wf (i.fns _ (List.getElem_mem hf)) (i.pts _ (List.getElem_mem hx)) ho hl 98
    have e : (methods C 100).oracle r.fns[f] r.pts[x] h = .ok (gv, h') := hrun
    rw [e] at hr; cases hr
    refine c.one (C := C) i h1 h2 hf hb (x := r.pts[x]) (fun k a b ha hb => oc.once ha hb) (fun k hk _ => lr.others k hk) ?_ ?_
    · simp only [if_true, List.map_cons, List.map_nil, hDx]
    · intro k hk; simp [Ne.symm hk]
  -- a point added to a declared function
  have ad : ∀ {f x : ℕ} (hf : f < r.fns.length) (hb : bs.getD f false = true) {tr : Triplet} {h1 h' : Heap} {r' : Regs} (p : Prep C h h1)
      (a : AddRes C h1 r.fns[f] tr h'), r'.fns = r.fns → r'.decl = r.decl → D.getD x 0 = tr.1 →
      Called bs (fun k => L k ++ ((if declIndex bs f = k then [x] else []).map fun n => D.getD n 0)) r' h' := by
    intro f x hf hb tr h1 h' r' p a e1 e2 hDx
    obtain ⟨o, ho, hl⟩ := leaf hf hb
    refine c.one (C := C) i e1 e2 hf hb (x := tr.1) (fun k o o' ha hb => a.once k o o' (by rw [p.fns]; exact ha) hb) ?_ ?_ ?_
    · intro k hk _
      rw [a.others o (by rw [p.fns]; exact ho) k hk (fun _ => hl), p.fns]
    · simp only [if_true, List.map_cons, List.map_nil, hDx]
    · intro k hk; simp [Ne.symm hk]
  cases ins with
  | declare d =>
    obtain ⟨f, h2, e1, hr2⟩ := M.bind_ok_iff.1 hr
    cases hr2
    obtain ⟨cls, re, hr⟩ := declare_run e1
    simp only [newLeafFn, Except.ok.injEq, Prod.mk.injEq] at hr
    obtain ⟨rfl, rfl⟩ := hr
    rw [noPts fun _ => rfl]
    refine ⟨?_, ?_, ?_⟩
    · intro k g o hk ho
      rcases Nat.lt_or_ge k r.decl.length with hlt | hge
      · simp only [List.getElem?_append_left hlt] at hk
        have hm : g ∈ leafFns h := by rw [← i.decl]; exact List.mem_of_getElem? hk
        simp only [List.getElem?_append_left (i.wf.fn_lt (List.mem_filter.1 hm).1)] at ho
        exact c.pts k g o hk ho
      · simp only [List.getElem?_append_right hge] at hk
        have : k - r.decl.length = 0 := by
          have := (List.getElem?_eq_some_iff.1 hk).1
          simpa using this
        simp only [this, List.getElem?_cons_zero, Option.some.injEq] at hk
        subst hk
        simp at ho
        rw [← ho]; simp
    · intro f hf
      simp only [Instr.declares] at hf
      rcases Nat.lt_or_ge f bs.length with hlt | hge
      · have hb : bs.getD f false = true := by
          rwa [List.getD_eq_getElem?_getD, List.getElem?_append_left hlt, ← List.getD_eq_getElem?_getD] at hf
        have h1 := c.idx f hb
        have hlt' : f < r.fns.length := by rw [← t.len]; exact hlt
        have h2 : declIndex (bs ++ [true]) f = declIndex bs f := by
          rw [declIndex, declIndex, List.take_append_of_le_length hlt.le]
        rw [List.getElem?_eq_getElem hlt'] at h1
        have h3 := (List.getElem?_eq_some_iff.1 h1.symm).1
        simp only [Instr.declares, h2, List.getElem?_append_left hlt', List.getElem?_append_left h3]
        rw [List.getElem?_eq_getElem hlt']; exact h1
      · have hf' : f = bs.length := by
          by_contra hne
          rw [List.getD_eq_getElem?_getD, List.getElem?_eq_none (by simp; omega)] at hf
          cases hf
        subst hf'
        have h2 : declIndex (bs ++ [true]) bs.length = r.decl.length := by
          rw [declIndex, List.take_left', c.cnt]; rfl
        simp only [Instr.declares, h2]
        rw [t.len]; simp
    · simp [Instr.declares, c.cnt]
  | fn a =>
    obtain ⟨f, h2, e1, hr2⟩ := M.bind_ok_iff.1 hr
    cases hr2
    rw [noPts fun _ => rfl]
    obtain ⟨q', h1, r1, ad, m1, -⟩ := FE.run_live a i.wf i.fns (a.positive_safe (by rw [← t.len]; exact hst))
    rw [e1] at r1; cases r1
    refine ⟨?_, ?_, ?_⟩
    · intro k g o hk ho
      have hm : g ∈ leafFns h := by rw [← i.decl]; exact List.mem_of_getElem? hk
      rw [ad.old _ (i.wf.fn_lt (List.mem_filter.1 hm).1)] at ho
      exact c.pts k g o hk ho
    · intro f hf
      simp only [Instr.declares] at hf
      have hlt : f < bs.length := by
        by_contra hge
        rw [List.getD_eq_getElem?_getD, List.getElem?_append_right (by omega)] at hf
        rcases Nat.eq_zero_or_pos (f - bs.length) with h0 | h0
        · simp [h0] at hf
        · rw [List.getElem?_eq_none (by simp; omega)] at hf; cases hf
      have hb : bs.getD f false = true := by
        rwa [List.getD_eq_getElem?_getD, List.getElem?_append_left hlt, ← List.getD_eq_getElem?_getD] at hf
      have h2 : declIndex (bs ++ [false]) f = declIndex bs f := by
        rw [declIndex, declIndex, List.take_append_of_le_length hlt.le]
      simp only [Instr.declares, h2, List.getElem?_append_left (show f < r.fns.length by rw [← t.len]; exact hlt)]
      exact c.idx f hb
    · simp [Instr.declares, c.cnt]
  | pt a =>
    obtain ⟨q, h1, pr, hv⟩ := PE.run_live hC a i.pts hs
    have p := Prep.onlyAdds i.wf pr.adds
    rw [Instr.run, M.bind_of_ok pr.run] at hr
    cases hr
    rw [noPts fun _ => rfl]
    exact c.same i rfl rfl p.fns
  | ex a =>
    obtain ⟨q, h1, pr, hv⟩ := EE.run_live hC a i.pts i.exs hs
    have p := Prep.onlyAdds i.wf pr.adds
    rw [Instr.run, M.bind_of_ok pr.run] at hr
    cases hr
    rw [noPts fun _ => rfl]
    exact c.same i rfl rfl p.fns
  | initial =>
    have p := Prep.leafPt i.wf
    rw [Instr.run, M.bind_of_ok (newLeafPt_run h)] at hr
    cases hr
    rw [noPts fun _ => rfl]
    exact c.same i rfl rfl p.fns
  | stationary f =>
    have hf : f < r.fns.length := by simp only [Instr.Safe, decide_eq_true_eq] at hs; exact hs
    obtain ⟨h2, hr1, ha⟩ := stationary_run hC i.wf (i.fns _ (List.getElem_mem hf))
    rw [Instr.run, M.bind_of_ok (regGet_run hf h), M.bind_of_ok hr1] at hr
    cases hr
    by_cases hb : bs.getD f false = true
    · have e : (fun k => L k ++ ((Instr.stationary f).callsOf bs r.pts.length k).map fun n => D.getD n 0) =
          fun k => L k ++ ((if declIndex bs f = k then [r.pts.length] else []).map fun n => D.getD n 0) := by
        funext k
        by_cases hk : declIndex bs f = k <;> simp only [Instr.callsOf, hb, hk, ne_eq, not_true_eq_false, not_false_eq_true, and_false, and_true, if_true, if_false]
      rw [e]
      exact ad hf hb (statHeap_prep i.wf) ha rfl rfl (hnew hD)
    · refine c.mono (C := C) ?_ i rfl rfl
      intro k g o o' hk ho ho' hsub
      have : (Instr.stationary f).callsOf bs r.pts.length k = [r.pts.length] := if_neg fun hh => hb hh.1
      rw [this]
      simp only [List.map_cons, List.map_nil, hnew hD]
      exact (ha.once g o o' (by rw [(statHeap_prep i.wf).fns]; exact ho) ho').trans (hsub.append_right _)
  | oracle f x =>
    have ⟨hf, hx⟩ : f < r.fns.length ∧ x < r.pts.length := by simp only [Instr.Safe, Bool.and_eq_true, decide_eq_true_eq] at hs; exact hs
    rw [Instr.run, M.bind_of_ok (regGet_run hf h), M.bind_of_ok (regGet_run hx h)] at hr
    obtain ⟨tr, h2, e1, hr2⟩ := M.bind_ok_iff.1 hr
    cases hr2
    exact orc hf hst hx e1 rfl rfl (hold hD hx)
  | gradient f x =>
    have ⟨hf, hx⟩ : f < r.fns.length ∧ x < r.pts.length := by simp only [Instr.Safe, Bool.and_eq_true, decide_eq_true_eq] at hs; exact hs
    obtain ⟨g, v, h1, hr1, -⟩ := oracle_run hC i.wf (i.fns _ (List.getElem_mem hf)) (i.pts _ (List.getElem_mem hx))
    rw [Instr.run, M.bind_of_ok (regGet_run hf h), M.bind_of_ok (regGet_run hx h), M.bind_of_ok (gradient_run hr1)] at hr
    cases hr
    exact orc hf hst hx hr1 rfl rfl (hold hD hx)
  | value f x =>
    have ⟨hf, hx⟩ : f < r.fns.length ∧ x < r.pts.length := by simp only [Instr.Safe, Bool.and_eq_true, decide_eq_true_eq] at hs; exact hs
    rcases value_run hC i.wf (i.fns _ (List.getElem_mem hf)) (i.pts _ (List.getElem_mem hx)) with ⟨g, v, hl, hr1⟩ | ⟨-, g, v, h1, hor, hr1⟩
    · rw [Instr.run, M.bind_of_ok (regGet_run hf h), M.bind_of_ok (regGet_run hx h), M.bind_of_ok hr1] at hr
      cases hr
      refine c.mono (C := C) ?_ i rfl rfl
      intro k g o o' hk ho ho' hsub
      rw [ho] at ho'; cases ho'
      exact hsub.trans (List.sublist_append_left _ _)
    · rw [Instr.run, M.bind_of_ok (regGet_run hf h), M.bind_of_ok (regGet_run hx h), M.bind_of_ok hr1] at hr
      cases hr
      exact orc hf hst hx hor rfl rfl (hold (l := []) (by simpa using hD) hx)
  | prox x0 f gamma =>
    have ⟨hg, hf⟩ : x0 < r.pts.length ∧ f < r.fns.length := by simp only [Instr.Safe, Bool.and_eq_true, decide_eq_true_eq] at hs; exact hs
    obtain ⟨q, h1, h2, hadds, hq, hval, hr1, ha⟩ := prox_run hC i.wf gamma (i.fns _ (List.getElem_mem hf)) (i.pts _ (List.getElem_mem hg))
    have p1 := conjHeap_prep i.wf
    have p := p1.trans (Prep.onlyAdds p1.wf hadds)
    rw [Instr.run, M.bind_of_ok (regGet_run hg h), M.bind_of_ok (regGet_run hf h), M.bind_of_ok hr1] at hr
    cases hr
    exact ad hf hst p ha rfl rfl (hnew hD)
  | conj g f =>
    have ⟨hg, hf⟩ : g < r.pts.length ∧ f < r.fns.length := by simp only [Instr.Safe, Bool.and_eq_true, decide_eq_true_eq] at hs; exact hs
    obtain ⟨h1, hr1, ha⟩ := conj_run hC i.wf (i.fns _ (List.getElem_mem hf)) (i.pts _ (List.getElem_mem hg))
    rw [Instr.run, M.bind_of_ok (regGet_run hg h), M.bind_of_ok (regGet_run hf h), M.bind_of_ok hr1] at hr
    cases hr
    exact ad hf hst (conjHeap_prep i.wf) ha rfl rfl (hnew hD)
  | addPoint f x g v =>
    have ⟨⟨⟨hf, hx⟩, hg⟩, hv⟩ : ((f < r.fns.length ∧ x < r.pts.length) ∧ g < r.pts.length) ∧ v < r.exs.length := by
      simp only [Instr.Safe, Bool.and_eq_true, decide_eq_true_eq] at hs; exact hs
    obtain ⟨h1, hr1, ha⟩ := addPoint_run hC i.wf (i.fns _ (List.getElem_mem hf)) (t := (r.pts[x], r.pts[g], r.exs[v]))
      ⟨i.pts _ (List.getElem_mem hx), i.pts _ (List.getElem_mem hg), i.exs _ (List.getElem_mem hv)⟩
    rw [Instr.run, M.bind_of_ok (regGet_run hf h), M.bind_of_ok (regGet_run hx h), M.bind_of_ok (regGet_run hg h),
        M.bind_of_ok (regGet_run hv h), M.bind_of_ok hr1] at hr
    cases hr
    exact ad hf hst (Prep.refl i.wf) ha rfl rfl (hold (l := []) (by simpa using hD) hx)
  | constr e k =>
    have he : e < r.exs.length := by simp only [Instr.Safe, decide_eq_true_eq] at hs; exact hs
    rw [Instr.run, M.bind_of_ok (regGet_run he h)] at hr
    cases hr
    rw [noPts fun _ => rfl]
    exact c.same i rfl rfl rfl
  | metric e =>
    have he : e < r.exs.length := by simp only [Instr.Safe, decide_eq_true_eq] at hs; exact hs
    rw [Instr.run, M.bind_of_ok (regGet_run he h)] at hr
    cases hr
    rw [noPts fun _ => rfl]
    exact c.same i rfl rfl rfl
  | objective e =>
    cases hr
    rw [noPts fun _ => rfl]
    exact c.same i rfl rfl rfl

omit hC i in
theorem pts_prefix_step {ins : Instr} (hr : ins.run C r h = .ok (r', h')) : r.pts <+: r'.pts := by
  cases ins <;> simp only [Instr.run, M.bind_ok_iff] at hr
  case objective => cases hr; exact List.prefix_rfl
  all_goals
    repeat' obtain ⟨_, hr⟩ := hr
  all_goals
    first | exact List.prefix_append _ _ | exact List.prefix_rfl

omit hC i in
theorem pts_prefix_prog (prog : List Instr) : ∀ {r r' : Regs} {h h' : Heap}, runProg C prog r h = .ok (r', h') → r.pts <+: r'.pts := by
  induction prog with
  | nil =>
    intro r r' h h' hr
    obtain ⟨rfl, rfl⟩ : r = r' ∧ h = h' := by simpa [runProg, pure, M.pure] using hr
    exact List.prefix_rfl
  | cons ins prog ih =>
    intro r r' h h' hr
    obtain ⟨r1, h1, e1, hr⟩ := M.bind_ok_iff.1 hr
    exact (pts_prefix_step e1).trans (ih hr)

omit i in
theorem called_prog (prog : List Instr) : ∀ {r r' : Regs} {h h' : Heap} {bs : List Bool} {L : ℕ → List PtId}, Inv C r h → Tied bs r.fns h →
    Called bs L r h → standardFrom bs prog = true → runProg C prog r h = .ok (r', h') → ∀ {D : List PtId}, r'.pts <+: D →
    ∃ bs', Called bs' (fun k => L k ++ (callsFrom k bs r.counts prog).map fun n => D.getD n 0) r' h' := by
  induction prog with
  | nil =>
    intro r r' h h' bs L i t c hst hr D hD
    obtain ⟨rfl, rfl⟩ : r = r' ∧ h = h' := by simpa [runProg, pure, M.pure] using hr
    exact ⟨bs, by simpa [callsFrom] using c⟩
  | cons ins prog ih =>
    intro r r' h h' bs L i t c hst hr D hD
    simp only [standardFrom, Bool.and_eq_true] at hst
    obtain ⟨r1, h1, e1, hr⟩ := M.bind_ok_iff.1 hr
    obtain ⟨r2, h2, e2, st⟩ := step_all hC i ins (Instr.safe_of_ok e1)
    rw [e1] at e2; cases e2
    have c1 := called_step hC i t c hst.1 e1 ((pts_prefix_prog prog hr).trans hD)
    obtain ⟨bs', c2⟩ := ih st.inv (tied_step hC i t hst.1 e1) c1 hst.2 hr hD
    refine ⟨bs', ?_⟩
    rw [st.counts] at c2
    simpa [callsFrom, List.append_assoc, Regs.counts] using c2

omit i in
/-- after a standard program the samples of every declared function are at points of its calls, at most one for each call -/
theorem called_problem {prog : List Instr} (hst : Standard prog = true) (hr : runProblem C prog h = .ok (r', h')) {k : ℕ} {f : FnId} {o : FnObj}
    (hk : r'.decl[k]? = some f) (ho : h'.fns[f]? = some o) : List.Sublist (o.points.map Prod.fst) ((calls k prog).map fun n => r'.pts.getD n 0) := by
  have t0 : Tied [] Regs.empty.fns h.reset := by
    refine ⟨?_, rfl, ?_, ?_⟩
    · intro f hf; simp [Heap.reset] at hf
    · intro k hk; simp [Regs.empty] at hk
    · intro f hf; simp [Regs.empty] at hf
  have c0 : Called [] (fun _ => []) Regs.empty h.reset := by
    refine ⟨?_, ?_, rfl⟩
    · intro k f o hk; simp [Regs.empty] at hk
    · intro f hf; simp at hf
  obtain ⟨bs, c⟩ := called_prog hC prog (inv_reset h) t0 c0 hst hr List.prefix_rfl
  have := c.pts k f o hk ho
  simpa [calls, Regs.counts, Regs.empty] using this

end Verif
