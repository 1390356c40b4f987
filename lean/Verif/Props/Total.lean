import Verif.Proofs.TotalQcqp
import Verif.Props.NlpIff
import Verif.Props.Registry
import Verif.Spec.Feasible
import Verif.Props.Dispatch

/-!
# C63: exactly when the construction of the nonlinear programs raises no error
-/

namespace Verif
open Heap

variable {C : CAS} {prog : List Instr} {r : Regs} {h h' : Heap} {params : List Name} {bounds : List Bound} {init : List Name}

theorem instr_metric {i : Instr} {r r' : Regs} {h h' : Heap} (hr : i.run C r h = .ok (r', h')) : r'.metric = none ↔ r.metric = none ∧ ∀ e, i ≠ .metric e := by
  cases i with
  | metric e =>
    obtain ⟨x, h1, -, hr⟩ := M.bind_ok_iff.1 hr
    cases hr; simp
  | objective e => cases hr; simp
  | declare d | fn a | pt a | ex a | initial =>
    obtain ⟨x, h1, -, hr⟩ := M.bind_ok_iff.1 hr
    cases hr; simp
  | constr e k =>
    obtain ⟨x, h1, -, hr⟩ := M.bind_ok_iff.1 hr
    cases hr; simp
  | stationary f =>
    obtain ⟨x, h1, -, hr⟩ := M.bind_ok_iff.1 hr
    obtain ⟨y, h2, -, hr⟩ := M.bind_ok_iff.1 hr
    cases hr; simp
  | oracle f x | gradient f x | value f x =>
    obtain ⟨a, h1, -, hr⟩ := M.bind_ok_iff.1 hr
    obtain ⟨b, h2, -, hr⟩ := M.bind_ok_iff.1 hr
    obtain ⟨c, h3, -, hr⟩ := M.bind_ok_iff.1 hr
    cases hr; simp
  | prox x f gamma =>
    obtain ⟨a, h1, -, hr⟩ := M.bind_ok_iff.1 hr
    obtain ⟨b, h2, -, hr⟩ := M.bind_ok_iff.1 hr
    obtain ⟨c, h3, -, hr⟩ := M.bind_ok_iff.1 hr
    cases hr; simp
  | conj g f =>
    obtain ⟨a, h1, -, hr⟩ := M.bind_ok_iff.1 hr
    obtain ⟨b, h2, -, hr⟩ := M.bind_ok_iff.1 hr
    obtain ⟨c, h3, -, hr⟩ := M.bind_ok_iff.1 hr
    cases hr; simp
  | addPoint f x g v =>
    obtain ⟨a, h1, -, hr⟩ := M.bind_ok_iff.1 hr
    obtain ⟨b, h2, -, hr⟩ := M.bind_ok_iff.1 hr
    obtain ⟨c, h3, -, hr⟩ := M.bind_ok_iff.1 hr
    obtain ⟨d, h4, -, hr⟩ := M.bind_ok_iff.1 hr
    obtain ⟨e, h5, -, hr⟩ := M.bind_ok_iff.1 hr
    cases hr; simp

theorem runProg_metric : ∀ {prog : List Instr} {r r' : Regs} {h h' : Heap}, runProg C prog r h = .ok (r', h') →
    (r'.metric = none ↔ r.metric = none ∧ ∀ e, Instr.metric e ∉ prog)
  | [], r, r', h, h', hr => by cases hr; simp
  | i :: is, r, r', h, h', hr => by
    obtain ⟨r1, h1, e1, hr⟩ := M.bind_ok_iff.1 hr
    rw [runProg_metric hr, instr_metric e1]
    simp only [List.mem_cons, not_or]
    constructor
    · rintro ⟨⟨a, b⟩, c⟩; exact ⟨a, fun e => ⟨fun h' => b e h'.symm, c e⟩⟩
    · rintro ⟨a, b⟩; exact ⟨⟨a, fun e h' => (b e).1 h'.symm⟩, fun e => (b e).2⟩

/-- a metric is set at the end iff the script sets one -/
theorem runProblem_metric (hr : runProblem C prog Heap.empty = .ok (r, h)) : r.metric ≠ none ↔ ∃ e, Instr.metric e ∈ prog := by
  have := runProg_metric hr
  rw [ne_eq, this, and_iff_right (show Regs.empty.metric = none from rfl)]
  simp

theorem solvable_of_decls (hC : C.Lawful) (hr : runProblem C prog Heap.empty = .ok (r, h)) (hok : ∀ d ∈ decls prog, d.Ok)
    (hdup : ∀ f ∈ r.decl, ∀ o, h.fns[f]? = some o → o.points.Nodup) : Solvable r h := by
  intro f hf o ho
  refine ⟨?_, hdup f hf o ho⟩
  have hd := problem_decl hC hr
  obtain ⟨k, hk, rfl⟩ := List.mem_iff_getElem.1 hf
  have hk' : k < (decls prog).length := by rw [hd.length_eq]; exact hk
  obtain ⟨o', ho', -, hc, -⟩ := List.Forall₂.get hd hk' hk
  simp only [List.get_eq_getElem] at ho' hc
  rw [ho] at ho'; cases ho'
  rw [hc]
  exact (hok _ (List.getElem_mem hk')).computable

theorem problemMatrices_metric (hC : C.Lawful) (hr : runProblem C prog Heap.empty = .ok (r, h)) {sm : SymMats}
    (hm : problemMatrices C r h = .ok (sm, h')) : r.metric ≠ none := by
  intro hn
  have i := reached_inv hC hr
  obtain ⟨acc1, e1, x1⟩ := extraLoop_spec hC i.wf r.cons [] _ (ExtraOk.nil h) i.cons
  change symbolicMatrices C r (leafFnIds h) h.ptCounter h.exCounter h = _ at hm
  rw [symbolicMatrices, M.bind_of_ok e1] at hm
  obtain ⟨a2, h2, -, hm⟩ := M.bind_ok_iff.1 hm
  obtain ⟨-, h3, -, hm⟩ := M.bind_ok_iff.1 hm
  obtain ⟨a4, h4, e4, hm⟩ := M.bind_ok_iff.1 hm
  rw [hn] at e4
  cases e4

/-- **C63.** Let a script run without error, use only the symbols `params`, whose names are simple, declare sensible classes, let the
bounds name scalar variables and the initial values name variables.  Then `solve_ipopt` builds its nonlinear program without error
iff the script sets a performance metric and no function has the same sample recorded twice. -/
theorem C63_ipopt (hC : C.Lawful) (hr : runProblem C prog Heap.empty = .ok (r, h)) (hclean : ∀ i ∈ prog, i.Clean {n | n ∈ params})
    (s : SimpleParams params) (hok : ∀ d ∈ decls prog, d.Ok) (hb : ∀ b ∈ bounds, b.name ∈ scalarNames params)
    (hinit : ∀ n ∈ init, n ∈ "P" :: scalarNames params) :
    (∃ nlp h', solveIpopt C r params bounds init h = .ok (nlp, h')) ↔
      (∃ e, Instr.metric e ∈ prog) ∧ ∀ f ∈ r.decl, ∀ o, h.fns[f]? = some o → o.points.Nodup := by
  constructor
  · rintro ⟨nlp, h', hn⟩
    obtain ⟨sm, h1, -⟩ := solveIpopt_inv hn
    exact ⟨(runProblem_metric hr).1 (problemMatrices_metric hC hr h1), fun f hf o ho => (solvable_of_ok hC hr hok h1 f hf o ho).2⟩
  · rintro ⟨hmet, hdup⟩
    have hs : Solvable r h := solvable_of_decls hC hr hok hdup
    obtain ⟨sm, h', h1, t⟩ := translate_ok hC hr hs ((runProblem_metric hr).2 hmet)
    have hc := qcqp_clean hC hr hclean h1
    obtain ⟨st, pid, p, hpid, he⟩ := ipoptNlp_eq (bounds := bounds) (ns := (leafFnIds h).map (nSamples h)) (dimG := h.ptCounter) C init r.obj h.exCounter t.nE s hb
    obtain ⟨nlp, hnlp⟩ := ipoptFinish_ok (dimF := h.exCounter) (init := init) (goal := r.obj) hC p s t.keys t.sum
      (fun en hen n hn => t.occurs hc en hen n hn) (by
        rw [runProblem_obj hr]
        intro n hn
        rcases goalOf_vars hclean n hn with hn | rfl
        · exact List.mem_append_left _ (List.mem_append_right _ hn)
        · rw [scalarNames, baseNames]; simp) hinit
    refine ⟨nlp, h', ?_⟩
    rw [solveIpopt, M.bind_of_ok (show M.get h = .ok (h, h) from rfl), M.bind_of_ok h1, M.bind_of_ok (show M.get h' = .ok (h', h') from rfl)]
    change (match ipoptNlp C sm ((leafFnIds h).map (nSamples h')) r.cons.length h.ptCounter h.exCounter params bounds init r.obj with
      | .ok x => pure x | .error e => M.throw e : M Nlp) h' = _
    rw [t.nSamples_eq fun f hf => leafFnIds_fn hf, he, hnlp]
    rfl

variable {extra : ℕ}

/-- **C63**, QCQP.  Let a script run without error, use only the symbols `params`, distinct and without underscore, declare sensible
classes and keep a parameter as the objective.  Let `params` contain the four parameters with lower bounds, with each `inv` + `v` also
`v`, and the names in the bounds.  Then `solve_ipopt_qcqp` builds its QCQP without error iff the script sets a metric, no function has the
same sample recorded twice, and there is a constraint: an extra one, or a function with two samples. -/
theorem C63_qcqp (hC : C.Lawful) (hr : runProblem C prog Heap.empty = .ok (r, h)) (hclean : ∀ i ∈ prog, i.Clean {n | n ∈ params})
    (hp : params.Nodup) (hpl : ∀ n ∈ params, Plain n) (hok : ∀ d ∈ decls prog, d.Ok) {g : Name} (hgoal : goalOf prog = Sym.var g) (hg : g ∈ params)
    (hb : ∀ b ∈ bounds, b.name ∈ params) (hin : ∀ v ∈ invParams params, v ∈ params ∧ "inv" ++ v ∈ params)
    (hlo : ∀ n ∈ ["eta", "h", "rho", "gamma"], n ∈ params) :
    (∃ q h', solveQcqp C r params bounds extra h = .ok (q, h')) ↔
      (∃ e, Instr.metric e ∈ prog) ∧ (∀ f ∈ r.decl, ∀ o, h.fns[f]? = some o → o.points.Nodup) ∧
        (r.cons ≠ [] ∨ ∃ f ∈ r.decl, ∃ o, h.fns[f]? = some o ∧ 2 ≤ o.points.length) := by
  have hcount : ∀ {sm : SymMats} {h' : Heap}, Translates C h r sm h' →
      (sm.nI + sm.nE ≠ 0 ↔ r.cons ≠ [] ∨ ∃ f ∈ r.decl, ∃ o, h.fns[f]? = some o ∧ 2 ≤ o.points.length) := by
    intro sm h' t
    have hfk : ∀ (ns : List ℕ) (k : ℕ), (fnKeys ns k).length ≠ 0 ↔ ∃ n ∈ ns, 2 ≤ n := by
      intro ns
      induction ns with
      | nil => intro k; simp [fnKeys]
      | cons n ns ih =>
        intro k
        have h1 : (offDiag n).length ≠ 0 ↔ 2 ≤ n := by
          rw [Ne, List.length_eq_zero_iff]
          constructor
          · intro h0
            obtain ⟨⟨i, j⟩, hm⟩ := List.exists_mem_of_ne_nil _ h0
            have := mem_offDiag.1 hm
            omega
          · intro h2
            exact List.ne_nil_of_mem (a := (0, 1)) (mem_offDiag.2 ⟨by omega, by omega, by decide⟩)
        have h2 := ih (k + 1)
        rw [fnKeys, List.length_append, List.length_map]
        constructor
        · intro h3
          by_cases h4 : (offDiag n).length = 0
          · obtain ⟨m, hm, hm2⟩ := h2.1 (by omega)
            exact ⟨m, List.mem_cons_of_mem _ hm, hm2⟩
          · exact ⟨n, List.mem_cons_self, h1.1 h4⟩
        · rintro ⟨m, hm, hm2⟩
          rcases List.mem_cons.1 hm with rfl | hm
          · have := h1.2 hm2; omega
          · have := h2.2 ⟨m, hm, hm2⟩; omega
    have hc := length_cons r.cons
    have hl := decl_eq_leafFnIds (reached_inv hC hr)
    have h1 := hfk ((leafFnIds h).map (nSamples h)) (fnShift r.cons)
    have h2 : (∃ n ∈ (leafFnIds h).map (nSamples h), 2 ≤ n) ↔ ∃ f ∈ r.decl, ∃ o, h.fns[f]? = some o ∧ 2 ≤ o.points.length := by
      rw [← hl]
      constructor
      · rintro ⟨n, hn, h2⟩
        obtain ⟨f, hf, rfl⟩ := List.mem_map.1 hn
        obtain ⟨o, ho⟩ := leafFnIds_fn hf
        exact ⟨f, hf, o, ho, by rw [nSamples, ho] at h2; exact h2⟩
      · rintro ⟨f, hf, o, ho, h2⟩
        exact ⟨_, List.mem_map_of_mem hf, by rw [nSamples, ho]; exact h2⟩
    rw [← h2, ← h1, t.nI, t.nE, Ne, Ne, ← List.length_eq_zero_iff]
    omega
  constructor
  · rintro ⟨q, h', hq⟩
    obtain ⟨sm, h1, h2⟩ := solveQcqp_inv hq
    have hs := solvable_of_ok hC hr hok h1
    obtain ⟨d, bs, h3, -⟩ := qcqpNlp_core h2
    exact ⟨(runProblem_metric hr).1 (problemMatrices_metric hC hr h1), fun f hf o ho => (hs f hf o ho).2,
      (hcount (translate_of hC hr hs h1)).1 (qData_nonempty h3)⟩
  · rintro ⟨hmet, hdup, hcon⟩
    have hs : Solvable r h := solvable_of_decls hC hr hok hdup
    obtain ⟨sm, h', h1, t⟩ := translate_ok hC hr hs ((runProblem_metric hr).2 hmet)
    have hc := qcqp_clean hC hr hclean h1
    obtain ⟨ents, obj, pr⟩ := t.prepared
    obtain ⟨q, hq⟩ := qcqpNlp_total (dimG := h.ptCounter) (dimF := h.exCounter) hC hp hpl (fun en hen n hn => t.occurs hc en hen n hn) pr
      ((hcount t).2 hcon) hb hin hlo hg extra
    refine ⟨q, h', ?_⟩
    rw [solveQcqp, M.bind_of_ok (show M.get h = .ok (h, h) from rfl), M.bind_of_ok h1, runProblem_obj hr, hgoal, hq]
    rfl


/-- **C63**, with C26: for such scripts, at all parameter values with a certificate (a solution of the dual system of the problem's
matrices) the nonlinear program of `solve_ipopt` exists and has a feasible point. -/
theorem C63_feasible (hC : C.Lawful) (hr : runProblem C prog Heap.empty = .ok (r, h)) (hclean : ∀ i ∈ prog, i.Clean {n | n ∈ params})
    (s : SimpleParams params) (hok : ∀ d ∈ decls prog, d.Ok) (hmet : ∃ e, Instr.metric e ∈ prog)
    (hdup : ∀ f ∈ r.decl, ∀ o, h.fns[f]? = some o → o.points.Nodup) :
    ∃ sm h', problemMatrices C r h = .ok (sm, h') ∧ ∀ env : Name → ℝ, Certified sm h.ptCounter h.exCounter env → InvOk params env →
      (∀ n ∈ ["eta", "rho", "h"], 0 ≤ env n) → ∃ env', IpoptFeasible C prog params env' ∧ ∀ n ∈ scalarNames params, env' n = env n := by
  obtain ⟨nlp, h', hn⟩ := (C63_ipopt (bounds := []) (init := []) hC hr hclean s hok (by simp) (by simp)).2 ⟨hmet, hdup⟩
  obtain ⟨sm, hm, hiff⟩ := C26_iff hC hr hclean s (by simp) (solvable_of_decls hC hr hok hdup) hn
  refine ⟨sm, h', hm, fun env hc hi hl => ?_⟩
  obtain ⟨σ, hσ, hv⟩ := (hiff env).2 ⟨hc, hi, fun b hb => absurd hb (by simp), hl⟩
  exact ⟨_, ⟨r, h, [], [], nlp, h', σ, hr, hn, hσ, rfl⟩, hv⟩

/-- **C63** with C37: for such scripts `solve(solver="ipopt")` always reaches the external solver, and then returns `None` values if this
raises, the dictionary if it reports success, and raises AssertionError if it returns without success.  Nothing else can happen. -/
theorem C63_solve {X : External} {a : SolveArgs} (hC : C.Lawful) (hr : runProblem C prog Heap.empty = .ok (r, h))
    (hclean : ∀ i ∈ prog, i.Clean {n | n ∈ params}) (s : SimpleParams params) (hok : ∀ d ∈ decls prog, d.Ok)
    (hb : ∀ b ∈ a.bounds, b.name ∈ scalarNames params) (hinit : ∀ n ∈ a.init, n ∈ "P" :: scalarNames params)
    (hmet : ∃ e, Instr.metric e ∈ prog) (hdup : ∀ f ∈ r.decl, ∀ o, h.fns[f]? = some o → o.points.Nodup) :
    ∃ nlp h', solveIpopt C r params a.bounds a.init h = .ok (nlp, h') ∧
      (X.nlp nlp = .raised → solve C X r params "ipopt" a h = .ok (.failed, h')) ∧
      (∀ sol, X.nlp nlp = .returned true sol → ∃ d, solve C X r params "ipopt" a h = .ok (.solved d, h')) ∧
      (∀ sol, X.nlp nlp = .returned false sol → solve C X r params "ipopt" a h = .error .assertion) := by
  obtain ⟨nlp, h', hn⟩ := (C63_ipopt hC hr hclean s hok hb hinit).2 ⟨hmet, hdup⟩
  refine ⟨nlp, h', hn, ?_, ?_, ?_⟩
  · intro hx
    rw [solve, if_pos rfl, M.bind_of_ok hn, hx]; rfl
  · intro sol hx
    rw [solve, if_pos rfl, M.bind_of_ok hn, hx]; exact ⟨_, rfl⟩
  · intro sol hx
    rw [solve, if_pos rfl, M.bind_of_ok hn, hx]; rfl

/-! ### Non-vacuity -/

theorem descentProg_clean : ∀ i ∈ descentProg, i.Clean {n | n ∈ ["eta", "h"]} := by
  intro i hi
  simp only [descentProg, List.mem_cons, List.not_mem_nil, or_false] at hi
  rcases hi with rfl | rfl | rfl | rfl | rfl | rfl | rfl <;> simp [Instr.Clean, PE.Clean, EE.Clean, Sym.vars]

theorem descentParams_simple : SimpleParams ["eta", "h"] := by
  refine ⟨by decide, by decide +kernel, ?_⟩
  intro n hn hi
  simp only [List.mem_cons, List.not_mem_nil, or_false] at hn
  rcases hn with rfl | rfl <;> exact absurd hi (by decide +kernel)

theorem descentProg_decls : ∀ d ∈ decls descentProg, d.Ok := by
  intro d hd
  simp only [descentProg, decls, List.mem_cons, List.not_mem_nil, or_false] at hd
  subst hd
  norm_num [FnDecl.Ok]

/-- the descent lemma meets the hypotheses and both conditions of `C63_ipopt` -/
example : ∃ r h, runProblem refCAS descentProg Heap.empty = .ok (r, h) ∧ (∃ e, Instr.metric e ∈ descentProg) ∧
    (∀ f ∈ r.decl, ∀ o, h.fns[f]? = some o → o.points.Nodup) ∧
    ∃ nlp h', solveIpopt refCAS r ["eta", "h"] [⟨"eta", some 1, some 0⟩] ["P", "h"] h = .ok (nlp, h') := by
  obtain ⟨r, h, -, -, h1, -, h3, -⟩ := descent_feasible
  have h2 : ∃ e, Instr.metric e ∈ descentProg := ⟨2, by simp [descentProg]⟩
  have h4 : ∀ f ∈ r.decl, ∀ o, h.fns[f]? = some o → o.points.Nodup := fun f hf o ho => (h3 f hf o ho).2
  exact ⟨r, h, h1, h2, h4, (C63_ipopt refCAS_lawful h1 descentProg_clean descentParams_simple descentProg_decls (by decide +kernel) (by decide +kernel)).2 ⟨h2, h4⟩⟩

/-- one function with one sample, no constraint -/
def lonelyProg : List Instr := [.declare (.convex false), .initial, .oracle 0 0, .metric 0]

/-- **C63**, finding: the three ways to solve a problem do not accept the same problems.  A script with one function, one sample and no
extra constraint is accepted by `solve_ipopt`, and makes `solve_ipopt_qcqp` and `solve_ipopt_qcqp_matrix` raise IndexError. -/
theorem C63_lonely : ∃ r h, runProblem refCAS lonelyProg Heap.empty = .ok (r, h) ∧
    (∃ x, solveIpopt refCAS r ["eta", "h", "rho", "gamma"] [] [] h = .ok x) ∧
    solveQcqp refCAS r ["eta", "h", "rho", "gamma"] [] 0 h = .error .index ∧
    solveQcqpMatrix refCAS r ["eta", "h", "rho", "gamma"] [] h = .error .index := by
  have hk : (match runProblem refCAS lonelyProg Heap.empty with
    | .ok (r, h) => (match solveIpopt refCAS r ["eta", "h", "rho", "gamma"] [] [] h with | .ok _ => true | .error _ => false) &&
        (match solveQcqp refCAS r ["eta", "h", "rho", "gamma"] [] 0 h with | .ok _ => false | .error e => decide (e = .index)) &&
        (match solveQcqpMatrix refCAS r ["eta", "h", "rho", "gamma"] [] h with | .ok _ => false | .error e => decide (e = .index))
    | .error _ => false) = true := by decide +kernel
  split at hk
  · rename_i r h hr
    simp only [Bool.and_eq_true] at hk
    obtain ⟨⟨h1, h2⟩, h3⟩ := hk
    refine ⟨r, h, hr, ?_, ?_, ?_⟩
    · split at h1
      · rename_i x hx; exact ⟨x, hx⟩
      · cases h1
    · split at h2
      · cases h2
      · rename_i e he
        rw [he, of_decide_eq_true h2]
    · split at h3
      · cases h3
      · rename_i e he
        rw [he, of_decide_eq_true h3]
  · cases hk

end Verif
