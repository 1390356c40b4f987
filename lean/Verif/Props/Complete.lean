import Verif.Proofs.Complete
import Verif.Props.NlpIff
import Verif.Model.Circuits
import Verif.Spec.Guaranteed

/-!
# C68: the nonlinear program misses no guarantee

All hypotheses hold for the gradient flow circuit and others, with all class parameters and at almost all parameter values: see
`Props/CompleteCircuits`.
-/

namespace Verif
open Heap

variable {C : CAS} {h h' : Heap} {r : Regs} {prog : List Instr} {sm : SymMats} {params : List Name}

/-- **C68**, worst cases.  Let a standard program run without error and let its inequalities be strictly feasible at the parameter values
`env`.  If there are no multipliers at `env`, then functions of the declared classes on `ℝⁿ`, where `n` is the number of leaf Points, and an
execution of the program with them that satisfies the extra constraints violate the guarantee. -/
theorem C68_counterexample (hC : C.Lawful) (hr : runProblem C prog Heap.empty = .ok (r, h)) (hclean : ∀ i ∈ prog, i.Clean {n | n ∈ params})
    (hst : Standard prog = true) (hd : ∀ d ∈ decls prog, d.Ok ∧ d.Default = true) (hm : problemMatrices C r h = .ok (sm, h')) {env : Name → ℝ}
    (hs : StrictlyFeasible sm h.ptCounter h.exCounter env) (hno : ¬ Certified sm h.ptCounter h.exCounter env) :
    ∃ (fs : ℕ → CFun (EuclideanSpace ℝ (Fin h.ptCounter))) (rr : RRegs (EuclideanSpace ℝ (Fin h.ptCounter))) (v : ℝ),
      Instance prog fs ∧ RealExec fs env prog rr ∧ rr.ConsHold ∧ rr.metric = some v ∧ 0 < v := by
  by_contra hcon
  push Not at hcon
  exact hno (certified_of_guaranteed hC hr (translate_of hC hr (solvable_of_ok hC hr (fun d hdm => (hd d hdm).1) hm) hm) (qcqp_clean hC hr hclean hm)
    hst hd hs fun fs hf rr ex hch v hv => hcon fs rr v hf ex hch hv)

/-- **C68**, duality.  For a standard program that is strictly feasible at the parameter values `env` the guarantee holds at `env` if and only if
there are multipliers that prove it. -/
theorem C68_duality (hC : C.Lawful) (hr : runProblem C prog Heap.empty = .ok (r, h)) (hclean : ∀ i ∈ prog, i.Clean {n | n ∈ params})
    (hst : Standard prog = true) (hd : ∀ d ∈ decls prog, d.Ok ∧ d.Default = true) (hm : problemMatrices C r h = .ok (sm, h')) {env : Name → ℝ}
    (hs : StrictlyFeasible sm h.ptCounter h.exCounter env) : Guaranteed prog env ↔ Certified sm h.ptCounter h.exCounter env := by
  constructor
  · intro hg
    by_contra hno
    obtain ⟨fs, rr, v, hf, ex, hch, hv, hpos⟩ := C68_counterexample hC hr hclean hst hd hm hs hno
    exact absurd (hg fs hf rr ex hch v hv) (not_le.2 hpos)
  · rintro ⟨mult, P, -, -, d⟩ E _ _ fs hf rr ex hch v hv
    have hok : ∀ d ∈ decls prog, d.Ok := fun d hdm => (hd d hdm).1
    exact weak_duality hC hr (translate_of hC hr (solvable_of_ok hC hr hok hm) hm) (qcqp_clean hC hr hclean hm) hok d (IsPSD.ppt _ _) hf ex hch hv

/-- **C68.** Let a standard program and the construction of the nonlinear program by `solve_ipopt` run without error.  At parameter values
where the inequalities are strictly feasible, the nonlinear program has a feasible point with these parameter values if and only if the
guarantee holds at them, for all functions of the declared classes, all spaces and all executions (and the bounds, reciprocals and signs of
the parameters are respected).  So the solver can find every guarantee that is true. -/
theorem C68_ipopt (hC : C.Lawful) (hr : runProblem C prog Heap.empty = .ok (r, h)) (hclean : ∀ i ∈ prog, i.Clean {n | n ∈ params})
    (hst : Standard prog = true) (hd : ∀ d ∈ decls prog, d.Ok ∧ d.Default = true) (s : SimpleParams params)
    {bounds : List Bound} {init : List Name} {nlp : Nlp} (hb : ∀ b ∈ bounds, b.name ∈ scalarNames params)
    (hn : solveIpopt C r params bounds init h = .ok (nlp, h')) :
    ∃ sm, problemMatrices C r h = .ok (sm, h') ∧ ∀ env : Name → ℝ, StrictlyFeasible sm h.ptCounter h.exCounter env →
      ((∃ σ, nlp.state.Sat σ ∧ ∀ n ∈ scalarNames params, nlp.state.value σ n = env n) ↔
        Guaranteed prog env ∧ InvOk params env ∧ BoundsOk bounds env ∧ ∀ n ∈ ["eta", "rho", "h"], 0 ≤ env n) := by
  obtain ⟨sm0, h0, -⟩ := solveIpopt_inv hn
  obtain ⟨sm, hm, hiff⟩ := C26_iff hC hr hclean s hb (solvable_of_ok hC hr (fun d hdm => (hd d hdm).1) h0) hn
  refine ⟨sm, hm, fun env hs => ?_⟩
  rw [hiff env, C68_duality hC hr hclean hst hd hm hs]

/-- **C68** for `solve_ipopt_qcqp`: at parameter values where the inequalities are strictly feasible, the quadratically constrained program has a
feasible vector with these parameter values if and only if the guarantee holds at them (and the bounds, reciprocals and the four lower bounds
`1e-7` are respected).  Up to these lower bounds both formulations find exactly the true guarantees. -/
theorem C68_qcqp (hC : C.Lawful) (hr : runProblem C prog Heap.empty = .ok (r, h)) (hclean : ∀ i ∈ prog, i.Clean {n | n ∈ params})
    (hst : Standard prog = true) (hd : ∀ d ∈ decls prog, d.Ok ∧ d.Default = true) (hp : params.Nodup) (hpl : ∀ n ∈ params, Plain n)
    {bounds : List Bound} {extra : ℕ} {q : Qcqp} (hq : solveQcqp C r params bounds extra h = .ok (q, h'))
    (hb : ∀ b ∈ bounds, b.name ∈ params ∧ b.name ≠ "x") (hin : ∀ v ∈ invParams params, v ∈ params ∧ "inv" ++ v ∈ params)
    (hlo : ∀ n ∈ ["eta", "h", "rho", "gamma"], n ∈ params) :
    ∃ sm, problemMatrices C r h = .ok (sm, h') ∧ ∀ env : Name → ℝ, StrictlyFeasible sm h.ptCounter h.exCounter env →
      ((∃ x, q.Sat x ∧ ∀ i n, q.tab.names[i]? = some n → x i = n.val env) ↔
        Guaranteed prog env ∧ InvOk params env ∧ BoundsOk bounds env ∧ ∀ n ∈ ["eta", "h", "rho", "gamma"], 1 / 10000000 ≤ env n) := by
  obtain ⟨sm0, h0, -⟩ := solveQcqp_inv hq
  obtain ⟨sm, hm, hiff⟩ := C27_env hC hr hclean hp hpl (solvable_of_ok hC hr (fun d hdm => (hd d hdm).1) h0) hq hb hin hlo
  refine ⟨sm, hm, fun env hs => ?_⟩
  rw [hiff env, C68_duality hC hr hclean hst hd hm hs]

end Verif
