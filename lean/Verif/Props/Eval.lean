import Verif.Model.Eval
import Verif.Spec.Eval
import Verif.Props.Certificate
import Verif.Props.Qcqp
import Verif.Props.Bisect
import Verif.Props.Relax

/-!
# C39: evaluating points, expressions and constraints
-/

namespace Verif
open Heap

variable {C : CAS} {h h' : Heap} {r : Regs} {prog : List Instr}

theorem ptEval_leaf {n p : ℕ} {o : PtObj} (ho : h.pts[p]? = some o) (hl : o.leaf = true) : ptEval (n + 1) p h = .error .value := by
  rw [ptEval, M.bind_of_ok (a := o) (h1 := h) (by rw [getPt, ho]), if_pos hl]; rfl

theorem exEval_leaf {n p : ℕ} {o : ExObj} (ho : h.exs[p]? = some o) (hl : o.leaf = true) : exEval (n + 1) p h = .error .value := by
  rw [exEval, M.bind_of_ok (a := o) (h1 := h) (by rw [getEx, ho]), if_pos hl]; rfl

theorem bind_of_error {α β} {x : M α} {f : α → M β} {e : Err} (hx : x h = .error e) : (x >>= f) h = .error e := by
  rw [M.bind_run, hx]

theorem ptEval_live (w : WF C h) {n p : ℕ} (hp : h.PtLive p) :
    (h.PtMentionsLeaf p → ptEval (n + 2) p h = .error .value) ∧
    (¬ h.PtMentionsLeaf p → ptEval (n + 2) p h = .ok (List.replicate h.ptCounter (Sym.num 0), h)) := by
  obtain ⟨o, ho, -, hk⟩ := hp
  by_cases hl : o.leaf = true
  · exact ⟨fun _ => ptEval_leaf ho hl, fun hn => absurd ⟨o, ho, Or.inl hl⟩ hn⟩
  have hrun : ptEval (n + 2) p h = ptEvalLoop (ptEval (n + 1)) o.dict (List.replicate h.ptCounter (Sym.num 0)) h := by
    rw [ptEval, M.bind_of_ok (a := o) (h1 := h) (by rw [getPt, ho]), if_neg hl, M.bind_of_ok (a := h) (h1 := h) rfl]
  rw [hrun]
  cases hd : o.dict with
  | nil =>
    refine ⟨fun hm => ?_, fun _ => rfl⟩
    obtain ⟨o', ho', hm⟩ := hm
    rw [ho] at ho'; cases ho'
    rcases hm with hm | hm
    · exact absurd hm hl
    · exact absurd hd hm
  | cons kw rest =>
    refine ⟨fun _ => ?_, fun hn => absurd ⟨o, ho, Or.inr (by rw [hd]; simp)⟩ hn⟩
    obtain ⟨i, -, ok, hok, hleaf, -⟩ := w.mem_leafPts (hk kw.1 (by rw [hd]; simp))
    rw [ptEvalLoop]
    exact bind_of_error (ptEval_leaf hok hleaf)

theorem exEvalLoop_live (w : WF C h) {n : ℕ} {d : Dict ExKey Sym} (hk : ∀ k ∈ d.keys, h.KeyLive k) (acc : Sym) :
    ((∃ k ∈ d.keys, k ≠ ExKey.one) → exEvalLoop (n + 1) (exEval (n + 1)) d acc h = .error .value) ∧
    ((∀ k ∈ d.keys, k = ExKey.one) → exEvalLoop (n + 1) (exEval (n + 1)) d acc h = .ok (d.foldl (fun a kw => a + kw.2) acc, h)) := by
  induction d generalizing acc with
  | nil => exact ⟨fun ⟨k, hk, _⟩ => (List.not_mem_nil hk).elim, fun _ => rfl⟩
  | cons kw rest ih =>
    obtain ⟨k, s⟩ := kw
    have hrest := ih (fun k' hk' => hk k' (List.mem_cons_of_mem _ hk'))
    have hkey := hk k (by simp)
    cases k with
    | fn e =>
      refine ⟨fun _ => ?_, fun hall => absurd (hall (ExKey.fn e) (by simp)) (by simp)⟩
      obtain ⟨i, -, o, ho, hleaf, -⟩ := w.mem_leafExs hkey
      rw [exEvalLoop]
      refine bind_of_error ?_
      rw [exEvalStep]
      simp only
      rw [M.bind_of_ok (a := o) (h1 := h) (by rw [getEx, ho]), M.bind_of_ok (a := ()) (h1 := h) (by rw [hleaf]; rfl)]
      exact bind_of_error (exEval_leaf ho hleaf)
    | inner p q =>
      refine ⟨fun _ => ?_, fun hall => absurd (hall (ExKey.inner p q) (by simp)) (by simp)⟩
      obtain ⟨i, -, o, ho, hleaf, -⟩ := w.mem_leafPts hkey.1
      obtain ⟨i', -, o', ho', hleaf', -⟩ := w.mem_leafPts hkey.2
      rw [exEvalLoop]
      refine bind_of_error ?_
      rw [exEvalStep]
      simp only
      rw [M.bind_of_ok (a := o) (h1 := h) (by rw [getPt, ho]), M.bind_of_ok (a := o') (h1 := h) (by rw [getPt, ho']),
        M.bind_of_ok (a := ()) (h1 := h) (by rw [hleaf, hleaf']; rfl)]
      exact bind_of_error (ptEval_leaf ho hleaf)
    | one =>
      have hstep : exEvalLoop (n + 1) (exEval (n + 1)) ((ExKey.one, s) :: rest) acc h =
          exEvalLoop (n + 1) (exEval (n + 1)) rest (acc + s) h := by
        rw [exEvalLoop, M.bind_of_ok (a := acc + s) (h1 := h) rfl]
      rw [hstep]
      refine ⟨fun ⟨k, hk1, hk2⟩ => (hrest (acc + s)).1 ?_, fun hall => (hrest (acc + s)).2 fun k hk' => hall k (List.mem_cons_of_mem _ hk')⟩
      rcases List.mem_cons.1 hk1 with rfl | hk1
      · exact absurd rfl hk2
      · exact ⟨k, hk1, hk2⟩

theorem exEval_live (w : WF C h) {n e : ℕ} (he : h.ExLive e) :
    (h.ExMentionsLeaf e → exEval (n + 2) e h = .error .value) ∧
    (∀ o, h.exs[e]? = some o → ¬ h.ExMentionsLeaf e → exEval (n + 2) e h = .ok (constPart o.dict, h)) := by
  obtain ⟨o, ho, -, hk⟩ := he
  by_cases hl : o.leaf = true
  · exact ⟨fun _ => exEval_leaf ho hl, fun _ _ hn => absurd ⟨o, ho, Or.inl hl⟩ hn⟩
  have hrun : exEval (n + 2) e h = exEvalLoop (n + 1) (exEval (n + 1)) o.dict (Sym.num 0) h := by
    rw [exEval, M.bind_of_ok (a := o) (h1 := h) (by rw [getEx, ho]), if_neg hl]
  rw [hrun]
  refine ⟨fun ⟨o', ho', hm⟩ => (exEvalLoop_live w hk _).1 ?_, fun o' ho' hn => ?_⟩
  · rw [ho] at ho'; cases ho'
    exact hm.resolve_left hl
  · rw [ho] at ho'; cases ho'
    refine (exEvalLoop_live w hk _).2 fun k hk' => ?_
    by_contra hne
    exact hn ⟨o, ho, Or.inr ⟨k, hk', hne⟩⟩

/-- **C39.** `Point.eval` of any point a script holds, at any moment: ValueError, unless the decomposition is empty; then it is the zero
vector of length `Point.counter`.  (`n + 2` is any recursion limit of at least 2.) -/
theorem C39_point (hC : C.Lawful) {h0 : Heap} (hr : runProblem C prog h0 = .ok (r, h)) {p : PtId} (hp : p ∈ r.pts) (n : ℕ) :
    (h.PtMentionsLeaf p → ptEval (n + 2) p h = .error .value) ∧
    (¬ h.PtMentionsLeaf p → ptEval (n + 2) p h = .ok (List.replicate h.ptCounter (Sym.num 0), h)) :=
  ptEval_live (reached_inv hC hr).wf ((reached_inv hC hr).pts p hp)

/-- **C39.** `Expression.eval` of any expression a script holds: ValueError if it mentions a leaf, else the constant part. -/
theorem C39_expression (hC : C.Lawful) {h0 : Heap} (hr : runProblem C prog h0 = .ok (r, h)) {e : ExId} (he : e ∈ r.exs) (n : ℕ) :
    (h.ExMentionsLeaf e → exEval (n + 2) e h = .error .value) ∧
    (∀ o, h.exs[e]? = some o → ¬ h.ExMentionsLeaf e → exEval (n + 2) e h = .ok (constPart o.dict, h)) :=
  exEval_live (reached_inv hC hr).wf ((reached_inv hC hr).exs e he)

/-- **C39**, violation: `Constraint.eval` of any constraint of the problem that mentions a leaf raises TypeError, not ValueError. -/
theorem C39_constraint_violated (hC : C.Lawful) {h0 : Heap} (hr : runProblem C prog h0 = .ok (r, h)) {c : ExId × Kind} (hc : c ∈ r.cons)
    (hm : h.ExMentionsLeaf c.1) (n : ℕ) : consEval (n + 2) c.1 h = .error .type := by
  rw [consEval, (exEval_live (reached_inv hC hr).wf ((reached_inv hC hr).cons c hc)).1 hm]

/-- one of the solvers was called on the problem and got as far as its external solver; the heap is `h'` then -/
inductive SolverCalled (C : CAS) (r : Regs) (h h' : Heap) : Prop
  | ipopt {params bounds init nlp} : solveIpopt C r params bounds init h = .ok (nlp, h') → SolverCalled C r h h'
  | qcqp {params bounds extra q} : solveQcqp C r params bounds extra h = .ok (q, h') → SolverCalled C r h h'
  | qcqpMatrix {params bounds q} : solveQcqpMatrix C r params bounds h = .ok (q, h') → SolverCalled C r h h'
  | fixed {params vals S} : solveFixedSdp C r params vals h = .ok (S, h') → SolverCalled C r h h'
  | bisection {params vals n run res} : solveBisection C r params vals n run h = .ok (res, h') → SolverCalled C r h h'
  | relax {params bounds vb S} : solveRelaxSdp C r params bounds vb h = .ok (S, h') → SolverCalled C r h h'

theorem SolverCalled.matrices (hs : SolverCalled C r h h') : ∃ sm, problemMatrices C r h = .ok (sm, h') := by
  cases hs with
  | ipopt hs => obtain ⟨sm, h1, -⟩ := solveIpopt_inv hs; exact ⟨sm, h1⟩
  | qcqp hs => obtain ⟨sm, h1, -⟩ := solveQcqp_inv hs; exact ⟨sm, h1⟩
  | qcqpMatrix hs => obtain ⟨sm, h1, -⟩ := solveQcqpMatrix_inv hs; exact ⟨sm, h1⟩
  | fixed hs => obtain ⟨sm, q, -, h1, -⟩ := solveFixedSdp_inv hs; exact ⟨sm, h1⟩
  | bisection hs => obtain ⟨sm, h1, -⟩ := solveBisection_inv hs; exact ⟨sm, h1⟩
  | relax hs => obtain ⟨sm, h1, -⟩ := solveRelaxSdp_inv hs; exact ⟨sm, h1⟩

/-- **C39.** No solver changes this: after a call of any of the six solvers, evaluating a point, an expression or a constraint that
mentions a leaf raises the same errors as before. -/
theorem C39_after_solve (hC : C.Lawful) {h0 : Heap} (hr : runProblem C prog h0 = .ok (r, h)) (hok : ∀ d ∈ decls prog, d.Ok)
    (hs : SolverCalled C r h h') (n : ℕ) :
    (∀ p ∈ r.pts, h.PtMentionsLeaf p → ptEval (n + 2) p h' = .error .value) ∧
    (∀ e ∈ r.exs, h.ExMentionsLeaf e → exEval (n + 2) e h' = .error .value) ∧
    (∀ c ∈ r.cons, h.ExMentionsLeaf c.1 → consEval (n + 2) c.1 h' = .error .type) := by
  obtain ⟨sm, h1⟩ := hs.matrices
  have t := translate_of hC hr (solvable_of_ok hC hr hok h1) h1
  have i := reached_inv hC hr
  have hpt : ∀ p, h.PtLive p → h'.PtLive p := fun p ⟨o, ho, hn, hk⟩ => ⟨o, t.grow.pts _ _ ho, hn, fun k hkk => by rw [t.grow.leafPts]; exact hk k hkk⟩
  have hkl : ∀ k, h.KeyLive k → h'.KeyLive k := by
    intro k hk
    cases k with
    | fn e => change e ∈ h'.leafExs; rw [t.grow.leafExs]; exact hk
    | inner p q => exact ⟨by rw [t.grow.leafPts]; exact hk.1, by rw [t.grow.leafPts]; exact hk.2⟩
    | one => trivial
  have hex : ∀ e, h.ExLive e → h'.ExLive e := fun e ⟨o, ho, hn, hk⟩ => ⟨o, t.grow.exs _ _ ho, hn, fun k hkk => hkl k (hk k hkk)⟩
  have hpm : ∀ p, h.PtMentionsLeaf p → h'.PtMentionsLeaf p := fun p ⟨o, ho, hm⟩ => ⟨o, t.grow.pts _ _ ho, hm⟩
  have hem : ∀ e, h.ExMentionsLeaf e → h'.ExMentionsLeaf e := fun e ⟨o, ho, hm⟩ => ⟨o, t.grow.exs _ _ ho, hm⟩
  refine ⟨fun p hp hm => (ptEval_live t.wf (hpt p (i.pts p hp))).1 (hpm p hm), fun e he hm => (exEval_live t.wf (hex e (i.exs e he))).1 (hem e hm),
    fun c hc hm => ?_⟩
  rw [consEval, (exEval_live t.wf (hex c.1 (i.cons c hc))).1 (hem c.1 hm)]

/-! A problem with the constraint `‖x0‖² - 1 ≤ 0`, the point `x0 - x0` and the expressions `‖x0‖²`, `‖x0‖² - 1`, `f(x0)`,
`(f(x0) - f(x0)) + 3` (its decomposition keeps `f(x0)` with coefficient 0) and `⟨x0 - x0, x0⟩ + 3`. -/

def evalProg : List Instr := [.initial, .declare (.convex true), .ex (.pow (.reg 0) 2), .ex (.subNum (.reg 0) 1), .constr 1 .inequality,
  .value 0 0, .ex (.addNum (.sub (.reg 2) (.reg 2)) 3), .pt (.sub (.reg 0) (.reg 0)), .ex (.addNum (.inner (.reg 1) (.reg 0)) 3)]

/-- what `eval` raises on each point, expression and constraint of the script -/
def evalReport (prog : List Instr) : List (Option Err) :=
  match runProblem refCAS prog Heap.empty with
  | .error _ => []
  | .ok (r, h) =>
    (r.pts.map fun p => match ptEval 1000 p h with | .error e => some e | .ok _ => none) ++
    (r.exs.map fun e => match exEval 1000 e h with | .error e => some e | .ok _ => none) ++
    (r.cons.map fun c => match consEval 1000 c.1 h with | .error e => some e | .ok _ => none)

example : evalReport evalProg = [some .value, none, some .value, some .value, some .value, some .value, none, some .type] := by decide +kernel

end Verif
