import Verif.Proofs.Isolate
import Verif.Props.Dispatch
import Verif.Props.Bisect

/-!
# C40: problems in one interpreter

A new problem is not affected by what happened before.  An old problem is affected by the creation of a new one (the property is violated).
-/

namespace Verif
open Heap

variable {C : CAS} {h h' h0 : Heap} {r : Regs} {prog : List Instr} {params : List Name} {bounds : List Bound}

/-- what a script sees: it creates a problem in the interpreter state `h0`, makes the API calls `prog` and calls `solve` -/
noncomputable def session (C : CAS) (X : External) (prog : List Instr) (params : List Name) (solver : String) (a : SolveArgs) (h0 : Heap) :
    Except Err SolveResult :=
  match runProblem C prog h0 with
  | .error e => .error e
  | .ok (r, h) => match solve C X r params solver a h with
    | .error e => .error e
    | .ok (x, _) => .ok x

theorem sim_problem (C : CAS) (prog : List Instr) (h0 : Heap) : runProblem C prog h0 = match runProblem C prog Heap.empty with
    | .ok (r, h) => .ok (Sim.regsAt h0 r, h0.over h)
    | .error e => .error e := by
  have := Sim.prog (h0 := h0) C prog Regs.empty Heap.empty
  rw [over_empty, show Sim.regsAt h0 Regs.empty = Regs.empty from rfl] at this
  rw [runProblem, runProblem, show Heap.empty.reset = Heap.empty from rfl, this]
  cases runProg C prog Regs.empty Heap.empty <;> rfl

/-- **C40**, the part that holds.  Whatever was done in the interpreter before (`h0` is any state of the heap and of the class
attributes), a new problem gives the same result or the same exception as in a fresh interpreter. -/
theorem C40_isolated (X : External) (solver : String) (a : SolveArgs) :
    session C X prog params solver a h0 = session C X prog params solver a Heap.empty := by
  rw [session, session, sim_problem C prog h0]
  cases runProblem C prog Heap.empty with
  | error e => rfl
  | ok x =>
    obtain ⟨r, h⟩ := x
    dsimp only
    rw [Sim.solve C X r params solver a h]
    cases solve C X r params solver a h with
    | error e => rfl
    | ok y => rfl

/-- a session in any state is a session in a fresh interpreter -/
theorem fresh_of (hr : runProblem C prog h0 = .ok (r, h)) :
    ∃ r1 h1, runProblem C prog Heap.empty = .ok (r1, h1) ∧ r = Sim.regsAt h0 r1 ∧ h = h0.over h1 := by
  rw [sim_problem] at hr
  cases hx : runProblem C prog Heap.empty with
  | error e => rw [hx] at hr; cases hr
  | ok x =>
    rw [hx] at hr
    injection hr with hr
    injection hr with h1 h2
    exact ⟨x.1, x.2, rfl, h1.symm, h2.symm⟩

theorem Sim.ok_inv {α : Type} {x y : M α} (s : Sim h0 id x y) {b : α} (hy : y (h0.over h) = .ok (b, h')) : ∃ h1, x h = .ok (b, h1) ∧ h' = h0.over h1 := by
  rw [s h] at hy
  cases hx : x h with
  | error e => rw [hx] at hy; cases hy
  | ok z =>
    rw [hx] at hy
    injection hy with hy
    injection hy with h1 h2
    exact ⟨z.2, by rw [← h1]; rfl, h2.symm⟩

/-- **C26** in any state of the interpreter: certificates of `solve_ipopt` are sound, whatever happened before the problem was created. -/
theorem C40_ipopt_sound (hC : C.Lawful) (hr : runProblem C prog h0 = .ok (r, h))
    (hclean : ∀ i ∈ prog, i.Clean {n | n ∈ params}) (hpl : ∀ n ∈ params, Plain n) (hnd : ∀ n ∈ params, ¬ IsDual n)
    (hok : ∀ d ∈ decls prog, d.Ok) {init : List Name} {nlp : Nlp} (hn : solveIpopt C r params bounds init h = .ok (nlp, h'))
    {σ : ℕ → ℕ → ℕ → ℝ} (hσ : nlp.state.Sat σ) :
    nlp.obj.eval σ = - (goalOf prog).eval (nlp.state.value σ) ∧
    ∀ {E : Type} [NormedAddCommGroup E] [InnerProductSpace ℝ E] (fs : ℕ → CFun E), Instance prog fs → ∀ (rr : RRegs E),
      RealExec fs (nlp.state.value σ) prog rr → rr.ConsHold → ∀ v, rr.metric = some v → v ≤ 0 := by
  obtain ⟨r1, h1, hr1, rfl, rfl⟩ := fresh_of hr
  obtain ⟨h2, hn1, -⟩ := (Sim.solveIpopt C r1 params bounds init).ok_inv hn
  exact C26_sound hC hr1 hclean hpl hnd hok hn1 hσ

/-- **C27** in any state of the interpreter -/
theorem C40_qcqp_sound (hC : C.Lawful) (hr : runProblem C prog h0 = .ok (r, h)) (hclean : ∀ i ∈ prog, i.Clean {n | n ∈ params})
    (hp : params.Nodup) (hpl : ∀ n ∈ params, Plain n) (hok : ∀ d ∈ decls prog, d.Ok) {extra : ℕ} {q : Qcqp}
    (hn : solveQcqp C r params bounds extra h = .ok (q, h')) (hb : ∀ b ∈ bounds, VName.str b.name ∈ q.tab.names ∧ b.name ≠ "x")
    {x : ℕ → ℝ} (hx : q.Sat x) :
    ∃ env : Name → ℝ, (∀ i n, n ∈ params → q.tab.names[i]? = some (.str n) → env n = x i) ∧ q.obj.eval (fun _ i _ => x i) = - (goalOf prog).eval env ∧
    ∀ {E : Type} [NormedAddCommGroup E] [InnerProductSpace ℝ E] (fs : ℕ → CFun E), Instance prog fs → ∀ (rr : RRegs E),
      RealExec fs env prog rr → rr.ConsHold → ∀ v, rr.metric = some v → v ≤ 0 := by
  obtain ⟨r1, h1, hr1, rfl, rfl⟩ := fresh_of hr
  obtain ⟨h2, hn1, -⟩ := (Sim.solveQcqp C r1 params bounds extra).ok_inv hn
  exact C27_sound hC hr1 hclean hp hpl hok hn1 hb hx

/-- **C29** in any state of the interpreter -/
theorem C40_sdp_sound (hC : C.Lawful) (hr : runProblem C prog h0 = .ok (r, h)) (hclean : ∀ i ∈ prog, i.Clean {n | n ∈ params})
    (hp : params.Nodup) (hok : ∀ d ∈ decls prog, d.Ok) {vals : Dict Name ℚ} {S : Sdp}
    (hn : solveFixedSdp C r params vals h = .ok (S, h')) {σ : ℕ → ℕ → ℕ → ℝ} (hσ : S.Sat σ) :
    ∀ {E : Type} [NormedAddCommGroup E] [InnerProductSpace ℝ E] (fs : ℕ → CFun E), Instance prog fs → ∀ (rr : RRegs E),
      RealExec fs (dictEnv vals) prog rr → rr.ConsHold → ∀ v, rr.metric = some v → v ≤ 0 := by
  obtain ⟨r1, h1, hr1, rfl, rfl⟩ := fresh_of hr
  obtain ⟨h2, hn1, -⟩ := (Sim.solveFixedSdp C r1 params vals).ok_inv hn
  exact C29_sound hC hr1 hclean hp hok hn1 hσ

/-! ### What goes wrong with the old problem -/

/-- **C40** (violated).  After a second problem was built, the first one is translated with the functions and the dimensions of the second. -/
theorem C40_mixed (hC : C.Lawful) {prog' : List Instr} {r' : Regs} (hr : runProblem C prog' h0 = .ok (r', h)) :
    problemMatrices C r h = symbolicMatrices C r r'.decl h.ptCounter h.exCounter h := by
  rw [← decl_eq_leafFnIds (reached_inv hC hr)]
  rfl

theorem matStep_zero (m : FG) {kw : ExKey × Sym} (hk : kw.1 ≠ .one) (h : Heap) : ∃ e, matStep C 0 0 m kw h = .error e := by
  cases hx : matStep C 0 0 m kw h with
  | error e => exact ⟨e, rfl⟩
  | ok y =>
    exfalso
    obtain ⟨k, w⟩ := kw
    cases k with
    | one => exact hk rfl
    | fn e =>
      simp only [matStep, Nat.not_lt_zero, if_false] at hx
      obtain ⟨_, _, _, hx⟩ := M.bind_ok_iff.1 hx
      obtain ⟨_, _, _, hx⟩ := M.bind_ok_iff.1 hx
      obtain ⟨_, _, _, hx⟩ := M.bind_ok_iff.1 hx
      cases hx
    | inner p q =>
      simp only [matStep, Nat.not_lt_zero, false_and, if_false] at hx
      obtain ⟨_, _, _, hx⟩ := M.bind_ok_iff.1 hx
      obtain ⟨_, _, _, hx⟩ := M.bind_ok_iff.1 hx
      obtain ⟨_, _, _, hx⟩ := M.bind_ok_iff.1 hx
      obtain ⟨_, _, _, hx⟩ := M.bind_ok_iff.1 hx
      obtain ⟨_, _, _, hx⟩ := M.bind_ok_iff.1 hx
      cases hx

theorem matLoop_zero : ∀ (l : Dict ExKey Sym) (m : FG) (h : Heap), (∃ kw ∈ l, kw.1 ≠ .one) → ∃ e, matLoop C 0 0 l m h = .error e := by
  intro l
  induction l with
  | nil => rintro m h ⟨_, h1, -⟩; cases h1
  | cons kw l ih =>
    rintro m h ⟨kw', h1, h2⟩
    cases hx : matLoop C 0 0 (kw :: l) m h with
    | error e => exact ⟨e, rfl⟩
    | ok y =>
      exfalso
      rw [matLoop] at hx
      obtain ⟨m', hh, h3, h4⟩ := M.bind_ok_iff.1 hx
      rcases List.mem_cons.1 h1 with rfl | h1
      · obtain ⟨e, he⟩ := matStep_zero (C := C) m h2 h
        rw [he] at h3; cases h3
      · obtain ⟨e, he⟩ := ih m' hh ⟨kw', h1, h2⟩
        rw [he] at h4; cases h4

/-- **C40** (violated).  Right after the creation of a second problem, every translation of the first one raises, if its performance metric
mentions any function value or inner product. -/
theorem C40_raises {e : ExId} {o : ExObj} (hm : r.metric = some e) (ho : h.exs[e]? = some o) (hk : ∃ kw ∈ o.dict, kw.1 ≠ .one) :
    ∃ err, problemMatrices C r h.reset = .error err := by
  cases hx : problemMatrices C r h.reset with
  | error e => exact ⟨e, rfl⟩
  | ok y =>
    exfalso
    rw [problemMatrices] at hx
    obtain ⟨h1, h2, h3, hx⟩ := M.bind_ok_iff.1 hx
    injection h3 with h3
    injection h3 with e1 e2
    subst e1 e2
    rw [show leafFnIds h.reset = [] from rfl, symbolicMatrices] at hx
    obtain ⟨acc, h2, h3, hx⟩ := M.bind_ok_iff.1 hx
    have := readOnly_extraLoop 0 0 _ _ _ _ _ h3
    subst this
    obtain ⟨acc', h4, h5, hx⟩ := M.bind_ok_iff.1 hx
    injection h5 with h5
    injection h5 with e1 e2
    subst e1 e2
    obtain ⟨u, h4, h5, hx⟩ := M.bind_ok_iff.1 hx
    have := ReadOnly.assert _ _ _ _ h5
    subst this
    rw [hm] at hx
    obtain ⟨e', h4, h5, hx⟩ := M.bind_ok_iff.1 hx
    injection h5 with h5
    injection h5 with e1 e2
    subst e1 e2
    obtain ⟨m, h4, h5, hx⟩ := M.bind_ok_iff.1 hx
    rw [exprToMatrix] at h5
    obtain ⟨o', h6, h7, h5⟩ := M.bind_ok_iff.1 h5
    rw [getEx, show h.reset.exs[e]? = some o from ho] at h7
    injection h7 with h7
    injection h7 with e1 e2
    subst e1 e2
    obtain ⟨err, he⟩ := matLoop_zero (C := C) o.dict FG.zero h.reset hk
    rw [show h.reset.ptCounter = 0 from rfl, show h.reset.exCounter = 0 from rfl, he] at h5
    cases h5

/-- one step of gradient descent on an `L`-smooth convex function, with the descent inequality as metric -/
def smoothProg (L : ℚ) : List Instr :=
  [.declare (.smoothConvex (some L)), .initial, .oracle 0 0, .pt (.sub (.reg 0) (.scale (Sym.var "h") (.reg 1))), .oracle 0 2,
   .ex (.add (.sub (.reg 1) (.reg 0)) (.scale (Sym.var "eta") (.pow (.reg 1) 2))), .metric 2]

/-- `h = 2`, `eta = 3/4`, one multiplier 1, `P = diag (0, 1/2, 1)` -/
def staleSol : ℕ → ℕ → ℕ → ℚ
  | 0, 0, 0 => 3 / 4
  | 2, 0, 0 => 2
  | 7, 1, 1 => 1 / 2
  | 7, 2, 2 => 1
  | 8, 0, 1 => 1
  | _, _, _ => 0

/-- build problem A, build problem B, solve problem A -/
def buildStale (progA progB : List Instr) (params : List Name) : Except Err (Nlp × Regs × Heap × Regs × Heap × Heap) :=
  match runProblem refCAS progA Heap.empty with
  | .ok (rA, hA) => match runProblem refCAS progB hA with
    | .ok (rB, hB) => match solveIpopt refCAS rA params [] [] hB with
      | .ok (n, h') => .ok (n, rA, hA, rB, hB, h')
      | .error e => .error e
    | .error e => .error e
  | .error e => .error e

/-- **C40** (violated).  Problem A: gradient descent on 2-smooth functions.  Problem B: the same on 1/2-smooth functions.  If B is built
before A is solved, `solve_ipopt` of A has a feasible point (a "certificate" of step size 2), but the execution of A on `x²` from
`x = 1` with these parameters has metric 11 instead of at most 0. -/
theorem C40_unsound : ∃ rA hA rB hB nlp h' σ, runProblem refCAS (smoothProg 2) Heap.empty = .ok (rA, hA) ∧
    runProblem refCAS (smoothProg (1 / 2)) hA = .ok (rB, hB) ∧ solveIpopt refCAS rA ["eta", "h"] [] [] hB = .ok (nlp, h') ∧ nlp.state.Sat σ ∧
    Instance (smoothProg 2) (fun _ => sqFun) ∧
    RealExec (fun _ => sqFun) (nlp.state.value σ) (smoothProg 2) ⟨[1, 2, -3, -6], [1, 9, 11], [Finsupp.single 0 1], 1, [], some 11⟩ := by
  have hc : (match buildStale (smoothProg 2) (smoothProg (1 / 2)) ["eta", "h"] with
      | .ok x => x.1.state.cons.all (Constr.holdsQ staleSol) && decide (x.1.state.vars.get? "eta" = some (CaVar.mk 0 1 1)) &&
        decide (x.1.state.vars.get? "h" = some (CaVar.mk 2 1 1))
      | .error _ => false) = true := by decide +kernel
  cases hb : buildStale (smoothProg 2) (smoothProg (1 / 2)) ["eta", "h"] with
  | error e => rw [hb] at hc; cases hc
  | ok x =>
    rw [hb] at hc
    simp only [Bool.and_eq_true, decide_eq_true_eq] at hc
    obtain ⟨⟨h1, h2⟩, h3⟩ := hc
    obtain ⟨nlp, rA, hA, rB, hB, h'⟩ := x
    have hsteps : runProblem refCAS (smoothProg 2) Heap.empty = .ok (rA, hA) ∧
        runProblem refCAS (smoothProg (1 / 2)) hA = .ok (rB, hB) ∧ solveIpopt refCAS rA ["eta", "h"] [] [] hB = .ok (nlp, h') := by
      rw [buildStale] at hb
      split at hb
      · rename_i e1
        split at hb
        · rename_i e2
          split at hb
          · rename_i e3
            injection hb with hb
            simp only [Prod.mk.injEq] at hb
            obtain ⟨rfl, rfl, rfl, rfl, rfl, rfl⟩ := hb
            exact ⟨e1, e2, e3⟩
          · cases hb
        · cases hb
      · cases hb
    refine ⟨rA, hA, rB, hB, nlp, h', _, hsteps.1, hsteps.2.1, hsteps.2.2, sat_of_holdsQ h1, ?_, ?_⟩
    · intro k d hk
      simp only [smoothProg, decls] at hk
      obtain ⟨h1, rfl⟩ := List.getElem?_eq_some_iff.1 hk
      simp only [List.length_cons, List.length_nil, zero_add, Nat.lt_one_iff] at h1
      subst h1
      exact ⟨rfl, sqFun_strong.mono (by norm_num : (0:ℝ) ≤ 2) |> strongConvexOn_zero.1, sqFun_lip (by norm_num)⟩
    · have veta : nlp.state.value (fun v a b => ((staleSol v a b : ℚ) : ℝ)) "eta" = 3 / 4 := by
        rw [value_of_get h2]; norm_num [staleSol]
      have vh : nlp.state.value (fun v a b => ((staleSol v a b : ℚ) : ℝ)) "h" = 2 := by
        rw [value_of_get h3]; norm_num [staleSol]
      have s1 := sumSample_single (SR := fun _ => sqFun.Sample) (k := 0) (x := (1:ℝ)) (g := 2) (v := 1) (by simpa using sqFun_sample 1)
      have s2 := sumSample_single (SR := fun _ => sqFun.Sample) (k := 0) (x := (-3:ℝ)) (g := -6) (v := 9) (by
        have := sqFun_sample (-3)
        norm_num at this
        exact this)
      unfold RealExec smoothProg
      refine .cons (.declare _ _) (.cons (.initial _ 1) (.cons (.oracle _ _ _ 2 1 s1) (.cons (.pt _ _)
        (.cons (.oracle _ _ _ (-6) 9 ?_) (.cons (.ex _ _) (.cons (.metric _ _) ?_))))))
      · convert s2 using 1
        all_goals norm_num [PE.den, RRegs.empty, Sym.eval, Sym.var, vh]
      · convert Exec.nil _ using 1
        norm_num [RRegs.empty, EE.den, PE.den, Sym.eval, Sym.var, vh, veta]

/-! ### Non-vacuity -/

/-- in every state of the interpreter the descent lemma meets the hypotheses of `C40_ipopt_sound` -/
example (h0 : Heap) : ∃ r h nlp h', runProblem refCAS descentProg h0 = .ok (r, h) ∧ solveIpopt refCAS r ["eta", "h"] [] [] h = .ok (nlp, h') ∧
    nlp.state.Sat fun v a b => ((descentSol v a b : ℚ) : ℝ) := by
  obtain ⟨r, h, nlp, h', h1, h2, -, h4⟩ := descent_feasible
  refine ⟨Sim.regsAt h0 r, h0.over h, nlp, h0.over h', ?_, ?_, h4⟩
  · rw [sim_problem, h1]
  · rw [Sim.solveIpopt refCAS r ["eta", "h"] [] [] h, h2]
    rfl

/-- the metric of the descent lemma mentions function values: solving it after the creation of another problem raises -/
example : ∃ r h, runProblem refCAS descentProg Heap.empty = .ok (r, h) ∧ ∃ err, problemMatrices refCAS r h.reset = .error err := by
  have hc : (match runProblem refCAS descentProg Heap.empty with
      | .ok x => match x.1.metric with
        | some e => match x.2.exs[e]? with
          | some o => o.dict.any fun kw => decide (kw.1 ≠ .one)
          | none => false
        | none => false
      | .error _ => false) = true := by decide +kernel
  cases hr : runProblem refCAS descentProg Heap.empty with
  | error e => rw [hr] at hc; cases hc
  | ok x =>
    rw [hr] at hc
    refine ⟨x.1, x.2, rfl, ?_⟩
    dsimp only at hc
    split at hc
    · rename_i e he
      split at hc
      · rename_i o ho
        obtain ⟨kw, h1, h2⟩ := List.any_eq_true.1 hc
        exact C40_raises he ho ⟨kw, h1, of_decide_eq_true h2⟩
      · cases hc
    · cases hc

end Verif
