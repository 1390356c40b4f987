import Verif.Props.NlpIff
import Verif.Props.Relax
import Verif.Props.Eval

/-!
# C57: the objective the user assigns is what is optimised, and nothing else depends on it
-/

namespace Verif
open Heap

variable {C : CAS} {h h' : Heap} {r : Regs} {prog : List Instr} {params : List Name} {bounds : List Bound}

theorem goalOf_scalar (hclean : ∀ i ∈ prog, i.Clean {n | n ∈ params}) : ∀ n ∈ (goalOf prog).vars, n ∈ scalarNames params := by
  intro n hn
  rcases goalOf_vars hclean n hn with h | rfl
  · exact List.mem_append_left _ (List.mem_append_right _ h)
  · exact List.mem_append_left _ (List.mem_append_left _ (by decide))

/-- **C57**, direct nonlinear program.  Let a program use only the simple symbols `params`, and let `solve_ipopt` build its nonlinear program.
Then the values the minimised objective takes at feasible points are exactly the values of minus the user's objective at the parameter values
for which the dual system has a solution and that satisfy the reciprocal conditions, the bounds and the three lower bounds. -/
theorem C57_ipopt {init : List Name} {nlp : Nlp} (hC : C.Lawful) (hr : runProblem C prog Heap.empty = .ok (r, h))
    (hclean : ∀ i ∈ prog, i.Clean {n | n ∈ params}) (s : SimpleParams params) (hb : ∀ b ∈ bounds, b.name ∈ scalarNames params) (hs : Solvable r h)
    (hn : solveIpopt C r params bounds init h = .ok (nlp, h')) :
    ∃ sm, problemMatrices C r h = .ok (sm, h') ∧ (fun σ => nlp.obj.eval σ) '' {σ | nlp.state.Sat σ} =
      (fun env => - (goalOf prog).eval env) '' {env | Certified sm h.ptCounter h.exCounter env ∧ InvOk params env ∧ BoundsOk bounds env ∧
        ∀ n ∈ ["eta", "rho", "h"], 0 ≤ env n} := by
  obtain ⟨sm, hm, hiff⟩ := C26_iff hC hr hclean s hb hs hn
  have hpl : ∀ n ∈ params, Plain n := fun n hn => (s.names n (List.mem_append_left _ hn)).1
  have hnd : ∀ n ∈ params, ¬ IsDual n := fun n hn => (s.names n (List.mem_append_left _ hn)).2.1
  have hc := qcqp_clean hC hr hclean hm
  have hobj : ∀ σ, nlp.state.Sat σ → nlp.obj.eval σ = - (goalOf prog).eval (nlp.state.value σ) := by
    intro σ hσ
    obtain ⟨-, -, -, -, o⟩ := solveIpopt_dual hC hr hs hn hc (fun n hn => hn) hpl hnd hσ
    rw [o, runProblem_obj hr, eval_longEnv_plain (goalOf_plain hclean hpl)]
  refine ⟨sm, hm, Set.ext fun v => ⟨?_, ?_⟩⟩
  · rintro ⟨σ, hσ, rfl⟩
    exact ⟨nlp.state.value σ, (hiff _).1 ⟨σ, hσ, fun _ _ => rfl⟩, (hobj σ hσ).symm⟩
  · rintro ⟨env, he, rfl⟩
    obtain ⟨σ, hσ, hv⟩ := (hiff env).2 he
    refine ⟨σ, hσ, ?_⟩
    show nlp.obj.eval σ = - (goalOf prog).eval env
    rw [hobj σ hσ, Sym.eval_congr _ fun n hn => hv n (goalOf_scalar hclean n hn)]

/-- **C57**: hence if `σ` is a minimiser of the nonlinear program, the parameter values it returns are among the certified ones, and no other
certified parameter values have a larger value of the user's objective. -/
theorem C57_ipopt_best {init : List Name} {nlp : Nlp} (hC : C.Lawful) (hr : runProblem C prog Heap.empty = .ok (r, h))
    (hclean : ∀ i ∈ prog, i.Clean {n | n ∈ params}) (s : SimpleParams params) (hb : ∀ b ∈ bounds, b.name ∈ scalarNames params) (hs : Solvable r h)
    (hn : solveIpopt C r params bounds init h = .ok (nlp, h')) {σ : ℕ → ℕ → ℕ → ℝ} (hσ : nlp.state.Sat σ)
    (hmin : ∀ σ', nlp.state.Sat σ' → nlp.obj.eval σ ≤ nlp.obj.eval σ') :
    ∃ sm, problemMatrices C r h = .ok (sm, h') ∧ Certified sm h.ptCounter h.exCounter (nlp.state.value σ) ∧
      ∀ env, Certified sm h.ptCounter h.exCounter env → InvOk params env → BoundsOk bounds env → (∀ n ∈ ["eta", "rho", "h"], 0 ≤ env n) →
        (goalOf prog).eval env ≤ (goalOf prog).eval (nlp.state.value σ) := by
  obtain ⟨sm, hm, hiff⟩ := C26_iff hC hr hclean s hb hs hn
  obtain ⟨sm', hm', hset⟩ := C57_ipopt hC hr hclean s hb hs hn
  rw [hm] at hm'
  injection hm' with hm'
  simp only [Prod.mk.injEq, and_true] at hm'
  subst hm'
  have hpl : ∀ n ∈ params, Plain n := fun n hn => (s.names n (List.mem_append_left _ hn)).1
  have hnd : ∀ n ∈ params, ¬ IsDual n := fun n hn => (s.names n (List.mem_append_left _ hn)).2.1
  obtain ⟨-, -, -, -, o⟩ := solveIpopt_dual hC hr hs hn (qcqp_clean hC hr hclean hm) (fun n hn => hn) hpl hnd hσ
  rw [runProblem_obj hr, eval_longEnv_plain (goalOf_plain hclean hpl)] at o
  refine ⟨sm, hm, ((hiff _).1 ⟨σ, hσ, fun _ _ => rfl⟩).1, fun env h1 h2 h3 h4 => ?_⟩
  obtain ⟨σ', hσ', he⟩ := hset.symm.subset ⟨env, ⟨h1, h2, h3, h4⟩, rfl⟩
  have hle := hmin σ' hσ'
  have he' : nlp.obj.eval σ' = - (goalOf prog).eval env := he
  rw [o, he'] at hle
  linarith

/-- **C57**, QCQP: the values the minimised objective takes at feasible vectors are exactly the values of minus the user's objective at the
parameter values for which the dual system has a solution and that satisfy the reciprocal conditions, the bounds and the four lower bounds. -/
theorem C57_qcqp {extra : ℕ} {q : Qcqp} (hC : C.Lawful) (hr : runProblem C prog Heap.empty = .ok (r, h))
    (hclean : ∀ i ∈ prog, i.Clean {n | n ∈ params}) (hp : params.Nodup) (hpl : ∀ n ∈ params, Plain n) (hs : Solvable r h)
    (hq : solveQcqp C r params bounds extra h = .ok (q, h')) (hb : ∀ b ∈ bounds, b.name ∈ params ∧ b.name ≠ "x")
    (hin : ∀ v ∈ invParams params, v ∈ params ∧ "inv" ++ v ∈ params) (hlo : ∀ n ∈ ["eta", "h", "rho", "gamma"], n ∈ params) :
    ∃ sm, problemMatrices C r h = .ok (sm, h') ∧ (fun x => q.obj.eval (fun _ i _ => x i)) '' {x | q.Sat x} =
      (fun env => - (goalOf prog).eval env) '' {env | Certified sm h.ptCounter h.exCounter env ∧ InvOk params env ∧ BoundsOk bounds env ∧
        ∀ n ∈ ["eta", "h", "rho", "gamma"], 1 / 10000000 ≤ env n} := by
  have hpos : ∀ n ∈ params, VName.str n ∈ q.tab.names := by
    intro n hnp
    obtain ⟨sm2, hm2, hq2⟩ := solveQcqp_inv hq
    obtain ⟨dd, bs, k1, k2, -⟩ := qcqpNlp_core hq2
    obtain ⟨o, pre, -⟩ := qData_table hC hp k1
    rw [k2]
    exact pre.subset (List.mem_cons_of_mem _ (List.mem_map.2 ⟨n, hnp, rfl⟩))
  obtain ⟨sm, hm, hiff, hobj⟩ := C27_iff hC hr hclean hp hpl hs hq fun b hbb => ⟨hpos _ (hb b hbb).1, (hb b hbb).2⟩
  obtain ⟨sm', hm', henv⟩ := C27_env hC hr hclean hp hpl hs hq hb hin hlo
  rw [hm] at hm'
  injection hm' with hm'
  simp only [Prod.mk.injEq, and_true] at hm'
  subst hm'
  have hvars : ∀ n ∈ (goalOf prog).vars, n ∈ params := fun n hn => by
    rcases goalOf_vars hclean n hn with h | rfl
    · exact h
    · exact hlo _ (by simp)
  refine ⟨sm, hm, Set.ext fun v => ⟨?_, ?_⟩⟩
  · rintro ⟨x, hx, rfl⟩
    obtain ⟨env, mult, P, pk, h2, h3, h4⟩ := (hiff x).1 hx
    exact ⟨env, (henv env).1 ⟨x, hx, pk.monos⟩, (hobj _ _ _ _ pk).symm⟩
  · rintro ⟨env, he, rfl⟩
    obtain ⟨x, hx, hv⟩ := (henv env).2 he
    obtain ⟨env', mult, P, pk, -⟩ := (hiff x).1 hx
    refine ⟨x, hx, ?_⟩
    show q.obj.eval _ = - (goalOf prog).eval env
    rw [hobj _ _ _ _ pk, Sym.eval_congr _ fun n hn => ?_]
    have hnp := hvars n hn
    obtain ⟨i, hi⟩ := List.getElem?_of_mem (hpos n hnp)
    have e1 := (pk.monos i _ hi).symm.trans (hv i _ hi)
    have e2 : longEnv env' n = longEnv env n := e1
    rwa [longEnv_plain (hpl n hnp), longEnv_plain (hpl n hnp)] at e2

/-- `y` does what `x` does, and returns `f` of its result -/
def MapsTo {α : Type} (f : α → α) (x y : M α) : Prop :=
  ∀ h, y h = match x h with
    | .ok (a, h') => .ok (f a, h')
    | .error e => .error e

theorem MapsTo.pure {α : Type} {f : α → α} {a b : α} (h : b = f a) : MapsTo f (Pure.pure a) (Pure.pure b) := fun _ => by subst h; rfl

theorem MapsTo.bind {α β : Type} {f : β → β} (m : M α) {k k' : α → M β} (h : ∀ a, MapsTo f (k a) (k' a)) : MapsTo f (m >>= k) (m >>= k') := by
  intro h0
  cases hm : m h0 with
  | ok x => rw [M.bind_of_ok hm, M.bind_of_ok hm]; exact h _ _
  | error e => rw [bind_of_error hm, bind_of_error hm]

/-- the script's variables, with the objective as after creation -/
def Regs.plainObj (r : Regs) : Regs := { r with obj := Sym.var "eta" }

theorem instr_plainObj (i : Instr) (hi : ∀ e, i ≠ .objective e) (r : Regs) : MapsTo Regs.plainObj (i.run C r) (i.run C r.plainObj) := by
  cases i with
  | objective e => exact absurd rfl (hi e)
  | declare d => exact .bind _ fun f => .pure rfl
  | fn a => exact .bind (a.run r.fns) fun f => .pure rfl
  | pt a => exact .bind (a.run C r.pts) fun f => .pure rfl
  | ex a => exact .bind (a.run C r.pts r.exs) fun f => .pure rfl
  | initial => exact .bind _ fun f => .pure rfl
  | stationary f => exact .bind (regGet r.fns f) fun f => .bind _ fun t => .pure rfl
  | oracle f x => exact .bind (regGet r.fns f) fun f => .bind (regGet r.pts x) fun x => .bind _ fun t => .pure rfl
  | gradient f x => exact .bind (regGet r.fns f) fun f => .bind (regGet r.pts x) fun x => .bind _ fun t => .pure rfl
  | value f x => exact .bind (regGet r.fns f) fun f => .bind (regGet r.pts x) fun x => .bind _ fun t => .pure rfl
  | prox x f gamma => exact .bind (regGet r.pts x) fun x => .bind (regGet r.fns f) fun f => .bind _ fun t => .pure rfl
  | conj g f => exact .bind (regGet r.pts g) fun x => .bind (regGet r.fns f) fun f => .bind _ fun t => .pure rfl
  | addPoint f x g v => exact .bind (regGet r.fns f) fun f => .bind (regGet r.pts x) fun x => .bind (regGet r.pts g) fun g => .bind (regGet r.exs v) fun v => .bind _ fun t => .pure rfl
  | constr e k => exact .bind (regGet r.exs e) fun e => .pure rfl
  | metric e => exact .bind (regGet r.exs e) fun e => .pure rfl

theorem runProg_plainObj : ∀ (prog : List Instr) (r : Regs), MapsTo Regs.plainObj (runProg C prog r) (runProg C (withoutObjectives prog) r.plainObj)
  | [], r => .pure rfl
  | i :: is, r => by
    by_cases hi : ∃ e, i = .objective e
    · obtain ⟨e, rfl⟩ := hi
      exact runProg_plainObj is { r with obj := e }
    · have hi' : ∀ e, i ≠ .objective e := fun e he => hi ⟨e, he⟩
      have hf : withoutObjectives (i :: is) = i :: withoutObjectives is := by
        cases i <;> first | rfl | exact absurd rfl (hi' _)
      rw [hf]
      intro h
      have h1 := instr_plainObj (C := C) i hi' r h
      show ((i.run C r.plainObj) >>= fun r' => runProg C (withoutObjectives is) r') h = _
      cases hx : i.run C r h with
      | ok x =>
        rw [hx] at h1
        rw [M.bind_of_ok h1, show runProg C (i :: is) r h = runProg C is x.1 x.2 from M.bind_of_ok hx]
        exact runProg_plainObj is x.1 x.2
      | error e =>
        rw [hx] at h1
        rw [bind_of_error h1, show runProg C (i :: is) r h = .error e from bind_of_error hx]

/-- **C57**: assignments to the objective change nothing but the objective.  A script without them raises the same error or leaves the same
interpreter state and the same variables, metric and constraints. -/
theorem C57_only (prog : List Instr) (h : Heap) :
    runProblem C (withoutObjectives prog) h = match runProblem C prog h with
      | .ok (r, h') => .ok ({ r with obj := Sym.var "eta" }, h')
      | .error e => .error e := by
  have h1 := runProg_plainObj (C := C) prog Regs.empty h.reset
  rw [runProblem, runProblem]
  refine h1.trans ?_
  cases runProg C prog Regs.empty h.reset <;> rfl

/-- **C57**: two scripts that differ only in their objectives have the same certified parameter values: `solve_ipopt` has a feasible point
with given values of the scalar variables for one iff it has one for the other. -/
theorem C57_feasible {prog2 : List Instr} {r2 : Regs} {h2 h2' : Heap} {init init2 : List Name} {nlp nlp2 : Nlp} (hC : C.Lawful)
    (hsame : withoutObjectives prog = withoutObjectives prog2)
    (hr : runProblem C prog Heap.empty = .ok (r, h)) (hr2 : runProblem C prog2 Heap.empty = .ok (r2, h2))
    (hclean : ∀ i ∈ prog, i.Clean {n | n ∈ params}) (hclean2 : ∀ i ∈ prog2, i.Clean {n | n ∈ params})
    (s : SimpleParams params) (hb : ∀ b ∈ bounds, b.name ∈ scalarNames params) (hs : Solvable r h)
    (hn : solveIpopt C r params bounds init h = .ok (nlp, h')) (hn2 : solveIpopt C r2 params bounds init2 h2 = .ok (nlp2, h2')) (env : Name → ℝ) :
    (∃ σ, nlp.state.Sat σ ∧ ∀ n ∈ scalarNames params, nlp.state.value σ n = env n) ↔
      ∃ σ, nlp2.state.Sat σ ∧ ∀ n ∈ scalarNames params, nlp2.state.value σ n = env n := by
  have e1 := C57_only (C := C) prog Heap.empty
  have e2 := C57_only (C := C) prog2 Heap.empty
  rw [hr] at e1
  rw [hr2, ← hsame, e1] at e2
  injection e2 with e2
  injection e2 with e3 e4
  subst e4
  have hs2 : Solvable r2 h := by
    have h3 : Solvable r.plainObj h := hs
    rw [show r.plainObj = r2.plainObj from e3] at h3
    exact h3
  have hmm : problemMatrices C r2 = problemMatrices C r := by
    have : problemMatrices C r2.plainObj = problemMatrices C r.plainObj := by rw [show r.plainObj = r2.plainObj from e3]
    exact this
  obtain ⟨sm, hm, hiff⟩ := C26_iff hC hr hclean s hb hs hn
  obtain ⟨sm2, hm2, hiff2⟩ := C26_iff hC hr2 hclean2 s hb hs2 hn2
  rw [hmm, hm] at hm2
  injection hm2 with hm2
  injection hm2 with hm2 hm3
  subst hm2
  rw [hiff, hiff2]

/-- **C57**: setting the performance metric discards an objective assigned before it.  If nothing after the last `set_performance_metric`
assigns the objective, what `solve_ipopt` minimises is `- eta`, whatever was assigned before. -/
theorem C57_reset {pre post : List Instr} {e : ℕ} (hpost : ∀ o, Instr.objective o ∉ post) {init : List Name} {nlp : Nlp} (hC : C.Lawful)
    (hr : runProblem C (pre ++ .metric e :: post) Heap.empty = .ok (r, h)) (hclean : ∀ i ∈ pre ++ .metric e :: post, i.Clean {n | n ∈ params})
    (hpl : ∀ n ∈ params, Plain n) (hnd : ∀ n ∈ params, ¬ IsDual n) (hok : ∀ d ∈ decls (pre ++ .metric e :: post), d.Ok)
    (hn : solveIpopt C r params bounds init h = .ok (nlp, h')) {σ : ℕ → ℕ → ℕ → ℝ} (hσ : nlp.state.Sat σ) :
    nlp.obj.eval σ = - nlp.state.value σ "eta" := by
  rw [(C26_sound hC hr hclean hpl hnd hok hn hσ).1]
  have h1 : ∀ (l : List Instr) (o : Sym), (∀ o, Instr.objective o ∉ l) → objectiveOf l o = o ∨ objectiveOf l o = Sym.var "eta" := by
    intro l
    induction l with
    | nil => intro o _; exact Or.inl rfl
    | cons i is ih =>
      intro o hl
      have hl' : ∀ o, Instr.objective o ∉ is := fun o ho => hl o (List.mem_cons_of_mem _ ho)
      cases i with
      | objective o' => exact absurd List.mem_cons_self (hl o')
      | metric e => exact Or.inr ((ih (Sym.var "eta") hl').elim id id)
      | _ => exact ih o hl'
  have h2 : ∀ (l : List Instr) (o : Sym), objectiveOf (l ++ .metric e :: post) o = objectiveOf post (Sym.var "eta") := by
    intro l
    induction l with
    | nil => intro o; rfl
    | cons i is ih => intro o; rw [List.cons_append, objectiveOf_cons]; exact ih _
  have h3 : goalOf (pre ++ .metric e :: post) = Sym.var "eta" := (h2 pre _).trans ((h1 post _ hpost).elim id id)
  rw [h3]; rfl

/-! ### Non-vacuity -/

/-- the descent lemma, with the objective `eta` replaced by `3 eta + gamma h / 2` after an objective that is discarded -/
def goalProg : List Instr :=
  .objective (Sym.var "rho") :: descentProg2 ++ [.objective (.add (.mul (.num 3) (Sym.var "eta")) (.mul (.num (1 / 2)) (.mul (Sym.var "gamma") (Sym.var "h"))))]

theorem goalProg_clean : ∀ i ∈ goalProg, i.Clean {n | n ∈ descentParams2} := by
  intro i hi
  simp only [goalProg, descentProg2, List.mem_cons, List.not_mem_nil, or_false, List.cons_append, List.nil_append] at hi
  rcases hi with rfl | rfl | rfl | rfl | rfl | rfl | rfl | rfl | rfl <;> simp [Instr.Clean, PE.Clean, EE.Clean, Sym.vars, descentParams2]

theorem goal_feasible : ∃ r h nlp h', runProblem refCAS goalProg Heap.empty = .ok (r, h) ∧
    solveIpopt refCAS r descentParams2 [⟨"h", none, some (1 / 8)⟩] [] h = .ok (nlp, h') ∧ Solvable r h ∧
    nlp.state.Sat fun v a b => ((descentSol2 v a b : ℚ) : ℝ) := feasible_of_check (by decide +kernel)

/-- all hypotheses of `C57_ipopt` are met, the set is not empty: the objective takes the value `- (3 * 3/16 + 1/4)` -/
example : ∃ (sm : SymMats) (dimG dimF : ℕ) (env : Name → ℝ), Certified sm dimG dimF env ∧ ∃ v, v = - (goalOf goalProg).eval env := by
  obtain ⟨r, h, nlp, h', h1, h2, h3, h4⟩ := goal_feasible
  obtain ⟨sm, -, hset⟩ := C57_ipopt refCAS_lawful h1 goalProg_clean descentParams2_simple (by decide +kernel) h3 h2
  obtain ⟨env, he, hv⟩ := hset.subset ⟨_, h4, rfl⟩
  exact ⟨sm, _, _, env, he.1, _, hv.symm⟩

/-- both scripts of `C57_feasible`: the descent lemma with objectives `eta` and `3 eta + gamma h / 2` -/
example : ∃ nlp nlp2 : Nlp, ∀ env : Name → ℝ, (∃ σ, nlp.state.Sat σ ∧ ∀ n ∈ scalarNames descentParams2, nlp.state.value σ n = env n) ↔
    ∃ σ, nlp2.state.Sat σ ∧ ∀ n ∈ scalarNames descentParams2, nlp2.state.value σ n = env n := by
  obtain ⟨r, h, nlp, h', h1, h2, h3, -⟩ := goal_feasible
  obtain ⟨r2, h2', nlp2, h2'', k1, k2, -⟩ := descent2_feasible
  have hsame : withoutObjectives goalProg = withoutObjectives descentProg2 := by decide
  exact ⟨nlp, nlp2, fun env => C57_feasible refCAS_lawful hsame h1 k1 goalProg_clean descent2_clean descentParams2_simple (by decide +kernel) h3 h2 k2 env⟩

/-- the descent lemma with objective `h` -/
def goalProg2 : List Instr := descentProg2 ++ [.objective (Sym.var "h")]

theorem goalProg2_clean : ∀ i ∈ goalProg2, i.Clean {n | n ∈ descentParams2} := by
  intro i hi
  simp only [goalProg2, descentProg2, List.mem_cons, List.not_mem_nil, or_false, List.cons_append, List.nil_append] at hi
  rcases hi with rfl | rfl | rfl | rfl | rfl | rfl | rfl | rfl <;> simp [Instr.Clean, PE.Clean, EE.Clean, Sym.vars, descentParams2]

/-- all hypotheses of `C57_ipopt_best` are met by the descent lemma with objective `h` and the bound `h ≤ 1/4` -/
example : ∃ nlp : Nlp, ∃ σ, nlp.state.Sat σ ∧ (∀ σ', nlp.state.Sat σ' → nlp.obj.eval σ ≤ nlp.obj.eval σ') ∧
    ∃ (sm : SymMats) (dimG dimF : ℕ), Certified sm dimG dimF (nlp.state.value σ) := by
  have hk : (match buildNlp refCAS goalProg2 descentParams2 [⟨"h", some (1 / 4), none⟩] with
      | .ok x => (x.1.state.cons.all (Constr.holdsQ descentSol2) && solvableB x.2.1 x.2.2.1) && decide (x.1.obj.evalQ descentSol2 = -1 / 4)
      | .error _ => false) = true := by decide +kernel
  split at hk
  · rename_i x hx
    obtain ⟨h1, h2⟩ := buildNlp_ok hx
    simp only [Bool.and_eq_true, decide_eq_true_eq] at hk
    obtain ⟨⟨hk, hs⟩, hv⟩ := hk
    have h3 := solvable_of_check hs
    have h4 := sat_of_holdsQ hk
    have hb : ∀ b ∈ [(⟨"h", some (1 / 4), none⟩ : Bound)], b.name ∈ scalarNames descentParams2 := by decide +kernel
    have hmin : ∀ σ', x.1.state.Sat σ' → x.1.obj.eval (fun v a b => ((descentSol2 v a b : ℚ) : ℝ)) ≤ x.1.obj.eval σ' := by
      intro σ' hσ'
      obtain ⟨sm, -, hset⟩ := C57_ipopt refCAS_lawful h1 goalProg2_clean descentParams2_simple hb h3 h2
      obtain ⟨env, he, hv'⟩ := hset.subset ⟨σ', hσ', rfl⟩
      rw [CExp.evalQ_eval, hv]
      rw [show x.1.obj.eval σ' = - env "h" from hv'.symm]
      have hu := (he.2.2.1 _ List.mem_cons_self).1 _ rfl
      rw [longEnv_plain (by decide +kernel)] at hu
      push_cast at hu ⊢
      linarith
    obtain ⟨sm, -, hc, -⟩ := C57_ipopt_best refCAS_lawful h1 goalProg2_clean descentParams2_simple hb h3 h2 h4 hmin
    exact ⟨x.1, _, h4, hmin, sm, _, _, hc⟩
  · cases hk

/-- all hypotheses of `C57_qcqp` are met with the objective `3 eta + gamma h / 2`, whose monomial `gamma_h` is an entry of the vector -/
example : ∃ (q : Qcqp) (v : ℝ) (sm : SymMats) (dimG dimF : ℕ) (env : Name → ℝ), (∃ x, q.Sat x ∧ q.obj.eval (fun _ i _ => x i) = v) ∧
    Certified sm dimG dimF env ∧ v = - (goalOf goalProg).eval env := by
  obtain ⟨r, h, q, h', h1, h2, h3, -, h5⟩ := qcqp_of_check (C := refCAS) (prog := goalProg) (params := descentParams2)
    (bounds := [⟨"h", none, some (1 / 8)⟩]) (x := descentVec) (by decide +kernel)
  obtain ⟨sm, -, hset⟩ := C57_qcqp refCAS_lawful h1 goalProg_clean (by decide) (by decide +kernel) h3 h2 (by decide +kernel) (by decide +kernel) (by decide +kernel)
  obtain ⟨env, he, hv⟩ := hset.subset ⟨_, h5, rfl⟩
  exact ⟨q, _, sm, _, _, env, ⟨_, h5, rfl⟩, he.1, hv.symm⟩

end Verif
