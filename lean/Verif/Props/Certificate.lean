import Verif.Proofs.Objective
import Verif.Proofs.Nlp
import Verif.Proofs.Solvable
import Verif.Props.Represent

/-!
# C26: feasible points of the nonlinear program are proofs; C14: not if a constant was dropped
-/

namespace Verif
open Heap

variable {C : CAS} {V : Set Name}

theorem keeps_matStep (dimG dimF : ℕ) (m : FG) (kw : ExKey × Sym) : Keeps V (matStep C dimG dimF m kw) := by
  rw [matStep]
  split
  · exact (Keeps.getEx _).bind fun _ => (Keeps.assert _).bind fun _ => (Keeps.ofOption _ _).bind fun _ => Keeps.ite (Keeps.pure _) (Keeps.throw _)
  · exact (Keeps.getPt _).bind fun _ => (Keeps.getPt _).bind fun _ => (Keeps.assert _).bind fun _ => (Keeps.ofOption _ _).bind fun _ =>
      (Keeps.ofOption _ _).bind fun _ => Keeps.ite (Keeps.pure _) (Keeps.throw _)
  · exact Keeps.pure _

theorem keeps_matLoop (dimG dimF : ℕ) : ∀ (l : Dict ExKey Sym) (m : FG), Keeps V (matLoop C dimG dimF l m) := by
  intro l
  induction l with
  | nil => intro m; exact Keeps.pure _
  | cons a l ih => intro m; exact (keeps_matStep dimG dimF m a).bind fun _ => ih _

theorem keeps_exprToMatrix (e : ExId) (dimG dimF : ℕ) : Keeps V (exprToMatrix C e dimG dimF) :=
  (Keeps.getEx _).bind fun _ => keeps_matLoop _ _ _ _

theorem keeps_extraLoop (dimG dimF : ℕ) : ∀ (l : List (ExId × Kind)) (acc : SymAcc), Keeps V (extraLoop C dimG dimF l acc) := by
  intro l
  induction l with
  | nil => intro m; exact Keeps.pure _
  | cons a l ih => intro m; exact ((keeps_exprToMatrix _ _ _).bind fun _ => Keeps.pure _).bind fun _ => ih _

theorem keeps_pairLoop (dimG dimF : ℕ) (f : FnId) (k : ℕ) : ∀ (l : List (ℕ × ℕ)) (s : SymAcc × ℕ), Keeps V (pairLoop C dimG dimF f k l s) := by
  intro l
  induction l with
  | nil => intro m; exact Keeps.pure _
  | cons a l ih =>
    intro m
    refine Keeps.bind ?_ fun _ => ih _
    rw [pairStep]
    exact Keeps.ite (Keeps.pure _) ((Keeps.getFn _).bind fun _ => (Keeps.ofOption _ _).bind fun _ => (keeps_exprToMatrix _ _ _).bind fun _ => Keeps.pure _)

theorem keeps_fnLoop (hC : C.Lawful) (dimG dimF : ℕ) : ∀ (l : List FnId) (k : ℕ) (acc : SymAcc), Keeps V (fnLoop C dimG dimF l k acc) := by
  intro l
  induction l with
  | nil => intro k m; exact Keeps.pure _
  | cons a l ih =>
    intro k m
    refine Keeps.bind ?_ fun _ => ih _ _
    exact (keeps_addClassConstraints hC _).bind fun _ => (Keeps.getFn _).bind fun _ => (keeps_pairLoop _ _ _ _ _ _).bind fun _ =>
      (Keeps.getFn _).bind fun _ => (Keeps.assert _).bind fun _ => Keeps.pure _

theorem keeps_problemMatrices (hC : C.Lawful) (r : Regs) : Keeps V (problemMatrices C r) :=
  Keeps.get.bind fun _ => (keeps_extraLoop _ _ _ _).bind fun _ => (keeps_fnLoop hC _ _ _ _ _).bind fun _ => (Keeps.assert _).bind fun _ =>
    (Keeps.ofOption _ _).bind fun _ => (keeps_exprToMatrix _ _ _).bind fun _ => Keeps.pure _

variable {h h' : Heap} {r : Regs} {prog : List Instr}

theorem Entry.matOf {leafs : List FnId} {key : SpKey} {m : FG} (e : Entry h r leafs key m) : ∃ x, MatOf h x m := by
  cases e with
  | ineq _ hm => exact ⟨_, hm⟩
  | pair _ _ _ _ _ _ _ hm => exact ⟨_, hm⟩
  | eq _ hm => exact ⟨_, hm⟩
  | obj _ hm => exact ⟨_, hm⟩

/-- the symbols in the matrices are symbols of the program -/
theorem Translates.occurs {sm : SymMats} (t : Translates C h r sm h') (hc : h'.Clean V) : ∀ en ∈ sm.spExp, ∀ n, en.2.Occurs n → n ∈ V := by
  intro en hen n hn
  obtain ⟨x, hm⟩ := (t.entries en hen).matOf
  obtain ⟨o, ho, kw, hkw, hv⟩ := hm.vars n hn
  exact (hc.exs o (List.mem_of_getElem? ho) kw hkw).1 n hv

theorem solveIpopt_inv {params : List Name} {bounds : List Bound} {init : List Name} {nlp : Nlp}
    (hs : solveIpopt C r params bounds init h = .ok (nlp, h')) :
    ∃ sm, problemMatrices C r h = .ok (sm, h') ∧
      ipoptNlp C sm ((leafFnIds h).map (nSamples h')) r.cons.length h.ptCounter h.exCounter params bounds init r.obj = .ok nlp := by
  rw [solveIpopt] at hs
  obtain ⟨h0, h1, h2, hs⟩ := M.bind_ok_iff.1 hs
  injection h2 with h2
  simp only [Prod.mk.injEq] at h2
  obtain ⟨rfl, rfl⟩ := h2
  obtain ⟨sm, h2, h3, hs⟩ := M.bind_ok_iff.1 hs
  obtain ⟨h2, h5, h6, hs⟩ := M.bind_ok_iff.1 hs
  injection h6 with h6
  simp only [Prod.mk.injEq] at h6
  obtain ⟨rfl, rfl⟩ := h6
  cases hx : ipoptNlp C sm ((leafFnIds h).map (nSamples h2)) r.cons.length h.ptCounter h.exCounter params bounds init r.obj with
  | ok x =>
    have hs' : (match ipoptNlp C sm ((leafFnIds h).map (nSamples h2)) r.cons.length h.ptCounter h.exCounter params bounds init r.obj with
      | .ok x => pure x | .error e => M.throw e : M Nlp) h2 = .ok (nlp, h') := hs
    rw [hx] at hs'
    injection hs' with hs'
    simp only [Prod.mk.injEq] at hs'
    obtain ⟨rfl, rfl⟩ := hs'
    exact ⟨sm, h3, hx⟩
  | error e =>
    have hs' : (match ipoptNlp C sm ((leafFnIds h).map (nSamples h2)) r.cons.length h.ptCounter h.exCounter params bounds init r.obj with
      | .ok x => pure x | .error e => M.throw e : M Nlp) h2 = .ok (nlp, h') := hs
    rw [hx] at hs'
    cases hs'

/-- the heap does not change the number of samples during translation -/
theorem Translates.nSamples_eq {sm : SymMats} (t : Translates C h r sm h') (hl : ∀ f ∈ leafFnIds h, ∃ o, h.fns[f]? = some o) :
    (leafFnIds h).map (nSamples h') = (leafFnIds h).map (nSamples h) := by
  refine List.map_congr_left fun f hf => ?_
  obtain ⟨o, ho⟩ := hl f hf
  obtain ⟨es, -, h1⟩ := t.classCons f hf o ho
  rw [nSamples, nSamples, ho, h1]

theorem leafFnIds_fn {f : FnId} (hf : f ∈ leafFnIds h) : ∃ o, h.fns[f]? = some o := by
  rw [leafFnIds, List.mem_filter] at hf
  cases ho : h.fns[f]? with
  | none => simp [ho] at hf
  | some o => exact ⟨o, rfl⟩

/-- the matrices and the dual system behind a feasible point of the nonlinear program -/
theorem solveIpopt_dual (hC : C.Lawful) (hr : runProblem C prog Heap.empty = .ok (r, h)) {params : List Name} {bounds : List Bound}
    {init : List Name} {nlp : Nlp} (hs : Solvable r h) (hn : solveIpopt C r params bounds init h = .ok (nlp, h'))
    {V : Set Name} (hc : h'.Clean V) (hV : ∀ n ∈ V, n ∈ params)
    (hpl : ∀ n ∈ params, Plain n) (hnd : ∀ n ∈ params, ¬ IsDual n) {σ : ℕ → ℕ → ℕ → ℝ} (hσ : nlp.state.Sat σ) :
    ∃ sm pid, Translates C h r sm h' ∧ DualFeasible sm h.ptCounter h.exCounter (nlp.state.value σ) (fun key => nlp.state.symVal σ key.name)
      (fun i j => ∑ k ∈ Finset.range h.ptCounter, lowerOf σ pid i k * lowerOf σ pid j k) ∧ nlp.obj.eval σ = - (r.obj).eval (longEnv (nlp.state.value σ)) := by
  obtain ⟨sm, h1, h2⟩ := solveIpopt_inv hn
  have t := translate_of hC hr hs h1
  rw [t.nSamples_eq fun f hf => leafFnIds_fn hf] at h2
  obtain ⟨pid, d, o⟩ := ipoptNlp_sound hC h2 t.keys t.nE t.sum (fun en hen n hn => hV n (t.occurs hc en hen n hn)) hpl hnd hσ
  exact ⟨sm, pid, t, d, o⟩

/-- **C26.** Let a program use the symbols `params` and add no numeric constants to expressions, let it and the construction of the
nonlinear program by `solve_ipopt` run without error, and let `σ` satisfy the constraints of the nonlinear program.  Then in every real
inner product space, for all functions of the declared classes and every execution of the program with the parameter values of `σ` that
satisfies the extra constraints, the performance metric is at most 0.  The objective is
minus the quantity the program asks to maximise. -/
theorem C26_sound (hC : C.Lawful) (hr : runProblem C prog Heap.empty = .ok (r, h)) {params : List Name}
    (hclean : ∀ i ∈ prog, i.Clean {n | n ∈ params}) (hpl : ∀ n ∈ params, Plain n) (hnd : ∀ n ∈ params, ¬ IsDual n)
    (hok : ∀ d ∈ decls prog, d.Ok)
    {bounds : List Bound} {init : List Name} {nlp : Nlp} (hn : solveIpopt C r params bounds init h = .ok (nlp, h'))
    {σ : ℕ → ℕ → ℕ → ℝ} (hσ : nlp.state.Sat σ) :
    nlp.obj.eval σ = - (goalOf prog).eval (nlp.state.value σ) ∧
    ∀ {E : Type} [NormedAddCommGroup E] [InnerProductSpace ℝ E] (fs : ℕ → CFun E), Instance prog fs → ∀ (rr : RRegs E),
      RealExec fs (nlp.state.value σ) prog rr → rr.ConsHold → ∀ v, rr.metric = some v → v ≤ 0 := by
  have hc0 : h.Clean {n | n ∈ params} := keeps_prog hC prog _ hclean _ _ _ (clean_reset clean_empty) hr
  obtain ⟨sm0, h1, -⟩ := solveIpopt_inv hn
  have hs := solvable_of_ok hC hr hok h1
  have hc : h'.Clean {n | n ∈ params} := keeps_problemMatrices hC r _ _ _ hc0 h1
  obtain ⟨sm, pid, t, d, o⟩ := solveIpopt_dual hC hr hs hn hc (fun n hn => hn) hpl hnd hσ
  refine ⟨by rw [o, runProblem_obj hr, eval_longEnv_plain (goalOf_plain hclean hpl)], ?_⟩
  intro E _ _ fs hf rr ex hcons v hv
  exact weak_duality hC hr t hc hok d (IsPSD.ppt _ _) hf ex hcons hv

/-! ### Non-vacuity -/

/-- value of a CasADi expression at rational values -/
def CExp.evalQ (σ : ℕ → ℕ → ℕ → ℚ) : CExp → ℚ
  | .num c => c
  | .var v a b => σ v a b
  | .add a b => a.evalQ σ + b.evalQ σ
  | .mul a b => a.evalQ σ * b.evalQ σ

def Constr.holdsQ (σ : ℕ → ℕ → ℕ → ℚ) : Constr → Bool
  | .eq a b => decide (a.evalQ σ = b.evalQ σ)
  | .ge a b => decide (b.evalQ σ ≤ a.evalQ σ)

theorem CExp.evalQ_eval (σ : ℕ → ℕ → ℕ → ℚ) (x : CExp) : x.eval (fun v a b => ((σ v a b : ℚ) : ℝ)) = ((x.evalQ σ : ℚ) : ℝ) := by
  induction x with
  | num c => rfl
  | var v a b => rfl
  | add a b iha ihb => simp [CExp.eval, CExp.evalQ, iha, ihb]
  | mul a b iha ihb => simp [CExp.eval, CExp.evalQ, iha, ihb]

theorem sat_of_holdsQ {st : CaState} {σ : ℕ → ℕ → ℕ → ℚ} (h : st.cons.all (Constr.holdsQ σ) = true) :
    st.Sat fun v a b => ((σ v a b : ℚ) : ℝ) := by
  intro c hc
  have := List.all_eq_true.1 h c hc
  cases c with
  | eq a b =>
    simp only [Constr.holdsQ, decide_eq_true_eq] at this
    simp only [Constr.Holds, CExp.evalQ_eval, this]
  | ge a b =>
    simp only [Constr.holdsQ, decide_eq_true_eq] at this
    simp only [Constr.Holds, CExp.evalQ_eval]
    exact_mod_cast this

/-- run a program and build its nonlinear program -/
def buildNlp (C : CAS) (prog : List Instr) (params : List Name) (bounds : List Bound) : Except Err (Nlp × Regs × Heap × Heap) :=
  match runProblem C prog Heap.empty with
  | .ok (r, h) => match solveIpopt C r params bounds [] h with
    | .ok (n, h') => .ok (n, r, h, h')
    | .error e => .error e
  | .error e => .error e

theorem buildNlp_ok {prog : List Instr} {params : List Name} {bounds : List Bound} {x : Nlp × Regs × Heap × Heap}
    (h : buildNlp C prog params bounds = .ok x) :
    runProblem C prog Heap.empty = .ok (x.2.1, x.2.2.1) ∧ solveIpopt C x.2.1 params bounds [] x.2.2.1 = .ok (x.1, x.2.2.2) := by
  rw [buildNlp] at h
  split at h
  · split at h
    · injection h with h
      subst h
      constructor <;> assumption
    · cases h
  · cases h

theorem feasible_of_check {prog : List Instr} {params : List Name} {bounds : List Bound} {σ : ℕ → ℕ → ℕ → ℚ}
    (h : (match buildNlp C prog params bounds with
      | .ok x => x.1.state.cons.all (Constr.holdsQ σ) && solvableB x.2.1 x.2.2.1
      | .error _ => false) = true) :
    ∃ r h nlp h', runProblem C prog Heap.empty = .ok (r, h) ∧ solveIpopt C r params bounds [] h = .ok (nlp, h') ∧ Solvable r h ∧
      nlp.state.Sat fun v a b => ((σ v a b : ℚ) : ℝ) := by
  split at h
  · rename_i x hx
    obtain ⟨h1, h2⟩ := buildNlp_ok hx
    rw [Bool.and_eq_true] at h
    exact ⟨_, _, _, _, h1, h2, solvable_of_check h.2, sat_of_holdsQ h.1⟩
  · cases h

/-- the descent lemma of gradient descent: `f(x - h g) - f(x) + eta ‖g‖² ≤ 0` -/
def descentProg : List Instr :=
  [.declare (.smoothConvex (some 2)), .initial, .oracle 0 0, .pt (.sub (.reg 0) (.scale (Sym.var "h") (.reg 1))), .oracle 0 2,
   .ex (.add (.sub (.reg 1) (.reg 0)) (.scale (Sym.var "eta") (.pow (.reg 1) 2))), .metric 2]

/-- `h = 1/2`, `eta = 3/16`, one multiplier 1, `P = diag (0, 1/4, 1/2)` -/
def descentSol : ℕ → ℕ → ℕ → ℚ
  | 0, 0, 0 => 3 / 16
  | 2, 0, 0 => 1 / 2
  | 7, 1, 1 => 1 / 4
  | 7, 2, 2 => 1 / 2
  | 8, 0, 1 => 1
  | _, _, _ => 0

theorem descent_feasible : ∃ r h nlp h', runProblem refCAS descentProg Heap.empty = .ok (r, h) ∧
    solveIpopt refCAS r ["eta", "h"] [] [] h = .ok (nlp, h') ∧ Solvable r h ∧
    nlp.state.Sat fun v a b => ((descentSol v a b : ℚ) : ℝ) := feasible_of_check (by decide +kernel)

/-- all hypotheses of `C26_sound` are met by the descent lemma -/
example : ∃ nlp : Nlp, ∀ {E : Type} [NormedAddCommGroup E] [InnerProductSpace ℝ E] (fs : ℕ → CFun E), Instance descentProg fs → ∀ (rr : RRegs E),
      RealExec fs (nlp.state.value fun v a b => ((descentSol v a b : ℚ) : ℝ)) descentProg rr → rr.ConsHold → ∀ v, rr.metric = some v → v ≤ 0 := by
  obtain ⟨r, h, nlp, h', h1, h2, h3, h4⟩ := descent_feasible
  refine ⟨nlp, (C26_sound refCAS_lawful h1 ?_ (by decide +kernel) (by decide +kernel) ?_ h2 h4).2⟩
  · intro i hi
    simp only [descentProg, List.mem_cons, List.not_mem_nil, or_false] at hi
    rcases hi with rfl | rfl | rfl | rfl | rfl | rfl | rfl <;> simp [Instr.Clean, PE.Clean, EE.Clean, Sym.vars]
  · intro d hd
    simp only [descentProg, decls, List.mem_cons, List.not_mem_nil, or_false] at hd
    subst hd
    norm_num [FnDecl.Ok]

/-- `f(x⋆) - f(x) + 1` as metric -/
def constProg : List Instr :=
  [.declare (.smoothConvex (some 2)), .stationary 0, .initial, .oracle 0 2, .ex (.addNum (.sub (.reg 0) (.reg 1)) 1), .metric 2]

/-- one multiplier 1, `P = diag (0, 0, 1/2)` -/
def constSol : ℕ → ℕ → ℕ → ℚ
  | 7, 2, 2 => 1 / 2
  | 8, 1, 0 => 1
  | _, _, _ => 0

/-- **C14** (violated), the certificate: with a constant in the metric the nonlinear program is feasible, but the metric of an execution
of the program on `x²` with these parameter values is 1. -/
theorem C14_certificate : ∃ r h nlp h' σ, runProblem refCAS constProg Heap.empty = .ok (r, h) ∧
    solveIpopt refCAS r [] [] [] h = .ok (nlp, h') ∧ Solvable r h ∧ nlp.state.Sat σ ∧
    Instance constProg (fun _ => sqFun) ∧
    RealExec (fun _ => sqFun) (nlp.state.value σ) constProg ⟨[0, 0, 0, 0], [0, 0, 1], [Finsupp.single 0 1], 1, [], some 1⟩ := by
  obtain ⟨r, h, nlp, h', h1, h2, h3, h4⟩ : ∃ r h nlp h', runProblem refCAS constProg Heap.empty = .ok (r, h) ∧
    solveIpopt refCAS r [] [] [] h = .ok (nlp, h') ∧ Solvable r h ∧
    nlp.state.Sat fun v a b => ((constSol v a b : ℚ) : ℝ) := feasible_of_check (by decide +kernel)
  refine ⟨r, h, nlp, h', _, h1, h2, h3, h4, ?_, ?_⟩
  · intro k d hk
    simp only [constProg, decls] at hk
    obtain ⟨h1, rfl⟩ := List.getElem?_eq_some_iff.1 hk
    simp only [List.length_cons, List.length_nil, zero_add, Nat.lt_one_iff] at h1
    subst h1
    exact ⟨rfl, sqFun_strong.mono (by norm_num : (0:ℝ) ≤ 2) |> strongConvexOn_zero.1, sqFun_lip (by norm_num)⟩
  · have s := sumSample_single (SR := fun _ => sqFun.Sample) (k := 0) (x := (0:ℝ)) (g := 0) (v := 0)
      (by simpa using sqFun_sample 0)
    unfold RealExec constProg
    refine .cons (.declare _ _) (.cons (.stationary _ _ 0 0 s) (.cons (.initial _ 0)
      (.cons (.oracle _ _ _ 0 0 s) (.cons (.ex _ _) (.cons (.metric _ _) ?_)))))
    convert Exec.nil _ using 1
    norm_num [RRegs.empty, EE.den]

end Verif
