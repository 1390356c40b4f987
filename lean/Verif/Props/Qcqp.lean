import Verif.Proofs.TabExpr
import Verif.Proofs.QcqpPack
import Verif.Props.Certificate

/-!
# C27: the QCQP formulation; C28: its matrix version
-/

namespace Verif
open Heap

variable {C : CAS} {h h' : Heap} {r : Regs} {prog : List Instr} {params : List Name} {bounds : List Bound} {extra : ℕ} {q : Qcqp}

theorem solveQcqp_inv (hs : solveQcqp C r params bounds extra h = .ok (q, h')) :
    ∃ sm, problemMatrices C r h = .ok (sm, h') ∧ qcqpNlp C sm h.ptCounter h.exCounter params bounds extra r.obj = .ok q := by
  rw [solveQcqp] at hs
  obtain ⟨h0, h1, h2, hs⟩ := M.bind_ok_iff.1 hs
  injection h2 with h2
  simp only [Prod.mk.injEq] at h2
  obtain ⟨rfl, rfl⟩ := h2
  obtain ⟨sm, h2, h3, hs⟩ := M.bind_ok_iff.1 hs
  cases hx : qcqpNlp C sm h.ptCounter h.exCounter params bounds extra r.obj with
  | ok x =>
    have hs' : (match qcqpNlp C sm h.ptCounter h.exCounter params bounds extra r.obj with
      | .ok x => pure x | .error e => M.throw e : M Qcqp) h2 = .ok (q, h') := hs
    rw [hx] at hs'
    injection hs' with hs'
    simp only [Prod.mk.injEq] at hs'
    obtain ⟨rfl, rfl⟩ := hs'
    exact ⟨sm, h3, hx⟩
  | error e =>
    have hs' : (match qcqpNlp C sm h.ptCounter h.exCounter params bounds extra r.obj with
      | .ok x => pure x | .error e => M.throw e : M Qcqp) h2 = .ok (q, h') := hs
    rw [hx] at hs'
    cases hs'

theorem solveQcqpMatrix_inv (hs : solveQcqpMatrix C r params bounds h = .ok (q, h')) :
    ∃ sm, problemMatrices C r h = .ok (sm, h') ∧ qcqpMatrixNlp C sm h.ptCounter h.exCounter params bounds r.obj = .ok q := by
  rw [solveQcqpMatrix] at hs
  obtain ⟨h0, h1, h2, hs⟩ := M.bind_ok_iff.1 hs
  injection h2 with h2
  simp only [Prod.mk.injEq] at h2
  obtain ⟨rfl, rfl⟩ := h2
  obtain ⟨sm, h2, h3, hs⟩ := M.bind_ok_iff.1 hs
  cases hx : qcqpMatrixNlp C sm h.ptCounter h.exCounter params bounds r.obj with
  | ok x =>
    have hs' : (match qcqpMatrixNlp C sm h.ptCounter h.exCounter params bounds r.obj with
      | .ok x => pure x | .error e => M.throw e : M Qcqp) h2 = .ok (q, h') := hs
    rw [hx] at hs'
    injection hs' with hs'
    simp only [Prod.mk.injEq] at hs'
    obtain ⟨rfl, rfl⟩ := hs'
    exact ⟨sm, h3, hx⟩
  | error e =>
    have hs' : (match qcqpMatrixNlp C sm h.ptCounter h.exCounter params bounds r.obj with
      | .ok x => pure x | .error e => M.throw e : M Qcqp) h2 = .ok (q, h') := hs
    rw [hx] at hs'
    cases hs'

theorem solveQcqpMatrix_ok {sm : SymMats} (h1 : problemMatrices C r h = .ok (sm, h'))
    (h2 : qcqpMatrixNlp C sm h.ptCounter h.exCounter params bounds r.obj = .ok q) : solveQcqpMatrix C r params bounds h = .ok (q, h') := by
  rw [solveQcqpMatrix, M.bind_of_ok (show M.get h = .ok (h, h) from rfl), M.bind_of_ok h1, h2]
  rfl

theorem plain_low {n : Name} (hn : n ∈ ["eta", "h", "rho", "gamma"]) : Plain n := by
  simp only [List.mem_cons, List.not_mem_nil, or_false] at hn
  rcases hn with rfl | rfl | rfl | rfl <;> (unfold Plain; decide)

theorem qcqp_clean (hC : C.Lawful) (hr : runProblem C prog Heap.empty = .ok (r, h)) (hclean : ∀ i ∈ prog, i.Clean {n | n ∈ params})
    {sm : SymMats} (hm : problemMatrices C r h = .ok (sm, h')) : h'.Clean {n | n ∈ params} :=
  keeps_problemMatrices hC r _ _ _ (keeps_prog hC prog _ hclean _ _ _ (clean_reset clean_empty) hr) hm

theorem packs_obj (hC : C.Lawful) {sm : SymMats} {tab : VTab} (o : tab.Ok) {goal : Sym} (hg : ∀ n ∈ goal.vars, Plain n) {e : CExp}
    (he : tab.expr C goal = .ok e) {dimG dimF : ℕ} {x : ℕ → ℝ} {env : Name → ℝ}
    {mult : SpKey → ℝ} {P : ℕ → ℕ → ℝ} (pk : Packs sm tab.names dimG dimF x env mult P) :
    (CExp.mul (.num (-1)) e).eval (fun _ i _ => x i) = - goal.eval env := by
  have h1 := tabExpr_spec hC o he (σ := fun _ i _ => x i) pk.monos
  rw [eval_longEnv_plain hg] at h1
  simp [CExp.eval, h1]

/-- **C27.** Let a program use only the symbols `params` (distinct, without underscore), and let it and the construction of the QCQP by
`solve_ipopt_qcqp` run without error.  Let the bounds name monomials of the table.  Then a vector `x` satisfies the constraints of the
QCQP iff it packs parameter values, multipliers and a triangular matrix with nonnegative diagonal that solve the dual system of the
problem's matrices, where the parameters satisfy the reciprocal conditions, the bounds, and the four lower bounds `1e-7`.  The objective
is minus the quantity the program asks to maximise. -/
theorem C27_iff (hC : C.Lawful) (hr : runProblem C prog Heap.empty = .ok (r, h)) (hclean : ∀ i ∈ prog, i.Clean {n | n ∈ params})
    (hp : params.Nodup) (hpl : ∀ n ∈ params, Plain n) (hs : Solvable r h) (hn : solveQcqp C r params bounds extra h = .ok (q, h'))
    (hb : ∀ b ∈ bounds, VName.str b.name ∈ q.tab.names ∧ b.name ≠ "x") :
    ∃ sm, problemMatrices C r h = .ok (sm, h') ∧
      (∀ x, q.Sat x ↔ ∃ env mult P, Packs sm q.tab.names h.ptCounter h.exCounter x env mult P ∧ InvOk params env ∧ BoundsOk bounds env ∧
        ∀ n ∈ ["eta", "h", "rho", "gamma"], 1 / 10000000 ≤ env n) ∧
      ∀ x env mult P, Packs sm q.tab.names h.ptCounter h.exCounter x env mult P → q.obj.eval (fun _ i _ => x i) = - (goalOf prog).eval env := by
  obtain ⟨sm, hm, hq⟩ := solveQcqp_inv hn
  have t := translate_of hC hr hs hm
  have hc := qcqp_clean hC hr hclean hm
  obtain ⟨ents, obj, pr⟩ := t.prepared
  obtain ⟨d, bs, h1, h2, h3, h4, h5, ⟨e, h6, h7⟩, h8, h9, -, h10⟩ := qcqpNlp_core hq
  obtain ⟨o, pre, hbd, hdim⟩ := qData_table hC hp h1
  rw [h2] at hb ⊢
  refine ⟨sm, hm, fun x => ?_, fun x env mult P pk => by
    rw [runProblem_obj hr] at h6
    rw [h7]; exact packs_obj hC o (goalOf_plain hclean hpl) h6 pk⟩
  rw [h10 hbd hdim x, core_packs hC hp hpl (fun km hk n hn => t.occurs hc km hk n hn) h1 pr h8 h9 hb h4 x]
  have hlow : ∀ {env}, Monos d.tab.names x env → ∀ n ∈ ["eta", "h", "rho", "gamma"], ∀ i, d.tab.lookup n = .ok i → x i = env n := by
    intro env hm n hn i hi
    rw [hm _ _ (o.lookup.1 hi)]
    exact longEnv_plain (plain_low hn)
  constructor
  · rintro ⟨⟨env, mult, P, pk, hi, hbo⟩, hl⟩
    refine ⟨env, mult, P, pk, hi, hbo, fun n hn => ?_⟩
    obtain ⟨i, hi'⟩ := h5 n hn
    rw [← hlow pk.monos n hn i hi']
    exact hl n hn i hi'
  · rintro ⟨env, mult, P, pk, hi, hbo, hl⟩
    refine ⟨⟨env, mult, P, pk, hi, hbo⟩, fun n hn i hi' => ?_⟩
    rw [hlow pk.monos n hn i hi']
    exact hl n hn

/-- **C27**, soundness: if `x` satisfies the constraints of the QCQP and `env` are the parameter values it contains, then every execution
of the program on functions of the declared classes, at these parameter values, that satisfies the extra constraints has metric ≤ 0. -/
theorem C27_sound (hC : C.Lawful) (hr : runProblem C prog Heap.empty = .ok (r, h)) (hclean : ∀ i ∈ prog, i.Clean {n | n ∈ params})
    (hp : params.Nodup) (hpl : ∀ n ∈ params, Plain n) (hok : ∀ d ∈ decls prog, d.Ok)
    (hn : solveQcqp C r params bounds extra h = .ok (q, h')) (hb : ∀ b ∈ bounds, VName.str b.name ∈ q.tab.names ∧ b.name ≠ "x")
    {x : ℕ → ℝ} (hx : q.Sat x) :
    ∃ env : Name → ℝ, (∀ i n, n ∈ params → q.tab.names[i]? = some (.str n) → env n = x i) ∧ q.obj.eval (fun _ i _ => x i) = - (goalOf prog).eval env ∧
    ∀ {E : Type} [NormedAddCommGroup E] [InnerProductSpace ℝ E] (fs : ℕ → CFun E), Instance prog fs → ∀ (rr : RRegs E),
      RealExec fs env prog rr → rr.ConsHold → ∀ v, rr.metric = some v → v ≤ 0 := by
  obtain ⟨sm0, hm0, -⟩ := solveQcqp_inv hn
  have hs := solvable_of_ok hC hr hok hm0
  obtain ⟨sm, hm, hiff, hobj⟩ := C27_iff hC hr hclean hp hpl hs hn hb
  have t := translate_of hC hr hs hm
  have hc := qcqp_clean hC hr hclean hm
  obtain ⟨env, mult, P, pk, -⟩ := (hiff x).1 hx
  refine ⟨env, fun i n hn hi => ?_, hobj _ _ _ _ pk, ?_⟩
  · rw [pk.monos _ _ hi]
    exact (longEnv_plain (hpl n hn)).symm
  · intro E _ _ fs hf rr ex hcons v hv
    exact weak_duality hC hr t hc hok pk.dual (IsPSD.ppt _ _) hf ex hcons hv

/-- **C28.** Whenever `solve_ipopt_qcqp` can build its problem, so can `solve_ipopt_qcqp_matrix`, with the same table of monomials, vector
and objective, and a vector satisfies the constraints of the first iff it satisfies those of the second and the entries for `eta`, `h`,
`rho` and `gamma` are at least `1e-7`. -/
theorem C28_matrix (hC : C.Lawful) (hp : params.Nodup) (hn : solveQcqp C r params bounds extra h = .ok (q, h')) :
    ∃ q', solveQcqpMatrix C r params bounds h = .ok (q', h') ∧ q'.tab = q.tab ∧ q'.s = q.s ∧ q'.obj = q.obj ∧
      (∀ n ∈ ["eta", "h", "rho", "gamma"], VName.str n ∈ q.tab.names) ∧
      ∀ x, q.Sat x ↔ q'.Sat x ∧ ∀ n ∈ ["eta", "h", "rho", "gamma"], ∀ i, q.tab.names[i]? = some (.str n) → 1 / 10000000 ≤ x i := by
  obtain ⟨sm, hm, hq⟩ := solveQcqp_inv hn
  obtain ⟨d, bs, h1, h2, h3, h4, h5, ⟨e, h6, h7⟩, h8, h9, ⟨q', hq'⟩, h10⟩ := qcqpNlp_core hq
  obtain ⟨o, pre, hbd, hdim⟩ := qData_table hC hp h1
  obtain ⟨d', bs', k1, k2, k3, k4, ⟨e', k6, k7⟩, k8, k9, k10⟩ := qcqpMatrixNlp_core hq'
  rw [h1] at k1
  injection k1 with k1
  subst k1
  rw [h4] at k4
  injection k4 with k4
  subst k4
  rw [h6] at k6
  injection k6 with k6
  subst k6
  refine ⟨q', solveQcqpMatrix_ok hm hq', by rw [k2, h2], by rw [k3, h3], by rw [k7, h7], ?_, fun x => ?_⟩
  · intro n hn
    obtain ⟨i, hi⟩ := h5 n hn
    rw [h2]
    exact List.mem_of_getElem? (o.lookup.1 hi)
  · rw [h10 hbd hdim x, k10 hbd hdim x, h2]
    refine and_congr_right fun _ => ?_
    simp only [o.lookup]

/-! ### Non-vacuity -/

/-- run a program and build both quadratic programs -/
def buildQcqp (C : CAS) (prog : List Instr) (params : List Name) (bounds : List Bound) : Except Err (Qcqp × Regs × Heap × Heap) :=
  match runProblem C prog Heap.empty with
  | .ok (r, h) => match solveQcqp C r params bounds 0 h with
    | .ok (n, h') => .ok (n, r, h, h')
    | .error e => .error e
  | .error e => .error e

theorem buildQcqp_ok {x : Qcqp × Regs × Heap × Heap} (h : buildQcqp C prog params bounds = .ok x) :
    runProblem C prog Heap.empty = .ok (x.2.1, x.2.2.1) ∧ solveQcqp C x.2.1 params bounds 0 x.2.2.1 = .ok (x.1, x.2.2.2) := by
  rw [buildQcqp] at h
  split at h
  · split at h
    · injection h with h
      subst h
      constructor <;> assumption
    · cases h
  · cases h

theorem qsat_of_holdsQ {q : Qcqp} {x : ℕ → ℚ} (h : q.cons.all (Constr.holdsQ fun _ i _ => x i) = true) :
    q.Sat fun i => ((x i : ℚ) : ℝ) := by
  intro c hc
  have := List.all_eq_true.1 h c hc
  cases c with
  | eq a b =>
    simp only [Constr.holdsQ, decide_eq_true_eq] at this
    have ha := CExp.evalQ_eval (fun _ i _ => x i) a
    have hb := CExp.evalQ_eval (fun _ i _ => x i) b
    simp only [Constr.Holds]
    rw [ha, hb, this]
  | ge a b =>
    simp only [Constr.holdsQ, decide_eq_true_eq] at this
    have ha := CExp.evalQ_eval (fun _ i _ => x i) a
    have hb := CExp.evalQ_eval (fun _ i _ => x i) b
    simp only [Constr.Holds]
    rw [ha, hb]
    exact_mod_cast this

theorem qcqp_of_check {x : ℕ → ℚ}
    (h : (match buildQcqp C prog params bounds with
      | .ok y => y.1.cons.all (Constr.holdsQ fun _ i _ => x i) && solvableB y.2.1 y.2.2.1 &&
          bounds.all fun b => decide (VName.str b.name ∈ y.1.tab.names ∧ b.name ≠ "x")
      | .error _ => false) = true) :
    ∃ r h q h', runProblem C prog Heap.empty = .ok (r, h) ∧ solveQcqp C r params bounds 0 h = .ok (q, h') ∧ Solvable r h ∧
      (∀ b ∈ bounds, VName.str b.name ∈ q.tab.names ∧ b.name ≠ "x") ∧ q.Sat fun i => ((x i : ℚ) : ℝ) := by
  split at h
  · rename_i y hy
    obtain ⟨h1, h2⟩ := buildQcqp_ok hy
    rw [Bool.and_eq_true, Bool.and_eq_true] at h
    refine ⟨_, _, _, _, h1, h2, solvable_of_check h.1.2, fun b hb => ?_, qsat_of_holdsQ h.1.1⟩
    simpa using List.all_eq_true.1 h.2 b hb
  · cases h

/-- the descent lemma with step length `h * gamma`, and `invh` the reciprocal of `h` -/
def descentProg2 : List Instr :=
  [.declare (.smoothConvex (some 2)), .initial, .oracle 0 0, .pt (.sub (.reg 0) (.scale (.mul (Sym.var "h") (Sym.var "gamma")) (.reg 1))), .oracle 0 2,
   .ex (.add (.sub (.reg 1) (.reg 0)) (.scale (Sym.var "eta") (.pow (.reg 1) 2))), .metric 2]

def descentParams2 : List Name := ["eta", "h", "rho", "gamma", "invh"]

/-- 1; `eta = 3/16, h = 1/4, rho = 1, gamma = 2, invh = 4`; `gamma_h = 1/2`; multipliers 1, 0; `P = diag (0, 1/4, 1/2)` -/
def descentVec (i : ℕ) : ℚ := [1, 3 / 16, 1 / 4, 1, 2, 4, 1 / 2, 1, 0, 0, 0, 1 / 4, 0, 0, 1 / 2].getD i 0

theorem descent_qcqp : ∃ r h q h', runProblem refCAS descentProg2 Heap.empty = .ok (r, h) ∧
    solveQcqp refCAS r descentParams2 [⟨"gamma_h", some 1, none⟩, ⟨"h", none, some (1 / 8)⟩] 0 h = .ok (q, h') ∧ Solvable r h ∧
    (∀ b ∈ [(⟨"gamma_h", some 1, none⟩ : Bound), ⟨"h", none, some (1 / 8)⟩], VName.str b.name ∈ q.tab.names ∧ b.name ≠ "x") ∧
    q.Sat fun i => ((descentVec i : ℚ) : ℝ) := qcqp_of_check (by decide +kernel)

/-- all hypotheses of `C27_iff`, `C27_sound` and `C28_matrix` are met by the descent lemma -/
example : ∃ (q q' : Qcqp) (x : ℕ → ℝ), q.Sat x ∧ q'.Sat x ∧ ∃ env : Name → ℝ,
    ∀ {E : Type} [NormedAddCommGroup E] [InnerProductSpace ℝ E] (fs : ℕ → CFun E), Instance descentProg2 fs → ∀ (rr : RRegs E),
      RealExec fs env descentProg2 rr → rr.ConsHold → ∀ v, rr.metric = some v → v ≤ 0 := by
  obtain ⟨r, h, q, h', h1, h2, h3, h4, h5⟩ := descent_qcqp
  obtain ⟨q', k1, k2, k3, k4, k5, k6⟩ := C28_matrix refCAS_lawful (by decide) h2
  have hclean : ∀ i ∈ descentProg2, i.Clean {n | n ∈ descentParams2} := by
    intro i hi
    simp only [descentProg2, List.mem_cons, List.not_mem_nil, or_false] at hi
    rcases hi with rfl | rfl | rfl | rfl | rfl | rfl | rfl <;> simp [Instr.Clean, PE.Clean, EE.Clean, Sym.vars, descentParams2]
  have hok : ∀ d ∈ decls descentProg2, d.Ok := by
    intro d hd
    simp only [descentProg2, decls, List.mem_cons, List.not_mem_nil, or_false] at hd
    subst hd
    norm_num [FnDecl.Ok]
  obtain ⟨env, -, -, hh⟩ := C27_sound refCAS_lawful h1 hclean (by decide) (by decide +kernel) hok h2 h4 h5
  exact ⟨q, q', _, h5, ((k6 _).1 h5).1, env, hh⟩

end Verif
