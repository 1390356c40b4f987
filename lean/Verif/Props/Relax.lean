import Verif.Proofs.Relax
import Verif.Props.Qcqp

/-!
# C30: the semidefinite relaxation
-/

namespace Verif
open Heap

variable {C : CAS} {h h' : Heap} {r : Regs} {prog : List Instr} {params : List Name} {bounds : List Bound} {vb : Option Name} {S : Sdp}

theorem solveRelaxSdp_inv (hs : solveRelaxSdp C r params bounds vb h = .ok (S, h')) :
    ∃ sm, problemMatrices C r h = .ok (sm, h') ∧ relaxSdp C sm h.ptCounter h.exCounter params bounds vb r.obj = .ok S := by
  rw [solveRelaxSdp] at hs
  obtain ⟨h0, h1, h2, hs⟩ := M.bind_ok_iff.1 hs
  injection h2 with h2
  simp only [Prod.mk.injEq] at h2
  obtain ⟨rfl, rfl⟩ := h2
  obtain ⟨sm, h2, h3, hs⟩ := M.bind_ok_iff.1 hs
  cases hx : relaxSdp C sm h.ptCounter h.exCounter params bounds vb r.obj with
  | ok x =>
    have hs' : (match relaxSdp C sm h.ptCounter h.exCounter params bounds vb r.obj with
      | .ok x => pure x | .error e => M.throw e : M Sdp) h2 = .ok (S, h') := hs
    rw [hx] at hs'
    injection hs' with hs'
    simp only [Prod.mk.injEq] at hs'
    obtain ⟨rfl, rfl⟩ := hs'
    exact ⟨sm, h3, hx⟩
  | error e =>
    have hs' : (match relaxSdp C sm h.ptCounter h.exCounter params bounds vb r.obj with
      | .ok x => pure x | .error e => M.throw e : M Sdp) h2 = .ok (S, h') := hs
    rw [hx] at hs'
    cases hs'

/-- **C30.** Let a program over the symbols `params` (distinct, without underscore), and `solve_sdp_relax`, run without error.  Let
parameter values with `eta, h ≥ 1e-5`, `rho ≥ 0`, `alpha, beta ∈ [-1, 1]`, multipliers and a positive semidefinite `Z` solve the dual
system, and satisfy the bounds.  Then the relaxation has a feasible point with this `Z`, whose vector `x` contains these parameter values
and multipliers, whose matrix `X` is `x xᵀ`, and whose objective is minus the quantity the program asks to maximise. -/
theorem C30_contains (hC : C.Lawful) (hr : runProblem C prog Heap.empty = .ok (r, h)) (hclean : ∀ i ∈ prog, i.Clean {n | n ∈ params})
    (hp : params.Nodup) (hpl : ∀ n ∈ params, Plain n) (hs : Solvable r h) (hn : solveRelaxSdp C r params bounds vb h = .ok (S, h')) :
    ∃ sm q, problemMatrices C r h = .ok (sm, h') ∧ qData C sm h.ptCounter h.exCounter params = .ok q ∧
      ∀ (env : Name → ℝ) (mult : SpKey → ℝ) (Z : ℕ → ℕ → ℝ), IsPSD h.ptCounter Z → DualFeasible sm h.ptCounter h.exCounter env mult Z →
      1 / 100000 ≤ env "eta" → 1 / 100000 ≤ env "h" → 0 ≤ env "rho" → |env "alpha"| ≤ 1 → |env "beta"| ≤ 1 →
      RelaxBoundsOk sm q.tab.names h.ptCounter bounds env mult Z →
      ∃ σ, S.Sat σ ∧ S.obj.eval σ = - (goalOf prog).eval env ∧ (∀ i n, q.tab.names[i]? = some n → σ 0 i 0 = n.val env) ∧
        (∀ k key, (Dict.keys sm.spExp)[k]? = some key → σ 0 (q.tab.names.length + k) 0 = mult key) ∧
        (∀ i j, σ 2 i j = σ 0 i 0 * σ 0 j 0) ∧ σ 3 = Z := by
  obtain ⟨sm, hm, hq⟩ := solveRelaxSdp_inv hn
  have t := translate_of hC hr hs hm
  have hc := qcqp_clean hC hr hclean hm
  obtain ⟨ents, obj, pr⟩ := t.prepared
  obtain ⟨q, -, -, -, -, hqd, -⟩ := relaxSdp_inv hq
  refine ⟨sm, q, hm, hqd, fun env mult Z hZ d he hh hrho ha hb hbo => ?_⟩
  have hv : ∀ km ∈ sm.spExp, ∀ n, km.2.Occurs n → n ∈ params := fun km hk n hn => t.occurs hc km hk n hn
  obtain ⟨q', hq', hsat, hobj⟩ := relax_lift hC hp hpl hv hq pr hZ d he hh hrho ha hb fun q2 h2 => by
    rw [hqd] at h2; injection h2 with h2; subst h2; exact hbo
  rw [hqd] at hq'
  injection hq' with hq'
  subst hq'
  rw [runProblem_obj hr, eval_longEnv_plain (goalOf_plain hclean hpl)] at hobj
  refine ⟨_, hsat, hobj, fun i n hi => ?_, fun k key hk => ?_, fun i j => rfl, rfl⟩
  · show relaxVec sm q.tab.names env mult i = _
    rw [relaxVec, if_pos (List.getElem?_eq_some_iff.1 hi).1, hi]
  · show relaxVec sm q.tab.names env mult _ = _
    rw [relaxVec, if_neg (by omega), Nat.add_sub_cancel_left, hk]

/-- **C30**, the bound: whatever lower bound `B` of its objective the relaxation has (in particular its optimal value), the quantity
the program asks to maximise is at most `- B` at every solution of the dual system in the box. -/
theorem C30_bound (hC : C.Lawful) (hr : runProblem C prog Heap.empty = .ok (r, h)) (hclean : ∀ i ∈ prog, i.Clean {n | n ∈ params})
    (hp : params.Nodup) (hpl : ∀ n ∈ params, Plain n) (hs : Solvable r h) (hn : solveRelaxSdp C r params [] vb h = .ok (S, h'))
    {B : ℝ} (hB : ∀ σ, S.Sat σ → B ≤ S.obj.eval σ) :
    ∃ sm, problemMatrices C r h = .ok (sm, h') ∧ ∀ (env : Name → ℝ) (mult : SpKey → ℝ) (Z : ℕ → ℕ → ℝ), IsPSD h.ptCounter Z →
      DualFeasible sm h.ptCounter h.exCounter env mult Z → 1 / 100000 ≤ env "eta" → 1 / 100000 ≤ env "h" → 0 ≤ env "rho" →
      |env "alpha"| ≤ 1 → |env "beta"| ≤ 1 → (goalOf prog).eval env ≤ - B := by
  obtain ⟨sm, q, hm, -, hc⟩ := C30_contains hC hr hclean hp hpl hs hn
  refine ⟨sm, hm, fun env mult Z hZ d h1 h2 h3 h4 h5 => ?_⟩
  obtain ⟨σ, k1, k2, -⟩ := hc env mult Z hZ d h1 h2 h3 h4 h5 (fun b hb => by cases hb)
  have := hB σ k1
  rw [k2] at this
  linarith

/-- **C30**, with respect to the QCQP: every feasible vector of the QCQP of `solve_ipopt_qcqp` with `eta, h ≥ 1e-5` and
`alpha, beta ∈ [-1, 1]` gives a feasible point of the relaxation built with the same parameters and bounds, with the same monomials,
multipliers and objective; `Z` is `P Pᵀ`. -/
theorem C30_qcqp (hC : C.Lawful) (hr : runProblem C prog Heap.empty = .ok (r, h)) (hclean : ∀ i ∈ prog, i.Clean {n | n ∈ params})
    (hp : params.Nodup) (hpl : ∀ n ∈ params, Plain n) (hs : Solvable r h) (hn : solveRelaxSdp C r params bounds vb h = .ok (S, h'))
    {q : Qcqp} {h'' : Heap} {extra : ℕ} (hq : solveQcqp C r params bounds extra h = .ok (q, h''))
    (hb : ∀ b ∈ bounds, VName.str b.name ∈ q.tab.names ∧ b.name ∉ ["x", "X", "Z"]) {x : ℕ → ℝ} (hx : q.Sat x)
    (hlow : ∀ n ∈ ["eta", "h"], ∀ i, q.tab.names[i]? = some (.str n) → 1 / 100000 ≤ x i)
    (hbox : ∀ n ∈ ["alpha", "beta"], ∀ i, q.tab.names[i]? = some (.str n) → |x i| ≤ 1) :
    ∃ σ, S.Sat σ ∧ S.obj.eval σ = q.obj.eval (fun _ i _ => x i) ∧ (∀ i < q.tab.names.length, σ 0 i 0 = x i) ∧
      ∀ i j, σ 2 i j = σ 0 i 0 * σ 0 j 0 := by
  obtain ⟨sm, d, hm, hqd, hc⟩ := C30_contains hC hr hclean hp hpl hs hn
  have hb' : ∀ b ∈ bounds, VName.str b.name ∈ q.tab.names ∧ b.name ≠ "x" := fun b hbb => ⟨(hb b hbb).1, fun hh => (hb b hbb).2 (by simp [hh])⟩
  obtain ⟨sm', hm', hiff, hobj⟩ := C27_iff hC hr hclean hp hpl hs hq hb'
  obtain ⟨sm2, hm2, hq2⟩ := solveQcqp_inv hq
  rw [hm] at hm' hm2
  injection hm' with hm'
  injection hm2 with hm2
  simp only [Prod.mk.injEq] at hm' hm2
  obtain ⟨rfl, rfl⟩ := hm'
  obtain ⟨rfl, -⟩ := hm2
  obtain ⟨d', bs, k1, k2, -⟩ := qcqpNlp_core hq2
  rw [hqd] at k1
  injection k1 with k1
  subst k1
  obtain ⟨env, mult, P, pk, -, hbo, hl⟩ := (hiff x).1 hx
  obtain ⟨o, pre, -⟩ := qData_table hC hp hqd
  -- the five parameters are in the table
  obtain ⟨sm3, hm3, hrs⟩ := solveRelaxSdp_inv hn
  rw [hm] at hm3
  injection hm3 with hm3
  simp only [Prod.mk.injEq] at hm3
  obtain ⟨rfl, -⟩ := hm3
  obtain ⟨d2, sc, prods, eta, -, hqd2, hsc, -⟩ := relaxSdp_inv hrs
  rw [hqd] at hqd2
  injection hqd2 with hqd2
  subst hqd2
  obtain ⟨i1, i2, i3, i4, i5, l1, l2, l3, l4, l5, -⟩ := relaxScalars_ok hsc
  have hval : ∀ n, Plain n → ∀ i, d.tab.lookup n = .ok i → q.tab.names[i]? = some (.str n) ∧ x i = env n := by
    intro n hn i hi
    have hi' := o.lookup.1 hi
    rw [← k2] at hi'
    refine ⟨hi', ?_⟩
    rw [pk.monos _ _ hi']
    exact longEnv_plain hn
  obtain ⟨a1, b1⟩ := hval "eta" (by decide) _ l1
  obtain ⟨a2, b2⟩ := hval "h" (by decide) _ l2
  obtain ⟨a4, b4⟩ := hval "alpha" (by decide) _ l4
  obtain ⟨a5, b5⟩ := hval "beta" (by decide) _ l5
  obtain ⟨σ, c1, c2, c3, -, c4, -⟩ := hc env mult _ (IsPSD.ppt _ P) pk.dual (b1 ▸ hlow _ (by simp) _ a1) (b2 ▸ hlow _ (by simp) _ a2)
    (le_trans (by norm_num) (hl "rho" (by simp))) (b4 ▸ hbox _ (by simp) _ a4) (b5 ▸ hbox _ (by simp) _ a5) (fun b hbb => by
      obtain ⟨g1, g2⟩ := hb b hbb
      simp only [List.mem_cons, List.not_mem_nil, or_false, not_or] at g2
      refine ⟨g2.1, g2.2.1, fun hh => absurd hh g2.2.2, fun _ _ => hbo b hbb, fun _ hh => absurd (k2 ▸ g1) hh⟩)
  refine ⟨σ, c1, by rw [c2, hobj _ _ _ _ pk], fun i hi => ?_, c4⟩
  obtain ⟨n, hi'⟩ : ∃ n, q.tab.names[i]? = some n := ⟨_, List.getElem?_eq_getElem hi⟩
  rw [pk.monos _ _ hi', c3 i _ (k2 ▸ hi')]

/-- **C30**, the box is built in: every feasible point of the relaxation has `alpha, beta ∈ [-1, 1]`, `eta, h ≥ 1e-5` and `rho ≥ 0`, so
the relaxation says nothing about other parameter values. -/
theorem C30_box (hn : solveRelaxSdp C r params bounds vb h = .ok (S, h')) {σ : ℕ → ℕ → ℕ → ℝ} (hσ : S.Sat σ) :
    ∃ sm q i1 i2 i3 i4 i5, problemMatrices C r h = .ok (sm, h') ∧ qData C sm h.ptCounter h.exCounter params = .ok q ∧
      q.tab.lookup "eta" = .ok i1 ∧ q.tab.lookup "h" = .ok i2 ∧ q.tab.lookup "rho" = .ok i3 ∧ q.tab.lookup "alpha" = .ok i4 ∧
      q.tab.lookup "beta" = .ok i5 ∧ 1 / 100000 ≤ σ 0 i1 0 ∧ 1 / 100000 ≤ σ 0 i2 0 ∧ 0 ≤ σ 0 i3 0 ∧ |σ 0 i4 0| ≤ 1 ∧ |σ 0 i5 0| ≤ 1 := by
  obtain ⟨sm, hm, hrs⟩ := solveRelaxSdp_inv hn
  obtain ⟨q, sc, prods, eta, -, hqd, hsc, -, -, rfl⟩ := relaxSdp_inv hrs
  obtain ⟨i1, i2, i3, i4, i5, l1, l2, l3, l4, l5, rfl⟩ := relaxScalars_ok hsc
  refine ⟨sm, q, i1, i2, i3, i4, i5, hm, hqd, l1, l2, l3, l4, l5, ?_⟩
  have hall := hσ.2
  simp only [List.forall_mem_append, List.forall_mem_cons] at hall
  obtain ⟨⟨⟨⟨⟨⟨-, h1, h2, h3, h4, h5, h6, h7, -⟩, -⟩, -⟩, -⟩, -⟩, -⟩ := hall
  simp only [Constr.Holds, CExp.eval, xv] at h1 h2 h3 h4 h5 h6 h7
  push_cast at h1 h2 h3 h4 h5 h6 h7
  exact ⟨h1, h2, h3, abs_le.2 ⟨h4, h5⟩, abs_le.2 ⟨h6, h7⟩⟩

/-- **C30**, the option the code cannot run: with `var_bound` given, `solve_sdp_relax` always raises; where it would otherwise build the
program it raises KeyError. -/
theorem C30_var_bound (n : Name) : (∀ S h', solveRelaxSdp C r params bounds (some n) h ≠ .ok (S, h')) ∧
    ((∃ S h', solveRelaxSdp C r params bounds none h = .ok (S, h')) → solveRelaxSdp C r params bounds (some n) h = .error .key) := by
  constructor
  · intro S h' hh
    obtain ⟨sm, -, hrs⟩ := solveRelaxSdp_inv hh
    obtain ⟨_, _, _, _, hh, -⟩ := relaxSdp_inv hrs
    cases hh
  · rintro ⟨S, h', hh⟩
    obtain ⟨sm, hm, hrs⟩ := solveRelaxSdp_inv hh
    obtain ⟨q, sc, prods, eta, -, hqd, hsc, hpr, -⟩ := relaxSdp_inv hrs
    rw [solveRelaxSdp, M.bind_of_ok (show M.get h = .ok (h, h) from rfl), M.bind_of_ok hm, relaxSdp, hqd]
    show (match (relaxScalars q.tab >>= _ : Except Err Sdp) with | .ok x => pure x | .error e => M.throw e : M Sdp) h' = _
    rw [hsc]
    show (match (productCons q.tab q.relaxProd (q.tab.names.drop 1) >>= _ : Except Err Sdp) with | .ok x => pure x | .error e => M.throw e : M Sdp) h' = _
    rw [hpr]
    rfl

/-! ### Non-vacuity -/

def relaxParams : List Name := ["eta", "h", "rho", "gamma", "alpha", "beta"]

/-- 1; `eta = 3/16, h = 1/4, rho = 1, gamma = 2, alpha = 0, beta = 0`; `gamma_h = 1/2`; multipliers 1, 0; `P = diag (0, 1/4, 1/2)` -/
def relaxPoint (i : ℕ) : ℚ := [1, 3 / 16, 1 / 4, 1, 2, 0, 0, 1 / 2, 1, 0, 0, 0, 1 / 4, 0, 0, 1 / 2].getD i 0

theorem relax_check : ∃ r h q h' S h'', runProblem refCAS descentProg2 Heap.empty = .ok (r, h) ∧
    solveQcqp refCAS r relaxParams [⟨"gamma_h", some 1, none⟩] 0 h = .ok (q, h') ∧ Solvable r h ∧
    solveRelaxSdp refCAS r relaxParams [⟨"gamma_h", some 1, none⟩] none h = .ok (S, h'') ∧
    q.Sat (fun i => ((relaxPoint i : ℚ) : ℝ)) ∧ q.tab.names.take 8 = (.one :: (relaxParams ++ ["gamma_h"]).map VName.str) ∧ q.tab.names.Nodup := by
  obtain ⟨r, h, q, h', h1, h2, h3, -, h5⟩ := qcqp_of_check (C := refCAS) (prog := descentProg2) (params := relaxParams)
    (bounds := [⟨"gamma_h", some 1, none⟩]) (x := relaxPoint) (by decide +kernel)
  have hk : (match buildQcqp refCAS descentProg2 relaxParams [⟨"gamma_h", some 1, none⟩] with
      | .ok y => decide (y.1.tab.names.take 8 = (.one :: (relaxParams ++ ["gamma_h"]).map VName.str) ∧ y.1.tab.names.Nodup) &&
        (match solveRelaxSdp refCAS y.2.1 relaxParams [⟨"gamma_h", some 1, none⟩] none y.2.2.1 with | .ok _ => true | .error _ => false)
      | .error _ => false) = true := by decide +kernel
  have hb : buildQcqp refCAS descentProg2 relaxParams [⟨"gamma_h", some 1, none⟩] = .ok (q, r, h, h') := by
    rw [buildQcqp, h1]; simp only; rw [h2]
  rw [hb] at hk
  simp only [Bool.and_eq_true, decide_eq_true_eq] at hk
  cases hS : solveRelaxSdp refCAS r relaxParams [⟨"gamma_h", some 1, none⟩] none h with
  | ok x => exact ⟨r, h, q, h', x.1, x.2, h1, h2, h3, hS, h5, hk.1⟩
  | error e => rw [hS] at hk; cases hk.2

/-- all hypotheses of `C30_contains`, `C30_qcqp` and `C30_box` are met by the descent lemma -/
example : ∃ (S : Sdp) (σ : ℕ → ℕ → ℕ → ℝ), S.Sat σ ∧ S.obj.eval σ = - (3 / 16) := by
  obtain ⟨r, h, q, h', S, h'', h1, h2, h3, h4, h5, h6, h7⟩ := relax_check
  have hclean : ∀ i ∈ descentProg2, i.Clean {n | n ∈ relaxParams} := by
    intro i hi
    simp only [descentProg2, List.mem_cons, List.not_mem_nil, or_false] at hi
    rcases hi with rfl | rfl | rfl | rfl | rfl | rfl | rfl <;> simp [Instr.Clean, PE.Clean, EE.Clean, Sym.vars, relaxParams]
  have hidx : ∀ (i : ℕ) (n : VName) (j : ℕ), j < 8 → q.tab.names[i]? = some n → (VName.one :: (relaxParams ++ ["gamma_h"]).map VName.str)[j]? = some n → i = j := by
    intro i n j hj hi hj'
    rw [← h6, List.getElem?_take, if_pos hj] at hj'
    have hi1 := (List.getElem?_eq_some_iff.1 hi).1
    exact (List.getElem?_inj hi1 h7).1 (hi.trans hj'.symm)
  have hbn : ∀ b ∈ ([⟨"gamma_h", some 1, none⟩] : List Bound), VName.str b.name ∈ q.tab.names ∧ b.name ∉ ["x", "X", "Z"] := by
    intro b hb
    rw [List.mem_singleton] at hb
    subst hb
    refine ⟨?_, by decide⟩
    refine List.mem_of_mem_take (i := 8) ?_
    rw [h6]; decide
  have hok : ∀ d ∈ decls descentProg2, d.Ok := by
    intro d hd
    simp only [descentProg2, decls, List.mem_cons, List.not_mem_nil, or_false] at hd
    subst hd
    norm_num [FnDecl.Ok]
  obtain ⟨σ, k1, k2, -⟩ := C30_qcqp refCAS_lawful h1 hclean (by decide) (by decide +kernel) h3 h4 h2 hbn h5 (by
      intro n hn i hi
      simp only [List.mem_cons, List.not_mem_nil, or_false] at hn
      rcases hn with rfl | rfl
      · obtain rfl := hidx i _ 1 (by norm_num) hi rfl
        norm_num [relaxPoint]
      · obtain rfl := hidx i _ 2 (by norm_num) hi rfl
        norm_num [relaxPoint]) (by
      intro n hn i hi
      simp only [List.mem_cons, List.not_mem_nil, or_false] at hn
      rcases hn with rfl | rfl
      · obtain rfl := hidx i _ 5 (by norm_num) hi rfl
        norm_num [relaxPoint]
      · obtain rfl := hidx i _ 6 (by norm_num) hi rfl
        norm_num [relaxPoint])
  refine ⟨S, σ, k1, ?_⟩
  rw [k2]
  obtain ⟨env, he, ho, -⟩ := C27_sound refCAS_lawful h1 hclean (by decide) (by decide +kernel) hok h2
    (fun b hb => ⟨(hbn b hb).1, fun hx => (hbn b hb).2 (by rw [hx]; decide)⟩) h5
  rw [ho]
  have h1' : q.tab.names[1]? = some (.str "eta") := by
    have := congrArg (fun l => l[1]?) h6
    rw [List.getElem?_take, if_pos (by norm_num)] at this
    rw [this]; rfl
  show - env "eta" = _
  rw [he 1 "eta" (by decide) h1']
  norm_num [relaxPoint]

end Verif
