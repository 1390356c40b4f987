import Verif.Model.RelaxReport
import Verif.Props.Relax
import Verif.Proofs.Poly
import Verif.Proofs.SlaterQuad
import Verif.Spec.Guaranteed

/-!
# C76: what `solve_sdp_relax` returns
-/

namespace Verif
open Heap MvPolynomial

variable {C : CAS} {h h' : Heap} {r : Regs} {prog : List Instr} {params : List Name} {bounds : List Bound} {vb : Option Name} {S : Sdp}
  {X : Sdp → RelaxOutcome} {res : Dict Name (Option ℝ)} {s : String}

/-! ### The objective at a point that is not a product -/

theorem tabTerms_lin {tab : VTab} {σ : ℕ → ℕ → ℕ → ℝ} {v : ℝ} : ∀ (ts : List PolyTerm) {acc x : CExp},
    (∀ t ∈ ts, ∀ y, tab.monomial (monoParts t) = .ok y → (t.2 : ℝ) * y.eval σ = t.2 * v) → tab.terms ts acc = .ok x →
    x.eval σ = acc.eval σ + (ts.map fun t => (t.2 : ℝ)).sum * v
  | [], acc, x, _, h => by
    injection h with h
    subst h
    simp
  | t :: ts, acc, x, hts, h => by
    rw [VTab.terms] at h
    obtain ⟨y, hy, h⟩ := Except.bind_ok_iff.1 h
    rw [tabTerms_lin ts (fun u hu => hts u (by simp [hu])) h]
    show acc.eval σ + (t.2 : ℝ) * y.eval σ + _ = _
    rw [hts t (by simp) y hy, List.map_cons, List.sum_cons]
    ring

/-- a goal that is one parameter is converted to the entry of this parameter -/
theorem tabExpr_entry (hC : C.Lawful) {tab : VTab} {σ : ℕ → ℕ → ℕ → ℝ} {g : Name} (hg : Plain g) {i : ℕ} (hi : tab.lookup g = .ok i) {x : CExp}
    (h : tab.expr C (Sym.var g) = .ok x) : x.eval σ = σ 0 i 0 := by
  rw [VTab.expr] at h
  split at h
  · rename_i hc
    have h1 := isConst_eval hC hc fun _ => 0
    have h2 := isConst_eval hC hc fun _ => 1
    rw [← h1] at h2
    norm_num at h2
  · have hmv : (C.simp (Sym.var g)).toMv = MvPolynomial.X g := by
      rw [Sym.toMv_congr (b := Sym.var g) fun env => hC.simp_eval env _]; rfl
    have hsum : ((C.poly (C.simp (Sym.var g))).map fun t => (t.2 : ℝ)).sum = 1 := by
      have h1 := hC.poly_eval (fun _ => 1) (C.simp (Sym.var g))
      rw [hC.simp_eval] at h1
      rw [show (1 : ℝ) = (Sym.var g).eval fun _ => 1 from rfl, ← h1]
      refine congrArg _ (List.map_congr_left fun t _ => ?_)
      simp [PolyTerm.eval]
    rw [tabTerms_lin (v := σ 0 i 0) _ ?_ h, hsum]
    · simp [CExp.eval]
    · intro t ht y hy
      by_cases h0 : t.2 = 0
      · simp [h0]
      congr 1
      have hc := coeff_of_mem hC ht
      rw [hmv, coeff_X] at hc
      have hexp : Finsupp.single g 1 = t.expo := by
        by_contra hne
        rw [if_neg hne] at hc
        exact h0 hc.symm
      obtain ⟨gens, hn, hgens⟩ := hC.poly_gens (C.simp (Sym.var g))
      have hall : ∀ p ∈ t.1, p.1 = g := fun p hp => by
        have := hC.simp_vars _ _ (hC.poly_vars _ t ht p hp)
        simpa [Sym.vars] using this
      have hnd : (t.1.map Prod.fst).Nodup := hgens t ht ▸ hn
      have ht1 : t.1 = [(g, 1)] := by
        rcases hl : t.1 with _ | ⟨p, l⟩
        · exfalso
          have := congrArg (fun f => f g) hexp
          simp [PolyTerm.expo, hl] at this
        · have hp : p = (g, 1) := by
            have h1 := expo_apply t.1 hnd p (by rw [hl]; simp)
            have h2 : p.1 = g := hall p (by rw [hl]; simp)
            refine Prod.ext h2 ?_
            have h3 : t.expo p.1 = p.2 := h1
            rw [← hexp, h2] at h3
            simpa using h3.symm
          cases l with
          | nil => rw [hp]
          | cons p' l =>
            rw [hl] at hnd
            have h2 : p'.1 = g := hall p' (by rw [hl]; simp)
            simp [hp, h2] at hnd
      have hm : monoParts t = [g] := by simp [monoParts, ht1, splitU_plain hg]
      rw [hm, VTab.monomial, if_neg (by simp), show sortNames [g] = [g] from rfl, joinU_singleton, hi] at hy
      injection hy with hy
      subst hy
      rfl

/-! ### The returned dictionary -/

theorem relaxReport_ok {tab : VTab} {values : Option (ℕ → ℕ → ℕ → ℝ)} (f : Name → ℕ) : ∀ (l : List Name) (d : Dict Name (Option ℝ)),
    (∀ n ∈ l, tab.lookup n = .ok (f n)) → l.Nodup → (∀ n ∈ l, n ∉ Dict.keys d) →
    ∃ res, relaxReport tab values l d = .ok res ∧ Dict.keys res = Dict.keys d ++ l ∧ (∀ n ∈ l, Dict.get? res n = some (values.map fun σ => σ 0 (f n) 0)) ∧
      ∀ n ∉ l, Dict.get? res n = Dict.get? d n
  | [], d, _, _, _ => ⟨d, rfl, by simp, by simp, by simp⟩
  | n :: l, d, hf, hl, hd => by
    rw [List.nodup_cons] at hl
    have hk : Dict.keys (Dict.set d n (values.map fun σ => σ 0 (f n) 0)) = Dict.keys d ++ [n] := by
      rw [Dict.keys_set, if_neg]
      rw [Dict.has_iff]
      exact hd n (by simp)
    obtain ⟨res, h1, h2, h3, h4⟩ := relaxReport_ok (values := values) f l (Dict.set d n (values.map fun σ => σ 0 (f n) 0)) (fun m hm => hf m (by simp [hm])) hl.2
      (fun m hm => by
        rw [hk]
        simp only [List.mem_append, List.mem_singleton, not_or]
        exact ⟨hd m (by simp [hm]), fun hh => hl.1 (hh ▸ hm)⟩)
    refine ⟨res, ?_, by rw [h2, hk]; simp, ?_, ?_⟩
    · rw [relaxReport, Except.bind_ok_iff]
      exact ⟨_, hf n (by simp), h1⟩
    · intro m hm
      rcases List.mem_cons.1 hm with rfl | hm
      · rw [h4 m hl.1, Dict.get?_set, if_pos rfl]
      · exact h3 m hm
    · intro m hm
      rw [List.mem_cons, not_or] at hm
      rw [h4 m hm.2, Dict.get?_set, if_neg hm.1]

/-- where the parameters are in the table -/
theorem lookup_param (hC : C.Lawful) (hp : params.Nodup) {sm : SymMats} {dimG dimF : ℕ} {q : QData} (hq : qData C sm dimG dimF params = .ok q)
    {k : ℕ} {n : Name} (hk : params[k]? = some n) : q.tab.lookup n = .ok (k + 1) := by
  obtain ⟨o, ⟨t, pre⟩, -⟩ := qData_table hC hp hq
  refine o.lookup.2 ?_
  have hlt := (List.getElem?_eq_some_iff.1 hk).1
  rw [← pre, List.getElem?_append_left (by simp; omega), List.getElem?_cons_succ, List.getElem?_map, hk]
  rfl

/-- **C76, the answer.** A call of `solve_sdp_relax` returns exactly if the relaxation is built and the solver does not raise; the returned
dictionary then has exactly the parameters as keys, in their order, and the value of the `k`-th one is the value the solver gave to
entry `k + 1` of the vector `x` — `None` for every parameter if the solver gave no values. -/
theorem C76_report (hC : C.Lawful) (hp : params.Nodup) : solveSdpRelax C X r params bounds vb h = .ok ((res, s), h') ↔
    ∃ S values, solveRelaxSdp C r params bounds vb h = .ok (S, h') ∧ X S = .done s values ∧
      res = (params.zipIdx).map fun p => (p.1, values.map fun σ => σ 0 (p.2 + 1) 0) := by
  have key : ∀ {sm : SymMats} {dimG dimF : ℕ} {q : QData} (values : Option (ℕ → ℕ → ℕ → ℝ)), qData C sm dimG dimF params = .ok q →
      relaxReport q.tab values params [] = .ok ((params.zipIdx).map fun p => (p.1, values.map fun σ => σ 0 (p.2 + 1) 0)) := by
    intro sm dimG dimF q values hq
    obtain ⟨res, h1, h2, h3, -⟩ := relaxReport_ok (tab := q.tab) (values := values) (fun n => params.idxOf n + 1) params []
      (fun n hn => lookup_param hC hp hq (List.getElem?_idxOf hn)) hp (by simp)
    rw [h1]
    congr 1
    have hnd : Dict.NodupKeys res := by rw [Dict.NodupKeys, h2]; simpa using hp
    have hlen : res.length = params.length := by
      have := congrArg List.length h2
      simpa [Dict.keys] using this
    refine List.ext_getElem (by simp [hlen]) fun i hi1 hi2 => ?_
    have hi : i < params.length := by omega
    have hk : (res[i]).1 = params[i] := by
      have : (Dict.keys res)[i]? = params[i]? := by rw [h2]; simp [Dict.keys]
      rw [Dict.keys, List.getElem?_map, List.getElem?_eq_getElem hi1, List.getElem?_eq_getElem hi] at this
      simpa using this
    have hv := h3 _ (List.getElem_mem hi)
    have hmem : Dict.get? res params[i] = some (res[i]).2 := by
      apply Dict.get?_of_mem hnd
      rw [← hk]
      exact List.getElem_mem hi1
    rw [hmem, hp.idxOf_getElem] at hv
    injection hv with hv
    simp only [List.getElem_map, List.getElem_zipIdx]
    refine Prod.ext (by rw [hk]) ?_
    rw [hv]
    simp
  constructor
  · intro hs
    rw [solveSdpRelax] at hs
    obtain ⟨h0, h1, h2, hs⟩ := M.bind_ok_iff.1 hs
    injection h2 with h2
    simp only [Prod.mk.injEq] at h2
    obtain ⟨rfl, rfl⟩ := h2
    obtain ⟨sm, h2, h3, hs⟩ := M.bind_ok_iff.1 hs
    have hb : ∀ S, relaxSdp C sm h.ptCounter h.exCounter params bounds vb r.obj = .ok S → solveRelaxSdp C r params bounds vb h = .ok (S, h2) := by
      intro S hS
      rw [solveRelaxSdp, M.bind_of_ok (show M.get h = .ok (h, h) from rfl), M.bind_of_ok h3, hS]
      rfl
    cases hS : relaxSdp C sm h.ptCounter h.exCounter params bounds vb r.obj with
    | error e => rw [hS] at hs; cases hs
    | ok S =>
      rw [hS] at hs
      simp only at hs
      cases hX : X S with
      | raised => rw [hX] at hs; cases hs
      | done st values =>
        rw [hX] at hs
        obtain ⟨q, -, -, -, -, hqd, -⟩ := relaxSdp_inv hS
        rw [hqd] at hs
        simp only [key values hqd] at hs
        injection hs with hs
        simp only [Prod.mk.injEq] at hs
        obtain ⟨⟨rfl, rfl⟩, rfl⟩ := hs
        exact ⟨S, values, hb S hS, hX, rfl⟩
  · rintro ⟨S, values, hs, hX, rfl⟩
    obtain ⟨sm, hm, hS⟩ := solveRelaxSdp_inv hs
    obtain ⟨q, -, -, -, -, hqd, -⟩ := relaxSdp_inv hS
    rw [solveSdpRelax, M.bind_of_ok (show M.get h = .ok (h, h) from rfl), M.bind_of_ok hm, hS]
    simp only [hX, hqd, key values hqd]
    rfl

theorem report_get {values : Option (ℕ → ℕ → ℕ → ℝ)} (hp : params.Nodup) {k : ℕ} {n : Name} (hk : params[k]? = some n) :
    Dict.get? ((params.zipIdx).map fun p => (p.1, values.map fun σ => σ 0 (p.2 + 1) 0)) n = some (values.map fun σ => σ 0 (k + 1) 0) := by
  apply Dict.get?_of_mem
  · rw [Dict.NodupKeys, Dict.keys, List.map_map]
    simpa [Function.comp_def] using hp
  · exact List.mem_map.2 ⟨(n, k), List.mem_zipIdx_iff_getElem?.2 hk, rfl⟩

/-- **C76, no values.** If the solver reports a status and gives no values, as for an infeasible or unbounded relaxation, then
`solve_sdp_relax` does not raise: it returns a dictionary with the value `None` for every parameter. -/
theorem C76_none (hC : C.Lawful) (hp : params.Nodup) (hs : solveRelaxSdp C r params bounds none h = .ok (S, h')) (hX : X S = .done s none) :
    solveSdpRelax C X r params bounds none h = .ok ((params.map fun n => (n, none), s), h') := by
  refine (C76_report hC hp).2 ⟨S, none, hs, hX, ?_⟩
  refine List.ext_getElem (by simp) fun i hi1 hi2 => ?_
  simp

/-- the solver returned an optimal solution of the program it was given -/
def Optimal (S : Sdp) (σ : ℕ → ℕ → ℕ → ℝ) : Prop := S.Sat σ ∧ ∀ σ', S.Sat σ' → S.obj.eval σ ≤ S.obj.eval σ'

/-- the objective of the relaxation is minus the entry of the parameter to maximise -/
theorem relax_obj (hC : C.Lawful) (hr : runProblem C prog Heap.empty = .ok (r, h)) (hp : params.Nodup) (hpl : ∀ n ∈ params, Plain n)
    {k : ℕ} {g : Name} (hg : params[k]? = some g) (hgoal : goalOf prog = Sym.var g) (hn : solveRelaxSdp C r params bounds vb h = .ok (S, h'))
    (σ : ℕ → ℕ → ℕ → ℝ) : S.obj.eval σ = - σ 0 (k + 1) 0 := by
  obtain ⟨sm, hm, hS⟩ := solveRelaxSdp_inv hn
  obtain ⟨q, sc, prods, eta, -, hqd, -, -, he, rfl⟩ := relaxSdp_inv hS
  rw [runProblem_obj hr, hgoal] at he
  have := tabExpr_entry (σ := σ) hC (hpl g (List.mem_of_getElem? hg)) (lookup_param hC hp hqd hg) he
  show ((-1 : ℚ) : ℝ) * eta.eval σ = _
  rw [this]
  push_cast
  ring

/-- **C76, the bound.** Let the goal be one of the parameters, `g`, and let the solver return an optimal solution of the relaxation.  Then the
returned dictionary has a value for `g`, and no parameter values in the box and within the given bounds that have a certificate
exceed it.  (The other values in the dictionary need not belong to a certificate, see `C76_not_certificate`.) -/
theorem C76_bound (hC : C.Lawful) (hr : runProblem C prog Heap.empty = .ok (r, h)) (hclean : ∀ i ∈ prog, i.Clean {n | n ∈ params})
    (hp : params.Nodup) (hpl : ∀ n ∈ params, Plain n) (hs : Solvable r h) {g : Name} (hgoal : goalOf prog = Sym.var g) (hg : g ∈ params)
    (hbn : ∀ b ∈ bounds, b.name ∈ params ∧ b.name ∉ ["x", "X", "Z"])
    (hret : solveSdpRelax C X r params bounds vb h = .ok ((res, s), h'))
    (hX : ∀ S, solveRelaxSdp C r params bounds vb h = .ok (S, h') → ∃ σ, X S = .done s (some σ) ∧ Optimal S σ) :
    ∃ v, Dict.get? res g = some (some v) ∧ ∃ sm, problemMatrices C r h = .ok (sm, h') ∧
      ∀ env, Certified sm h.ptCounter h.exCounter env → 1 / 100000 ≤ env "eta" → 1 / 100000 ≤ env "h" → 0 ≤ env "rho" →
        |env "alpha"| ≤ 1 → |env "beta"| ≤ 1 → (∀ b ∈ bounds, b.Within (env b.name)) → env g ≤ v := by
  obtain ⟨S, values, hS, hXS, rfl⟩ := (C76_report hC hp).1 hret
  obtain ⟨σ, hX', hopt⟩ := hX S hS
  rw [hX'] at hXS
  injection hXS with _ hXS
  subst hXS
  have hk : params[params.idxOf g]? = some g := List.getElem?_idxOf hg
  refine ⟨_, report_get hp hk, ?_⟩
  obtain ⟨sm, q, hm, hqd, hc⟩ := C30_contains hC hr hclean hp hpl hs hS
  refine ⟨sm, hm, ?_⟩
  rintro env ⟨mult, P, -, -, d⟩ h1 h2 h3 h4 h5 hb
  obtain ⟨σ', k1, k2, -⟩ := hc env mult _ (IsPSD.ppt _ P) d h1 h2 h3 h4 h5 (fun b hbb => by
    obtain ⟨g1, g2⟩ := hbn b hbb
    simp only [List.mem_cons, List.not_mem_nil, or_false, not_or] at g2
    have hin : VName.str b.name ∈ q.tab.names := by
      obtain ⟨-, ⟨t, pre⟩, -⟩ := qData_table hC hp hqd
      rw [← pre]
      simp [g1]
    refine ⟨g2.1, g2.2.1, fun hh => absurd hh g2.2.2, fun _ _ => ?_, fun _ hh => absurd hin hh⟩
    rw [longEnv_plain (hpl _ g1)]
    exact hb b hbb)
  have := hopt.2 σ' k1
  rw [k2, hgoal, relax_obj hC hr hp hpl hk hgoal hS] at this
  have e : (Sym.var g).eval env = env g := rfl
  rw [e] at this
  exact neg_le_neg_iff.1 this

/-! ### The returned parameters need not have a certificate -/

def relaxParams3 : List Name := ["eta", "h", "rho", "alpha", "beta"]

/-- `x`: 1; `eta = 10, h = 1/2, rho = alpha = beta = 0`; multipliers 1, 0.  Last entry: the last row of `W` -/
def gapVec (i : ℕ) : ℚ := [1, 10, 1 / 2, 0, 0, 0, 1, 0, 1].getD i 0

/-- the direction in which `X` differs from `x xᵀ`: the step size against the second multiplier -/
def gapDir (i : ℕ) : ℚ := [0, 0, 1, 0, 0, 0, 0, -1].getD i 0

/-- a feasible point of the relaxation: `X = x xᵀ + 10 d dᵀ`, `Z = diag (0, 1/4, 1/4)` -/
def gapPoint : ℕ → ℕ → ℕ → ℚ
  | 0, i, _ => gapVec i
  | 3, i, j => if i = j ∧ (i = 1 ∨ i = 2) then 1 / 4 else 0
  | _, i, j => gapVec i * gapVec j + 10 * (gapDir i * gapDir j)

def gapBounds : List Bound := [⟨"eta", some 10, none⟩]

/-- the relaxation of the descent lemma, for computation -/
def gapSdp : Except Err (Regs × Heap × Sdp × Heap) :=
  match runProblem refCAS descentProg Heap.empty with
  | .error e => .error e
  | .ok (r, h) => match solveRelaxSdp refCAS r relaxParams3 gapBounds none h with
    | .error e => .error e
    | .ok (S, h') => .ok (r, h, S, h')

theorem gap_check : (match gapSdp with
    | .ok y => y.2.2.1.cons.all (Constr.holdsQ gapPoint) && solvableB y.1 y.2.1 && decide (y.2.2.1.psd = [(1, 9), (2, 8), (3, 3)]) &&
      y.2.2.1.cons.any fun c => decide (c = .ge (.num 10) (xv 1))
    | .error _ => false) = true := by decide +kernel

theorem isPSD_add {n : ℕ} {A B : ℕ → ℕ → ℝ} (hA : IsPSD n A) (hB : IsPSD n B) : IsPSD n fun i j => A i j + B i j := by
  refine ⟨fun i hi j hj => by beta_reduce; rw [hA.1 i hi j hj, hB.1 i hi j hj], fun v => ?_⟩
  have := add_nonneg (hA.2 v) (hB.2 v)
  simpa only [add_mul, Finset.sum_add_distrib] using this

theorem gap_psd (n : ℕ) : IsPSD n fun i j => ((gapVec i * gapVec j + 10 * (gapDir i * gapDir j) : ℚ) : ℝ) := by
  have h1 := IsPSD.outer n fun i => (gapVec i : ℝ)
  have h2 := IsPSD.outer n fun i => Real.sqrt 10 * (gapDir i : ℝ)
  have h3 := isPSD_add h1 h2
  refine Eq.mp (congrArg _ (funext fun i => funext fun j => ?_)) h3
  push_cast
  have : Real.sqrt 10 * Real.sqrt 10 = 10 := Real.mul_self_sqrt (by norm_num)
  linear_combination (gapDir i : ℝ) * gapDir j * this

theorem gap_psdZ : IsPSD 3 fun i j => ((gapPoint 3 i j : ℚ) : ℝ) := by
  have := IsPSD.ppt 3 fun i k => if i = k ∧ (i = 1 ∨ i = 2) then 1 / 2 else 0
  refine ⟨fun i hi j hj => ?_, fun v => ?_⟩
  · interval_cases i <;> interval_cases j <;> simp [gapPoint]
  · have e : ∑ i ∈ Finset.range 3, ∑ j ∈ Finset.range 3, ((gapPoint 3 i j : ℚ) : ℝ) * v i * v j = 1 / 4 * v 1 ^ 2 + 1 / 4 * v 2 ^ 2 := by
      simp [Finset.sum_range_succ, gapPoint]
      ring
    rw [e]
    positivity

theorem gap_ok : ∃ r h S h', runProblem refCAS descentProg Heap.empty = .ok (r, h) ∧ Solvable r h ∧
    solveRelaxSdp refCAS r relaxParams3 gapBounds none h = .ok (S, h') ∧ (S.Sat fun v a b => ((gapPoint v a b : ℚ) : ℝ)) ∧
    ∀ σ, S.Sat σ → σ 0 1 0 ≤ 10 := by
  have hk := gap_check
  cases hg : gapSdp with
  | error e => rw [hg] at hk; cases hk
  | ok y =>
    rw [hg] at hk
    simp only [Bool.and_eq_true, decide_eq_true_eq, List.any_eq_true] at hk
    obtain ⟨⟨⟨h1, h2⟩, h3⟩, c, h4, rfl⟩ := hk
    rw [gapSdp] at hg
    split at hg
    · cases hg
    · rename_i r h hr
      split at hg
      · cases hg
      · rename_i S h' hs
        injection hg with hg
        subst hg
        refine ⟨r, h, S, h', hr, solvable_of_check h2, hs, ⟨?_, ?_⟩, fun σ hσ => ?_⟩
        · rw [h3]
          simp only [List.forall_mem_cons, List.not_mem_nil, false_imp_iff, implies_true, and_true]
          exact ⟨gap_psd 9, gap_psd 8, gap_psdZ⟩
        · intro c hc
          have := List.all_eq_true.1 h1 c hc
          cases c with
          | eq a b =>
            simp only [Constr.holdsQ, decide_eq_true_eq] at this
            simp only [Constr.Holds]
            rw [CExp.evalQ_eval, CExp.evalQ_eval, this]
          | ge a b =>
            simp only [Constr.holdsQ, decide_eq_true_eq] at this
            simp only [Constr.Holds]
            rw [CExp.evalQ_eval, CExp.evalQ_eval]
            exact_mod_cast this
        · have := hσ.2 _ h4
          simpa [Constr.Holds, CExp.eval, xv] using this

/-- gradient descent on `x²` from 1: the decrease is less than `eta ‖∇f‖²` for `eta > 1/4`, whatever the step size -/
theorem gap_not_guaranteed {env : Name → ℝ} (he : 1 / 4 < env "eta") : ¬ Guaranteed descentProg env := by
  intro hG
  have hi : Instance descentProg (fun _ => sqFun) := by
    intro k d hk
    simp only [descentProg, decls] at hk
    obtain ⟨h1, rfl⟩ := List.getElem?_eq_some_iff.1 hk
    simp only [List.length_cons, List.length_nil, zero_add, Nat.lt_one_iff] at h1
    subst h1
    exact ⟨rfl, sqFun_strong.mono (by norm_num : (0:ℝ) ≤ 2) |> strongConvexOn_zero.1, sqFun_lip (by norm_num)⟩
  have s : ∀ x : ℝ, SumSample (fun _ => sqFun.Sample) (Finsupp.single 0 1) x (2 * x) (x ^ 2) := fun x => sumSample_single (by simpa using sqFun_sample x)
  have hex : RealExec (fun _ => sqFun) env descentProg
      ⟨[1, 2, 1 - 2 * env "h", 2 * (1 - 2 * env "h")], [1, (1 - 2 * env "h") ^ 2, (1 - 2 * env "h") ^ 2 - 1 + env "eta" * 4],
        [Finsupp.single 0 1], 1, [], some ((1 - 2 * env "h") ^ 2 - 1 + env "eta" * 4)⟩ := by
    unfold RealExec descentProg
    refine .cons (.declare _ _) (.cons (.initial _ 1) (.cons (.oracle _ _ _ 2 1 (by simpa [RRegs.empty] using s 1)) (.cons (.pt _ _)
      (.cons (.oracle _ _ _ (2 * (1 - 2 * env "h")) ((1 - 2 * env "h") ^ 2) ?_) (.cons (.ex _ _) (.cons (.metric _ _) ?_))))))
    · have := s (1 - 2 * env "h")
      simpa [RRegs.empty, PE.den, mul_comm] using this
    · convert Exec.nil _ using 1
      norm_num [RRegs.empty, EE.den, PE.den, mul_comm]
  have := hG (E := ℝ) (fun _ => sqFun) hi _ hex (by intro c hc; cases hc) _ rfl
  nlinarith [sq_nonneg (1 - 2 * env "h")]

/-- **C76, not a certificate.** Ask for the largest guaranteed decrease `eta ≤ 10` of one step of gradient descent on 2-smooth convex functions.
Whatever solver is used, if it returns an optimal solution of the relaxation, then `solve_sdp_relax` returns the value 10 for `eta` —
although no parameter values with `eta > 1/4` guarantee the decrease.  So the dictionary that `solve_sdp_relax` returns looks
like the one that `solve` returns, but its parameters are only a bound. -/
theorem C76_not_certificate : ∃ r h S h', runProblem refCAS descentProg Heap.empty = .ok (r, h) ∧
    solveRelaxSdp refCAS r relaxParams3 gapBounds none h = .ok (S, h') ∧ (∃ σ, Optimal S σ) ∧
    ∀ (X : Sdp → RelaxOutcome) (s : String) (σ : ℕ → ℕ → ℕ → ℝ), X S = .done s (some σ) → Optimal S σ →
      ∃ res, solveSdpRelax refCAS X r relaxParams3 gapBounds none h = .ok ((res, s), h') ∧ Dict.get? res "eta" = some (some 10) ∧
        ∀ env : Name → ℝ, 1 / 4 < env "eta" → ¬ Guaranteed descentProg env := by
  obtain ⟨r, h, S, h', hr, hsol, hs, hsat, hle⟩ := gap_ok
  have hp : relaxParams3.Nodup := by decide
  have hpl : ∀ n ∈ relaxParams3, Plain n := by decide +kernel
  have hobj := relax_obj (k := 0) (g := "eta") refCAS_lawful hr hp hpl rfl rfl hs
  have h10 : ((gapPoint 0 1 0 : ℚ) : ℝ) = 10 := by norm_num [gapPoint, gapVec]
  refine ⟨r, h, S, h', hr, hs, ⟨_, hsat, fun σ' h' => ?_⟩, fun X s σ hX hopt => ?_⟩
  · rw [hobj, hobj]
    have := hle σ' h'
    simp only [zero_add, h10]
    linarith
  · refine ⟨_, (C76_report refCAS_lawful hp).2 ⟨S, some σ, hs, hX, rfl⟩, ?_, fun env => gap_not_guaranteed⟩
    rw [report_get hp (k := 0) (n := "eta") rfl]
    have h1 := hopt.2 _ hsat
    rw [hobj, hobj] at h1
    have h2 := hle σ hopt.1
    simp only [zero_add, h10] at h1
    have : σ 0 1 0 = 10 := by linarith
    simp [this]

/-- all hypotheses of `C76_bound` (and of `C76_report`, `C76_none`) are met by the descent lemma -/
example : ∃ (r : Regs) (h h' : Heap) (X : Sdp → RelaxOutcome) (res : Dict Name (Option ℝ)),
    solveSdpRelax refCAS X r relaxParams3 gapBounds none h = .ok ((res, "optimal"), h') ∧ Dict.get? res "eta" = some (some 10) ∧
    ∃ sm, problemMatrices refCAS r h = .ok (sm, h') ∧ ∀ env, Certified sm h.ptCounter h.exCounter env → 1 / 100000 ≤ env "eta" →
      1 / 100000 ≤ env "h" → 0 ≤ env "rho" → |env "alpha"| ≤ 1 → |env "beta"| ≤ 1 → (∀ b ∈ gapBounds, b.Within (env b.name)) → env "eta" ≤ 10 := by
  obtain ⟨r, h, S, h', hr, hsol, hs, hsat, hle⟩ := gap_ok
  have hp : relaxParams3.Nodup := by decide
  have hpl : ∀ n ∈ relaxParams3, Plain n := by decide +kernel
  have hobj := relax_obj (k := 0) (g := "eta") refCAS_lawful hr hp hpl rfl rfl hs
  have h10 : ((gapPoint 0 1 0 : ℚ) : ℝ) = 10 := by norm_num [gapPoint, gapVec]
  have hopt : Optimal S fun v a b => ((gapPoint v a b : ℚ) : ℝ) := ⟨hsat, fun σ' h' => by
    rw [hobj, hobj]
    have := hle σ' h'
    simp only [zero_add, h10]
    linarith⟩
  have hret := (C76_report (X := fun _ => .done "optimal" (some fun v a b => ((gapPoint v a b : ℚ) : ℝ))) refCAS_lawful hp).2 ⟨S, _, hs, rfl, rfl⟩
  obtain ⟨v, hv, hb⟩ := C76_bound (g := "eta") refCAS_lawful hr (by
      intro i hi
      simp only [descentProg, List.mem_cons, List.not_mem_nil, or_false] at hi
      rcases hi with rfl | rfl | rfl | rfl | rfl | rfl | rfl <;> simp [Instr.Clean, PE.Clean, EE.Clean, Sym.vars, relaxParams3])
    hp hpl hsol rfl (by decide) (by decide) hret (fun S' hS' => by
      rw [hs] at hS'
      injection hS' with hS'
      simp only [Prod.mk.injEq] at hS'
      obtain ⟨rfl, -⟩ := hS'
      exact ⟨_, rfl, hopt⟩)
  have h1 := report_get (values := some fun v a b => ((gapPoint v a b : ℚ) : ℝ)) hp (k := 0) (n := "eta") rfl
  have h2 := hv
  rw [h1] at h2
  simp only [Option.map_some, Option.some.injEq, zero_add, h10] at h2
  subst h2
  exact ⟨r, h, h', _, _, hret, hv, hb⟩

end Verif
