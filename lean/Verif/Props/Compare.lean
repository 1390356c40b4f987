import Verif.Proofs.Poly
import Verif.Proofs.Linearize
import Verif.Proofs.RefCAS
import Mathlib.Tactic.NormNum

/-!
# C50: `equal_expression` and `equal_sp_arrays`; C38: the degree checks

Axioms of every theorem: propext, Classical.choice, Quot.sound.
-/

namespace Verif
open MvPolynomial

variable {C : CAS} (hC : C.Lawful)

/-! ## Helpers -/

theorem closeNum_zero {c : ℚ} : closeNum c 0 = true ↔ |c| ≤ 1 / 10 ^ 8 := by
  unfold closeNum
  rw [decide_eq_true_eq, sub_zero, abs_zero, mul_zero, add_zero]

include hC in
theorem toMv_const {e : Sym} (h : isConst C e = true) : e.toMv = MvPolynomial.C (C.simp e).toFloat := by
  have h1 : (C.simp e).vars = [] := by simpa [isConst] using h
  exact mv_ext fun env => by
    rw [Sym.aeval_toMv, ← hC.simp_eval, Sym.eval_of_isNumber env _ h1, aeval_C]
    simp

include hC in
theorem isConst_of_vars {e : Sym} (h : e.vars = []) : isConst C e = true := by
  unfold isConst
  rw [List.isEmpty_iff, List.eq_nil_iff_forall_not_mem]
  intro n hn
  have := hC.simp_vars e n hn
  rw [h] at this
  cases this

include hC in
theorem toMv_simp (e : Sym) : (C.simp e).toMv = e.toMv := Sym.toMv_congr fun env => hC.simp_eval env e

include hC in
theorem toMv_collapse (e : Sym) : (collapse C e).toMv = e.collapsed := by
  refine mv_ext fun env => ?_
  rw [Sym.aeval_toMv, collapse_eval hC, ← Sym.aeval_toMv]
  unfold Sym.collapsed
  rw [← AlgHom.comp_apply, comp_aeval]
  congr 2
  funext n
  rw [map_list_prod, List.map_map]
  unfold longEnv
  congr 2
  funext m
  simp

theorem toMv_sub (a b : Sym) : (a - b).toMv = a.toMv - b.toMv := by
  change a.toMv + MvPolynomial.C (-1) * b.toMv = _
  rw [map_neg, map_one]
  ring

include hC in
theorem isZeroExpr_iff (e : Sym) : isZeroExpr C e = true ↔ ∀ m, |coeff m e.toMv| ≤ 1 / 10 ^ 8 := by
  unfold isZeroExpr
  by_cases h : isConst C e = true
  · rw [if_pos h, closeNum_zero, toMv_const hC h]
    constructor
    · intro h1 m
      rw [coeff_C]
      split
      · exact h1
      · rw [abs_zero]; positivity
    · intro h1
      simpa using h1 0
  · rw [if_neg h, List.all_eq_true, ← toMv_simp hC]
    constructor
    · intro h1 m
      rcases coeff_cases hC (C.simp e) m with h2 | ⟨t, ht, -, h2⟩
      · rw [h2, abs_zero]; positivity
      · rw [h2]
        exact closeNum_zero.1 (h1 t ht)
    · intro h1 t ht
      rw [closeNum_zero, ← coeff_of_mem hC ht]
      exact h1 _

theorem collapsed_of_const {e : Sym} (h : IsConstPoly e.toMv) : IsConstPoly e.collapsed := by
  obtain ⟨c, hc⟩ := h
  refine ⟨c, ?_⟩
  unfold Sym.collapsed
  rw [hc, aeval_C]
  rfl

include hC in
theorem zero_diff_iff (e1 e2 : Sym) : isZeroExpr C (collapse C e1 - collapse C e2) = true ↔ CoeffClose e1.collapsed e2.collapsed := by
  rw [isZeroExpr_iff hC, toMv_sub, toMv_collapse hC, toMv_collapse hC]
  simp only [coeff_sub, CoeffClose]

/-! ## C50 -/

include hC in
/-- **C50**, one direction, always: expressions whose collapsed polynomials agree in every coefficient up to `1e-8` compare equal. -/
theorem C50_of_close (e1 e2 : Sym) (h : CoeffClose e1.collapsed e2.collapsed) : equalExpression C e1 e2 = true := by
  unfold equalExpression
  simp only [(zero_diff_iff hC e1 e2).2 h, if_true]

include hC in
/-- **C50**: `equal_expression` returns True exactly when all coefficients of the two collapsed polynomials agree up to `1e-8`, provided the
expressions are both without symbols or one of the collapsed polynomials is not a constant.  (What happens otherwise is `C50_tolerance`.) -/
theorem C50_iff (e1 e2 : Sym) (h : (e1.vars = [] ∧ e2.vars = []) ∨ ¬ IsConstPoly e1.collapsed ∨ ¬ IsConstPoly e2.collapsed) :
    equalExpression C e1 e2 = true ↔ CoeffClose e1.collapsed e2.collapsed := by
  refine ⟨fun heq => ?_, C50_of_close hC e1 e2⟩
  rw [← zero_diff_iff hC]
  by_contra hz
  have hcon : ∀ e : Sym, isConst C e = true → IsConstPoly e.collapsed := fun e he => collapsed_of_const ⟨_, toMv_const hC he⟩
  have hcon' : ∀ e : Sym, isConst C (collapse C e) = true → IsConstPoly e.collapsed := fun e he => ⟨_, (toMv_collapse hC e).symm.trans (toMv_const hC he)⟩
  unfold equalExpression at heq
  simp only [hz] at heq
  by_cases h1 : isConst C e1 = true
  · by_cases h2 : isConst C e2 = true
    · simp only [h1, h2, Bool.not_true, Bool.false_and, Bool.or_eq_true, Bool.and_eq_true, Bool.false_eq_true, if_false] at heq
      rcases heq with h3 | ⟨h3, h4⟩
      · refine hz ((isZeroExpr_iff hC _).2 fun m => ?_)
        rw [← toMv_simp hC, Sym.toMv_congr (hC.eqB_sound _ _ h3)]
        simp only [Sym.toMv, map_zero, coeff_zero, abs_zero]
        positivity
      · refine hz ?_
        unfold isZeroExpr
        rw [if_pos (by exact h3)]
        exact h4
    · rcases h with h | h
      · exact h2 (isConst_of_vars hC h.2)
      · have h5 : isConst C (collapse C e2) ≠ true := fun h6 => by
          rcases h with h | h
          exacts [h (hcon e1 h1), h (hcon' e2 h6)]
        simp only [h1, h2, h5] at heq
        simp at heq
  · by_cases h2 : isConst C e2 = true
    · rcases h with h | h
      · exact h1 (isConst_of_vars hC h.1)
      · have h5 : isConst C (collapse C e1) ≠ true := fun h6 => by
          rcases h with h | h
          exacts [h (hcon' e1 h6), h (hcon e2 h2)]
        simp only [h1, h2, h5] at heq
        simp at heq
    · simp only [h1, h2, Bool.not_false, Bool.and_false, Bool.or_eq_true, Bool.and_eq_true, Bool.false_eq_true, if_false] at heq
      rcases heq with h3 | ⟨h3, h4⟩
      · refine hz ((isZeroExpr_iff hC _).2 fun m => ?_)
        rw [← toMv_simp hC, Sym.toMv_congr (hC.eqB_sound _ _ h3)]
        simp only [Sym.toMv, map_zero, coeff_zero, abs_zero]
        positivity
      · refine hz ?_
        unfold isZeroExpr
        rw [if_pos (by exact h3)]
        exact h4

include hC in
/-- **C50**: reflexive -/
theorem C50_refl (e : Sym) : equalExpression C e e = true := C50_of_close hC e e fun m => by
  rw [sub_self, abs_zero]
  positivity

include hC in
/-- **C50**: symmetric, under the proviso of `C50_iff` -/
theorem C50_symm (e1 e2 : Sym) (h : (e1.vars = [] ∧ e2.vars = []) ∨ ¬ IsConstPoly e1.collapsed ∨ ¬ IsConstPoly e2.collapsed) :
    equalExpression C e1 e2 = equalExpression C e2 e1 := by
  rw [Bool.eq_iff_iff, C50_iff hC e1 e2 h, C50_iff hC e2 e1 (h.imp And.symm Or.symm)]
  unfold CoeffClose
  simp only [abs_sub_comm]

include hC in
/-- **C50**, rewritings of the same polynomial compare equal: two expressions with the same value under every assignment to the parts of their
symbols are equal for `equal_expression` (this is what the tests of the package use it for). -/
theorem C50_same_value (e1 e2 : Sym) (h : ∀ env : Name → ℝ, e1.eval (longEnv env) = e2.eval (longEnv env)) : equalExpression C e1 e2 = true := by
  refine C50_of_close hC e1 e2 fun m => ?_
  have h1 : (collapse C e1).toMv = (collapse C e2).toMv := Sym.toMv_congr fun env => by rw [collapse_eval hC, collapse_eval hC, h]
  rw [← toMv_collapse hC, ← toMv_collapse hC, h1, sub_self, abs_zero]
  positivity

include hC in
/-- **C50**, negative finding: not transitive, for every computer algebra system -/
theorem C50_not_transitive : ∃ e1 e2 e3 : Sym, equalExpression C e1 e2 = true ∧ equalExpression C e2 e3 = true ∧ equalExpression C e1 e3 = false := by
  have hcol : ∀ c : ℚ, (Sym.num c).collapsed = MvPolynomial.C c := fun c => by
    unfold Sym.collapsed Sym.toMv
    rw [aeval_C]
    rfl
  have key : ∀ a b : ℚ, equalExpression C (.num a) (.num b) = true ↔ |a - b| ≤ 1 / 10 ^ 8 := by
    intro a b
    rw [C50_iff hC _ _ (Or.inl ⟨rfl, rfl⟩), hcol, hcol]
    unfold CoeffClose
    constructor
    · intro h
      simpa using h 0
    · intro h m
      rw [coeff_C, coeff_C]
      split
      · exact h
      · rw [sub_self, abs_zero]; positivity
  refine ⟨.num 0, .num (8 / 10 ^ 9), .num (16 / 10 ^ 9), (key _ _).2 ?_, (key _ _).2 ?_, ?_⟩
  · rw [abs_le]; norm_num
  · rw [abs_le]; norm_num
  · rw [← Bool.not_eq_true, key]
    rw [abs_le]; norm_num

/-- the expression `a_b - b_a + 5`, whose collapsed form is the number 5 -/
def disguisedFive : Sym := Sym.var "a_b" - Sym.var "b_a" + Sym.num 5

/-- **C50**, negative finding: the threshold `1e-8` does not apply when an expression with symbols collapses to a number and the other one is a
number: then a relative tolerance of `1e-5` applies, and the result depends on the order of the arguments. -/
theorem C50_tolerance : equalExpression refCAS disguisedFive (.num (500001 / 100000)) = true ∧
    ¬ CoeffClose disguisedFive.collapsed (Sym.num (500001 / 100000)).collapsed ∧
    ∃ c : ℚ, equalExpression refCAS disguisedFive (.num c) = true ∧ equalExpression refCAS (.num c) disguisedFive = false := by
  refine ⟨by decide +kernel, fun h => ?_, 5 + 500102 / 10 ^ 10, by decide +kernel, by decide +kernel⟩
  have := (zero_diff_iff refCAS_lawful _ _).2 h
  exact absurd this (by decide +kernel)

/-- the hypotheses of `C50_iff` are met by `h_eta + 1` and `eta h + 1 + 1e-9`, which compare equal, and by `eta` and `eta + 1e-6`, which do not -/
example : equalExpression refCAS (Sym.var "h_eta" + 1) (Sym.var "eta" * Sym.var "h" + Sym.num (1 + 1 / 10 ^ 9)) = true ∧
    equalExpression refCAS (Sym.var "eta") (Sym.var "eta" + Sym.num (1 / 10 ^ 6)) = false ∧ ¬ IsConstPoly (Sym.var "eta").collapsed := by
  refine ⟨by decide +kernel, by decide +kernel, ?_⟩
  rintro ⟨c, hc⟩
  have h1 : (Sym.var "eta").collapsed = X "eta" := by
    have : splitU "eta" = ["eta"] := by decide +kernel
    simp [Sym.collapsed, Sym.toMv, this]
  rw [h1] at hc
  have := congrArg (coeff (Finsupp.single "eta" 1)) hc
  rw [coeff_C, if_neg (fun h => by simpa using DFunLike.congr_fun h "eta")] at this
  simp at this

/-! ### arrays -/

/-- the arrays hold the same entries up to `equal_expression` -/
def SpArray.SameEntries (C : CAS) : SpArray → SpArray → Prop
  | .vec n f, .vec n' g => n = n' ∧ ∀ i < n, equalExpression C (f i) (g i) = true
  | .mat m n f, .mat m' n' g => (m = m' ∧ n = n') ∧ ∀ i < m, ∀ j < n, equalExpression C (f i j) (g i j) = true
  | _, _ => False

/-- **C50**, arrays of the same shape with one or two dimensions: entry by entry -/
theorem C50_arrays (a b : SpArray) (h : a.shape = b.shape) (hd : a.shape ≠ []) : ∃ r, equalSpArrays C a b = .ok r ∧ (r = true ↔ a.SameEntries C b) := by
  unfold equalSpArrays
  rw [if_neg (not_not.2 h)]
  cases a with
  | scalar e => exact absurd rfl hd
  | vec n f =>
    cases b with
    | scalar e => simp [SpArray.shape] at h
    | vec n' g =>
      have hn : n = n' := by simpa [SpArray.shape] using h
      refine ⟨_, rfl, ?_⟩
      simp [SpArray.SameEntries, hn, List.all_eq_true]
    | mat m' n' g => simp [SpArray.shape] at h
  | mat m n f =>
    cases b with
    | scalar e => simp [SpArray.shape] at h
    | vec n' g => simp [SpArray.shape] at h
    | mat m' n' g =>
      have hn : m = m' ∧ n = n' := by simpa [SpArray.shape] using h
      refine ⟨_, rfl, ?_⟩
      simp [SpArray.SameEntries, hn, List.all_eq_true]

/-- **C50**, arrays: a vector, a column and a row with the same entries (at least two) compare like vectors -/
theorem C50_arrays_squeeze (n : ℕ) (hn : n ≠ 1) (f g : ℕ → Sym) :
    equalSpArrays C (.vec n f) (.mat n 1 fun i _ => g i) = equalSpArrays C (.vec n f) (.vec n g) ∧
    equalSpArrays C (.vec n f) (.mat 1 n fun _ i => g i) = equalSpArrays C (.vec n f) (.vec n g) ∧
    equalSpArrays C (.mat n 1 fun i _ => f i) (.mat 1 n fun _ i => g i) = equalSpArrays C (.vec n f) (.vec n g) := by
  refine ⟨?_, ?_, ?_⟩ <;> simp [equalSpArrays, SpArray.shape, SpArray.squeeze, hn]

/-- **C50**, arrays, negative finding: comparing a vector of one entry with a 1 × 1 matrix raises `IndexError` whatever the entries are -/
theorem C50_arrays_one (f : ℕ → Sym) (g : ℕ → ℕ → Sym) : equalSpArrays C (.vec 1 f) (.mat 1 1 g) = .error .index := by
  simp [equalSpArrays, SpArray.shape, SpArray.squeeze, sameShapeEqual]

/-- **C50**, arrays: arrays whose dimensions other than 1 differ are not equal -/
theorem C50_arrays_shape (a b : SpArray) (h : a.shape.filter (· ≠ 1) ≠ b.shape.filter (· ≠ 1)) : equalSpArrays C a b = .ok false := by
  have hs : ∀ c : SpArray, c.squeeze.shape = c.shape.filter (· ≠ 1) := by
    intro c
    cases c with
    | scalar e => rfl
    | vec n f => by_cases h1 : n = 1 <;> simp [SpArray.squeeze, SpArray.shape, h1]
    | mat m n f => by_cases h1 : m = 1 <;> by_cases h2 : n = 1 <;> simp [SpArray.squeeze, SpArray.shape, h1, h2]
  have hne : a.shape ≠ b.shape := fun hh => h (by rw [hh])
  rw [equalSpArrays, if_pos hne, if_neg (by rw [hs, hs]; exact h)]

/-- the hypothesis holds for a vector with three entries and a 3 × 2 matrix -/
example : equalSpArrays C (.vec 3 fun _ => .num 0) (.mat 3 2 fun _ _ => .num 0) = .ok false := C50_arrays_shape _ _ (by decide)

/-! ## C38 -/

include hC in
/-- **C38**, polynomials: `check_degree_expression` on an expression that is not a number answers whether the total degree is at most `d`. -/
theorem C38_degree (e : Sym) (hne : isConst C e = false) (d : ℕ) :
    ∃ b, checkDegreeExpression C (.sym e) d = .ok (.bool b) ∧ (b = true ↔ e.toMv.totalDegree ≤ d) := by
  refine ⟨checkDegree C e d, by simp [checkDegreeExpression, hne], ?_⟩
  have hdeg : ∀ t ∈ C.poly (C.simp e), (t.1.map Prod.snd).sum = t.expo.sum fun _ k => k := by
    intro t ht
    have : ∀ l : List (Name × ℕ), (l.map Prod.snd).sum = ((l.map fun p => Finsupp.single p.1 p.2).sum).sum fun _ k => k := by
      intro l
      induction l with
      | nil => simp
      | cons p l ih =>
        rw [List.map_cons, List.sum_cons, List.map_cons, List.sum_cons, ih, Finsupp.sum_add_index' (fun _ => rfl) (fun _ _ _ => rfl),
          Finsupp.sum_single_index rfl]
    exact this t.1
  unfold checkDegree
  rw [List.all_eq_true, ← toMv_simp hC]
  constructor
  · intro h
    refine Finset.sup_le fun m hm => ?_
    rcases coeff_cases hC (C.simp e) m with h2 | ⟨t, ht, h3, -⟩
    · exact absurd h2 (mem_support_iff.1 hm)
    · have h4 := h t ht
      simp only [Bool.not_eq_true', decide_eq_false_iff_not, hdeg t ht, h3] at h4
      omega
  · intro h t ht
    simp only [Bool.not_eq_true', decide_eq_false_iff_not]
    by_cases hz : t.2 = 0
    · have h0 : (t.1.map Prod.snd).sum = 0 := List.sum_eq_zero fun x hx => by
        obtain ⟨p, hp, rfl⟩ := List.mem_map.1 hx
        exact hC.poly_zero _ t ht hz p hp
      omega
    · have hm : t.expo ∈ (C.simp e).toMv.support := mem_support_iff.2 (by rw [coeff_of_mem hC ht]; exact hz)
      have := le_totalDegree hm
      rw [hdeg t ht]
      omega

include hC in
/-- **C38**: `check_linear_expression` answers whether the total degree is at most one -/
theorem C38_linear (e : Sym) (hne : isConst C e = false) : checkLinear C e = true ↔ e.toMv.totalDegree ≤ 1 := by
  obtain ⟨b, h1, h2⟩ := C38_degree hC e hne 1
  rw [← h2]
  simp only [checkDegreeExpression, hne, Bool.false_eq_true, if_false, Except.ok.injEq, DegRes.bool.injEq] at h1
  rw [← h1]
  rfl

/-- **C38**, negative finding: the degree check of `set_performance_metric` accepts every `Expression`: it is never looked into.  (Applied to the
number 0 the same check fails, and applied to a SymPy number it raises.) -/
theorem C38_vacuous (id : ℕ) : metricAsserts C (.obj id) true = .ok () ∧
    (checkDegreeExpression C (.num 0) 2).map DegRes.truthy = .ok false := ⟨rfl, by simp [checkDegreeExpression, Except.map, DegRes.truthy]⟩

include hC in
theorem C38_constant_raises (c : ℚ) (d : ℕ) : checkDegreeExpression C (.sym (.num c)) d = .error .value := by
  simp [checkDegreeExpression, isConst_of_vars hC (e := .num c) rfl]

/-- `eta h` has degree two: the check with bound 1 is false, with bound 2 true -/
example : checkDegreeExpression refCAS (.sym (Sym.var "eta" * Sym.var "h")) 1 = .ok (.bool false) ∧
    checkDegreeExpression refCAS (.sym (Sym.var "eta" * Sym.var "h")) 2 = .ok (.bool true) ∧ isConst refCAS (Sym.var "eta" * Sym.var "h") = false := by
  have h : isConst refCAS (Sym.var "eta" * Sym.var "h") = false := by decide +kernel
  have h1 : checkDegree refCAS (Sym.var "eta" * Sym.var "h") 1 = false := by decide +kernel
  have h2 : checkDegree refCAS (Sym.var "eta" * Sym.var "h") 2 = true := by decide +kernel
  exact ⟨by simp [checkDegreeExpression, h, h1], by simp [checkDegreeExpression, h, h2], h⟩

end Verif
