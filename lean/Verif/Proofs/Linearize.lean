import Verif.Proofs.Strings

/-!
# `linearize_expression`, `collapse_expression`
-/

namespace Verif

variable {C : CAS}

theorem eval_sumTerms (f : PolyTerm → Sym) (env : Name → ℝ) (l : List PolyTerm) :
    (sumTerms f l).eval env = (l.map fun t => (f t).eval env).sum := by
  have : ∀ acc : Sym, (l.foldl (fun acc t => acc + f t) acc).eval env = acc.eval env + (l.map fun t => (f t).eval env).sum := by
    induction l with
    | nil => intro acc; simp
    | cons t l ih => intro acc; rw [List.foldl_cons, ih]; simp [add_assoc]
  rw [sumTerms, this]; simp

theorem vars_sumTerms (f : PolyTerm → Sym) (l : List PolyTerm) {n : Name} (h : n ∈ (sumTerms f l).vars) : ∃ t ∈ l, n ∈ (f t).vars := by
  have : ∀ acc : Sym, n ∈ (l.foldl (fun acc t => acc + f t) acc).vars → n ∈ acc.vars ∨ ∃ t ∈ l, n ∈ (f t).vars := by
    clear h
    induction l with
    | nil => intro acc h; exact Or.inl h
    | cons t l ih =>
      intro acc h
      rcases ih _ h with h | ⟨u, hu, h⟩
      · have : n ∈ acc.vars ++ (f t).vars := h
        rcases List.mem_append.1 this with h | h
        · exact Or.inl h
        · exact Or.inr ⟨t, by simp, h⟩
      · exact Or.inr ⟨u, by simp [hu], h⟩
  rcases this _ h with h | h
  · simp [Sym.vars] at h
  · exact h

theorem isConst_eval (hC : C.Lawful) {e : Sym} (h : isConst C e = true) (env : Name → ℝ) : e.eval env = ((C.simp e).toFloat : ℝ) := by
  rw [← hC.simp_eval env e]
  exact Sym.eval_of_isNumber env _ (List.isEmpty_iff.1 h)

theorem eval_mulNames (env : Name → ℝ) (l : List Name) : (mulNames l).eval env = (l.map env).prod := by
  have : ∀ acc : Sym, (l.foldl (fun acc n => acc * Sym.var n) acc).eval env = acc.eval env * (l.map env).prod := by
    induction l with
    | nil => intro acc; simp
    | cons t l ih => intro acc; rw [List.foldl_cons, ih]; simp [mul_assoc]
  rw [mulNames, this]; simp

theorem eval_collapseTerm (env : Name → ℝ) (t : PolyTerm) : (collapseTerm t).eval env = t.eval (longEnv env) := by
  rw [prod_monoParts, collapseTerm]
  split
  · rw [Sym.eval_mul, eval_mulNames]; rfl
  · rename_i h
    push Not at h
    rw [h]; simp

/-- the long name `linearize_expression` gives to a monomial -/
def longName (t : PolyTerm) : Name := joinU (sortNames (splitU (joinU (sortNames (monoNames t)))))

theorem longEnv_longName (env : Name → ℝ) (t : PolyTerm) (h : monoNames t ≠ []) :
    longEnv env (longName t) = ((monoNames t).map (longEnv env)).prod := by
  have h1 : sortNames (monoNames t) ≠ [] := fun hh => h (sortNames_eq_nil.1 hh)
  have h2 : splitU (joinU (sortNames (monoNames t))) ≠ [] := splitU_ne_nil _
  rw [longName, longEnv_join _ (fun hh => h2 (sortNames_eq_nil.1 hh)), prod_sortNames]
  rw [← prod_sortNames (longEnv env) (monoNames t), ← longEnv_join env h1, longEnv]
  congr 1
  apply List.map_congr_left
  intro n hn
  exact longEnv_plain (splitU_parts _ n hn)

theorem eval_linTerm (env : Name → ℝ) (t : PolyTerm) : (linTerm t).eval (longEnv env) = t.eval (longEnv env) := by
  rw [prod_monoNames, linTerm]
  split
  · rename_i h
    rw [Sym.eval_mul]
    show (t.2 : ℝ) * longEnv env (longName t) = _
    rw [longEnv_longName env t h]
  · rename_i h
    push Not at h
    rw [h]; simp

theorem collapse_eval (hC : C.Lawful) (e : Sym) (env : Name → ℝ) : (collapse C e).eval env = e.eval (longEnv env) := by
  rw [collapse]
  split
  · rename_i h
    rw [isConst_eval hC h]; rfl
  · rw [eval_sumTerms, ← hC.simp_eval (longEnv env) e, ← hC.poly_eval (longEnv env) (C.simp e)]
    congr 1
    apply List.map_congr_left
    intro t _
    exact eval_collapseTerm env t

theorem linearize_eval (hC : C.Lawful) (e : Sym) (env : Name → ℝ) : (linearize C e).eval (longEnv env) = e.eval (longEnv env) := by
  rw [linearize]
  split
  · rfl
  · rw [hC.simp_eval, eval_sumTerms, ← hC.simp_eval (longEnv env) e, ← hC.poly_eval (longEnv env) (C.simp e)]
    congr 1
    apply List.map_congr_left
    intro t _
    exact eval_linTerm env t

theorem eval_longEnv_plain {e : Sym} (h : ∀ n ∈ e.vars, Plain n) (env : Name → ℝ) : e.eval (longEnv env) = e.eval env :=
  Sym.eval_congr e fun n hn => longEnv_plain (h n hn)

/-- the symbols of a linearized expression are joins of symbols of the expression -/
theorem linearize_vars (hC : C.Lawful) {e : Sym} {n : Name} (hn : n ∈ (linearize C e).vars) :
    n ∈ e.vars ∨ ∃ l : List Name, l ≠ [] ∧ (∀ m ∈ l, m ∈ (e.vars.flatMap splitU)) ∧ n = joinU l := by
  rw [linearize] at hn
  split at hn
  · exact Or.inl hn
  · obtain ⟨t, ht, hn⟩ := vars_sumTerms _ _ (hC.simp_vars _ _ hn)
    rw [linTerm] at hn
    split at hn
    · rename_i hne
      have : n ∈ [] ++ [longName t] := hn
      simp only [List.nil_append, List.mem_singleton] at this
      right
      refine ⟨_, ?_, ?_, this⟩
      · exact fun hh => splitU_ne_nil _ (sortNames_eq_nil.1 hh)
      · intro m hm
        rw [mem_sortNames, splitU_join _ (fun hh => hne (sortNames_eq_nil.1 hh)), List.mem_flatMap] at hm
        obtain ⟨q, hq, hm⟩ := hm
        rw [List.mem_flatMap]
        exact ⟨q, hC.simp_vars _ _ (monoNames_sub hC ht q (mem_sortNames.1 hq)), hm⟩
    · simp [Sym.vars, HMul.hMul, Mul.mul] at hn

/-- the value of a linearized expression is an affine function of the (long) symbols -/
theorem linearize_affine (hC : C.Lawful) (e : Sym) : ∃ (c0 : ℚ) (l : List (Name × ℚ)), ∀ env : Name → ℝ,
    (linearize C e).eval env = c0 + (l.map fun p => (p.2 : ℝ) * env p.1).sum := by
  by_cases h : isConst C e = true
  · refine ⟨(C.simp e).toFloat, [], fun env => ?_⟩
    rw [linearize, if_pos h, isConst_eval hC h]; simp
  · rw [Bool.not_eq_true] at h
    have key : ∀ ts : List PolyTerm, ∃ (c0 : ℚ) (l : List (Name × ℚ)), ∀ env : Name → ℝ,
        (ts.map fun t => (linTerm t).eval env).sum = c0 + (l.map fun p => (p.2 : ℝ) * env p.1).sum := by
      intro ts
      induction ts with
      | nil => exact ⟨0, [], fun env => by simp⟩
      | cons t ts ih =>
        obtain ⟨c0, l, hl⟩ := ih
        by_cases ht : monoNames t = []
        · refine ⟨t.2 + c0, l, fun env => ?_⟩
          rw [List.map_cons, List.sum_cons, hl, linTerm, if_neg (by simpa using ht)]
          simp [add_assoc]
        · refine ⟨c0, (longName t, t.2) :: l, fun env => ?_⟩
          rw [List.map_cons, List.sum_cons, hl, linTerm, if_pos ht]
          simp only [List.map_cons, List.sum_cons, Sym.eval_mul, Sym.eval_num, Sym.eval_var]
          rw [longName]; ring
    obtain ⟨c0, l, hl⟩ := key (C.poly (C.simp e))
    refine ⟨c0, l, fun env => ?_⟩
    rw [linearize, if_neg (by simp [h]), hC.simp_eval, eval_sumTerms, hl]

end Verif
