import Verif.Proofs.Vals
import Verif.Proofs.BuildCalls
import Verif.Spec.Feasible
import Verif.Spec.Clean
import Verif.Spec.Guaranteed

/-! # Lemmas for the circuit builders -/

namespace Verif
open scoped InnerProductSpace

variable {E : Type} [NormedAddCommGroup E] [InnerProductSpace ℝ E]

theorem Guaranteed.vals {prog : List Instr} {env : Name → ℝ} (hc : Guaranteed prog env) (hs : SafeProg prog ⟨0, 0, 0⟩ = true)
    {fs : ℕ → CFun E} (hi : Instance prog fs) (V : Vals E) (hm : MeetsAll (fun k => (fs k).Sample) env V prog ⟨0, 0, 0⟩ 0)
    (hcons : ∀ c ∈ consVals V prog, c.2 = .equality ∧ c.1 = 0) {e : ℕ} (he : metricReg prog none = some e) : V.ex e ≤ 0 := by
  obtain ⟨rr, hx, h1, h2⟩ := realExec_of_meets hs hm
  refine hc fs hi rr hx ?_ _ (by rw [h2, he]; rfl)
  intro c hcm
  rw [h1] at hcm
  obtain ⟨e1, e2⟩ := hcons c hcm
  obtain ⟨c1, c2⟩ := c
  simp only at e1 e2
  subst e1
  exact e2

section eval
variable (env : Name → ℝ) (V : Vals E)

@[simp] theorem Sym.eval_hadd (a b : Sym) : (a + b).eval env = a.eval env + b.eval env := rfl
@[simp] theorem Sym.eval_hmul (a b : Sym) : (a * b).eval env = a.eval env * b.eval env := rfl
@[simp] theorem Sym.eval_sub' (a b : Sym) : (a - b).eval env = a.eval env - b.eval env := by
  show a.eval env + ((-1 : ℚ) : ℝ) * b.eval env = _
  push_cast; ring
@[simp] theorem Sym.eval_neg' (a : Sym) : (-a).eval env = - a.eval env := by
  show ((-1 : ℚ) : ℝ) * a.eval env = _
  push_cast; ring
@[simp] theorem Sym.eval_div' (a : Sym) (c : ℚ) : (a / c : Sym).eval env = a.eval env / c := by
  show a.eval env * ((1 / c : ℚ) : ℝ) = _
  push_cast; ring
@[simp] theorem Sym.eval_mulq' (a : Sym) (c : ℚ) : (@HMul.hMul Sym ℚ Sym _ a c).eval env = a.eval env * c := rfl
@[simp] theorem Sym.eval_num' (c : ℚ) : (Sym.num c).eval env = c := rfl
@[simp] theorem Sym.eval_ofNat' (n : ℕ) : (OfNat.ofNat n : Sym).eval env = n := by
  show ((n : ℚ) : ℝ) = n
  push_cast; rfl
@[simp] theorem Sym.eval_one' : (1 : Sym).eval env = 1 := by
  show (((1 : ℕ) : ℚ) : ℝ) = 1
  push_cast; rfl
@[simp] theorem Sym.eval_var' (n : Name) : (Sym.var n).eval env = env n := rfl
@[simp] theorem pEta_eval : pEta.eval env = env "eta" := rfl
@[simp] theorem pRho_eval : pRho.eval env = env "rho" := rfl
@[simp] theorem pH_eval : pH.eval env = env "h" := rfl
@[simp] theorem pAlpha_eval : pAlpha.eval env = env "alpha" := rfl
@[simp] theorem pBeta_eval : pBeta.eval env = env "beta" := rfl
@[simp] theorem pGamma_eval : pGamma.eval env = env "gamma" := rfl

@[simp] theorem PE.val_reg' (i : ℕ) : (PE.reg i).val env V = V.pt i := rfl
@[simp] theorem PE.val_add' (a b : PE) : (a + b).val env V = a.val env V + b.val env V := rfl
@[simp] theorem PE.val_sub' (a b : PE) : (a - b).val env V = a.val env V - b.val env V := rfl
@[simp] theorem PE.val_neg' (a : PE) : (-a).val env V = - a.val env V := rfl
@[simp] theorem PE.val_smul' (s : Sym) (a : PE) : (s * a : PE).val env V = s.eval env • a.val env V := rfl
@[simp] theorem PE.val_qmul' (s : ℚ) (a : PE) : (s * a : PE).val env V = (s : ℝ) • a.val env V := rfl
@[simp] theorem PE.val_div' (a : PE) (c : ℚ) : (a / c : PE).val env V = (c : ℝ)⁻¹ • a.val env V := rfl
@[simp] theorem EE.val_reg' (i : ℕ) : (EE.reg i).val env V = V.ex i := rfl
@[simp] theorem EE.val_add' (a b : EE) : (a + b).val env V = a.val env V + b.val env V := rfl
@[simp] theorem EE.val_sub' (a b : EE) : (a - b).val env V = a.val env V - b.val env V := rfl
@[simp] theorem EE.val_neg' (a : EE) : (-a).val env V = - a.val env V := rfl
@[simp] theorem EE.val_smul' (s : Sym) (a : EE) : (s * a : EE).val env V = s.eval env * a.val env V := rfl
@[simp] theorem EE.val_qmul' (s : ℚ) (a : EE) : (s * a : EE).val env V = (s : ℝ) * a.val env V := rfl
@[simp] theorem EE.val_inner' (a b : PE) : (a * b : EE).val env V = ⟪a.val env V, b.val env V⟫_ℝ := rfl
@[simp] theorem EE.val_sq' (a : PE) : a.sq.val env V = ‖a.val env V‖ ^ 2 := rfl
@[simp] theorem EE.val_addNum' (a : EE) (c : ℚ) : (EE.addNum a c).val env V = a.val env V + c := rfl
omit [NormedAddCommGroup E] [InnerProductSpace ℝ E] in
@[simp] theorem FE.val_reg' (i : ℕ) : (FE.reg i).val V = V.fn i := rfl
omit [NormedAddCommGroup E] [InnerProductSpace ℝ E] in
@[simp] theorem FE.val_add' (a b : FE) : (a + b).val V = a.val V + b.val V := rfl
end eval

theorem defDecl_safe (mu : ℚ) (L : Option ℚ) : (defDecl mu L).Safe = true := by
  unfold defDecl
  cases L <;> by_cases h : mu = 0 <;> simp [h, FnDecl.Safe]

theorem smp {SR : ℕ → E → E → ℝ → Prop} {k : ℕ} {x g : E} {v : ℝ} (hs : SR k x g v) : SumSample SR (Finsupp.single k 1) x g v := by
  refine ⟨fun _ => g, fun _ => v, ?_, ?_, ?_⟩
  · intro j hj
    have : j = k := by simpa using Finsupp.support_single_subset hj
    subst this; exact hs
  · rw [Finsupp.sum_single_index] <;> simp
  · rw [Finsupp.sum_single_index] <;> simp

theorem SumSample.add {SR : ℕ → E → E → ℝ → Prop} {w w' : ℕ →₀ ℝ} {x g g' : E} {v v' : ℝ} (h : SumSample SR w x g v)
    (h' : SumSample SR w' x g' v') (hd : Disjoint w.support w'.support) : SumSample SR (w + w') x (g + g') (v + v') := by
  classical
  obtain ⟨G, V, a, rfl, rfl⟩ := h
  obtain ⟨G', V', a', rfl, rfl⟩ := h'
  have hsum : ∀ {M : Type} [AddCommMonoid M] (F F' : ℕ → ℝ → M), (∀ k, F k 0 = 0) → (∀ k, F' k 0 = 0) →
      (w + w').sum (fun k c => if k ∈ w.support then F k c else F' k c) = w.sum F + w'.sum F' := by
    intro M _ F F' h0 h0'
    rw [Finsupp.sum, Finsupp.support_add_eq hd, Finset.sum_union hd]
    congr 1
    · apply Finset.sum_congr rfl
      intro k hk
      have : w' k = 0 := by
        by_contra hne
        exact Finset.disjoint_left.1 hd hk (Finsupp.mem_support_iff.2 hne)
      rw [if_pos hk]
      simp [this]
    · apply Finset.sum_congr rfl
      intro k hk
      have hk' : k ∉ w.support := Finset.disjoint_right.1 hd hk
      rw [if_neg hk']
      have : w k = 0 := by simpa using hk'
      simp [this]
  refine ⟨fun k => if k ∈ w.support then G k else G' k, fun k => if k ∈ w.support then V k else V' k, ?_, ?_, ?_⟩
  · intro k hk
    rw [Finsupp.support_add_eq hd, Finset.mem_union] at hk
    by_cases hw : k ∈ w.support
    · simp only [if_pos hw]
      exact a k hw
    · simp only [if_neg hw]
      exact a' k (hk.resolve_left hw)
  · rw [← hsum (fun k c => c • G k) (fun k c => c • G' k) (by simp) (by simp)]
    apply Finsupp.sum_congr
    intro k _
    by_cases hw : k ∈ w.support <;> simp [hw]
  · rw [← hsum (fun k c => c * V k) (fun k c => c * V' k) (by simp) (by simp)]
    apply Finsupp.sum_congr
    intro k _
    by_cases hw : k ∈ w.support <;> simp [hw]

/-- one more function in a sum: its index is larger than those before -/
theorem SumSample.addSingle {SR : ℕ → E → E → ℝ → Prop} {w : ℕ →₀ ℝ} {x g g' : E} {v v' : ℝ} {k : ℕ} (h : SumSample SR w x g v)
    (h' : SR k x g' v') (hd : w k = 0) : SumSample SR (w + Finsupp.single k 1) x (g + g') (v + v') := by
  refine h.add (smp h') ?_
  rw [Finset.disjoint_left]
  intro j hj hj'
  have : j = k := by simpa using Finsupp.support_single_subset hj'
  subst this
  exact (Finsupp.mem_support_iff.1 hj) hd

theorem SumSample.zero {SR : ℕ → E → E → ℝ → Prop} {w : ℕ →₀ ℝ} {x g : E} {v : ℝ} (h : SumSample SR w x g v) (hg : g = 0) :
    SumSample SR w x 0 v := by
  rw [← hg]
  exact h

/-- an equality constraint `‖a - b‖ ^ 2 = 0` -/
theorem meets_zero {SR : ℕ → E → E → ℝ → Prop} {env : Name → ℝ} {V : Vals E} {n : Counts} {nd : ℕ} {a b : PE}
    (h : b.val env V = a.val env V) (hv : V.ex n.ne = 0 := by rfl) : (Instr.ex (a - b).sq).Meets SR env V n nd := by
  show V.ex n.ne = ‖a.val env V - b.val env V‖ ^ 2
  rw [hv, h]
  simp

/-- an equality constraint `‖a‖ ^ 2 = 0` -/
theorem meets_norm {SR : ℕ → E → E → ℝ → Prop} {env : Name → ℝ} {V : Vals E} {n : Counts} {nd : ℕ} {a : PE}
    (h : a.val env V = 0) (hv : V.ex n.ne = 0 := by rfl) : (Instr.ex a.sq).Meets SR env V n nd := by
  show V.ex n.ne = ‖a.val env V‖ ^ 2
  rw [hv, h]
  simp

section safe
variable (np ne nf : ℕ)
@[simp] theorem PE.safe_reg (i : ℕ) : (PE.reg i).Safe np = decide (i < np) := rfl
@[simp] theorem PE.safe_add (a b : PE) : (a + b).Safe np = (a.Safe np && b.Safe np) := rfl
@[simp] theorem PE.safe_sub (a b : PE) : (a - b).Safe np = (a.Safe np && b.Safe np) := rfl
@[simp] theorem PE.safe_neg (a : PE) : (-a).Safe np = a.Safe np := rfl
@[simp] theorem PE.safe_smul (s : Sym) (a : PE) : (s * a : PE).Safe np = a.Safe np := rfl
@[simp] theorem PE.safe_qmul (s : ℚ) (a : PE) : (s * a : PE).Safe np = a.Safe np := rfl
@[simp] theorem PE.safe_div (a : PE) (c : ℚ) : (a / c : PE).Safe np = (a.Safe np && decide (c ≠ 0)) := rfl
@[simp] theorem EE.safe_reg (i : ℕ) : (EE.reg i).Safe np ne = decide (i < ne) := rfl
@[simp] theorem EE.safe_add (a b : EE) : (a + b).Safe np ne = (a.Safe np ne && b.Safe np ne) := rfl
@[simp] theorem EE.safe_sub (a b : EE) : (a - b).Safe np ne = (a.Safe np ne && b.Safe np ne) := rfl
@[simp] theorem EE.safe_neg (a : EE) : (-a).Safe np ne = a.Safe np ne := rfl
@[simp] theorem EE.safe_smul (s : Sym) (a : EE) : (s * a : EE).Safe np ne = a.Safe np ne := rfl
@[simp] theorem EE.safe_qmul (s : ℚ) (a : EE) : (s * a : EE).Safe np ne = a.Safe np ne := rfl
@[simp] theorem EE.safe_inner (a b : PE) : (a * b : EE).Safe np ne = (a.Safe np && b.Safe np) := rfl
@[simp] theorem EE.safe_sq (a : PE) : a.sq.Safe np ne = a.Safe np := by
  show (a.Safe np && decide ((2 : ℚ) = 2)) = _
  simp
@[simp] theorem EE.safe_addNum (a : EE) (c : ℚ) : (EE.addNum a c).Safe np ne = a.Safe np ne := rfl
@[simp] theorem FE.safe_reg (i : ℕ) : (FE.reg i).Safe nf = decide (i < nf) := rfl
@[simp] theorem FE.safe_add (a b : FE) : (a + b).Safe nf = (a.Safe nf && b.Safe nf) := rfl
end safe

section clean
variable (S : Set Name)
@[simp] theorem PE.clean_reg (i : ℕ) : (PE.reg i).Clean S := trivial
@[simp] theorem PE.clean_add (a b : PE) : (a + b).Clean S ↔ a.Clean S ∧ b.Clean S := .rfl
@[simp] theorem PE.clean_sub (a b : PE) : (a - b).Clean S ↔ a.Clean S ∧ b.Clean S := .rfl
@[simp] theorem PE.clean_neg (a : PE) : (-a).Clean S ↔ a.Clean S := .rfl
@[simp] theorem PE.clean_smul (s : Sym) (a : PE) : (s * a : PE).Clean S ↔ (∀ n ∈ s.vars, n ∈ S) ∧ a.Clean S := .rfl
@[simp] theorem PE.clean_qmul (s : ℚ) (a : PE) : (s * a : PE).Clean S ↔ a.Clean S := by
  show (∀ n ∈ (Sym.num s).vars, n ∈ S) ∧ a.Clean S ↔ _
  simp [Sym.vars]
@[simp] theorem PE.clean_div (a : PE) (c : ℚ) : (a / c : PE).Clean S ↔ a.Clean S := .rfl
@[simp] theorem EE.clean_reg (i : ℕ) : (EE.reg i).Clean S := trivial
@[simp] theorem EE.clean_add (a b : EE) : (a + b).Clean S ↔ a.Clean S ∧ b.Clean S := .rfl
@[simp] theorem EE.clean_sub (a b : EE) : (a - b).Clean S ↔ a.Clean S ∧ b.Clean S := .rfl
@[simp] theorem EE.clean_neg (a : EE) : (-a).Clean S ↔ a.Clean S := .rfl
@[simp] theorem EE.clean_smul (s : Sym) (a : EE) : (s * a : EE).Clean S ↔ (∀ n ∈ s.vars, n ∈ S) ∧ a.Clean S := .rfl
@[simp] theorem EE.clean_qmul (s : ℚ) (a : EE) : (s * a : EE).Clean S ↔ a.Clean S := by
  show (∀ n ∈ (Sym.num s).vars, n ∈ S) ∧ a.Clean S ↔ _
  simp [Sym.vars]
@[simp] theorem EE.clean_inner (a b : PE) : (a * b : EE).Clean S ↔ a.Clean S ∧ b.Clean S := .rfl
@[simp] theorem EE.clean_sq (a : PE) : a.sq.Clean S ↔ a.Clean S := .rfl
@[simp] theorem EE.clean_addNum0 (a : EE) : (EE.addNum a 0).Clean S ↔ a.Clean S := by
  show a.Clean S ∧ (0 : ℚ) = 0 ↔ _
  simp
@[simp] theorem Sym.vars_num' (c : ℚ) : (Sym.num c).vars = [] := rfl
@[simp] theorem Sym.vars_ofNat' (n : ℕ) : (OfNat.ofNat n : Sym).vars = [] := rfl
@[simp] theorem Sym.vars_one' : (1 : Sym).vars = [] := rfl
@[simp] theorem Sym.vars_var' (n : Name) : (Sym.var n).vars = [n] := rfl
@[simp] theorem Sym.vars_hadd (a b : Sym) : (a + b).vars = a.vars ++ b.vars := rfl
@[simp] theorem Sym.vars_hmul (a b : Sym) : (a * b).vars = a.vars ++ b.vars := rfl
@[simp] theorem Sym.vars_sub' (a b : Sym) : (a - b).vars = a.vars ++ b.vars := rfl
@[simp] theorem Sym.vars_neg' (a : Sym) : (-a).vars = a.vars := rfl
@[simp] theorem Sym.vars_div' (a : Sym) (c : ℚ) : (a / c : Sym).vars = a.vars := by
  show a.vars ++ [] = _
  simp
@[simp] theorem Sym.vars_mulq' (a : Sym) (c : ℚ) : (@HMul.hMul Sym ℚ Sym _ a c).vars = a.vars := by
  show a.vars ++ [] = _
  simp
@[simp] theorem pEta_vars : pEta.vars = ["eta"] := rfl
@[simp] theorem pRho_vars : pRho.vars = ["rho"] := rfl
@[simp] theorem pH_vars : pH.vars = ["h"] := rfl
@[simp] theorem pAlpha_vars : pAlpha.vars = ["alpha"] := rfl
@[simp] theorem pBeta_vars : pBeta.vars = ["beta"] := rfl
@[simp] theorem pGamma_vars : pGamma.vars = ["gamma"] := rfl
end clean

/-- functions of the declared classes -/
theorem instance_of_list {prog : List Instr} {Fs : List (CFun E)} {F0 : CFun E}
    (h : List.Forall₂ (fun (d : FnDecl) F => d.Holds F) (decls prog) Fs) : Instance prog (fun k => Fs.getD k F0) := by
  intro k d hk
  have := List.forall₂_iff_get.1 h
  obtain ⟨hl, rfl⟩ := List.getElem?_eq_some_iff.1 hk
  have hl' : k < Fs.length := by rw [← this.1]; exact hl
  have h2 := this.2 k hl hl'
  simp only [List.get_eq_getElem] at h2
  have e : Fs.getD k F0 = Fs[k] := by simp [List.getD, hl']
  show FnDecl.Holds _ (Fs.getD k F0)
  rw [e]
  exact h2

/-- `SafeProg` of a list of calls -/
macro "safe_simp" "[" ts:Lean.Parser.Tactic.simpLemma,* "]" : tactic =>
  `(tactic| simp [SafeProg, Instr.Safe, Instr.next, defDecl_safe, $ts,*])

/-- all calls of a list are clean -/
macro "clean_simp" : tactic => `(tactic| simp [Instr.Clean, stdParams])

end Verif
