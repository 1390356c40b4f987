import Verif.Proofs.Kcl
import Verif.Proofs.CircuitsNCan
import Verif.Props.Registry
import Verif.Props.Represent
import Verif.Spec.Kcl
import Verif.Spec.Dual

/-!
# C35: the currents into a net sum to zero

For every number of functions `n = k + 2`.  The builder returns its inductor currents at steps 1, 1.5 and 2; the theorems speak about their
values in every real execution of the builder's calls that satisfies the constraints the builder adds.

Axioms of every theorem: propext, Classical.choice, Quot.sound.
-/

namespace Verif
open Build

variable {E : Type} [NormedAddCommGroup E] [InnerProductSpace ℝ E] {C : CAS}

theorem PE.val_eq_den (env : Name → ℝ) (rr : RRegs E) (e : PE) : e.val env rr.vals = e.den env rr.pts := by
  induction e with
  | reg i => rfl
  | _ => simp_all [PE.den, PE.val]

theorem vsum_eq_total (env : Name → ℝ) (rr : RRegs E) (l : List PE) : vsum env rr.vals l = rr.total env l := by
  simp [vsum, RRegs.total, PE.val_eq_den]

theorem ens_realExec {α : Type} {c : Build α} {fs : ℕ → CFun E} {env : Name → ℝ} {rr : RRegs E} {Q : α → Prop}
    (h : Ens (fun k => (fs k).Sample) env rr.vals c Q) (hs : SafeProg c.prog ⟨0, 0, 0⟩ = true) (hx : RealExec fs env c.prog rr)
    (hc : rr.ConsHold) : Q c.result := by
  obtain ⟨h1, h2⟩ := meets_of_realExec hs hx
  exact h _ _ h1 (by unfold RRegs.ConsHold at hc; rw [h2] at hc; exact hc)

/-- every statement holds of arbitrary data -/
theorem safe_dualDecomposition (k : ℕ) (mu : ℚ) (L : Option ℚ) (Ind : ℚ) : SafeProg (dualDecomposition k mu L Ind).prog ⟨0, 0, 0⟩ = true :=
  safe_of_can (E := ℝ) (SR := fun _ _ _ _ => True) (env := fun _ => 0) (can_dualDecomposition (x_star := 0) (z1 := 0) (z15 := 0) (ys := 0)
    (i1 := 0) (x1 := 0) (i15 := 0) (x15 := 0) (i2 := 0) (vs := 0) (v1 := 0) (v15 := 0) rfl (by simp) (by simp) (by simp) (by simp) (by simp)
    (by simp) (by simp) (by simp) (by simp))

theorem safe_primalDecomposition (k : ℕ) (mu : ℚ) (L : Option ℚ) (Cap : ℚ) : SafeProg (primalDecomposition k mu L Cap).prog ⟨0, 0, 0⟩ = true :=
  safe_of_can (E := ℝ) (SR := fun _ _ _ _ => True) (env := fun _ => 0) (can_primalDecomposition (x_star := 0) (z1 := 0) (z15 := 0) (z2 := 0)
    (ys := 0) (y1 := 0) (y15 := 0) (vs := 0) (v1 := 0) (v15 := 0) rfl (by simp) (by simp) (by simp) (by simp) (by simp) (by simp))

theorem safe_admmConsensus (k : ℕ) (mu : ℚ) (L : Option ℚ) (R Ind : ℚ) : SafeProg (admmConsensus k mu L R Ind).prog ⟨0, 0, 0⟩ = true :=
  safe_of_can (E := ℝ) (SR := fun _ _ _ _ => True) (env := fun _ => 0) (can_admmConsensus (x_star := 0) (e1 := 0) (s15 := 0) (e15 := 0) (e2 := 0)
    (ys := 0) (i1 := 0) (x15 := 0) (g15 := 0) (i15 := 0) (x2 := 0) (g2 := 0) (i2 := 0) (vs := 0) (v15 := 0) (v2 := 0) rfl (by simp) (by simp)
    (by simp) (by simp) (by simp) (by simp) (by simp) (by simp) (by simp) (by simp) (by simp) (by simp))

theorem safe_admmEulerConsensus (k : ℕ) (mu : ℚ) (L : Option ℚ) (R Ind : ℚ) : SafeProg (admmEulerConsensus k mu L R Ind).prog ⟨0, 0, 0⟩ = true :=
  safe_of_can (E := ℝ) (SR := fun _ _ _ _ => True) (env := fun _ => 0) (can_admmEulerConsensus (x_star := 0) (e1 := 0)
    (ys := 0) (i1 := 0) (x1 := 0) (g1 := 0) (i2 := 0) (vs := 0) (v1 := 0) rfl (by simp) (by simp)
    (by simp) (by simp) (by simp) (by simp) (by simp))

/-- **C35** for `dual_decomposition`: the `n` inductor currents sum to zero at steps 1, 1.5 and 2. -/
theorem C35_dualDecomposition (k : ℕ) (mu : ℚ) (L : Option ℚ) (Ind : ℚ) (fs : ℕ → CFun E) (env : Name → ℝ) (rr : RRegs E)
    (hx : RealExec fs env (dualDecomposition k mu L Ind).prog rr) (hc : rr.ConsHold) :
    ((dualDecomposition k mu L Ind).result.i1.length = k + 2 ∧ (dualDecomposition k mu L Ind).result.i15.length = k + 2 ∧
      (dualDecomposition k mu L Ind).result.i2.length = k + 2) ∧
    rr.total env (dualDecomposition k mu L Ind).result.i1 = 0 ∧ rr.total env (dualDecomposition k mu L Ind).result.i15 = 0 ∧
      rr.total env (dualDecomposition k mu L Ind).result.i2 = 0 := by
  simpa only [vsum_eq_total] using ens_realExec (ens_dualDecomposition k mu L Ind) (safe_dualDecomposition k mu L Ind) hx hc

/-- **C35** for `admm_euler_consensus`: the `n` inductor currents sum to zero at steps 1 and 2. -/
theorem C35_admmEulerConsensus (k : ℕ) (mu : ℚ) (L : Option ℚ) (R Ind : ℚ) (fs : ℕ → CFun E) (env : Name → ℝ) (rr : RRegs E)
    (hx : RealExec fs env (admmEulerConsensus k mu L R Ind).prog rr) (hc : rr.ConsHold) :
    ((admmEulerConsensus k mu L R Ind).result.i1.length = k + 2 ∧ (admmEulerConsensus k mu L R Ind).result.i2.length = k + 2) ∧
    rr.total env (admmEulerConsensus k mu L R Ind).result.i1 = 0 ∧ rr.total env (admmEulerConsensus k mu L R Ind).result.i2 = 0 := by
  simpa only [vsum_eq_total] using ens_realExec (ens_admmEulerConsensus k mu L R Ind) (safe_admmEulerConsensus k mu L R Ind) hx hc

/-- **C35** for `admm_consensus`: the currents sum to zero at steps 1 and 2; at step 1.5 they sum to `α h / Ind · (n - 1)` times the sum of
the potentials at step 1.5. -/
theorem C35_admmConsensus (k : ℕ) (mu : ℚ) (L : Option ℚ) (R Ind : ℚ) (fs : ℕ → CFun E) (env : Name → ℝ) (rr : RRegs E)
    (hx : RealExec fs env (admmConsensus k mu L R Ind).prog rr) (hc : rr.ConsHold) :
    ((admmConsensus k mu L R Ind).result.i1.length = k + 2 ∧ (admmConsensus k mu L R Ind).result.i15.length = k + 2 ∧
      (admmConsensus k mu L R Ind).result.i2.length = k + 2 ∧ (admmConsensus k mu L R Ind).result.x15.length = k + 2) ∧
    rr.total env (admmConsensus k mu L R Ind).result.i1 = 0 ∧ rr.total env (admmConsensus k mu L R Ind).result.i2 = 0 ∧
      rr.total env (admmConsensus k mu L R Ind).result.i15 =
        (env "alpha" * env "h" / Ind * (k + 1)) • rr.total env (admmConsensus k mu L R Ind).result.x15 := by
  simpa only [vsum_eq_total] using ens_realExec (ens_admmConsensus k mu L R Ind) (safe_admmConsensus k mu L R Ind) hx hc

/-- the function 0 -/
def zeroFun : CFun ℝ := ⟨Set.univ, fun _ => 0⟩

theorem zeroFun_sample (x : ℝ) : zeroFun.Sample x 0 0 := by simp [zeroFun, CFun.Sample]

theorem zeroFun_holds : (defDecl 0 none).Holds zeroFun := by
  simpa [defDecl, FnDecl.Holds, zeroFun] using convexOn_const (0 : ℝ) (convex_univ (𝕜 := ℝ) (E := ℝ))

theorem IsPts.total {W : Set Name} {env : Name → ℝ} {rr : RRegs E} {l : List PE} {m : ℕ} {v : ℕ → E} (h : IsPts W env rr l m v) :
    rr.total env l = ∑ i ∈ Finset.range m, v i := by
  obtain ⟨rfl, h⟩ := h
  unfold RRegs.total
  rw [Finset.sum_range, ← List.sum_ofFn]
  congr 1
  apply List.ext_getElem
  · simp
  · intro i h1 h2
    simp only [List.getElem_map, List.getElem_ofFn]
    exact (h i _ (List.getElem?_eq_getElem (by simpa using h1))).2

/-- **C35**, the violation: in `admm_consensus` with convex functions, for every number of functions, whenever `α h ≠ 0` there is an execution
that satisfies the constraints and in which the currents at step 1.5 do not sum to zero. -/
theorem C35_admmConsensus_violated (k : ℕ) (R Ind : ℚ) (hInd : Ind ≠ 0) (env : Name → ℝ) (ha : env "alpha" * env "h" ≠ 0) :
    ∃ rr : RRegs ℝ, Instance (admmConsensus k 0 none R Ind).prog (fun _ => zeroFun) ∧
      RealExec (fun _ => zeroFun) env (admmConsensus k 0 none R Ind).prog rr ∧ rr.ConsHold ∧
      rr.total env (admmConsensus k 0 none R Ind).result.i15 ≠ 0 := by
  have hk : ((k : ℝ) + 2) ≠ 0 := by positivity
  have hsum : ((k : ℝ) + 2)⁻¹ * ((k : ℝ) + 2) = 1 := inv_mul_cancel₀ hk
  obtain ⟨rr, h1, h2, h3, h4, -⟩ := realExec_of_can (can_admmConsensus (SR := fun _ => zeroFun.Sample) (env := env) (D := defDecl 0 none) (k := k)
    (mu := 0) (L := none) (R := R) (Ind := Ind) (x_star := 0) (e1 := 1)
    (s15 := k + 2) (e15 := 1) (e2 := R * ((pAlpha * pH / Ind).eval env • ((k : ℝ) + 2 - 1)) + 1) (ys := 0) (i1 := 0) (x15 := 1) (g15 := 0)
    (i15 := fun _ => (pAlpha * pH / Ind).eval env • ((k : ℝ) + 2 - 1))
    (x2 := fun _ => R * ((pAlpha * pH / Ind).eval env • ((k : ℝ) + 2 - 1)) + 1) (g2 := 0)
    (i2 := 0) (vs := 0) (v15 := 0) (v2 := 0) rfl
    (fun _ _ => zeroFun_sample _) (by simp) (by simp) (fun _ _ => zeroFun_sample _) (by simp) (by simp) (by simp) (by push_cast; simp [hsum])
    (fun _ _ => zeroFun_sample _) (by simp) (by
      simp only [Finset.sum_const, Finset.card_range, nsmul_eq_mul, smul_eq_mul]
      push_cast
      rw [inv_mul_cancel_left₀ hk]) (by simp))
  refine ⟨rr, ?_, h1, h3, ?_⟩
  · intro j d hd
    rw [h2 d (List.mem_of_getElem? hd)]
    exact zeroFun_holds
  · rw [h4.total]
    simp only [Finset.sum_const, Finset.card_range, nsmul_eq_mul, smul_eq_mul, Sym.eval_div', Sym.eval_hmul, pAlpha_eval, pH_eval]
    have h5 : (k : ℝ) + 2 - 1 ≠ 0 := by
      have : (0 : ℝ) ≤ k := Nat.cast_nonneg k
      linarith
    have h6 : (Ind : ℝ) ≠ 0 := by exact_mod_cast hInd
    push_cast
    exact mul_ne_zero hk (mul_ne_zero (div_ne_zero ha h6) h5)

/-- the hypotheses of `C35_admmConsensus` can be met, with more than two functions and currents that are not all zero -/
example : ∃ rr : RRegs ℝ, RealExec (fun _ => zeroFun) (fun _ => 1) (admmConsensus 5 0 none 1 1).prog rr ∧ rr.ConsHold ∧
    rr.total (fun _ => 1) (admmConsensus 5 0 none 1 1).result.i15 ≠ 0 :=
  (C35_admmConsensus_violated 5 1 1 one_ne_zero (fun _ => 1) (by norm_num)).imp fun _ h => ⟨h.2.1, h.2.2.1, h.2.2.2⟩

/-- `2, -2, 0, 0, …` -/
def twoOf (i : ℕ) : ℝ := if i = 0 then 2 else if i = 1 then -2 else 0

theorem twoOf_sum (k : ℕ) : ∑ i ∈ Finset.range (k + 2), twoOf i = 0 := by
  induction k with
  | zero => simp [Finset.sum_range_succ, twoOf]
  | succ k ih => rw [Finset.sum_range_succ, ih]; simp [twoOf]

theorem sqFun_at {x g : ℝ} (h : g = 2 * x) : sqFun.Sample x g (x ^ 2) := h ▸ sqFun_sample x

/-- the hypotheses of `C35_dualDecomposition` can be met for every number of functions, with currents that are not all zero -/
example (k : ℕ) : ∃ rr : RRegs ℝ, RealExec (fun _ => sqFun) (fun _ => 1) (dualDecomposition k 0 none 1).prog rr ∧ rr.ConsHold ∧
    (rr.metric = some (∑ i ∈ Finset.range (k + 2), (1 / 2 : ℝ) * (twoOf i / 2) ^ 2 -
      (∑ i ∈ Finset.range (k + 2), (1 / 2 : ℝ) * twoOf i ^ 2 - ∑ i ∈ Finset.range (k + 2), twoOf i * (twoOf i / 2)))) := by
  obtain ⟨rr, h1, -, h3, h4⟩ := realExec_of_can (can_dualDecomposition (SR := fun _ => sqFun.Sample) (env := fun _ => 1) (D := defDecl 0 none)
    (k := k) (mu := 0) (L := none) (Ind := 1) (x_star := 0) (z1 := 0) (z15 := 0) (ys := 0) (i1 := twoOf) (x1 := fun i => twoOf i / 2)
    (i15 := fun i => twoOf i / 2) (x15 := fun i => twoOf i / 4) (i2 := fun i => twoOf i / 2) (vs := fun _ => 0 ^ 2) rfl
    (fun _ _ => sqFun_at (by simp)) (by simp) (twoOf_sum k) (fun _ _ => sqFun_at (by ring)) (by rw [← Finset.sum_div, twoOf_sum]; simp)
    (fun i _ => by simp; ring) (fun _ _ => sqFun_at (by ring)) (by rw [← Finset.sum_div, twoOf_sum]; simp)
    (fun i _ => by simp; ring))
  refine ⟨rr, h1, h3, h4.trans ?_⟩
  simp [div_pow]

/-- the hypotheses of `C35_admmEulerConsensus` can be met for every number of functions, with currents that are not all zero -/
example (k : ℕ) : ∃ rr : RRegs ℝ, RealExec (fun _ => sqFun) (fun _ => 1) (admmEulerConsensus k 0 none 1 1).prog rr ∧ rr.ConsHold := by
  obtain ⟨rr, h1, -, h3, -⟩ := realExec_of_can (can_admmEulerConsensus (SR := fun _ => sqFun.Sample) (env := fun _ => 1) (D := defDecl 0 none)
    (k := k) (mu := 0) (L := none) (R := 1) (Ind := 1) (x_star := 0) (e1 := 0) (ys := 0) (i1 := twoOf) (x1 := fun i => twoOf i / 3)
    (g1 := fun i => 2 * twoOf i / 3) (i2 := fun i => 2 * twoOf i / 3) (vs := fun _ => 0 ^ 2) rfl
    (fun _ _ => sqFun_at (by simp)) (by simp) (twoOf_sum k) (fun _ _ => sqFun_at (by ring)) (fun i _ => by simp; ring)
    (fun i _ => by simp; ring) (by rw [← Finset.sum_div, twoOf_sum]; simp))
  exact ⟨rr, h1, h3⟩

end Verif
