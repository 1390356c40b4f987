import Verif.Proofs.PrimalRun
import Verif.Proofs.EnsFns
import Verif.Props.Optimum
import Verif.Props.Robust
import Mathlib.Algebra.Order.Chebyshev

/-!
# C79: `primal_decomposition` with any number of functions is analysed exactly
-/

namespace Verif
open Build Heap
open scoped InnerProductSpace

variable {C : CAS}

/-- completeness from executions: as `complete_of_runs`, for executions given by their states -/
theorem complete_of_execs {prog : List Instr} {params : List Name} (hC : C.Lawful) (hs : SafeProg prog ⟨0, 0, 0⟩ = true)
    (hclean : ∀ i ∈ prog, i.Clean {n | n ∈ params}) (hst : Standard prog = true) (hd : ∀ d ∈ decls prog, d.Ok ∧ d.Default = true)
    (s : SimpleParams params) (hmet : ∃ e, Instr.metric e ∈ prog) {Gen : (Name → ℝ) → Prop} (hne : ∃ env, Gen env)
    (hw : ∀ env, Gen env → ∃ (fs : ℕ → CFun ℝ) (rr : RRegs ℝ), Instance prog fs ∧ (∀ k d, (decls prog)[k]? = some d → (fs k).StrictIn d.cls) ∧
      RealExec fs env prog rr ∧ Distinct prog rr ∧ rr.cons = []) :
    ∃ r h nlp h', runProblem C prog Heap.empty = .ok (r, h) ∧ solveIpopt C r params [] [] h = .ok (nlp, h') ∧
      ∀ env, Gen env → ((∃ σ, nlp.state.Sat σ ∧ ∀ n ∈ scalarNames params, nlp.state.value σ n = env n) ↔
        Guaranteed prog env ∧ InvOk params env ∧ ∀ n ∈ ["eta", "rho", "h"], 0 ≤ env n) := by
  refine complete_of_runs hC hs hclean hst hd s hmet hne fun env hg => ?_
  obtain ⟨fs, rr, h1, h2, h3, h4, h5⟩ := hw env hg
  obtain ⟨m1, m2⟩ := meets_of_realExec hs h3
  refine ⟨fs, _, h1, h2, m1, ?_, fun k hk => ?_⟩
  · rw [← m2, h5]; simp
  · exact (h4 k hk).2

/-- The energy inequality of `primal_decomposition` with `n` functions, for all functions `f 0, …, f (n - 1)` of the class in every inner product space,
every minimizer `x_star` of their sum and every start `z_1`: `z_1p5` and `z_2` are the points of the step, `y` are gradients. -/
def PrimalDecompositionStep (n : ℕ) (mu : ℚ) (L : Option ℚ) (Cap : ℚ) (p : Name → ℝ) : Prop :=
  ∀ (E : Type) [NormedAddCommGroup E] [InnerProductSpace ℝ E] (f : ℕ → CFun E), (∀ i < n, (defDecl mu L).Holds (f i)) →
    ∀ (x_star z_1 z_1p5 z_2 : E) (y_star y_1 y_1p5 : ℕ → E) (v_star v_1 v_1p5 : ℕ → ℝ),
      (∀ i < n, (f i).Sample x_star (y_star i) (v_star i)) → ∑ i ∈ Finset.range n, y_star i = 0 →
      (∀ i < n, (f i).Sample z_1 (y_1 i) (v_1 i)) →
      z_1p5 = z_1 - (p "alpha" * p "h" / Cap) • ∑ i ∈ Finset.range n, y_1 i →
      (∀ i < n, (f i).Sample z_1p5 (y_1p5 i) (v_1p5 i)) →
      z_2 = z_1 - (p "beta" * p "h" / Cap) • ∑ i ∈ Finset.range n, y_1 i - ((1 - p "beta") * p "h" / Cap) • ∑ i ∈ Finset.range n, y_1p5 i →
      Cap / 2 * ‖z_2 - x_star‖ ^ 2 ≤ Cap / 2 * ‖z_1 - x_star‖ ^ 2 - p "eta" * ⟪z_1 - x_star, ∑ i ∈ Finset.range n, y_1 i⟫_ℝ

/-- the runs of the builder on `c x² / 2` -/
theorem run_primalDecomposition (k : ℕ) {mu : ℚ} {L : Option ℚ} (Cap : ℚ) {c : ℝ} (hmu : 0 ≤ mu) (hc : Inside mu L c) (z1 : ℝ) (p : Name → ℝ) :
    ∃ rr, RealExec (fun _ => quadF c 0) p (primalDecomposition k mu L Cap).prog rr ∧ rr.cons = [] ∧
      SafeProg (primalDecomposition k mu L Cap).prog ⟨0, 0, 0⟩ = true ∧ Standard (primalDecomposition k mu L Cap).prog = true ∧
      (∀ i ∈ (primalDecomposition k mu L Cap).prog, i.Fine {n | n ∈ stdParams} (defDecl mu L)) ∧ (decls (primalDecomposition k mu L Cap).prog).length = k + 1 ∧
      (∃ v, rr.metric = some v) ∧
      ∃ j0 j1 j2, (∀ i < k + 1, calls i (primalDecomposition k mu L Cap).prog = [j0, j1, j2]) ∧ (j0 < rr.pts.length ∧ rr.pts.getD j0 0 = 0) ∧
        (j1 < rr.pts.length ∧ rr.pts.getD j1 0 = z1) ∧
        (j2 < rr.pts.length ∧ rr.pts.getD j2 0 = z1 - p "alpha" * p "h" / Cap * ((k + 1) * (c * z1))) := by
  have hc0 : 0 < c := lt_of_le_of_lt (by exact_mod_cast hmu) hc.1
  obtain ⟨rr, h1, -, h3, h4, -, h6, h7, hm, h8, j0, j1, j2, h9, h10, h11, h12⟩ := trk_primalDecomposition (k := k) (Cap := Cap) (D := defDecl mu L) rfl
    (SR := fun k => (quadF c 0).Sample) (env := p)
    (x_star := 0) (z1 := z1) (ys := fun _ => 0) (vs := fun _ => 0) (y1 := fun _ => c * z1) (v1 := fun _ => c / 2 * z1 ^ 2)
    (fun i _ => quadF_smp0 hc0) (by simp) (fun i _ => quadF_smp hc0 z1) rfl (fun i _ => quadF_smp hc0 _)
  refine ⟨rr, h1, h6, h3, h7, h4, ?_, hm, j0, j1, j2, h9, h10, h11, h12.1, ?_⟩
  · have := decls_count (primalDecomposition k mu L Cap).prog []
    rw [show (declAll [] (primalDecomposition k mu L Cap).prog).count true = k + 1 from h8] at this
    simpa using this.symm
  · rw [h12.2]; simp

/-- the calls of the builder -/
theorem prog_primalDecomposition (k : ℕ) {mu : ℚ} {L : Option ℚ} (Cap : ℚ) (hok : (defDecl mu L).Ok) :
    SafeProg (primalDecomposition k mu L Cap).prog ⟨0, 0, 0⟩ = true ∧ Standard (primalDecomposition k mu L Cap).prog = true ∧
      (∀ i ∈ (primalDecomposition k mu L Cap).prog, i.Clean {n | n ∈ stdParams}) ∧
      decls (primalDecomposition k mu L Cap).prog = List.replicate (k + 1) (defDecl mu L) ∧ ∃ e, Instr.metric e ∈ (primalDecomposition k mu L Cap).prog := by
  obtain ⟨c, hc⟩ := (inside_infinite hok).nonempty
  obtain ⟨rr, h1, -, h3, h4, h5, h6, ⟨v, hv⟩, -⟩ := run_primalDecomposition k Cap (defDecl_nonneg hok) hc 1 fun _ => 0
  refine ⟨h3, h4, fun i hi => (h5 i hi).1, List.eq_replicate_iff.2 ⟨h6, fun d hd => (h5 _ (mem_decls hd)).2 d rfl⟩, ?_⟩
  rw [metric_of_realExec h3 h1] at hv
  cases hm : metricReg (primalDecomposition k mu L Cap).prog none with
  | none => rw [hm] at hv; cases hv
  | some e =>
    have : ∀ (is : List Instr) m, metricReg is m = some e → m = some e ∨ Instr.metric e ∈ is := by
      intro is
      induction is with
      | nil => exact fun m h => .inl h
      | cons i is ih =>
        intro m h
        cases i with
        | metric e' =>
          rcases ih _ h with h | h
          · injection h with h; subst h; exact .inr List.mem_cons_self
          · exact .inr (List.mem_cons_of_mem _ h)
        | _ => exact (ih _ h).imp_right (List.mem_cons_of_mem _)
    rcases this _ _ hm with h | h
    · cases h
    · exact ⟨e, h⟩

/-- the metric of every run is bounded by 0 iff the energy inequality holds for all functions and steps -/
theorem guaranteed_primalDecomposition (k : ℕ) {mu : ℚ} {L : Option ℚ} (Cap : ℚ) (hok : (defDecl mu L).Ok) {p : Name → ℝ} :
    Guaranteed (primalDecomposition k mu L Cap).prog p ↔ PrimalDecompositionStep (k + 1) mu L Cap p := by
  obtain ⟨hs, -, -, hdecl, -⟩ := prog_primalDecomposition k Cap hok
  constructor
  · intro hg E _ _ f hf x_star z_1 z_1p5 z_2 y_star y_1 y_1p5 v_star v_1 v_1p5 s0 s1 s2 s3 s4 s5
    obtain ⟨rr, h1, -, h3, h4⟩ := realExec_of_can (fs := f) (env := p) (can_primalDecomposition (SR := fun i => (f i).Sample) (D := defDecl mu L)
      (mu := mu) (L := L) (Cap := Cap) rfl s0 s1 s2 (by simpa using s3) s4 (by simpa using s5))
    have := hg f (fun i d hd => ?_) rr h1 h3 _ h4
    · simp at this
      linarith
    · rw [hdecl, List.getElem?_replicate] at hd
      split at hd
      · rename_i hi
        injection hd with hd; subst hd; exact hf i hi
      · cases hd
  · intro h E _ _ fs hi rr hx hcons v hv
    obtain ⟨h1, h2⟩ := meets_of_realExec hs hx
    have hf : ∀ i < k + 1, (defDecl mu L).Holds (fs i) := fun i hlt => hi i _ (by rw [hdecl, List.getElem?_replicate, if_pos hlt])
    rw [metric_of_realExec hs hx] at hv
    obtain ⟨e, he, hle⟩ : ∃ e, metricReg (primalDecomposition k mu L Cap).prog none = some e ∧ rr.vals.ex e ≤ 0 := by
      unfold primalDecomposition at h1 h2 ⊢
      refine EnsM.start (Q := fun m => ∃ e, m = some e ∧ rr.vals.ex e ≤ 0) (coh_defineSum _ _ _) (ensN_defineSum _ _ _) ?_ h1 (by rw [← h2]; exact hcons)
      rintro ⟨l, f⟩ - ⟨⟨hl, hl'⟩, hf'⟩
      dsimp only at hl hl' hf' ⊢
      refine EnsM.bind (.stationary _) (.stationary _) ?_
      rintro ⟨xs, ys, v⟩ ⟨b1, b2⟩
      dsimp only at b1 b2 ⊢
      rw [hf'] at b1
      obtain ⟨y0, w0, c1, c2, -⟩ := samples_of_range b1
      refine EnsM.bind .initial (.true _) fun z_1 _ => ?_
      refine EnsM.bind (.loop (coh_gradSumStep _) _ _) (ens_gradSum hl hl' z_1) ?_
      rintro s ⟨y1, w1, d1, d2⟩
      replace d2 := d2.getD (by omega)
      refine EnsM.bind (.pt _) (.pt _) fun z_15 e1 => ?_
      refine EnsM.bind (.loop (coh_gradSumStep _) _ _) (ens_gradSum hl hl' z_15) ?_
      rintro s' ⟨y15, w15, d3, d4⟩
      replace d4 := d4.getD (by omega)
      refine EnsM.bind (.pt _) (.pt _) fun z_2 e2 => ?_
      refine EnsM.bind (.ex _) (.ex _) fun E_1 e3 => ?_
      refine EnsM.bind (.ex _) (.ex _) fun E_2 e4 => ?_
      refine EnsM.bind (.ex _) (.ex _) fun D_1 e5 => ?_
      intro n nd m g1 g2
      obtain ⟨e, g3, g4⟩ := EnsM.finishMetric E_1 E_2 D_1 n nd m g1 g2
      refine ⟨e, g3, ?_⟩
      have := h E fs hf (xs.val p rr.vals) (z_1.val p rr.vals) (z_15.val p rr.vals) (z_2.val p rr.vals) y0 y1 y15 w0 w1 w15 c1 c2.symm d1 (by rw [e1]; simp [d2]) d3 (by rw [e2]; simp [d2, d4])
      rw [g4, e3, e4, e5]
      simp [b2, d2]
      linarith
    rw [he] at hv
    injection hv with hv
    rw [← hv]
    exact hle

/-- **C79** `primal_decomposition` with any number `n = k + 1` of functions, for all class parameters and capacities: at all parameter values with
`h`, `alpha` not 0 the nonlinear program of `solve_ipopt` has a feasible point with these parameters if and only if the energy inequality holds for
all functions of the class and all steps (and `eta`, `rho`, `h` are not negative). -/
theorem C79_primalDecomposition (hC : C.Lawful) (k : ℕ) (mu : ℚ) (L : Option ℚ) (Cap : ℚ) (hok : (defDecl mu L).Ok) (hCap : Cap ≠ 0) :
    ∃ r h nlp h', runProblem C (primalDecomposition k mu L Cap).prog Heap.empty = .ok (r, h) ∧ solveIpopt C r stdParams [] [] h = .ok (nlp, h') ∧
      ∀ p : Name → ℝ, p "h" ≠ 0 → p "alpha" ≠ 0 →
        ((∃ σ, nlp.state.Sat σ ∧ ∀ n ∈ scalarNames stdParams, nlp.state.value σ n = p n) ↔
          PrimalDecompositionStep (k + 1) mu L Cap p ∧ 0 ≤ p "eta" ∧ 0 ≤ p "rho" ∧ 0 ≤ p "h") := by
  have hC' : (Cap : ℝ) ≠ 0 := by exact_mod_cast hCap
  have hmu := defDecl_nonneg hok
  obtain ⟨hs, hst, hclean, hdecl, hmet⟩ := prog_primalDecomposition k Cap hok
  have hd : ∀ d ∈ decls (primalDecomposition k mu L Cap).prog, d = defDecl mu L := by rw [hdecl]; exact fun d h => List.eq_of_mem_replicate h
  obtain ⟨r, h, nlp, h', hr, hn, hiff⟩ := complete_of_execs (prog := (primalDecomposition k mu L Cap).prog) (params := stdParams)
    (Gen := fun p => p "h" ≠ 0 ∧ p "alpha" ≠ 0) hC hs hclean hst (fun d hm => by
      rw [hd d hm]
      refine ⟨hok, ?_⟩
      unfold defDecl
      split
      · rfl
      · split
        · rfl
        · split <;> rfl) stdParams_simple hmet ⟨fun _ => 1, by norm_num, by norm_num⟩ (by
      rintro p ⟨hh, ha⟩
      have hk : p "alpha" * p "h" / Cap * (k + 1) ≠ 0 := mul_ne_zero (div_ne_zero (mul_ne_zero ha hh) hC') (by positivity)
      obtain ⟨c, hc, hne⟩ := (generic [fun c => 1 - p "alpha" * p "h" / Cap * (k + 1) * c] (inside_infinite hok) (by
        simp only [List.forall_mem_cons, List.not_mem_nil, false_implies, implies_true, and_true]
        exact ⟨by is_poly, 0, by simp⟩)).nonempty
      simp only [List.forall_mem_cons, List.not_mem_nil, false_implies, implies_true, and_true] at hne
      have hc0 : 0 < c := lt_of_le_of_lt (by exact_mod_cast hmu) hc.1
      obtain ⟨rr, h1, h2, -, -, -, h6, -, j0, j1, j2, h7, h8, h9, h10⟩ := run_primalDecomposition k Cap hmu hc 1 p
      refine ⟨fun _ => quadF c 0, rr, fun i d hi => ?_, fun i d hi => ?_, h1, fun i hi => ?_, h2⟩
      · rw [hd d (List.mem_of_getElem? hi)]; exact quadF_holds hmu hc 0
      · rw [hd d (List.mem_of_getElem? hi)]; exact quadF_strict hmu hc 0
      · rw [h7 i (by omega)]
        refine ⟨by simp [h8.1, h9.1, h10.1], ?_⟩
        simp only [List.map_cons, List.map_nil, h8.2, h9.2, h10.2, List.nodup_cons, List.mem_cons, List.not_mem_nil, or_false, not_or, not_false_eq_true, and_true,
          List.nodup_nil, mul_one]
        have e : 1 - p "alpha" * p "h" / Cap * ((k + 1) * c) = 1 - p "alpha" * p "h" / Cap * (k + 1) * c := by ring
        rw [e]
        refine ⟨⟨by norm_num, fun h => hne h.symm⟩, fun h => ?_⟩
        have : p "alpha" * p "h" / Cap * (k + 1) * c = 0 := by linarith
        exact mul_ne_zero hk hc0.ne' this)
  refine ⟨r, h, nlp, h', hr, hn, fun p h1 h2 => ?_⟩
  have hinv : InvOk stdParams p := fun v hv => absurd hv (by rw [show invParams stdParams = [] by decide]; simp)
  rw [hiff p ⟨h1, h2⟩, guaranteed_primalDecomposition k Cap hok]
  simp [hinv]

example : (defDecl 0 (some 1)).Ok ∧ (defDecl 1 none).Ok ∧ (1 : ℚ) ≠ 0 := by simp [defDecl, FnDecl.Ok]

/-! ### The largest `eta` -/

section
variable {E : Type} [NormedAddCommGroup E] [InnerProductSpace ℝ E]

omit [InnerProductSpace ℝ E] in
theorem norm_sum_sq_le (n : ℕ) (d : ℕ → E) : ‖∑ i ∈ Finset.range n, d i‖ ^ 2 ≤ n * ∑ i ∈ Finset.range n, ‖d i‖ ^ 2 := by
  have h1 : ‖∑ i ∈ Finset.range n, d i‖ ≤ ∑ i ∈ Finset.range n, ‖d i‖ := norm_sum_le _ _
  have h2 := sq_sum_le_card_mul_sum_sq (s := Finset.range n) (f := fun i => ‖d i‖)
  rw [Finset.card_range] at h2
  exact (pow_le_pow_left₀ (norm_nonneg _) h1 2).trans h2
end

/-- steps of length `Cap / (n L)` -/
theorem primal_step {k : ℕ} {mu L Cap : ℚ} (hmu : 0 ≤ mu) (hL : mu < L) (hCap : 0 < Cap) {p : Name → ℝ} (hb : p "beta" = 1)
    (hh : p "h" = Cap / ((k + 1) * L)) (he : p "eta" = Cap / (2 * (k + 1) * L)) : PrimalDecompositionStep (k + 1) mu (some L) Cap p := by
  have hL0 : 0 < L := lt_of_le_of_lt hmu hL
  have hl : (0 : ℝ) < L := by exact_mod_cast hL0
  have hc : (0 : ℝ) < Cap := by exact_mod_cast hCap
  intro E _ _ f hf x_star z_1 z_1p5 z_2 y_star y_1 y_1p5 v_star v_1 v_1p5 s0 s1 s2 s3 s4 s5
  have hco : ∀ i ∈ Finset.range (k + 1), ‖y_1 i - y_star i‖ ^ 2 / L ≤ ⟪y_1 i - y_star i, z_1 - x_star⟫_ℝ := by
    intro i hi
    rw [Finset.mem_range] at hi
    refine cocoercive hL0 ?_ (s2 i hi) (s0 i hi)
    have := hf i hi
    rw [show FnDecl.smoothConvex (some L) = defDecl 0 (some L) by simp [defDecl]]
    rw [C12_members] at this ⊢
    exact ⟨this.1.mono (by exact_mod_cast hmu), this.2⟩
  have hsum := Finset.sum_le_sum hco
  rw [← sum_inner, ← Finset.sum_div, Finset.sum_sub_distrib, s1, sub_zero] at hsum
  have hcs := norm_sum_sq_le (k + 1) fun i => y_1 i - y_star i
  rw [Finset.sum_sub_distrib, s1, sub_zero] at hcs
  generalize ∑ i ∈ Finset.range (k + 1), y_1 i = S at *
  generalize ∑ i ∈ Finset.range (k + 1), ‖y_1 i - y_star i‖ ^ 2 = T at *
  have hz : z_2 - x_star = (z_1 - x_star) - ((k + 1) * L : ℝ)⁻¹ • S := by
    rw [s5, hb, hh]
    simp only [sub_self, zero_mul, zero_div, zero_smul, sub_zero]
    rw [show (1 : ℝ) * (Cap / ((k + 1) * L)) / Cap = ((k + 1) * L : ℝ)⁻¹ by field_simp]
    abel
  rw [hz, norm_sub_sq_real, inner_smul_right, norm_smul, mul_pow, Real.norm_eq_abs, sq_abs, he]
  rw [real_inner_comm] at hsum
  push_cast at hcs
  generalize ⟪z_1 - x_star, S⟫_ℝ = q at *
  have hT : T ≤ q * L := by rwa [div_le_iff₀ hl] at hsum
  have hS : ‖S‖ ^ 2 ≤ (k + 1) * (q * L) := hcs.trans (mul_le_mul_of_nonneg_left hT (by positivity))
  have hn : (0 : ℝ) < (k + 1) * L := by positivity
  have h3 : Cap / 2 * (((k + 1) * L : ℝ)⁻¹ ^ 2 * ‖S‖ ^ 2) ≤ Cap / 2 * (((k + 1) * L : ℝ)⁻¹ * q) := by
    refine mul_le_mul_of_nonneg_left ?_ (by positivity)
    rw [sq, mul_assoc]
    refine mul_le_mul_of_nonneg_left ?_ (by positivity)
    rw [inv_mul_le_iff₀ hn]
    linarith
  have h4 : (Cap : ℝ) / (2 * (k + 1) * L) * q = Cap / 2 * (((k + 1) * L : ℝ)⁻¹ * q) := by field_simp
  rw [h4]
  linarith

/-- **C78**, `primal_decomposition` with any number `n = k + 1` of functions: over all feasible points of the nonlinear program the largest value of
`eta` is exactly `Cap / (2 n L)`. -/
theorem C78_primalDecomposition (hC : C.Lawful) (k : ℕ) {mu L Cap : ℚ} (hmu : 0 ≤ mu) (hL : mu < L) (hCap : 0 < Cap) :
    ∃ r h nlp h', runProblem C (primalDecomposition k mu (some L) Cap).prog Heap.empty = .ok (r, h) ∧ solveIpopt C r stdParams [] [] h = .ok (nlp, h') ∧
      IsGreatest {e | ∃ σ, nlp.state.Sat σ ∧ nlp.state.value σ "eta" = e} ((Cap : ℝ) / (2 * (k + 1) * L)) := by
  have hL0 : 0 < L := lt_of_le_of_lt hmu hL
  have hl : (0 : ℝ) < L := by exact_mod_cast hL0
  have hc : (0 : ℝ) < Cap := by exact_mod_cast hCap
  obtain ⟨r, h, nlp, h', hr, hn, hiff⟩ := C79_primalDecomposition hC k mu (some L) Cap (defDecl_ok hmu hL) hCap.ne'
  refine ⟨r, h, nlp, h', hr, hn, ?_, ?_⟩
  · have h0 : (0 : ℝ) < Cap / ((k + 1) * L) := by positivity
    have h1 : (0 : ℝ) < Cap / (2 * (k + 1) * L) := by positivity
    obtain ⟨σ, hσ, hv⟩ := (hiff (fun n => if n = "h" then Cap / ((k + 1) * L) else if n = "eta" then Cap / (2 * (k + 1) * L) else 1)
      (by simpa using h0.ne') (by simp)).2 ⟨primal_step hmu hL hCap (by simp) (by simp) (by simp), by simpa using h1.le, by simp, by simpa using h0.le⟩
    exact ⟨σ, hσ, by rw [hv _ (by decide)]; simp⟩
  · rintro e ⟨σ, hσ, rfl⟩
    exact C78_primalDecomposition_le hC k hmu hL hCap ⟨r, h, [], [], nlp, h', σ, hr, hn, hσ, rfl⟩

/-- the value in the notebook: three functions, `L = 1`, capacity 1 give 1/6 -/
example : ((1 : ℚ) : ℝ) / (2 * ((2 : ℕ) + 1) * (1 : ℚ)) = 1 / 6 := by norm_num

end Verif
