import Verif.Proofs.DualRun
import Verif.Props.CompletePrimal

/-!
# C79, C78: `dual_decomposition` with any number of smooth functions is analysed exactly
-/

namespace Verif
open Build Heap
open scoped InnerProductSpace

variable {C : CAS}

/-- The energy inequality of `dual_decomposition` with `n` functions, for all functions `f 0, …, f (n - 1)` of the class in every inner product space,
every minimizer `x_star` of their sum, with gradients `y_star`, and all currents `i_1` with sum 0: `x_1`, `x_1p5` are the points with gradients `i_1`, `i_1p5`,
`z_1`, `z_1p5` their means, and `i_1p5`, `i_2` the currents of the step. -/
def DualDecompositionStep (n : ℕ) (mu : ℚ) (L : Option ℚ) (Ind : ℚ) (p : Name → ℝ) : Prop :=
  ∀ (E : Type) [NormedAddCommGroup E] [InnerProductSpace ℝ E] (f : ℕ → CFun E), (∀ i < n, (defDecl mu L).Holds (f i)) →
    ∀ (x_star z_1 z_1p5 : E) (y_star i_1 x_1 i_1p5 x_1p5 i_2 : ℕ → E) (v_star v_1 v_1p5 : ℕ → ℝ),
      (∀ i < n, (f i).Sample x_star (y_star i) (v_star i)) → ∑ i ∈ Finset.range n, y_star i = 0 →
      ∑ i ∈ Finset.range n, i_1 i = 0 →
      (∀ i < n, (f i).Sample (x_1 i) (i_1 i) (v_1 i)) → z_1 = (n : ℝ)⁻¹ • ∑ i ∈ Finset.range n, x_1 i →
      (∀ i < n, i_1p5 i = i_1 i + (p "alpha" * p "h" / Ind) • (z_1 - x_1 i)) →
      (∀ i < n, (f i).Sample (x_1p5 i) (i_1p5 i) (v_1p5 i)) → z_1p5 = (n : ℝ)⁻¹ • ∑ i ∈ Finset.range n, x_1p5 i →
      (∀ i < n, i_2 i = i_1 i + (p "beta" * p "h" / Ind) • (z_1 - x_1 i) + ((1 - p "beta") * p "h" / Ind) • (z_1p5 - x_1p5 i)) →
      ∑ i ∈ Finset.range n, Ind / 2 * ‖i_2 i - y_star i‖ ^ 2 ≤
        ∑ i ∈ Finset.range n, Ind / 2 * ‖i_1 i - y_star i‖ ^ 2 - p "eta" * ∑ i ∈ Finset.range n, ⟪x_1 i - x_star, i_1 i - y_star i⟫_ℝ

section
variable {E : Type} [NormedAddCommGroup E] [InnerProductSpace ℝ E]

theorem smooth_mono {mu L : ℚ} (hmu : 0 ≤ mu) {F : CFun E} (h : (defDecl mu (some L)).Holds F) : (FnDecl.smoothConvex (some L)).Holds F := by
  rw [show FnDecl.smoothConvex (some L) = defDecl 0 (some L) by simp [defDecl]]
  rw [C12_members] at h ⊢
  exact ⟨h.1.mono (by exact_mod_cast hmu), h.2⟩

/-- smooth functions have one gradient at every point -/
theorem gradient_unique {mu L : ℚ} (hmu : 0 ≤ mu) (hL : mu < L) {F : CFun E} (h : (defDecl mu (some L)).Holds F) {x g g' : E} {v v' : ℝ}
    (s : F.Sample x g v) (s' : F.Sample x g' v') : g = g' := by
  have hL0 : 0 < L := lt_of_le_of_lt hmu hL
  have := cocoercive hL0 (smooth_mono hmu h) s s'
  rw [sub_self, inner_zero_right, div_le_iff₀ (by exact_mod_cast hL0), zero_mul] at this
  exact sub_eq_zero.1 (norm_eq_zero.1 (by nlinarith [norm_nonneg (g - g')]))

/-- gradients of strongly convex functions are strongly monotone -/
theorem strongly_monotone {mu : ℚ} {L : Option ℚ} (hmu : 0 ≤ mu) {F : CFun E} (h : (defDecl mu L).Holds F) {x g y g' : E} {v v' : ℝ}
    (s : F.Sample x g v) (s' : F.Sample y g' v') : mu * ‖x - y‖ ^ 2 ≤ ⟪x - y, g - g'⟫_ℝ := by
  have hF : (FnDecl.strongly mu false).Holds F := ⟨((C12_members mu L F).1 h).1, by simp⟩
  have h1 := lhs_nonpos (d := .strongly mu false) hmu hF s s'
  have h2 := lhs_nonpos (d := .strongly mu false) hmu hF s' s
  simp only [FnDecl.cls, FnClass.lhs] at h1 h2
  rw [norm_sub_rev y x, ← neg_sub x y, inner_neg_right] at h2
  rw [real_inner_comm, inner_sub_left]
  linarith

/-! ### What every run satisfies -/

variable {SR : ℕ → E → E → ℝ → Prop} {env : Name → ℝ} {V : Vals E}

theorem vsum_range (d : PE) (l : List PE) : vsum env V l = ∑ i ∈ Finset.range l.length, (l.getD i d).val env V := by
  induction l with
  | nil => rfl
  | cons a l ih => rw [vsum, List.map_cons, List.sum_cons, ← vsum, ih, List.length_cons, Finset.sum_range_succ', add_comm]; rfl

theorem forall₂_get {α β : Type} {R : α → β → Prop} {l : List α} {l' : List β} (h : List.Forall₂ R l l') {i : ℕ} {a : α} {b : β} (ha : l[i]? = some a)
    (hb : l'[i]? = some b) : R a b := by
  obtain ⟨h1, rfl⟩ := List.getElem?_eq_some_iff.1 ha
  obtain ⟨h2, rfl⟩ := List.getElem?_eq_some_iff.1 hb
  exact (List.forall₂_iff_get.1 h).2 i h1 h2

theorem getD_some {α : Type} {l : List α} {i n : ℕ} (d : α) (hl : l.length = n) (hi : i < n) : l[i]? = some (l.getD i d) := by
  simp [List.getD, List.getElem?_eq_getElem (show i < l.length by omega)]

theorem zip_some {α β : Type} {l : List α} {l' : List β} {i : ℕ} {a : α} {b : β} (ha : l[i]? = some a) (hb : l'[i]? = some b) :
    (l.zip l')[i]? = some (a, b) := List.getElem?_zip_eq_some.2 ⟨ha, hb⟩

theorem ens_dualInit' (fs : List FE) : Ens SR env V (loop dualInitStep fs (([], none), [], none)) fun s =>
    (s.1.1.length = fs.length ∧ s.2.1.length = fs.length ∧ OptVal env V s.1.2 fs.length (- vsum env V s.1.1) ∧
      OptVal env V s.2.2 fs.length (vsum env V s.2.1)) ∧
      ∀ (i : ℕ) (f : FE) (y x : PE), fs[i]? = some f → s.1.1[i]? = some y → s.2.1[i]? = some x → ∃ v, SumSample SR (f.val V) (x.val env V) (y.val env V) v := by
  have := Ens.loop (SR := SR) (env := env) (V := V) coh_dualInitStep (fun j s => (s.1.1.length = j ∧ s.2.1.length = j ∧
      OptVal env V s.1.2 j (- vsum env V s.1.1) ∧ OptVal env V s.2.2 j (vsum env V s.2.1)) ∧
      ∀ (i : ℕ) (f : FE) (y x : PE), fs[i]? = some f → s.1.1[i]? = some y → s.2.1[i]? = some x → ∃ v, SumSample SR (f.val V) (x.val env V) (y.val env V) v)
      (l := fs) (s := (([], none), [], none)) (j := 0)
      ⟨⟨rfl, rfl, by simp [OptVal, vsum], by simp [OptVal, vsum]⟩, by simp⟩ (by
    rintro s f i hi ⟨⟨h1, h2, h3, h4⟩, h5⟩
    simp only [zero_add] at *
    unfold dualInitStep
    refine Ens.bind .initial (.true _) fun y _ => Ens.bind (.subFrom _ _) (.subFrom h3 y) fun z hz =>
      Ens.bind (.conj _ _) (.conj _ _) fun x hx => Ens.bind (.addTo _ _) (.addTo h4 x) fun w hw => .pure ?_
    refine ⟨⟨by simp [h1], by simp [h2], ?_, ?_⟩, ?_⟩
    · show z.val env V = _
      rw [hz, vsum_append]; abel
    · show w.val env V = _
      rw [hw, vsum_append]
    · intro q f' y' x' hf' hy' hx'
      simp only at hy' hx'
      by_cases hq : q < i
      · rw [List.getElem?_append_left (by omega)] at hy' hx'
        exact h5 q f' y' x' hf' hy' hx'
      · have : q = i := by
          have := (List.getElem?_eq_some_iff.1 hy').1
          simp [h1] at this
          omega
        subst this
        rw [List.getElem?_append_right (by omega), h1] at hy'
        rw [List.getElem?_append_right (by omega), h2] at hx'
        rw [hi] at hf'
        simp only [Nat.sub_self, List.getElem?_cons_zero, Option.some.injEq] at hy' hx' hf'
        subst hy' hx' hf'
        exact hx)
  simpa using this

theorem ens_conjLoop' (l : List (PE × FE)) : Ens SR env V (loop conjStep l ([], none)) fun s =>
    (s.1.length = l.length ∧ OptVal env V s.2 l.length (vsum env V s.1)) ∧
      ∀ (i : ℕ) (a : PE × FE) (x : PE), l[i]? = some a → s.1[i]? = some x → ∃ v, SumSample SR (a.2.val V) (x.val env V) (a.1.val env V) v := by
  have := Ens.loop (SR := SR) (env := env) (V := V) coh_conjStep (fun j s => (s.1.length = j ∧ OptVal env V s.2 j (vsum env V s.1)) ∧
      ∀ (i : ℕ) (a : PE × FE) (x : PE), l[i]? = some a → s.1[i]? = some x → ∃ v, SumSample SR (a.2.val V) (x.val env V) (a.1.val env V) v) (l := l)
      (s := ([], none)) (j := 0) ⟨⟨rfl, by simp [OptVal, vsum]⟩, by simp⟩ (by
    rintro s a i hi ⟨⟨h1, h2⟩, h5⟩
    simp only [zero_add] at *
    unfold conjStep
    refine Ens.bind (.conj _ _) (.conj _ _) fun x hx => Ens.bind (.addTo _ _) (.addTo h2 x) fun w hw => .pure ⟨⟨by simp [h1], ?_⟩, ?_⟩
    · show w.val env V = _
      rw [hw, vsum_append]
    · intro q a' x' ha' hx'
      simp only at hx'
      by_cases hq : q < i
      · rw [List.getElem?_append_left (by omega)] at hx'
        exact h5 q a' x' ha' hx'
      · have : q = i := by
          have := (List.getElem?_eq_some_iff.1 hx').1
          simp [h1] at this
          omega
        subst this
        rw [List.getElem?_append_right (by omega), h1] at hx'
        rw [hi] at ha'
        simp only [Nat.sub_self, List.getElem?_cons_zero, Option.some.injEq] at hx' ha'
        subst hx' ha'
        exact hx)
  simpa using this

variable (env V) in
/-- the value of an expression that is unset before the first round of a loop -/
def OptExVal (o : Option EE) (j : ℕ) (v : ℝ) : Prop := match o with
  | none => j = 0 ∧ v = 0
  | some z => z.val env V = v

theorem OptExVal.getD {o : Option EE} {j : ℕ} {v : ℝ} (h : OptExVal env V o j v) (hj : j ≠ 0) : (o.getD (.reg 0)).val env V = v := by
  cases o with
  | none => exact absurd h.1 hj
  | some z => exact h

theorem Ens.addEx {o : Option EE} {j : ℕ} {v : ℝ} (h : OptExVal env V o j v) (x : EE) :
    Ens SR env V (addEx o x) fun r => r.val env V = v + x.val env V := by
  cases o with
  | none => exact (Ens.ex _).mono fun r hr => by rw [hr, h.2]; simp [EE.val]
  | some z => exact (Ens.ex _).mono fun r hr => by rw [hr, ← show z.val env V = v from h]; simp

theorem ens_dualEnergy {Ind : ℚ} {x_star : PE} {m : ℕ} {i1 i2 x1 ys : List PE} (l1 : i1.length = m) (l2 : i2.length = m) (l3 : x1.length = m) (l4 : ys.length = m) (d : PE) :
    Ens SR env V (loop (dualEnergyStep Ind x_star) ((i1.zip i2).zip (x1.zip ys)) (none, none, none)) fun s =>
      OptExVal env V s.1 m (∑ i ∈ Finset.range m, Ind / 2 * ‖(i1.getD i d).val env V - (ys.getD i d).val env V‖ ^ 2) ∧
      OptExVal env V s.2.1 m (∑ i ∈ Finset.range m, Ind / 2 * ‖(i2.getD i d).val env V - (ys.getD i d).val env V‖ ^ 2) ∧
      OptExVal env V s.2.2 m (∑ i ∈ Finset.range m, env "eta" * ⟪(x1.getD i d).val env V - x_star.val env V, (i1.getD i d).val env V - (ys.getD i d).val env V⟫_ℝ) := by
  have hl : ((i1.zip i2).zip (x1.zip ys)).length = m := by simp [l1, l2, l3, l4]
  have := Ens.loop (SR := SR) (env := env) (V := V) (coh_dualEnergyStep Ind x_star) (fun j s =>
      OptExVal env V s.1 j (∑ i ∈ Finset.range j, Ind / 2 * ‖(i1.getD i d).val env V - (ys.getD i d).val env V‖ ^ 2) ∧
      OptExVal env V s.2.1 j (∑ i ∈ Finset.range j, Ind / 2 * ‖(i2.getD i d).val env V - (ys.getD i d).val env V‖ ^ 2) ∧
      OptExVal env V s.2.2 j (∑ i ∈ Finset.range j, env "eta" * ⟪(x1.getD i d).val env V - x_star.val env V, (i1.getD i d).val env V - (ys.getD i d).val env V⟫_ℝ))
      (l := (i1.zip i2).zip (x1.zip ys)) (s := (none, none, none)) (j := 0) ⟨by simp [OptExVal], by simp [OptExVal], by simp [OptExVal]⟩ (by
    rintro s a i hi ⟨h1, h2, h3⟩
    simp only [zero_add] at *
    obtain ⟨ha, hb⟩ := zip_get hi
    obtain ⟨ha, ha'⟩ := zip_get ha
    obtain ⟨hb, hb'⟩ := zip_get hb
    have e1 : i1.getD i d = a.1.1 := by simp [List.getD, ha]
    have e2 : i2.getD i d = a.1.2 := by simp [List.getD, ha']
    have e3 : x1.getD i d = a.2.1 := by simp [List.getD, hb]
    have e4 : ys.getD i d = a.2.2 := by simp [List.getD, hb']
    unfold dualEnergyStep
    refine Ens.bind (.addEx _ _) (.addEx h1 _) fun E1 g1 => Ens.bind (.addEx _ _) (.addEx h2 _) fun E2 g2 =>
      Ens.bind (.addEx _ _) (.addEx h3 _) fun D g3 => .pure ⟨?_, ?_, ?_⟩
    · show E1.val env V = _
      rw [g1, Finset.sum_range_succ, e1, e4]; simp
    · show E2.val env V = _
      rw [g2, Finset.sum_range_succ, e2, e4]; simp
    · show D.val env V = _
      rw [g3, Finset.sum_range_succ, e1, e3, e4]; simp)
  rw [hl, zero_add] at this
  exact this
end

/-- an execution from a derivation -/
theorem Trk.exec {α : Type} {E : Type} [NormedAddCommGroup E] [InnerProductSpace ℝ E] {fs : ℕ → CFun E} {W : Set Name} {D : FnDecl} {env : Name → ℝ} {c : Build α}
    {Q : α → RRegs E → List Bool → (ℕ → List ℕ) → Prop} (h : Trk W D (fun k => (fs k).Sample) env c (RRegs.empty E) [] Q) :
    ∃ rr, RealExec fs env c.prog rr ∧ rr.cons = [] ∧ SafeProg c.prog ⟨0, 0, 0⟩ = true ∧ Standard c.prog = true ∧
      (∀ i ∈ c.prog, i.Fine W D) ∧ ∃ a, Q a rr (declAll [] c.prog) fun k => calls k c.prog := by
  obtain ⟨rr, h1, -, h3, h4, -, h6, h7, hq⟩ := h
  exact ⟨rr, h1, h6, h3, h7, h4, _, hq⟩

/-- the runs of the builder on `c x² / 2`, from the currents `1, …, 1, -(n - 1)` -/
theorem run_dualDecomposition (k : ℕ) {mu : ℚ} {L : Option ℚ} (Ind : ℚ) {c : ℝ} (hmu : 0 ≤ mu) (hc : Inside mu L c) (p : Name → ℝ) :
    ∃ (rr : RRegs ℝ) (i1 : ℕ → ℝ), RealExec (fun _ => quadF c 0) p (dualDecomposition k mu L Ind).prog rr ∧ rr.cons = [] ∧
      SafeProg (dualDecomposition k mu L Ind).prog ⟨0, 0, 0⟩ = true ∧ Standard (dualDecomposition k mu L Ind).prog = true ∧
      (∀ i ∈ (dualDecomposition k mu L Ind).prog, i.Fine {n | n ∈ stdParams} (defDecl mu L)) ∧ (decls (dualDecomposition k mu L Ind).prog).length = k + 2 ∧
      (∃ v, rr.metric = some v) ∧ (∀ i, i1 i ≠ 0) ∧
      ∃ j0, At rr j0 0 ∧ ∀ i < k + 2, ∃ a b, calls i (dualDecomposition k mu L Ind).prog = [j0, j0, a, b] ∧ At rr a (i1 i / c) ∧
        At rr b (i1 i / c * (1 - p "alpha" * p "h" / Ind / c)) := by
  have hc0 : 0 < c := lt_of_le_of_lt (by exact_mod_cast hmu) hc.1
  set i1 : ℕ → ℝ := fun i => if i = k + 1 then -((k : ℝ) + 1) else 1 with hi1
  have hsum : ∑ i ∈ Finset.range (k + 2), i1 i = 0 := by
    rw [Finset.sum_range_succ, Finset.sum_congr rfl (g := fun _ => (1 : ℝ)) fun i hi => by rw [Finset.mem_range] at hi; simp only [hi1]; rw [if_neg (by omega)]]
    simp [hi1]
  have hne : ∀ i, i1 i ≠ 0 := by
    intro i
    simp only [hi1]
    split
    · have : (0 : ℝ) < k + 1 := by positivity
      linarith
    · norm_num
  clear_value i1
  set t := p "alpha" * p "h" / Ind with ht
  have hsx : ∑ i ∈ Finset.range (k + 2), i1 i / c = 0 := by rw [← Finset.sum_div, hsum, zero_div]
  have hsx' : ∑ i ∈ Finset.range (k + 2), i1 i / c * (1 - t / c) = 0 := by rw [← Finset.sum_mul, hsx, zero_mul]
  have hcn := hc0.ne'
  have key := trk_dualDecomposition (k := k) (Ind := Ind) (D := defDecl mu L) rfl
    (SR := fun k => (quadF c 0).Sample) (env := p)
    (x_star := 0) (z1 := 0) (z15 := 0) (ys := fun _ => 0) (vs := fun _ => 0) (i1 := i1) (x1 := fun i => i1 i / c) (v1 := fun i => c / 2 * (i1 i / c) ^ 2)
    (i15 := fun i => i1 i * (1 - t / c)) (x15 := fun i => i1 i / c * (1 - t / c)) (v15 := fun i => c / 2 * (i1 i / c * (1 - t / c)) ^ 2)
    (fun i _ => quadF_smp0 hc0) (by simp) hsum
    (fun i _ => by
      have := quadF_smp hc0 (i1 i / c)
      rwa [mul_div_cancel₀ _ hcn] at this)
    (by rw [hsx, smul_zero]) (fun i _ => by simp; rw [← ht]; ring)
    (fun i _ => by
      have := quadF_smp hc0 (i1 i / c * (1 - t / c))
      rwa [← mul_assoc, mul_div_cancel₀ _ hcn] at this)
    (by rw [hsx', smul_zero]) (i2 := fun i => i1 i + (pBeta * pH / Ind : Sym).eval p • (0 - i1 i / c) + ((1 - pBeta) * pH / Ind : Sym).eval p • (0 - i1 i / c * (1 - t / c))) (fun i _ => rfl)
  obtain ⟨rr, h1, h6, h3, h7, h4, -, hm, h8, j0, h9, h10⟩ := Trk.exec (fs := fun _ => quadF c 0) key
  refine ⟨rr, i1, h1, h6, h3, h7, h4, ?_, hm, hne, j0, h9, h10⟩
  have := decls_count (dualDecomposition k mu L Ind).prog []
  rw [h8] at this
  simpa using this.symm

/-- the calls of the builder -/
theorem prog_dualDecomposition (k : ℕ) {mu : ℚ} {L : Option ℚ} (Ind : ℚ) (hok : (defDecl mu L).Ok) :
    SafeProg (dualDecomposition k mu L Ind).prog ⟨0, 0, 0⟩ = true ∧ Standard (dualDecomposition k mu L Ind).prog = true ∧
      (∀ i ∈ (dualDecomposition k mu L Ind).prog, i.Clean {n | n ∈ stdParams}) ∧
      decls (dualDecomposition k mu L Ind).prog = List.replicate (k + 2) (defDecl mu L) ∧ ∃ e, Instr.metric e ∈ (dualDecomposition k mu L Ind).prog := by
  obtain ⟨c, hc⟩ := (inside_infinite hok).nonempty
  obtain ⟨rr, -, h1, -, h3, h4, h5, h6, ⟨v, hv⟩, -⟩ := run_dualDecomposition k Ind (defDecl_nonneg hok) hc fun _ => 0
  refine ⟨h3, h4, fun i hi => (h5 i hi).1, List.eq_replicate_iff.2 ⟨h6, fun d hd => (h5 _ (mem_decls hd)).2 d rfl⟩, ?_⟩
  rw [metric_of_realExec h3 h1] at hv
  cases hm : metricReg (dualDecomposition k mu L Ind).prog none with
  | none => rw [hm] at hv; cases hv
  | some e =>
    have : ∀ (is : List Instr) m, metricReg is m = some e → m = some e ∨ Instr.metric e ∈ is := by
      intro is
      induction is with
      | nil => exact fun m h => .inl h
      | cons i is ih =>
        intro m h
        cases i with
        | metric e' =>
          rcases ih _ h with h | h
          · injection h with h; subst h; exact .inr List.mem_cons_self
          · exact .inr (List.mem_cons_of_mem _ h)
        | _ => exact (ih _ h).imp_right (List.mem_cons_of_mem _)
    rcases this _ _ hm with h | h
    · cases h
    · exact ⟨e, h⟩

/-- the metric of every run is bounded by 0 iff the energy inequality holds for all functions and steps -/
theorem guaranteed_dualDecomposition (k : ℕ) {mu L : ℚ} (Ind : ℚ) (hmu : 0 ≤ mu) (hL : mu < L) {p : Name → ℝ} :
    Guaranteed (dualDecomposition k mu (some L) Ind).prog p ↔ DualDecompositionStep (k + 2) mu (some L) Ind p := by
  obtain ⟨hs, -, -, hdecl, -⟩ := prog_dualDecomposition k Ind (defDecl_ok hmu hL)
  constructor
  · intro hg E _ _ f hf x_star z_1 z_1p5 y_star i_1 x_1 i_1p5 x_1p5 i_2 v_star v_1 v_1p5 s0 s1 s2 s3 s4 s5 s6 s7 s8
    obtain ⟨rr, h1, -, h3, h4⟩ := realExec_of_can (fs := f) (env := p) (can_dualDecomposition (SR := fun i => (f i).Sample) (D := defDecl mu (some L))
      (mu := mu) (L := some L) (Ind := Ind) (z1 := z_1) (z15 := z_1p5) rfl s0 s1 s2 s3 (by rw [s4]; norm_num) (by simpa using s5) s6 (by rw [s7]; norm_num) (by simpa using s8))
    have := hg f (fun i d hd => ?_) rr h1 h3 _ h4
    · simp only [← Finset.mul_sum] at this ⊢
      simp at this
      linarith
    · rw [hdecl, List.getElem?_replicate] at hd
      split at hd
      · rename_i hi
        injection hd with hd; subst hd; exact hf i hi
      · cases hd
  · intro h E _ _ fs hi rr hx hcons v hv
    obtain ⟨h1, h2⟩ := meets_of_realExec hs hx
    have hf : ∀ i < k + 2, (defDecl mu (some L)).Holds (fs i) := fun i hlt => hi i _ (by rw [hdecl, List.getElem?_replicate, if_pos hlt])
    rw [metric_of_realExec hs hx] at hv
    obtain ⟨e, he, hle⟩ : ∃ e, metricReg (dualDecomposition k mu (some L) Ind).prog none = some e ∧ rr.vals.ex e ≤ 0 := by
      unfold dualDecomposition at h1 h2 ⊢
      refine EnsM.start (Q := fun m => ∃ e, m = some e ∧ rr.vals.ex e ≤ 0) (coh_defineSum _ _ _) (ensN_defineSum _ _ _) ?_ h1 (by rw [← h2]; exact hcons)
      rintro ⟨l, f⟩ - ⟨⟨hl, hl'⟩, hf'⟩
      dsimp only at hl hl' hf' ⊢
      refine EnsM.bind (.stationary _) (.stationary _) ?_
      rintro ⟨xs, ys, v⟩ ⟨b1, b2⟩
      dsimp only at b1 b2 ⊢
      rw [hf'] at b1
      obtain ⟨y0, w0, c1, c2, -⟩ := samples_of_range b1
      refine EnsM.bind (.mapB (fun _ => .andThen (.oracle _ _) fun _ => .ret _) _) (Ens.mapB (R := fun f y => ∃ v, SumSample (fun i => (fs i).Sample) (f.val rr.vals) (xs.val p rr.vals) (y.val p rr.vals) v)
        (fun _ => .andThen (.oracle _ _) fun _ => .ret _) fun a _ => .bind (.oracle _ _) (.oracle _ _) fun r hr => .pure ⟨_, hr⟩) fun yst d0 => ?_
      refine EnsM.bind (.loop coh_dualInitStep _ _) (ens_dualInit' _) ?_
      rintro ⟨⟨iL, last⟩, xL, z⟩ ⟨⟨g1, g2, g3, g4⟩, g5⟩
      dsimp only at g1 g2 g3 g4 g5 ⊢
      simp only [List.length_dropLast, hl] at g1 g2 g3 g4
      refine EnsM.bind (.conj _ _) (.conj _ _) fun x_last q1 => ?_
      refine EnsM.bind (.addTo _ _) (.addTo g4 _) fun z' hz' => ?_
      refine EnsM.bind (.pt _) (.pt _) fun z_1 hz1 => ?_
      set last' := last.getD (.reg 0) with hlast
      have e1 : vsum p rr.vals (iL ++ [last']) = 0 := by rw [vsum_append, g3.getD (by omega)]; abel
      have e2 : z_1.val p rr.vals = ((k : ℝ) + 2)⁻¹ • vsum p rr.vals (xL ++ [x_last]) := by rw [hz1, PE.val_div', hz', vsum_append]; norm_num
      have l1 : (iL ++ [last']).length = k + 2 := by simp [g1]
      have l2 : (xL ++ [x_last]).length = k + 2 := by simp [g2]
      have q2 : ∀ i < k + 2, ∃ v, (fs i).Sample (((xL ++ [x_last]).getD i (.reg 0)).val p rr.vals) (((iL ++ [last']).getD i (.reg 0)).val p rr.vals) v := by
        intro i hi
        obtain ⟨e, he⟩ : ∃ e, l[i]? = some e := ⟨_, List.getElem?_eq_getElem (by omega)⟩
        have hev := hl' i e he
        by_cases hik : i < k + 1
        · have a1 : iL[i]? = some ((iL ++ [last']).getD i (.reg 0)) := by
            rw [← getD_some _ l1 hi, List.getElem?_append_left (by omega)]
          have a2 : xL[i]? = some ((xL ++ [x_last]).getD i (.reg 0)) := by
            rw [← getD_some _ l2 hi, List.getElem?_append_left (by omega)]
          obtain ⟨v, hv⟩ := g5 i e _ _ (by rw [List.getElem?_dropLast, if_pos (by omega), he]) a1 a2
          rw [hev] at hv
          exact ⟨v, sample_of_single hv⟩
        · have hik : i = k + 1 := by omega
          subst hik
          have a1 : (iL ++ [last']).getD (k + 1) (.reg 0) = last' := by simp [List.getD, g1]
          have a2 : (xL ++ [x_last]).getD (k + 1) (.reg 0) = x_last := by simp [List.getD, g2]
          have a3 : l.getLastD (.reg 0) = e := by
            rw [List.getLastD_eq_getLast?, List.getLast?_eq_getElem?, hl, show k + 1 + 1 - 1 = k + 1 by omega, he]; rfl
          rw [a1, a2]
          rw [a3] at q1
          obtain ⟨v, hv⟩ := q1
          rw [hev] at hv
          exact ⟨v, sample_of_single hv⟩
      generalize iL ++ [last'] = i1 at e1 l1 q2 ⊢
      generalize xL ++ [x_last] = x1 at e2 l2 q2 ⊢
      refine EnsM.bind (.mapB (fun _ => .pt _) _) (Ens.mapB (fun _ => .pt _) fun a _ => .pt _) fun i15 h15 => ?_
      refine EnsM.bind (.loop coh_conjStep _ _) (ens_conjLoop' _) ?_
      rintro ⟨x15, zz⟩ ⟨⟨l3, hz⟩, q3⟩
      dsimp only at l3 hz q3 ⊢
      have l15 : i15.length = k + 2 := by rw [← h15.length_eq]; simp [l1, l2]
      have hz15 : (i15.zip l).length = k + 2 := by simp [l15, hl]
      rw [hz15] at l3 hz
      refine EnsM.bind (.pt _) (.pt _) fun z_15 hz15 => ?_
      have e3 : z_15.val p rr.vals = ((k : ℝ) + 2)⁻¹ • vsum p rr.vals x15 := by rw [hz15, PE.val_div', hz.getD (by omega)]; norm_num
      refine EnsM.bind (.mapB (fun _ => .pt _) _) (Ens.mapB (fun _ => .pt _) fun a _ => .pt _) fun i2 hi2 => ?_
      have l4 : i2.length = k + 2 := by rw [← hi2.length_eq]; simp [l1, l2, l3]
      have l5 : yst.length = k + 2 := by rw [← d0.length_eq, hl]
      refine EnsM.bind (.loop (coh_dualEnergyStep _ _) _ _) (ens_dualEnergy l1 l4 l2 l5 (.reg 0)) ?_
      rintro ⟨E_1, E_2, D⟩ ⟨r1, r2, r3⟩
      dsimp only at r1 r2 r3 ⊢
      intro n nd m m1 m2
      obtain ⟨e, m3, m4⟩ := EnsM.finishMetric (E_1.getD (.reg 0)) (E_2.getD (.reg 0)) (D.getD (.reg 0)) n nd m m1 m2
      refine ⟨e, m3, ?_⟩
      choose! v1 q2 using q2
      have q4 : ∀ i < k + 2, ∃ v, (fs i).Sample ((x15.getD i (.reg 0)).val p rr.vals) ((i15.getD i (.reg 0)).val p rr.vals) v := by
        intro i hi
        obtain ⟨e, he⟩ : ∃ e, l[i]? = some e := ⟨_, List.getElem?_eq_getElem (by omega)⟩
        obtain ⟨v, hv⟩ := q3 i (i15.getD i (.reg 0), e) _ (List.getElem?_zip_eq_some.2 ⟨getD_some _ l15 hi, he⟩) (getD_some (.reg 0) l3 hi)
        rw [hl' i e he] at hv
        exact ⟨v, sample_of_single hv⟩
      choose! v15 q4 using q4
      have q5 : ∀ i < k + 2, ∃ v, (fs i).Sample (xs.val p rr.vals) ((yst.getD i (.reg 0)).val p rr.vals) v := by
        intro i hi
        obtain ⟨e, he⟩ : ∃ e, l[i]? = some e := ⟨_, List.getElem?_eq_getElem (by omega)⟩
        obtain ⟨v, hv⟩ := forall₂_get d0 he (getD_some (.reg 0) l5 hi)
        rw [hl' i e he] at hv
        exact ⟨v, sample_of_single hv⟩
      choose! vst q5 using q5
      have q6 : ∑ i ∈ Finset.range (k + 2), (yst.getD i (.reg 0)).val p rr.vals = 0 := by
        rw [c2]
        exact Finset.sum_congr rfl fun i hi => gradient_unique hmu hL (hf i (Finset.mem_range.1 hi)) (q5 i (Finset.mem_range.1 hi)) (c1 i (Finset.mem_range.1 hi))
      have := h E fs hf (xs.val p rr.vals) (z_1.val p rr.vals) (z_15.val p rr.vals) (fun i => (yst.getD i (.reg 0)).val p rr.vals)
        (fun i => (i1.getD i (.reg 0)).val p rr.vals) (fun i => (x1.getD i (.reg 0)).val p rr.vals) (fun i => (i15.getD i (.reg 0)).val p rr.vals)
        (fun i => (x15.getD i (.reg 0)).val p rr.vals) (fun i => (i2.getD i (.reg 0)).val p rr.vals) vst v1 v15 q5 q6
        (by rw [vsum_range (.reg 0), l1] at e1; exact e1) q2 (by rw [e2, vsum_range (.reg 0), l2]; norm_num)
        (fun i hi => by
          have := forall₂_get h15 (zip_some (getD_some (.reg 0) l1 hi) (getD_some (.reg 0) l2 hi)) (getD_some (.reg 0) l15 hi)
          simpa using this) q4 (by rw [e3, vsum_range (.reg 0), l3]; norm_num)
        (fun i hi => by
          have := forall₂_get hi2 (zip_some (getD_some (.reg 0) l1 hi) (zip_some (getD_some (.reg 0) l2 hi) (getD_some (.reg 0) l3 hi)))
            (getD_some (.reg 0) l4 hi)
          simpa using this)
      rw [m4, r1.getD (by omega), r2.getD (by omega), r3.getD (by omega), ← Finset.mul_sum (a := p "eta")]
      linarith
    rw [he] at hv
    injection hv with hv
    rw [← hv]
    exact hle

/-- **C79** `dual_decomposition` with any number `n = k + 2` of smooth functions, for all class parameters and inductances: at all parameter values with
`h`, `alpha` not 0 the nonlinear program of `solve_ipopt` has a feasible point with these parameters if and only if the energy inequality holds for
all functions of the class and all steps (and `eta`, `rho`, `h` are not negative). -/
theorem C79_dualDecomposition (hC : C.Lawful) (k : ℕ) {mu L Ind : ℚ} (hmu : 0 ≤ mu) (hL : mu < L) (hInd : Ind ≠ 0) :
    ∃ r h nlp h', runProblem C (dualDecomposition k mu (some L) Ind).prog Heap.empty = .ok (r, h) ∧ solveIpopt C r stdParams [] [] h = .ok (nlp, h') ∧
      ∀ p : Name → ℝ, p "h" ≠ 0 → p "alpha" ≠ 0 →
        ((∃ σ, nlp.state.Sat σ ∧ ∀ n ∈ scalarNames stdParams, nlp.state.value σ n = p n) ↔
          DualDecompositionStep (k + 2) mu (some L) Ind p ∧ 0 ≤ p "eta" ∧ 0 ≤ p "rho" ∧ 0 ≤ p "h") := by
  have hI : (Ind : ℝ) ≠ 0 := by exact_mod_cast hInd
  have hok := defDecl_ok hmu hL
  obtain ⟨hs, hst, hclean, hdecl, hmet⟩ := prog_dualDecomposition k Ind hok
  have hd : ∀ d ∈ decls (dualDecomposition k mu (some L) Ind).prog, d = defDecl mu (some L) := by rw [hdecl]; exact fun d h => List.eq_of_mem_replicate h
  obtain ⟨r, h, nlp, h', hr, hn, hiff⟩ := complete_of_repeats (prog := (dualDecomposition k mu (some L) Ind).prog) (params := stdParams)
    (Gen := fun p => p "h" ≠ 0 ∧ p "alpha" ≠ 0) hC hs hclean hst (fresh_dualDecomposition k mu (some L) Ind _) (fun d hm => by
      rw [hd d hm]
      refine ⟨hok, ?_⟩
      by_cases h0 : mu = 0 <;> simp [defDecl, h0, FnDecl.Default]) stdParams_simple hmet ⟨fun _ => 1, by norm_num, by norm_num⟩ (by
      rintro p ⟨hh, ha⟩
      have ht : p "alpha" * p "h" / Ind ≠ 0 := div_ne_zero (mul_ne_zero ha hh) hI
      obtain ⟨c, hc, hne⟩ := (generic [fun c => c - p "alpha" * p "h" / Ind] (inside_infinite hok) (by
        simp only [List.forall_mem_cons, List.not_mem_nil, false_implies, implies_true, and_true]
        exact ⟨by is_poly, p "alpha" * p "h" / Ind + 1, by simp⟩)).nonempty
      simp only [List.forall_mem_cons, List.not_mem_nil, false_implies, implies_true, and_true] at hne
      have hc0 : 0 < c := lt_of_le_of_lt (by exact_mod_cast hmu) hc.1
      obtain ⟨rr, i1, h1, h2, -, -, -, h6, -, h7, j0, h8, h9⟩ := run_dualDecomposition k Ind hmu hc p
      have hf1 : 1 - p "alpha" * p "h" / Ind / c ≠ 0 := by
        rw [sub_ne_zero]
        intro h
        rw [eq_div_iff hc0.ne', one_mul] at h
        exact hne (by rw [h, sub_self])
      have hf2 : 1 - p "alpha" * p "h" / Ind / c ≠ 1 := by
        intro h
        have : p "alpha" * p "h" / Ind / c = 0 := by linarith
        exact div_ne_zero ht hc0.ne' this
      generalize 1 - p "alpha" * p "h" / Ind / c = t at hf1 hf2 h9
      refine ⟨fun _ => quadF c 0, rr, fun i d hi => ?_, fun i d hi => ?_, h1, fun i d hi => ?_, by rw [h2]; simp⟩
      · rw [hd d (List.mem_of_getElem? hi)]; exact quadF_holds hmu hc 0
      · rw [hd d (List.mem_of_getElem? hi)]; exact quadF_strict hmu hc 0
      · have hlt : i < k + 2 := by have := (List.getElem?_eq_some_iff.1 hi).1; rwa [hdecl, List.length_replicate] at this
        have hre : d.reuse = true := by
          rw [hd d (List.mem_of_getElem? hi)]
          by_cases h0 : mu = 0 <;> simp [defDecl, h0, FnDecl.reuse]
        obtain ⟨a, b, e, ha, hb⟩ := h9 i hlt
        have hx : i1 i / c ≠ 0 := div_ne_zero (h7 i) hc0.ne'
        have hy : i1 i / c * t ≠ 0 := mul_ne_zero hx hf1
        have hxy : i1 i / c * t ≠ i1 i / c := fun h => hf2 (mul_left_cancel₀ hx (by rw [h, mul_one]))
        generalize i1 i / c = x at *
        rw [e]
        clear hi
        simp only [List.forall_mem_cons, List.not_mem_nil, false_implies, implies_true, and_true, h8.1, ha.1, hb.1, h8.2, ha.2, hb.2]
        refine ⟨trivial, .inr ⟨hre, ?_⟩⟩
        simp [hx, hy, hxy, hx.symm, hy.symm, hxy.symm])
  refine ⟨r, h, nlp, h', hr, hn, fun p h1 h2 => ?_⟩
  have hinv : InvOk stdParams p := fun v hv => absurd hv (by rw [show invParams stdParams = [] by decide]; simp)
  rw [hiff p ⟨h1, h2⟩, guaranteed_dualDecomposition k Ind hmu hL]
  simp [hinv]

/-! ### The largest `eta` -/

/-- steps of length `Ind mu` -/
theorem dual_step {k : ℕ} {mu : ℚ} {L : Option ℚ} {Ind : ℚ} (hmu : 0 ≤ mu) (hInd : 0 < Ind) {p : Name → ℝ} (hb : p "beta" = 1)
    (hh : p "h" = Ind * mu) (he : p "eta" = mu * Ind / 2) : DualDecompositionStep (k + 2) mu L Ind p := by
  have hm : (0 : ℝ) ≤ mu := by exact_mod_cast hmu
  have hi : (0 : ℝ) < Ind := by exact_mod_cast hInd
  intro E _ _ f hf x_star z_1 z_1p5 y_star i_1 x_1 i_1p5 x_1p5 i_2 v_star v_1 v_1p5 s0 s1 s2 s3 s4 s5 s6 s7 s8
  have hsd : ∑ i ∈ Finset.range (k + 2), (i_1 i - y_star i) = 0 := by rw [Finset.sum_sub_distrib, s1, s2, sub_zero]
  have hsu : ∑ i ∈ Finset.range (k + 2), (x_1 i - x_star) = ((k : ℝ) + 2) • (z_1 - x_star) := by
    rw [Finset.sum_sub_distrib, s4, smul_sub, smul_smul]
    push_cast
    rw [mul_inv_cancel₀ (by positivity), one_smul, Finset.sum_const, Finset.card_range, ← Nat.cast_smul_eq_nsmul ℝ]
    push_cast
    rfl
  have hw : ∑ i ∈ Finset.range (k + 2), ‖z_1 - x_1 i‖ ^ 2 ≤ ∑ i ∈ Finset.range (k + 2), ‖x_1 i - x_star‖ ^ 2 := by
    have : ∀ i ∈ Finset.range (k + 2), ‖z_1 - x_1 i‖ ^ 2 = ‖z_1 - x_star‖ ^ 2 - 2 * ⟪z_1 - x_star, x_1 i - x_star⟫_ℝ + ‖x_1 i - x_star‖ ^ 2 := by
      intro i _
      rw [← norm_sub_sq_real]
      congr 2
      abel
    rw [Finset.sum_congr rfl this, Finset.sum_add_distrib, Finset.sum_sub_distrib, ← Finset.mul_sum, ← inner_sum, hsu, inner_smul_right, real_inner_self_eq_norm_sq,
      Finset.sum_const, Finset.card_range, nsmul_eq_mul]
    push_cast
    nlinarith [mul_nonneg (show (0 : ℝ) ≤ k + 2 by positivity) (sq_nonneg ‖z_1 - x_star‖)]
  have hmono : mu * ∑ i ∈ Finset.range (k + 2), ‖x_1 i - x_star‖ ^ 2 ≤ ∑ i ∈ Finset.range (k + 2), ⟪x_1 i - x_star, i_1 i - y_star i⟫_ℝ := by
    rw [Finset.mul_sum]
    exact Finset.sum_le_sum fun i hi => by
      rw [Finset.mem_range] at hi
      exact strongly_monotone hmu (hf i hi) (s3 i hi) (s0 i hi)
  have hE : ∑ i ∈ Finset.range (k + 2), Ind / 2 * ‖i_2 i - y_star i‖ ^ 2 = ∑ i ∈ Finset.range (k + 2), Ind / 2 * ‖i_1 i - y_star i‖ ^ 2 -
      Ind * mu * ∑ i ∈ Finset.range (k + 2), ⟪x_1 i - x_star, i_1 i - y_star i⟫_ℝ + Ind / 2 * mu ^ 2 * ∑ i ∈ Finset.range (k + 2), ‖z_1 - x_1 i‖ ^ 2 := by
    have h1 : ∀ i ∈ Finset.range (k + 2), Ind / 2 * ‖i_2 i - y_star i‖ ^ 2 = Ind / 2 * ‖i_1 i - y_star i‖ ^ 2 - Ind * mu * ⟪x_1 i - x_star, i_1 i - y_star i⟫_ℝ +
        Ind / 2 * mu ^ 2 * ‖z_1 - x_1 i‖ ^ 2 + Ind * mu * ⟪z_1 - x_star, i_1 i - y_star i⟫_ℝ := by
      intro i hi'
      have : i_2 i - y_star i = (i_1 i - y_star i) + (mu : ℝ) • (z_1 - x_1 i) := by
        rw [s8 i (Finset.mem_range.1 hi'), hb, hh]
        simp only [sub_self, zero_mul, zero_div, zero_smul, add_zero, one_mul]
        rw [mul_div_cancel_left₀ _ hi.ne']
        abel
      rw [this, norm_add_sq_real, inner_smul_right, norm_smul, mul_pow, Real.norm_eq_abs, sq_abs,
        show z_1 - x_1 i = (z_1 - x_star) - (x_1 i - x_star) by abel, inner_sub_right, real_inner_comm (z_1 - x_star), real_inner_comm (x_1 i - x_star)]
      ring
    rw [Finset.sum_congr rfl h1, Finset.sum_add_distrib, Finset.sum_add_distrib, Finset.sum_sub_distrib, ← Finset.mul_sum (a := (Ind : ℝ) * mu),
      ← Finset.mul_sum (a := (Ind : ℝ) * mu), ← Finset.mul_sum (a := (Ind : ℝ) / 2 * mu ^ 2), ← inner_sum, hsd]
    simp
  rw [hE, he]
  have h2 : Ind / 2 * mu ^ 2 * ∑ i ∈ Finset.range (k + 2), ‖z_1 - x_1 i‖ ^ 2 ≤ Ind / 2 * mu * (mu * ∑ i ∈ Finset.range (k + 2), ‖x_1 i - x_star‖ ^ 2) := by
    rw [← mul_assoc, show (Ind : ℝ) / 2 * mu * mu = Ind / 2 * mu ^ 2 by ring]
    exact mul_le_mul_of_nonneg_left hw (by positivity)
  have h3 := mul_le_mul_of_nonneg_left hmono (show (0 : ℝ) ≤ Ind / 2 * mu by positivity)
  nlinarith

/-- **C78**, `dual_decomposition` with any number `n = k + 2` of smooth strongly convex functions: over all feasible points of the nonlinear program the
largest value of `eta` is exactly `mu Ind / 2`, for every `n`. -/
theorem C78_dualDecomposition (hC : C.Lawful) (k : ℕ) {mu L Ind : ℚ} (hmu : 0 < mu) (hL : mu < L) (hInd : 0 < Ind) :
    ∃ r h nlp h', runProblem C (dualDecomposition k mu (some L) Ind).prog Heap.empty = .ok (r, h) ∧ solveIpopt C r stdParams [] [] h = .ok (nlp, h') ∧
      IsGreatest {e | ∃ σ, nlp.state.Sat σ ∧ nlp.state.value σ "eta" = e} ((mu : ℝ) * Ind / 2) := by
  have hm : (0 : ℝ) < mu := by exact_mod_cast hmu
  have hi : (0 : ℝ) < Ind := by exact_mod_cast hInd
  obtain ⟨r, h, nlp, h', hr, hn, hiff⟩ := C79_dualDecomposition hC k hmu.le hL hInd.ne'
  refine ⟨r, h, nlp, h', hr, hn, ?_, ?_⟩
  · have h0 : (0 : ℝ) < Ind * mu := by positivity
    have h1 : (0 : ℝ) < mu * Ind / 2 := by positivity
    obtain ⟨σ, hσ, hv⟩ := (hiff (fun n => if n = "h" then Ind * mu else if n = "eta" then mu * Ind / 2 else 1)
      (by simpa using h0.ne') (by simp)).2 ⟨dual_step hmu.le hInd (by simp) (by simp) (by simp), by simpa using h1.le, by simp, by simpa using h0.le⟩
    exact ⟨σ, hσ, by rw [hv _ (by decide)]; simp⟩
  · rintro e ⟨σ, hσ, rfl⟩
    exact C78_dualDecomposition_le hC k hmu.le hL hInd ⟨r, h, [], [], nlp, h', σ, hr, hn, hσ, rfl⟩

/-- two functions with `mu = 1`, `L = 2` and inductance 1 -/
example : (0 : ℚ) < 1 ∧ (1 : ℚ) < 2 ∧ ((1 : ℚ) : ℝ) * (1 : ℚ) / 2 = 1 / 2 := by norm_num

end Verif
