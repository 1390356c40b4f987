import Verif.Spec.Verification
import Verif.Spec.Guaranteed
import Verif.Proofs.Scale
import Verif.Proofs.SlaterQuad
import Verif.Proofs.BuildLogic

/-! # Verification mode: the worst case, the packages, the variables read -/

namespace Verif
open Build

/-! ### The worst case is 0 or infinite -/

section zero

/-- every class contains a function whose minimum, 0, is attained at 0 -/
theorem exists_zero : ∀ {d : FnDecl}, d.Ok → ∃ F : CFun ℝ, d.Holds F ∧ F.Sample 0 0 0 := by
  have hq : ∀ {mu : ℝ}, 0 ≤ mu → StrongConvexOn Set.univ mu (quadF mu 0).f := by
    intro mu _
    refine ⟨convex_univ, fun x _ y _ s t hs ht hst => ?_⟩
    have hb' : t = 1 - s := by linarith
    subst hb'
    simp only [quadF, smul_eq_mul, Real.norm_eq_abs, sq_abs]
    nlinarith [sq_nonneg (x - y)]
  have hL : ∀ {mu L : ℝ}, 0 ≤ mu → mu ≤ L → LipschitzGradient (quadF mu 0).f L := by
    intro mu L h0 hl
    refine ⟨fun x => mu * (x - 0), fun x => ?_, fun x y => ?_⟩
    · have h1 : HasDerivAt (fun x : ℝ => mu / 2 * (x - 0) ^ 2) (mu * (x - 0)) x := by
        have := (((hasDerivAt_id x).sub_const 0).pow 2).const_mul (mu / 2)
        refine this.congr_deriv ?_
        simp
        ring
      refine h1.hasFDerivAt.congr_fderiv ?_
      ext; simp
    · have : mu * (x - 0) - mu * (y - 0) = mu * (x - y) := by ring
      rw [this, norm_mul, Real.norm_eq_abs mu, abs_of_nonneg h0]
      exact mul_le_mul_of_nonneg_right hl (norm_nonneg _)
  have hs : ∀ {mu : ℝ}, 0 ≤ mu → (quadF mu 0).Sample 0 0 0 := fun h => quadF_sample h (by simp) (by simp)
  have hu : ∀ {mu : ℝ} x g g' v v', (quadF mu 0).Sample x g v → (quadF mu 0).Sample x g' v' → g = g' :=
    fun x g g' v v' h1 h2 => (quadF_sample_iff h1).1.trans (quadF_sample_iff h2).1.symm
  intro d hd
  match d, hd with
  | .convex _, _ => exact ⟨quadF 0 0, ⟨(strongConvexOn_zero).1 (hq le_rfl), fun _ => hu⟩, hs le_rfl⟩
  | .strongly mu _, h =>
    have h : (0 : ℝ) ≤ mu := by exact_mod_cast (show (0 : ℚ) ≤ mu from h)
    exact ⟨quadF mu 0, ⟨hq h, fun _ => hu⟩, hs h⟩
  | .smoothStrongly mu (some L), h =>
    have h0 : (0 : ℝ) ≤ mu := by exact_mod_cast h.1
    have h1 : (mu : ℝ) ≤ L := by exact_mod_cast h.2.le
    exact ⟨quadF mu 0, ⟨rfl, hq h0, hL h0 h1⟩, hs h0⟩
  | .smoothConvex (some L), h =>
    have h1 : (0 : ℝ) ≤ L := by exact_mod_cast (show (0 : ℚ) < L from h).le
    exact ⟨quadF 0 0, ⟨rfl, (strongConvexOn_zero).1 (hq le_rfl), hL le_rfl h1⟩, hs le_rfl⟩
  | .smoothStrongly _ none, h => exact h.elim
  | .smoothConvex none, h => exact h.elim

/-- everything is 0 -/
structure Zero (r : RRegs ℝ) : Prop where
  pts : ∀ x ∈ r.pts, x = 0
  exs : ∀ v ∈ r.exs, v = 0
  cons : ∀ c ∈ r.cons, c.1 = 0
  metric : ∀ v, r.metric = some v → v = 0

theorem getD_zero {l : List ℝ} (h : ∀ x ∈ l, x = 0) (i : ℕ) : l.getD i 0 = 0 := by
  rw [List.getD_eq_getElem?_getD]
  cases hx : l[i]? with
  | none => rfl
  | some x => exact h x (List.mem_of_getElem? hx)

theorem PE.den_zero {env : Name → ℝ} {ps : List ℝ} (h : ∀ x ∈ ps, x = 0) : ∀ a : PE, a.den env ps = 0
  | .reg i => getD_zero h i
  | .add a b => by rw [PE.den, PE.den_zero h a, PE.den_zero h b, add_zero]
  | .sub a b => by rw [PE.den, PE.den_zero h a, PE.den_zero h b, sub_zero]
  | .neg a => by rw [PE.den, PE.den_zero h a, neg_zero]
  | .scale s a => by rw [PE.den, PE.den_zero h a, smul_zero]
  | .div a c => by rw [PE.den, PE.den_zero h a, smul_zero]

theorem EE.den_zero {V : Set Name} {env : Name → ℝ} {ps es : List ℝ} (h : ∀ x ∈ ps, x = 0) (h' : ∀ x ∈ es, x = 0) :
    ∀ a : EE, a.Clean V → a.den env ps es = 0
  | .reg i, _ => getD_zero h' i
  | .inner a b, _ => by rw [EE.den, PE.den_zero h a, inner_zero_left]
  | .pow a n, _ => by rw [EE.den, PE.den_zero h a]; simp
  | .add a b, hc => by rw [EE.den, EE.den_zero h h' a hc.1, EE.den_zero h h' b hc.2, add_zero]
  | .sub a b, hc => by rw [EE.den, EE.den_zero h h' a hc.1, EE.den_zero h h' b hc.2, sub_zero]
  | .neg a, hc => by rw [EE.den, EE.den_zero h h' a hc, neg_zero]
  | .scale s a, hc => by rw [EE.den, EE.den_zero h h' a hc.2, mul_zero]
  | .div a c, hc => by rw [EE.den, EE.den_zero h h' a hc, zero_div]
  | .addNum a c, hc => by rw [EE.den, EE.den_zero h h' a hc.1, hc.2]; simp
  | .subNum a c, hc => by rw [EE.den, EE.den_zero h h' a hc.1, hc.2]; simp
  | .rsubNum c a, hc => by rw [EE.den, EE.den_zero h h' a hc.1, hc.2]; simp

variable {V : Set Name} {env : Name → ℝ} {SR : ℕ → ℝ → ℝ → ℝ → Prop}

theorem sumSample_zero (hS : ∀ k, SR k 0 0 0) (w : ℕ →₀ ℝ) : SumSample SR w 0 0 0 :=
  ⟨fun _ => 0, fun _ => 0, fun k _ => hS k, by simp, by simp⟩

theorem step_zero (hS : ∀ k, SR k 0 0 0) {r : RRegs ℝ} (z : Zero r) (i : Instr) (hc : i.Clean V) :
    ∃ r', Step SR env i r r' ∧ Zero r' ∧ ((r.metric = some 0 ∨ ∃ e, i = .metric e) → r'.metric = some 0) := by
  obtain ⟨z1, z2, z3, z4⟩ := z
  have p1 : ∀ {x : ℝ}, x = 0 → ∀ y ∈ r.pts ++ [x], y = 0 := by
    intro x hx y hy
    rcases List.mem_append.1 hy with hy | hy
    · exact z1 y hy
    · rw [List.mem_singleton.1 hy, hx]
  have p2 : ∀ y ∈ r.pts ++ [0, 0], y = 0 := by
    intro y hy
    rcases List.mem_append.1 hy with hy | hy
    · exact z1 y hy
    · simpa using hy
  have p3 : ∀ {x : ℝ}, x = 0 → ∀ y ∈ r.exs ++ [x], y = 0 := by
    intro x hx y hy
    rcases List.mem_append.1 hy with hy | hy
    · exact z2 y hy
    · rw [List.mem_singleton.1 hy, hx]
  cases i with
  | declare d => exact ⟨_, .declare _ d, ⟨z1, z2, z3, z4⟩, by rintro (h | ⟨e, h⟩); exact h; cases h⟩
  | fn a => exact ⟨_, .fn _ a, ⟨z1, z2, z3, z4⟩, by rintro (h | ⟨e, h⟩); exact h; cases h⟩
  | pt a => exact ⟨_, .pt _ a, ⟨p1 (PE.den_zero z1 a), z2, z3, z4⟩, by rintro (h | ⟨e, h⟩); exact h; cases h⟩
  | ex a => exact ⟨_, .ex _ a, ⟨z1, p3 (EE.den_zero z1 z2 a hc), z3, z4⟩, by rintro (h | ⟨e, h⟩); exact h; cases h⟩
  | initial => exact ⟨_, .initial _ 0, ⟨p1 rfl, z2, z3, z4⟩, by rintro (h | ⟨e, h⟩); exact h; cases h⟩
  | stationary f => exact ⟨_, .stationary _ f 0 0 (sumSample_zero hS _), ⟨p2, p3 rfl, z3, z4⟩, by rintro (h | ⟨e, h⟩); exact h; cases h⟩
  | oracle f x => exact ⟨_, .oracle _ f x 0 0 (by rw [getD_zero z1]; exact sumSample_zero hS _), ⟨p1 rfl, p3 rfl, z3, z4⟩, by rintro (h | ⟨e, h⟩); exact h; cases h⟩
  | gradient f x => exact ⟨_, .gradient _ f x 0 0 (by rw [getD_zero z1]; exact sumSample_zero hS _), ⟨p1 rfl, z2, z3, z4⟩, by rintro (h | ⟨e, h⟩); exact h; cases h⟩
  | value f x => exact ⟨_, .value _ f x 0 0 (by rw [getD_zero z1]; exact sumSample_zero hS _), ⟨z1, p3 rfl, z3, z4⟩, by rintro (h | ⟨e, h⟩); exact h; cases h⟩
  | prox x0 f g => exact ⟨_, .prox _ x0 f g 0 0 0 (sumSample_zero hS _) (by rw [getD_zero z1]; simp), ⟨p2, p3 rfl, z3, z4⟩, by rintro (h | ⟨e, h⟩); exact h; cases h⟩
  | conj g f => exact ⟨_, .conj _ g f 0 0 (by rw [getD_zero z1]; exact sumSample_zero hS _), ⟨p1 rfl, z2, z3, z4⟩, by rintro (h | ⟨e, h⟩); exact h; cases h⟩
  | addPoint f x g v => exact ⟨_, .addPoint _ f x g v (by rw [getD_zero z1, getD_zero z1, getD_zero z2]; exact sumSample_zero hS _), ⟨z1, z2, z3, z4⟩,
      by rintro (h | ⟨e, h⟩); exact h; cases h⟩
  | constr e k =>
    refine ⟨_, .constr _ e k, ⟨z1, z2, ?_, z4⟩, by rintro (h | ⟨e, h⟩); exact h; cases h⟩
    intro c hc
    rcases List.mem_append.1 hc with hc | hc
    · exact z3 c hc
    · rw [List.mem_singleton.1 hc]; exact getD_zero z2 e
  | metric e =>
    refine ⟨_, .metric _ e, ⟨z1, z2, z3, ?_⟩, fun _ => ?_⟩
    · intro v hv
      cases hv
      exact getD_zero z2 e
    · exact congrArg some (getD_zero z2 e)
  | objective e => exact ⟨_, .objective _ e, ⟨z1, z2, z3, z4⟩, by rintro (h | ⟨e, h⟩); exact h; cases h⟩

theorem exec_zero (hS : ∀ k, SR k 0 0 0) : ∀ (prog : List Instr), (∀ i ∈ prog, i.Clean V) → ∀ r : RRegs ℝ, Zero r →
    ∃ r', Exec SR env prog r r' ∧ Zero r' ∧ ((r.metric = some 0 ∨ ∃ e, .metric e ∈ prog) → r'.metric = some 0)
  | [], _, r, z => ⟨r, .nil r, z, by rintro (h | ⟨e, h⟩); exact h; cases h⟩
  | i :: is, hc, r, z => by
    obtain ⟨r1, h1, z1, m1⟩ := step_zero (env := env) hS z i (hc i List.mem_cons_self)
    obtain ⟨r2, h2, z2, m2⟩ := exec_zero hS is (fun j hj => hc j (List.mem_cons_of_mem _ hj)) r1 z1
    refine ⟨r2, .cons h1 h2, z2, ?_⟩
    rintro (h | ⟨e, h⟩)
    · exact m2 (Or.inl (m1 (Or.inl h)))
    · rcases List.mem_cons.1 h with h | h
      · exact m2 (Or.inl (m1 (Or.inr ⟨e, h.symm⟩)))
      · exact m2 (Or.inr ⟨e, h⟩)

/-- 0 is a value of the metric -/
theorem zero_mem_metricValues {prog : List Instr} (hc : ∀ i ∈ prog, i.Clean V) (hok : ∀ d ∈ decls prog, d.Ok) (hm : ∃ e, .metric e ∈ prog)
    (env : Name → ℝ) : (0 : ℝ) ∈ metricValues prog env := by
  classical
  have hF : ∀ k : ℕ, ∃ F : CFun ℝ, (∀ d : FnDecl, (decls prog)[k]? = some d → d.Holds F) ∧ F.Sample 0 0 0 := by
    intro k
    cases hd : (decls prog)[k]? with
    | none =>
      obtain ⟨F, -, h⟩ := exists_zero (d := .convex false) trivial
      exact ⟨F, by simp, h⟩
    | some d =>
      obtain ⟨F, h, h'⟩ := exists_zero (hok d (List.mem_of_getElem? hd))
      exact ⟨F, by rintro d' ⟨⟩; exact h, h'⟩
  choose fs h1 h2 using hF
  obtain ⟨rr, hx, z, m⟩ := exec_zero (SR := fun k => (fs k).Sample) (env := env) h2 prog hc (RRegs.empty ℝ)
    ⟨by simp [RRegs.empty], by simp [RRegs.empty], by simp [RRegs.empty], by simp [RRegs.empty]⟩
  refine ⟨ℝ, inferInstance, inferInstance, fs, rr, fun k d hd => h1 k d hd, hx, ?_, m (Or.inr hm)⟩
  intro c hcm
  have := z.cons c hcm
  rcases c with ⟨v, k⟩
  cases k with
  | inequality => exact le_of_eq this
  | equality => exact this

end zero

/-- multiples of values of the metric are values of the metric -/
theorem scale_mem_metricValues {V : Set Name} {prog : List Instr} (hc : ∀ i ∈ prog, i.Clean V) {env : Name → ℝ} {v : ℝ} (h : v ∈ metricValues prog env)
    {t : ℝ} (ht : t ≠ 0) : t ^ 2 * v ∈ metricValues prog env := by
  obtain ⟨E, i1, i2, fs, rr, hf, hx, hch, hv⟩ := h
  refine ⟨E, i1, i2, fun k => (fs k).scale t, rr.scale t, fun k d hd => (hf k d hd).scale ht, hx.scale ht hc, hch.scale, ?_⟩
  show rr.metric.map _ = _
  rw [hv]; rfl

theorem guaranteed_iff {prog : List Instr} {env : Name → ℝ} : Guaranteed prog env ↔ ∀ v ∈ metricValues prog env, v ≤ 0 := by
  constructor
  · rintro h v ⟨E, i1, i2, fs, rr, hf, hx, hch, hv⟩
    exact h fs hf rr hx hch v hv
  · intro h E _ _ fs hf rr hx hch v hv
    exact h v ⟨E, _, _, fs, rr, hf, hx, hch, hv⟩

/-- the worst case is 0 if the guarantee holds, and infinite otherwise -/
theorem worstCase_cases {V : Set Name} {P : PepProblem} (hc : ∀ i ∈ P.calls, i.Clean V) (hok : ∀ d ∈ decls P.calls, d.Ok)
    (hm : ∃ e, .metric e ∈ P.calls) :
    (Guaranteed P.calls P.value → P.worstCase = 0) ∧ (¬ Guaranteed P.calls P.value → P.worstCase = ⊤) := by
  rw [guaranteed_iff]
  constructor
  · intro h
    refine le_antisymm (sSup_le ?_) (le_sSup ⟨0, zero_mem_metricValues hc hok hm _, rfl⟩)
    rintro _ ⟨v, hv, rfl⟩
    exact_mod_cast h v hv
  · intro h
    push Not at h
    obtain ⟨v, hv, hpos⟩ := h
    rw [EReal.eq_top_iff_forall_lt]
    intro y
    have hmem : (Real.sqrt ((|y| + 1) / v)) ^ 2 * v ∈ metricValues P.calls P.value :=
      scale_mem_metricValues hc hv (Real.sqrt_ne_zero'.2 (by positivity))
    rw [Real.sq_sqrt (by positivity), div_mul_cancel₀ _ hpos.ne'] at hmem
    refine lt_of_lt_of_le ?_ (le_sSup ⟨_, hmem, rfl⟩)
    exact_mod_cast lt_of_le_of_lt (le_abs_self y) (lt_add_one |y|)

end Verif
